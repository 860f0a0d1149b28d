import Verif.Examples.Tests.Base
/-
  `pool/src/auctions/backstop_interest_auction.rs`, tests (from line 107 on)
-/

namespace Blend
namespace Conformance
namespace InterestAuction
open Pool

/-- the backstop set-up of these tests: bombadil deposits 50 of his 100 LP tokens -/
def withBackstop (w : World) : R World :=
  ((w.wired 1000000000).give lpA bombadil 1000000000).backed bombadil 500000000

/-- `test_create_interest_auction` -/
def create : World := mk 12345 50 ⟨oracleA, 1000000, 0, 4⟩ 7 [(u0, 20000000), (u1, 40000000), (u2, 1000000000), (usdcA, 10000000)]
  [(⟨0, 7, 7500000, 7500000, 7500000, 9500000, 100000, 500000, 5000000, 15000000, 20⟩,
     ⟨1000000000, 1000000000, 1000000000, 10000000000, 7500000000, 1000000000, 12345⟩),
   (⟨1, 7, 7500000, 7500000, 7500000, 9500000, 100000, 500000, 5000000, 15000000, 20⟩,
     ⟨1000000000, 1000000000, 1000000000, 2500000000, 1875000000, 250000000, 12345⟩),
   (⟨2, 7, 7500000, 7500000, 7500000, 9500000, 100000, 500000, 5000000, 15000000, 20⟩,
     ⟨1000000000, 1000000000, 1000000000, 1000000000, 750000000, 0, 12345⟩)]
  []

example : (do
    let w ← withBackstop create
    let a ← createInterestData w poolA backstopA [u0, u1]
    pure a.view) ≗ .ok ([(lpA, 3360000000)], [(u0, 1000000000), (u1, 250000000)], 51) := by decide +kernel

/-- `test_create_interest_auction_already_in_progress` -/
example : (createInterestData (create.auction 2 backstopA ⟨mp [], mp [], 50⟩) poolA backstopA []).map (·.view) ≗
    .error (.pool .auctionInProgress) := by decide +kernel

/-- `test_create_interest_auction_no_reserve`: any panic -/
example : (createInterestData create poolA backstopA [999]).toOption.isNone = true := by decide +kernel

/-- `test_create_interest_auction_under_threshold` -/
def small : World := mk 12345 50 ⟨oracleA, 1000000, 0, 4⟩ 7 [(u0, 20000000), (u1, 40000000), (u2, 1000000000), (usdcA, 10000000)]
  [(⟨0, 7, 7500000, 7500000, 7500000, 9500000, 100000, 500000, 5000000, 15000000, 20⟩,
     ⟨1000000000, 1100000000, 1000000000, 1000000000, 750000000, 100000000, 12345⟩),
   (⟨1, 7, 7500000, 7500000, 7500000, 9500000, 100000, 500000, 5000000, 15000000, 20⟩,
     ⟨1000000000, 1100000000, 1000000000, 1000000000, 750000000, 25000000, 12345⟩),
   (⟨2, 7, 7500000, 7500000, 7500000, 9500000, 100000, 500000, 5000000, 15000000, 20⟩,
     ⟨1000000000, 1100000000, 1000000000, 1000000000, 750000000, 0, 12345⟩)]
  []

example : (createInterestData small poolA backstopA []).map (·.view) ≗ .error (.pool .interestTooSmall) := by
  decide +kernel

/-- `test_create_interest_auction_14_decimal_oracle` -/
def create14 : World := mk 12345 50 ⟨oracleA, 1000000, 0, 4⟩ 14 [(u0, 200000000000000), (u1, 400000000000000), (u2, 10000000000000000), (usdcA, 100000000000000)]
  [(⟨0, 7, 7500000, 7500000, 7500000, 9500000, 100000, 500000, 5000000, 15000000, 20⟩,
     ⟨1000000000, 1000000000, 1000000000, 10000000000, 7500000000, 1000000000, 12345⟩),
   (⟨1, 7, 7500000, 7500000, 7500000, 9500000, 100000, 500000, 5000000, 15000000, 20⟩,
     ⟨1000000000, 1000000000, 1000000000, 2500000000, 1875000000, 250000000, 12345⟩),
   (⟨2, 7, 7500000, 7500000, 7500000, 9500000, 100000, 500000, 5000000, 15000000, 20⟩,
     ⟨1000000000, 1000000000, 1000000000, 1000000000, 750000000, 0, 12345⟩)]
  []

example : (do
    let w ← withBackstop create14
    let a ← createInterestData w poolA backstopA [u0, u1]
    pure a.view) ≗ .ok ([(lpA, 3360000000)], [(u0, 1000000000), (u1, 250000000)], 51) := by decide +kernel

/-- `test_create_interest_auction_applies_interest` -/
def createAcc : World := mk 12345 150 ⟨oracleA, 1000000, 0, 4⟩ 7 [(u0, 20000000), (u1, 40000000), (u2, 1000000000), (usdcA, 10000000)]
  [(⟨0, 7, 7500000, 7500000, 7500000, 9500000, 100000, 500000, 5000000, 15000000, 20⟩,
     ⟨1000000000, 1000000000, 1000000000, 10000000000, 7500000000, 1000000000, 11845⟩),
   (⟨1, 7, 7500000, 7500000, 7500000, 9500000, 100000, 500000, 5000000, 15000000, 20⟩,
     ⟨1000000000, 1000000000, 1000000000, 2500000000, 1875000000, 250000000, 11845⟩),
   (⟨2, 7, 7500000, 7500000, 7500000, 9500000, 100000, 500000, 5000000, 15000000, 20⟩,
     ⟨1000000000, 1000000000, 1000000000, 1000000000, 750000000, 0, 11845⟩)]
  []

example : (do
    let w ← withBackstop createAcc
    let a ← createInterestData w poolA backstopA [u0, u1, u2]
    pure a.view) ≗
    .ok ([(lpA, 3360010348)], [(u0, 1000000714), (u1, 250000178), (u2, 71)], 151) := by decide +kernel

/-- `test_fill_interest_auction` -/
def fillW : World := mk 12345 301 ⟨oracleA, 1000000, 0, 4⟩ 7 []
  [(⟨0, 7, 7500000, 7500000, 7500000, 9500000, 100000, 500000, 5000000, 15000000, 20⟩,
     ⟨1000000000, 1100000000, 1000000000, 2000000000000, 1000000000000, 1000000000, 12345⟩),
   (⟨1, 7, 7500000, 7500000, 7500000, 9500000, 100000, 500000, 5000000, 15000000, 20⟩,
     ⟨1000000000, 1100000000, 1000000000, 1000000000, 750000000, 300000000, 12345⟩)]
  []

/-- the fill of these tests; samwise holds 100 LP tokens -/
def filled (who : Address) : R (World × Cache) := do
  let w ← withBackstop ((((fillW.give u0 poolA 10000000000).give u1 poolA 10000000000)).give lpA samwise 1000000000)
  let a : AuctionData := ⟨mp [(lpA, 750000000)], mp [(u0, 1000000000), (u1, 250000000)], 51⟩
  let w1 := w.auction 2 backstopA a
  let c ← Cache.load (w1.pools poolA)
  let fl ← fillInterest ⟨w1, c, User.load (w1.pools poolA) who⟩ poolA [who] a
  pure (fl.w, fl.cache)

example : (do
    let (w, c) ← filled samwise
    let ps ← c.storeAll (w.pools poolA)
    pure (w.balance lpA samwise, w.balance lpA backstopA, w.balance u0 samwise, w.balance u1 samwise,
      (ps.resData u0).map ReserveData.backstopCredit, (ps.resData u1).map ReserveData.backstopCredit)) ≗
    .ok (250000000, 500000000 + 750000000, 1000000000, 250000000, some 0, some 50000000) := by
  decide +kernel

/-- `test_fill_interest_auction_with_backstop` -/
example : (filled backstopA).map (fun _ => ()) ≗ .error (.pool .badRequest) := by decide +kernel

end InterestAuction
end Conformance
end Blend
