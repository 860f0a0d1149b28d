import Verif.Examples.Tests.Base
/-
  `pool/src/auctions/bad_debt_auction.rs`, tests (from line 122 on)
-/

namespace Blend
namespace Conformance
namespace BadDebt
open Pool

/-- the backstop set-up of these tests: samwise holds 50,000 LP tokens and deposits `x` of them -/
def withBackstop (w : World) (x : Int) : R World :=
  ((w.wired 501000000000).give lpA samwise 500000000000).backed samwise x

/-- `test_create_bad_debt_auction` -/
def create : World := mk 12345 50 ⟨oracleA, 1000000, 0, 4⟩ 7 [(u0, 20000000), (u1, 40000000), (u2, 1000000000), (usdcA, 10000000)]
  [(⟨0, 7, 7500000, 7500000, 7500000, 9500000, 100000, 500000, 5000000, 15000000, 20⟩,
     ⟨1100000000, 1000000000, 1000000000, 1000000000, 750000000, 0, 12345⟩),
   (⟨1, 7, 7500000, 7500000, 7500000, 9500000, 100000, 500000, 5000000, 15000000, 20⟩,
     ⟨1200000000, 1000000000, 1000000000, 1000000000, 750000000, 0, 12345⟩),
   (⟨2, 7, 7500000, 7500000, 7500000, 9500000, 100000, 500000, 5000000, 15000000, 20⟩,
     ⟨1000000000, 1100000000, 1000000000, 1000000000, 750000000, 0, 12345⟩)]
  [(backstopA, ⟨(mp [(0, 100000000), (1, 25000000)]), (mp []), (mp [])⟩)]

example : (do
    let w ← withBackstop create 500000000000
    let a ← createBadDebtData w poolA backstopA
    pure a.view) ≗ .ok ([(u0, 100000000), (u1, 25000000)], [(lpA, 380800000)], 51) := by decide +kernel

/-- `test_create_bad_debt_auction_already_in_progress` -/
example : (do
    let w ← withBackstop create 500000000000
    let a ← createBadDebtData (w.auction 1 backstopA ⟨mp [], mp [], 50⟩) poolA backstopA
    pure a.view) ≗ .error (.pool .auctionInProgress) := by decide +kernel

/-- `test_create_bad_debt_auction_oracle_14_decimals` -/
def create14 : World := mk 12345 50 ⟨oracleA, 1000000, 0, 4⟩ 14 [(u0, 200000000000000), (u1, 400000000000000), (u2, 10000000000000000), (usdcA, 100000000000000)]
  [(⟨0, 7, 7500000, 7500000, 7500000, 9500000, 100000, 500000, 5000000, 15000000, 20⟩,
     ⟨1100000000, 1000000000, 1000000000, 1000000000, 750000000, 0, 12345⟩),
   (⟨1, 7, 7500000, 7500000, 7500000, 9500000, 100000, 500000, 5000000, 15000000, 20⟩,
     ⟨1200000000, 1000000000, 1000000000, 1000000000, 750000000, 0, 12345⟩),
   (⟨2, 7, 7500000, 7500000, 7500000, 9500000, 100000, 500000, 5000000, 15000000, 20⟩,
     ⟨1000000000, 1100000000, 1000000000, 1000000000, 750000000, 0, 12345⟩)]
  [(backstopA, ⟨(mp [(0, 100000000), (1, 25000000)]), (mp []), (mp [])⟩)]

example : (do
    let w ← withBackstop create14 500000000000
    let a ← createBadDebtData w poolA backstopA
    pure a.view) ≗ .ok ([(u0, 100000000), (u1, 25000000)], [(lpA, 380800000)], 51) := by decide +kernel

/-- `test_create_bad_debt_auction_max_balance` -/
def createMax : World := mk 12345 50 ⟨oracleA, 1000000, 0, 4⟩ 7 [(u0, 20000000), (u1, 40000000), (u2, 1000000000), (usdcA, 10000000)]
  [(⟨0, 7, 7500000, 7500000, 7500000, 9500000, 100000, 500000, 5000000, 15000000, 20⟩,
     ⟨1100000000, 1000000000, 1000000000, 1000000000, 750000000, 0, 12345⟩),
   (⟨1, 7, 7500000, 7500000, 7500000, 9500000, 100000, 500000, 5000000, 15000000, 20⟩,
     ⟨1200000000, 1000000000, 1000000000, 1000000000, 750000000, 0, 12345⟩),
   (⟨2, 7, 7500000, 7500000, 7500000, 9500000, 100000, 500000, 5000000, 15000000, 20⟩,
     ⟨1000000000, 1100000000, 1000000000, 1000000000, 750000000, 0, 12345⟩)]
  [(backstopA, ⟨(mp [(0, 100000000), (1, 25000000)]), (mp []), (mp [])⟩)]

example : (do
    let w ← withBackstop createMax 380000000
    let a ← createBadDebtData w poolA backstopA
    pure a.view) ≗ .ok ([(u0, 100000000), (u1, 25000000)], [(lpA, 380000000)], 51) := by decide +kernel

/-- `test_create_bad_debt_auction_applies_interest` -/
def createInterest : World := mk 12345 150 ⟨oracleA, 1000000, 0, 4⟩ 7 [(u0, 20000000), (u1, 40000000), (u2, 1000000000), (usdcA, 10000000)]
  [(⟨0, 7, 7500000, 7500000, 7500000, 9500000, 100000, 500000, 5000000, 15000000, 20⟩,
     ⟨1100000000, 1000000000, 1000000000, 1000000000, 750000000, 0, 11845⟩),
   (⟨1, 7, 7500000, 7500000, 7500000, 9500000, 100000, 500000, 5000000, 15000000, 20⟩,
     ⟨1200000000, 1000000000, 1000000000, 1000000000, 750000000, 0, 11845⟩),
   (⟨2, 7, 7500000, 7500000, 7500000, 9500000, 100000, 500000, 5000000, 15000000, 20⟩,
     ⟨1000000000, 1100000000, 1000000000, 1000000000, 750000000, 0, 11845⟩)]
  [(backstopA, ⟨(mp [(0, 100000000), (1, 25000000)]), (mp []), (mp [])⟩)]

example : (do
    let w ← withBackstop createInterest 500000000000
    let a ← createBadDebtData w poolA backstopA
    pure a.view) ≗ .ok ([(u0, 100000000), (u1, 25000000)], [(lpA, 380801894)], 151) := by decide +kernel

/-- `test_fill_bad_debt_auction` -/
def fillAll : World := mk 12345 51 ⟨oracleA, 1000000, 0, 4⟩ 7 []
  [(⟨0, 7, 7500000, 7500000, 7500000, 9500000, 100000, 500000, 5000000, 15000000, 20⟩,
     ⟨1100000000, 1000000000, 1000000000, 1000000000, 750000000, 0, 12345⟩),
   (⟨1, 7, 7500000, 7500000, 7500000, 9500000, 100000, 500000, 5000000, 15000000, 20⟩,
     ⟨1200000000, 1000000000, 1000000000, 1000000000, 750000000, 0, 12345⟩),
   (⟨2, 7, 7500000, 7500000, 7500000, 9500000, 100000, 500000, 5000000, 15000000, 20⟩,
     ⟨1000000000, 1100000000, 1000000000, 1000000000, 750000000, 0, 12345⟩)]
  [(backstopA, ⟨(mp [(0, 100000000), (1, 25000000)]), (mp []), (mp [])⟩)]

/-- the fill of these tests: `who` fills, `dep` is the backstop deposit -/
def filled (w : World) (dep : Int) (who : Address) (a : AuctionData) : R Flight := do
  let w1 ← withBackstop w dep
  let w2 := w1.auction 1 backstopA a
  let c ← Cache.load (w2.pools poolA)
  fillBadDebt ⟨w2, c, User.load (w2.pools poolA) who⟩ poolA a

/-- LP tokens of the backstop, of samwise, samwise's debt, the backstop's positions -/
def after (fl : Flight) : Int × Int × List (Nat × Int) ×
    List (Nat × Int) × List (Nat × Int) × List (Nat × Int) :=
  (fl.w.balance lpA backstopA, fl.w.balance lpA samwise, fl.user.pos.liabilities.toList,
   (getPositions (fl.w.pools poolA) backstopA).view)

/-- the auction of the whole debt, and the one that leaves some debt -/
def whole : AuctionData := ⟨mp [(u0, 100000000), (u1, 25000000)], mp [(lpA, 476000000)], 51⟩
def some75 : AuctionData :=
  ⟨mp [(u0, 100000000 - 25000000), (u1, 25000000 - 6250000)], mp [(lpA, 476000000)], 51⟩

example : (filled fillAll 500000000000 samwise whole).map after ≗
    .ok (500000000000 - 476000000, 476000000, [(0, 100000000), (1, 25000000)], [], [], []) := by
  decide +kernel

/-- `test_fill_bad_debt_auction_leftover_debt_small_backstop_burns` -/
def fillBurn : World := mk 12345 51 ⟨oracleA, 1000000, 0, 4⟩ 7 []
  [(⟨0, 7, 7500000, 7500000, 7500000, 9500000, 100000, 500000, 5000000, 15000000, 20⟩,
     ⟨1100000000, 1000000000, 1000000000, 1000000000, 750000000, 0, 12345⟩),
   (⟨1, 7, 7500000, 7500000, 7500000, 9500000, 100000, 500000, 5000000, 15000000, 20⟩,
     ⟨1200000000, 1000000000, 1000000000, 1000000000, 750000000, 0, 12345⟩),
   (⟨2, 7, 7500000, 7500000, 7500000, 9500000, 100000, 500000, 5000000, 15000000, 20⟩,
     ⟨1000000000, 1100000000, 1000000000, 1000000000, 750000000, 0, 12345⟩)]
  [(backstopA, ⟨(mp [(0, 100000000), (1, 25000000)]), (mp []), (mp [])⟩)]

example : (filled fillBurn 20000000000 samwise some75).map after ≗
    .ok (20000000000 - 476000000, 500000000000 - 20000000000 + 476000000,
      [(0, 75000000), (1, 18750000)], [], [], []) := by decide +kernel

/-- `test_fill_bad_debt_auction_leftover_debt_sufficient_balance` -/
def fillKeep : World := mk 12345 51 ⟨oracleA, 1000000, 0, 4⟩ 7 []
  [(⟨0, 7, 7500000, 7500000, 7500000, 9500000, 100000, 500000, 5000000, 15000000, 20⟩,
     ⟨1100000000, 1000000000, 1000000000, 1000000000, 750000000, 0, 12345⟩),
   (⟨1, 7, 7500000, 7500000, 7500000, 9500000, 100000, 500000, 5000000, 15000000, 20⟩,
     ⟨1200000000, 1000000000, 1000000000, 1000000000, 750000000, 0, 12345⟩),
   (⟨2, 7, 7500000, 7500000, 7500000, 9500000, 100000, 500000, 5000000, 15000000, 20⟩,
     ⟨1000000000, 1100000000, 1000000000, 1000000000, 750000000, 0, 12345⟩)]
  [(backstopA, ⟨(mp [(0, 100000000), (1, 25000000)]), (mp []), (mp [])⟩)]

example : (filled fillKeep 25000000000 samwise some75).map after ≗
    .ok (25000000000 - 476000000, 500000000000 - 25000000000 + 476000000,
      [(0, 75000000), (1, 18750000)], [(0, 25000000), (1, 6250000)], [], []) := by decide +kernel

/-- `test_fill_bad_debt_auction_with_backstop` -/
def fillSelf : World := mk 12345 51 ⟨oracleA, 1000000, 0, 4⟩ 7 []
  [(⟨0, 7, 7500000, 7500000, 7500000, 9500000, 100000, 500000, 5000000, 15000000, 20⟩,
     ⟨1100000000, 1000000000, 1000000000, 1000000000, 750000000, 0, 12345⟩),
   (⟨1, 7, 7500000, 7500000, 7500000, 9500000, 100000, 500000, 5000000, 15000000, 20⟩,
     ⟨1200000000, 1000000000, 1000000000, 1000000000, 750000000, 0, 12345⟩),
   (⟨2, 7, 7500000, 7500000, 7500000, 9500000, 100000, 500000, 5000000, 15000000, 20⟩,
     ⟨1000000000, 1100000000, 1000000000, 1000000000, 750000000, 0, 12345⟩)]
  [(backstopA, ⟨(mp [(0, 100000000), (1, 25000000)]), (mp []), (mp [])⟩)]

example : (filled fillSelf 500000000000 backstopA whole).map after ≗ .error (.pool .badRequest) := by
  decide +kernel

end BadDebt
end Conformance
end Blend
