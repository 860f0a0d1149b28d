import Verif.Examples.Tests.Base
/-
  `pool/src/auctions/auction.rs`, tests (from line 276 on)
-/

namespace Blend
namespace Conformance
namespace Auction
open Pool

/-- `test_create_bad_debt_auction` -/
def badDebt : World := mk 12345 50 ⟨oracleA, 1000000, 0, 4⟩ 7 [(u0, 20000000), (u1, 40000000), (u2, 1000000000), (usdcA, 10000000), (blndA, 1000000)]
  [(⟨0, 7, 7500000, 7500000, 7500000, 9500000, 100000, 500000, 5000000, 15000000, 20⟩,
     ⟨1100000000, 1000000000, 1000000000, 1000000000, 750000000, 0, 12345⟩),
   (⟨1, 7, 7500000, 7500000, 7500000, 9500000, 100000, 500000, 5000000, 15000000, 20⟩,
     ⟨1200000000, 1000000000, 1000000000, 1000000000, 750000000, 0, 12345⟩),
   (⟨2, 7, 7500000, 7500000, 7500000, 9500000, 100000, 500000, 5000000, 15000000, 20⟩,
     ⟨1000000000, 1100000000, 1000000000, 1000000000, 750000000, 0, 12345⟩)]
  [(backstopA, ⟨(mp [(0, 100000000), (1, 25000000)]), (mp []), (mp [])⟩)]

example : (do
    let w ← ((badDebt.wired 501000000000).give lpA samwise 500000000000).backed samwise 500000000000
    let w' ← createBadDebt w poolA
    pure ((w'.pools poolA).auctions 1 backstopA).isSome) ≗ .ok true := by decide +kernel

/-- `test_create_interest_auction` -/
def interest : World := mk 12345 50 ⟨oracleA, 1000000, 0, 4⟩ 7 [(u0, 20000000), (u1, 40000000), (u2, 1000000000), (usdcA, 10000000)]
  [(⟨0, 7, 7500000, 7500000, 7500000, 9500000, 100000, 500000, 5000000, 15000000, 20⟩,
     ⟨1000000000, 1000000000, 1000000000, 10000000000, 7500000000, 1000000000, 12345⟩),
   (⟨1, 7, 7500000, 7500000, 7500000, 9500000, 100000, 500000, 5000000, 15000000, 20⟩,
     ⟨1000000000, 1000000000, 1000000000, 2500000000, 1875000000, 250000000, 12345⟩),
   (⟨2, 7, 7500000, 7500000, 7500000, 9500000, 100000, 500000, 5000000, 15000000, 20⟩,
     ⟨1000000000, 1100000000, 1000000000, 1000000000, 750000000, 0, 12345⟩)]
  []

example : (do
    let w ← ((interest.wired 1000000000).give lpA bombadil 1000000000).backed bombadil 500000000
    let w' ← createInterest w poolA [u0, u1]
    pure ((w'.pools poolA).auctions 2 backstopA).isSome) ≗ .ok true := by decide +kernel

/-- `test_create_liquidation` -/
def liq : World := mk 12345 50 ⟨oracleA, 1000000, 0, 4⟩ 7 [(u0, 20000000), (u1, 40000000), (u2, 500000000)]
  [(⟨0, 7, 8500000, 9000000, 7500000, 9500000, 100000, 500000, 5000000, 15000000, 20⟩,
     ⟨1000000000, 1100000000, 1000000000, 1000000000, 750000000, 0, 12345⟩),
   (⟨1, 7, 7500000, 7500000, 7500000, 9500000, 100000, 500000, 5000000, 15000000, 20⟩,
     ⟨1000000000, 1200000000, 1000000000, 1000000000, 750000000, 0, 12345⟩),
   (⟨2, 7, 0, 7000000, 7500000, 9500000, 100000, 500000, 5000000, 15000000, 20⟩,
     ⟨1000000000, 1000000000, 1000000000, 1000000000, 750000000, 0, 0⟩)]
  [(samwise, ⟨(mp [(2, 27500000)]), (mp [(0, 909100000), (1, 45800000)]), (mp [])⟩)]

example : (do
    let w ← createLiquidation liq poolA samwise 45
    pure ((w.pools poolA).auctions 0 samwise).isSome) ≗ .ok true := by decide +kernel

/-- `test_create_liquidation_for_pool` -/
def liqPool : World := mk 12345 50 ⟨oracleA, 1000000, 0, 4⟩ 7 [(u0, 20000000), (u1, 40000000), (u2, 500000000)]
  [(⟨0, 7, 8500000, 9000000, 7500000, 9500000, 100000, 500000, 5000000, 15000000, 20⟩,
     ⟨1000000000, 1100000000, 1000000000, 1000000000, 750000000, 0, 12345⟩),
   (⟨1, 7, 7500000, 7500000, 7500000, 9500000, 100000, 500000, 5000000, 15000000, 20⟩,
     ⟨1000000000, 1200000000, 1000000000, 1000000000, 750000000, 0, 12345⟩),
   (⟨2, 7, 0, 7000000, 7500000, 9500000, 100000, 500000, 5000000, 15000000, 20⟩,
     ⟨1000000000, 1000000000, 1000000000, 1000000000, 750000000, 0, 0⟩)]
  [(poolA, ⟨(mp [(2, 27500000)]), (mp [(0, 909100000), (1, 45800000)]), (mp [])⟩)]

example : (createLiquidation (liqPool.pos poolA (getPositions (liq.pools poolA) samwise)) poolA poolA 45).map (·.time) ≗
    .error (.pool .invalidLiquidation) := by decide +kernel

/-- `test_create_liquidation_for_backstop` -/
example : (createLiquidation (liqPool.pos backstopA (getPositions (liq.pools poolA) samwise)) poolA backstopA 45).map
    (·.time) ≗ .error (.pool .invalidLiquidation) := by decide +kernel

/-- `test_delete_user_liquidation` -/
example : (do
    let ps ← deleteLiquidation ((liq.auction 0 samwise ⟨mp [], mp [], 100⟩).pools poolA) samwise
    pure (ps.auctions 0 samwise).isSome) ≗ .ok false := by decide +kernel

/-- `test_delete_user_liquidation_does_not_exist` -/
example : (deleteLiquidation (liq.pools poolA) samwise).map (·.resList) ≗ .error (.pool .badRequest) := by
  decide +kernel

/-- `test_fill` -/
def fillW : World := mk 12345 175 ⟨oracleA, 1000000, 0, 4⟩ 7 []
  [(⟨0, 7, 7500000, 7500000, 7500000, 9500000, 100000, 500000, 5000000, 15000000, 20⟩,
     ⟨1000000000, 1000000000, 1000000000, 1000000000, 750000000, 0, 0⟩),
   (⟨1, 7, 7500000, 7500000, 7500000, 9500000, 100000, 500000, 5000000, 15000000, 20⟩,
     ⟨1000000000, 1000000000, 1000000000, 1000000000, 750000000, 0, 0⟩),
   (⟨2, 7, 7500000, 7500000, 7500000, 9500000, 100000, 500000, 5000000, 15000000, 20⟩,
     ⟨1000000000, 1000000000, 1000000000, 1000000000, 750000000, 0, 0⟩)]
  [(samwise, ⟨(mp [(2, 27500000)]), (mp [(0, 909100000), (1, 45800000)]), (mp [])⟩)]

/-- the auction of the fill tests -/
def auc : AuctionData := ⟨mp [(u2, 12375000)], mp [(u0, 305595329), (u1, 15395739)], 176⟩

/-- one fill by `who` of samwise's liquidation; the filler's positions are stored -/
def fillBy (w : World) (who : Address) (pct : Nat) : R World := do
  let c ← Cache.load (w.pools poolA)
  let fl ← Pool.fill ⟨w, c, User.load (w.pools poolA) who⟩ poolA [who] 0 samwise pct
  pure fl.w

/-- the stored liquidation of samwise -/
def left (w : World) : Option (List (Nat × Int) × List (Nat × Int) × Nat) :=
  ((w.pools poolA).auctions 0 samwise).map (·.view)

def late : World := (fillW.auction 0 samwise auc).goto (12345 + 200 * 5) (176 + 200)

example : (fillBy late frodo 100).map left ≗ .ok none := by decide +kernel
/-- `test_partial_fill` -/
example : (fillBy late frodo 25).map left ≗
    .ok (some ([(u2, 9281250)], [(u0, 229196497), (u1, 11546805)], 176)) := by decide +kernel
/-- `test_fill_fails_pct_too_large` -/
example : (fillBy late frodo 101).map left ≗ .error (.pool .badRequest) := by decide +kernel
/-- `test_fill_fails_pct_too_small` -/
example : (fillBy late frodo 0).map left ≗ .error (.pool .badRequest) := by decide +kernel
/-- `test_fill_liquidation_same_address` -/
example : (fillBy late samwise 100).map left ≗ .error (.pool .invalidLiquidation) := by decide +kernel

/-- `test_partial_partial_full_fill` -/
def ppf : World := mk 12345 175 ⟨oracleA, 1000000, 0, 4⟩ 7 []
  [(⟨0, 7, 7500000, 7500000, 7500000, 9500000, 100000, 500000, 5000000, 15000000, 20⟩,
     ⟨1000000000, 1000000000, 1000000000, 1000000000, 750000000, 0, 0⟩),
   (⟨1, 7, 7500000, 7500000, 7500000, 9500000, 100000, 500000, 5000000, 15000000, 20⟩,
     ⟨1000000000, 1000000000, 1000000000, 1000000000, 750000000, 0, 0⟩),
   (⟨2, 7, 7500000, 7500000, 7500000, 9500000, 100000, 500000, 5000000, 15000000, 20⟩,
     ⟨1000000000, 1000000000, 1000000000, 1000000000, 750000000, 0, 0⟩)]
  [(samwise, ⟨(mp [(2, 2000000000)]), (mp [(0, 300000000), (1, 30000000)]), (mp [])⟩)]

def ppf0 : World :=
  ppf.auction 0 samwise ⟨mp [(u2, 1000000000)], mp [(u0, 100000000), (u1, 10000000)], 176⟩

def ppf1 : R World := fillBy (ppf0.goto (12345 + 100 * 5) (176 + 100)) frodo 25
def ppf2 : R World := do
  let w ← ppf1
  fillBy (w.goto (12345 + 200 * 5) (176 + 200)) frodo 67
def ppf3 : R World := do
  let w ← ppf2
  fillBy (w.goto (12345 + 300 * 5) (176 + 300)) frodo 100

example : ppf1.map left ≗ .ok (some ([(u2, 750000000)], [(u0, 75000000), (u1, 7500000)], 176)) := by
  decide +kernel
example : ppf2.map left ≗ .ok (some ([(u2, 247500000)], [(u0, 24750000), (u1, 2475000)], 176)) := by
  decide +kernel
example : ppf3.map left ≗ .ok none := by decide +kernel
example : ppf3.map (fun w => (getPositions (w.pools poolA) samwise).view) ≗
    .ok ([(2, 2000000000 - 250000000 - 500000025 - 126249975)],
         [(0, 300000000 - 12500000 - 50000002 - 24999998), (1, 30000000 - 1250000 - 5000000 - 2500000)],
         []) := by decide +kernel

/-- `test_scale_auction_100_fill_pct` -/
def a100 : AuctionData := ⟨mp [(u0, 1000000000)], mp [(u1, 1000000000)], 1000⟩
/-- scaled bid, scaled lot, and the remaining auction -/
def scaled (a : AuctionData) (seq pct : Nat) :
    R (List (Nat × Int) × List (Nat × Int) × Option (List (Nat × Int) × List (Nat × Int) × Nat)) :=
  (scaleAuction seq a pct).map fun r => (r.1.bid.toList, r.1.lot.toList, r.2.map (·.view))
example : scaled a100 1000 100 ≗ .ok ([(u0, 1000000000)], [], none) := by decide +kernel
example : scaled a100 1100 100 ≗ .ok ([(u0, 1000000000)], [(u1, 500000000)], none) := by decide +kernel
example : scaled a100 1200 100 ≗ .ok ([(u0, 1000000000)], [(u1, 1000000000)], none) := by decide +kernel
example : scaled a100 1300 100 ≗ .ok ([(u0, 500000000)], [(u1, 1000000000)], none) := by decide +kernel
example : scaled a100 1400 100 ≗ .ok ([], [(u1, 1000000000)], none) := by decide +kernel

/-- `test_scale_auction_not_100_fill_pct` -/
def a25 : AuctionData := ⟨mp [(u0, 250000005)], mp [(u1, 250000005)], 1000⟩
example : scaled a25 1000 50 ≗
    .ok ([(u0, 125000003)], [], some ([(u0, 125000002)], [(u1, 125000003)], 1000)) := by decide +kernel
example : scaled a25 1100 60 ≗
    .ok ([(u0, 150000003)], [(u1, 75000001)], some ([(u0, 100000002)], [(u1, 100000002)], 1000)) := by
  decide +kernel
example : scaled a25 1300 60 ≗
    .ok ([(u0, 75000002)], [(u1, 150000003)], some ([(u0, 100000002)], [(u1, 100000002)], 1000)) := by
  decide +kernel
example : scaled a25 1400 50 ≗
    .ok ([], [(u1, 125000002)], some ([(u0, 125000002)], [(u1, 125000003)], 1000)) := by decide +kernel
/-- `test_scale_auction_fill_percentage_zero`, `_over_100` -/
example : scaled a25 1000 0 ≗ .error (.pool .badRequest) := by decide +kernel
example : scaled a25 1000 101 ≗ .error (.pool .badRequest) := by decide +kernel

end Auction
end Conformance
end Blend
