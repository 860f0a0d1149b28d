import Verif.Examples.Tests.Base
/-
  `pool/src/auctions/user_liquidation_auction.rs`, tests (from line 136 on)
-/

namespace Blend
namespace Conformance
namespace UserLiq
open Pool

/-- `test_create_interest_auction_already_in_progress` -/
def inProgress : World := mk 12345 100 ⟨oracleA, 1000000, 0, 4⟩ 7 []
  []
  []

example : (createUserLiq (inProgress.auction 0 samwise ⟨mp [], mp [], 50⟩) poolA samwise 50).map (·.1.view) ≗
    .error (.pool .auctionInProgress) := by decide +kernel

/-- `test_create_user_liquidation_auction_normal_scalars` -/
def normal : World := mk 12345 50 ⟨oracleA, 1000000, 0, 4⟩ 7 [(u0, 20000000), (u1, 40000000), (u2, 500000000)]
  [(⟨0, 7, 8500000, 9000000, 7500000, 9500000, 100000, 500000, 5000000, 15000000, 20⟩,
     ⟨1000000000, 1100000000, 1000000000, 1000000000, 750000000, 0, 12345⟩),
   (⟨1, 7, 7500000, 7500000, 7500000, 9500000, 100000, 500000, 5000000, 15000000, 20⟩,
     ⟨1000000000, 1200000000, 1000000000, 1000000000, 750000000, 0, 12345⟩),
   (⟨2, 7, 0, 7000000, 7500000, 9500000, 100000, 500000, 5000000, 15000000, 20⟩,
     ⟨1000000000, 1000000000, 1000000000, 1000000000, 750000000, 0, 0⟩)]
  [(samwise, ⟨(mp [(2, 27500000)]), (mp [(0, 909100000), (1, 45800000)]), (mp [])⟩)]

example : (createUserLiq normal poolA samwise 45).map (·.1.view) ≗
    .ok ([(u2, 12375000)], [(u0, 305595329), (u1, 15395739)], 51) := by decide +kernel

/-- `test_create_user_liquidation_auction_weird_scalar` -/
def weird : World := mk 12345 50 ⟨oracleA, 1000000, 0, 4⟩ 14 [(u0, 14185012444444), (u1, 102611669700969)]
  [(⟨0, 7, 9000000, 9000000, 7500000, 9500000, 100000, 500000, 5000000, 15000000, 20⟩,
     ⟨1000000000, 1000206159, 1000000000, 1000000000, 750000000, 0, 12345⟩),
   (⟨1, 7, 0, 9000000, 7500000, 9500000, 100000, 500000, 5000000, 15000000, 20⟩,
     ⟨1000201748, 1000000000, 1000000000, 1000000000, 750000000, 0, 0⟩)]
  [(samwise, ⟨(mp [(1, 10595526742)]), (mp [(0, 89991357639)]), (mp [])⟩)]

example : (createUserLiq weird poolA samwise 69).map (·.1.view) ≗
    .ok ([(u1, 7310913452)], [(u0, 57911010751)], 51) := by decide +kernel

/-- `test_create_user_liquidation_auction_full_liquidation` -/
def full : World := mk 12345 50 ⟨oracleA, 1000000, 0, 4⟩ 5 [(u0, 100000), (u1, 100000)]
  [(⟨0, 7, 9000000, 9000000, 7500000, 9500000, 100000, 500000, 5000000, 15000000, 20⟩,
     ⟨1000000000, 1000206159, 1000000000, 1000000000, 750000000, 0, 12345⟩),
   (⟨1, 6, 0, 9000000, 7500000, 9500000, 100000, 500000, 5000000, 15000000, 20⟩,
     ⟨1000201748, 1000000000, 1000000000, 1000000000, 750000000, 0, 0⟩)]
  [(samwise, ⟨(mp [(1, 100000000)]), (mp [(0, 80000000)]), (mp [])⟩)]

example : (createUserLiq full poolA samwise 100).map (·.1.view) ≗
    .ok ([(u1, 100000000)], [(u0, 80000000)], 51) := by decide +kernel

/-- `test_create_user_liquidation_auction_bad_full_liq` -/
def badFull : World := mk 12345 50 ⟨oracleA, 1000000, 0, 4⟩ 8 [(u0, 200000000), (u1, 400000000), (u2, 5000000000)]
  [(⟨0, 7, 8500000, 9000000, 7500000, 9500000, 100000, 500000, 5000000, 15000000, 20⟩,
     ⟨1000000000, 1100000000, 1000000000, 1000000000, 750000000, 0, 12345⟩),
   (⟨1, 7, 7500000, 7500000, 7500000, 9500000, 100000, 500000, 5000000, 15000000, 20⟩,
     ⟨1000000000, 1200000000, 1000000000, 1000000000, 750000000, 0, 12345⟩),
   (⟨2, 7, 0, 7000000, 7500000, 9500000, 100000, 500000, 5000000, 15000000, 20⟩,
     ⟨1000000000, 1000000000, 1000000000, 1000000000, 750000000, 0, 0⟩)]
  [(samwise, ⟨(mp [(2, 27500000)]), (mp [(0, 909100000), (1, 45800000)]), (mp [])⟩)]

example : (createUserLiq badFull poolA samwise 100).map (·.1.view) ≗
    .error (.pool .invalidLiqTooLarge) := by decide +kernel

/-- `test_create_user_liquidation_auction_too_large` -/
def tooLarge : World := mk 12345 50 ⟨oracleA, 1000000, 0, 4⟩ 6 [(u0, 2000000), (u1, 4000000), (u2, 50000000)]
  [(⟨0, 7, 8500000, 9000000, 7500000, 9500000, 100000, 500000, 5000000, 15000000, 20⟩,
     ⟨1000000000, 1100000000, 1000000000, 1000000000, 750000000, 0, 12345⟩),
   (⟨1, 7, 7500000, 7500000, 7500000, 9500000, 100000, 500000, 5000000, 15000000, 20⟩,
     ⟨1000000000, 1200000000, 1000000000, 1000000000, 750000000, 0, 12345⟩),
   (⟨2, 7, 0, 7000000, 7500000, 9500000, 100000, 500000, 5000000, 15000000, 20⟩,
     ⟨1000000000, 1000000000, 1000000000, 1000000000, 750000000, 0, 0⟩)]
  [(samwise, ⟨(mp [(2, 27500000)]), (mp [(0, 909100000), (1, 45800000)]), (mp [])⟩)]

example : (createUserLiq tooLarge poolA samwise 46).map (·.1.view) ≗
    .error (.pool .invalidLiqTooLarge) := by decide +kernel

/-- `test_create_user_liquidation_auction_too_small` -/
def tooSmall : World := mk 12345 50 ⟨oracleA, 1000000, 0, 4⟩ 5 [(u0, 200000), (u1, 400000), (u2, 5000000)]
  [(⟨0, 7, 8500000, 9000000, 7500000, 9500000, 100000, 500000, 5000000, 15000000, 20⟩,
     ⟨1000000000, 1100000000, 1000000000, 1000000000, 750000000, 0, 12345⟩),
   (⟨1, 7, 7500000, 7500000, 7500000, 9500000, 100000, 500000, 5000000, 15000000, 20⟩,
     ⟨1000000000, 1200000000, 1000000000, 1000000000, 750000000, 0, 12345⟩),
   (⟨2, 7, 0, 7000000, 7500000, 9500000, 100000, 500000, 5000000, 15000000, 20⟩,
     ⟨1000000000, 1000000000, 1000000000, 1000000000, 750000000, 0, 0⟩)]
  [(samwise, ⟨(mp [(2, 27500000)]), (mp [(0, 909100000), (1, 45800000)]), (mp [])⟩)]

example : (createUserLiq tooSmall poolA samwise 25).map (·.1.view) ≗
    .error (.pool .invalidLiqTooSmall) := by decide +kernel

/-- `test_fill_user_liquidation_auction` -/
def fillWorld : World := mk 12345 175 ⟨oracleA, 1000000, 0, 4⟩ 7 [(u0, 20000000), (u1, 40000000), (u2, 500000000)]
  [(⟨0, 7, 8500000, 9000000, 7500000, 9500000, 100000, 500000, 5000000, 15000000, 20⟩,
     ⟨1000000000, 1100000000, 1000000000, 1000000000, 750000000, 0, 12345⟩),
   (⟨1, 7, 7500000, 7500000, 7500000, 9500000, 100000, 500000, 5000000, 15000000, 20⟩,
     ⟨1000000000, 1200000000, 1000000000, 1000000000, 750000000, 0, 12345⟩),
   (⟨2, 7, 0, 7000000, 7500000, 9500000, 100000, 500000, 5000000, 15000000, 20⟩,
     ⟨1000000000, 1000000000, 1000000000, 1000000000, 750000000, 0, 0⟩)]
  [(samwise, ⟨(mp [(2, 27500000)]), (mp [(0, 909100000), (1, 45800000)]), (mp [])⟩)]

/-- the auction of the fill tests -/
def auc : AuctionData := ⟨mp [(u2, 12375000)], mp [(u0, 305595329), (u1, 15395739)], 176⟩

/-- the fill of the fill tests: the filler is frodo -/
def filled : R Flight := do
  let w := fillWorld.goto (12345 + 200 * 5) (176 + 200)
  let c ← Cache.load (w.pools poolA)
  fillUserLiq ⟨w, c, User.load (w.pools poolA) frodo⟩ poolA auc samwise

example : filled.map (fun fl => (fl.user.pos.view, (getPositions (fl.w.pools poolA) samwise).view)) ≗
    .ok (([(2, 12375000)], [(0, 305595329), (1, 15395739)], []),
         ([(2, 27500000 - 12375000)], [(0, 909100000 - 305595329), (1, 45800000 - 15395739)], [])) := by
  decide +kernel

/-- `test_fill_user_liquidation_auction_hits_target` -/
example : (do
    let fl ← filled
    let (pd, _) ← calcPositionData fl.w (fl.w.pools poolA) fl.cache (getPositions (fl.w.pools poolA) samwise)
    pd.healthFactor) ≗ .ok 11458977 := by decide +kernel

end UserLiq
end Conformance
end Blend
