import Verif.Examples.Tests.Base
/-
  `pool/src/pool/actions.rs`, tests (from line 319 on)
-/

namespace Blend
namespace Conformance
namespace Actions
open Pool

/-- `build_actions_from_request`, then: health flag, spender transfers, pool transfers, positions, and
the reserve's (b_supply, d_supply) minus the initial ones -/
def built (w : World) (who : Address) (reqs : List Request) : R (Bool × List (Nat × Int) × List (Nat × Int) ×
    (List (Nat × Int) × List (Nat × Int) × List (Nat × Int)) × Int × Int) := do
  let c ← Cache.load (w.pools poolA)
  let s ← buildActions w poolA [who] c who reqs
  let (r, _) ← s.fl.cache.loadReserve (s.fl.w.pools poolA) w.time u0 false
  pure (s.check, s.actions.spender.toList, s.actions.pool.toList, s.fl.user.pos.view,
    r.data.bSupply - 1000000000, r.data.dSupply - 750000000)

/-- `test_build_actions_from_request_supply` -/
def supply : World := mk 600 1234 ⟨oracleA, 1000000, 0, 2⟩ 7 []
  [(⟨0, 7, 7500000, 7500000, 7500000, 9500000, 100000, 500000, 5000000, 15000000, 20⟩,
     ⟨1000000000, 1000000000, 1000000000, 1000000000, 750000000, 0, 0⟩)]
  []

example : built supply samwise [⟨0, u0, 101234567⟩] ≗
    .ok (false, [(u0, 101234567)], [], ([], [], [(0, 101234488)]), 101234488, 0) := by decide +kernel

/-- `test_build_actions_from_request_withdraw` -/
def withdraw : World := mk 600 1234 ⟨oracleA, 2000000, 0, 2⟩ 7 []
  [(⟨0, 7, 7500000, 7500000, 7500000, 9500000, 100000, 500000, 5000000, 15000000, 20⟩,
     ⟨1000000000, 1000000000, 1000000000, 1000000000, 750000000, 0, 0⟩)]
  [(samwise, ⟨(mp []), (mp []), (mp [(0, 200000000)])⟩)]

example : built withdraw samwise [⟨1, u0, 101234567⟩] ≗
    .ok (false, [], [(u0, 101234567)], ([], [], [(0, 98765502)]), -(200000000 - 98765502), 0) := by decide +kernel

/-- `test_build_actions_from_request_withdraw_over_balance` -/
def withdrawOver : World := mk 600 1234 ⟨oracleA, 2000000, 0, 2⟩ 7 []
  [(⟨0, 7, 7500000, 7500000, 7500000, 9500000, 100000, 500000, 5000000, 15000000, 20⟩,
     ⟨1000000000, 1000000000, 1000000000, 1000000000, 750000000, 0, 0⟩)]
  [(samwise, ⟨(mp []), (mp []), (mp [(0, 200000000)])⟩)]

example : built withdrawOver samwise [⟨1, u0, 210000000⟩] ≗
    .ok (false, [], [(u0, 200000137)], ([], [], []), -200000000, 0) := by decide +kernel

/-- `test_build_actions_from_request_supply_collateral` -/
def supplyColl : World := mk 600 1234 ⟨oracleA, 1000000, 0, 2⟩ 7 []
  [(⟨0, 7, 7500000, 7500000, 7500000, 9500000, 100000, 500000, 5000000, 15000000, 20⟩,
     ⟨1000000000, 1000000000, 1000000000, 1000000000, 750000000, 0, 0⟩)]
  []

example : built supplyColl samwise [⟨2, u0, 101234567⟩] ≗
    .ok (false, [(u0, 101234567)], [], ([], [(0, 101234488)], []), 101234488, 0) := by decide +kernel

/-- `test_build_actions_from_request_withdraw_collateral` -/
def withdrawColl : World := mk 600 1234 ⟨oracleA, 2000000, 0, 2⟩ 7 []
  [(⟨0, 7, 7500000, 7500000, 7500000, 9500000, 100000, 500000, 5000000, 15000000, 20⟩,
     ⟨1000000000, 1000000000, 1000000000, 1000000000, 750000000, 0, 0⟩)]
  [(samwise, ⟨(mp []), (mp [(0, 200000000)]), (mp [])⟩)]

example : built withdrawColl samwise [⟨3, u0, 101234567⟩] ≗
    .ok (true, [], [(u0, 101234567)], ([], [(0, 98765502)], []), -(200000000 - 98765502), 0) := by decide +kernel

/-- `test_build_actions_from_request_withdraw_collateral_over_balance` -/
def withdrawCollOver : World := mk 600 1234 ⟨oracleA, 2000000, 0, 2⟩ 7 []
  [(⟨0, 7, 7500000, 7500000, 7500000, 9500000, 100000, 500000, 5000000, 15000000, 20⟩,
     ⟨1000000000, 1000000000, 1000000000, 1000000000, 750000000, 0, 0⟩)]
  [(samwise, ⟨(mp []), (mp [(0, 200000000)]), (mp [])⟩)]

example : built withdrawCollOver samwise [⟨3, u0, 210000000⟩] ≗
    .ok (true, [], [(u0, 200000137)], ([], [], []), -200000000, 0) := by decide +kernel

/-- `test_build_actions_from_request_borrow` -/
def borrow : World := mk 600 1234 ⟨oracleA, 2000000, 0, 2⟩ 7 []
  [(⟨0, 7, 7500000, 7500000, 7500000, 9500000, 100000, 500000, 5000000, 15000000, 20⟩,
     ⟨1000000000, 1000000000, 1000000000, 1000000000, 750000000, 0, 0⟩)]
  []

example : built borrow samwise [⟨4, u0, 101234567⟩] ≗
    .ok (true, [], [(u0, 101234567)], ([(0, 101234452)], [], []), 0, 101234452) := by decide +kernel

/-- `test_build_actions_from_request_repay` -/
def repay : World := mk 600 1234 ⟨oracleA, 2000000, 0, 2⟩ 7 []
  [(⟨0, 7, 7500000, 7500000, 7500000, 9500000, 100000, 500000, 5000000, 15000000, 20⟩,
     ⟨1000000000, 1000000000, 1000000000, 1000000000, 750000000, 0, 0⟩)]
  [(samwise, ⟨(mp [(0, 200000000)]), (mp []), (mp [])⟩)]

example : built repay samwise [⟨5, u0, 101234567⟩] ≗
    .ok (false, [(u0, 101234567)], [], ([(0, 200000000 - 101234451)], [], []), 0, -101234451) := by decide +kernel

/-- `test_build_actions_from_request_repay_over_balance` -/
def repayOver : World := mk 600 1234 ⟨oracleA, 2000000, 0, 2⟩ 7 []
  [(⟨0, 7, 7500000, 7500000, 7500000, 9500000, 100000, 500000, 5000000, 15000000, 20⟩,
     ⟨1000000000, 1000000000, 1000000000, 1000000000, 750000000, 0, 0⟩)]
  [(samwise, ⟨(mp [(0, 200000000)]), (mp []), (mp [])⟩)]

example : built repayOver samwise [⟨5, u0, 210000000⟩] ≗
    .ok (false, [(u0, 210000000)], [(u0, 9999771)], ([], [], []), 0, -200000000) := by decide +kernel

/-- `test_aggregating_actions` -/
def agg : World := mk 600 1234 ⟨oracleA, 2000000, 0, 2⟩ 7 []
  [(⟨0, 7, 7500000, 7500000, 7500000, 9500000, 100000, 500000, 5000000, 15000000, 20⟩,
     ⟨1000000000, 1000000000, 1000000000, 1000000000, 750000000, 0, 600⟩)]
  []

example : built agg samwise [⟨0, u0, 100000000⟩, ⟨1, u0, 50000000⟩, ⟨2, u0, 100000000⟩, ⟨3, u0, 50000000⟩,
      ⟨4, u0, 200000000⟩, ⟨5, u0, 210000000⟩] ≗
    .ok (true, [(u0, 100000000 + 100000000 + 210000000)], [(u0, 50000000 + 50000000 + 200000000 + 10000000)],
      ([], [(0, 50000000)], [(0, 50000000)]), 100000000, 0) := by decide +kernel

/-- `test_fill_user_liquidation` -/
def fillLiq : World := mk 12345 176 ⟨oracleA, 1000000, 0, 4⟩ 7 []
  [(⟨0, 7, 8500000, 9000000, 7500000, 9500000, 100000, 500000, 5000000, 15000000, 20⟩,
     ⟨1000000000, 1100000000, 1000000000, 1000000000, 750000000, 0, 12345⟩),
   (⟨1, 7, 7500000, 7500000, 7500000, 9500000, 100000, 500000, 5000000, 15000000, 20⟩,
     ⟨1000000000, 1200000000, 1000000000, 1000000000, 750000000, 0, 12345⟩),
   (⟨2, 7, 0, 7000000, 7500000, 9500000, 100000, 500000, 5000000, 15000000, 20⟩,
     ⟨1000000000, 1000000000, 1000000000, 1000000000, 750000000, 0, 0⟩)]
  [(samwise, ⟨(mp [(2, 27500000)]), (mp [(0, 909100000), (1, 45800000)]), (mp [])⟩)]

/-- one request, then: flag, spender transfers, pool transfers, and the auction of type `t` of `user` -/
def builtA (w : World) (who : Address) (q : Request) (t : Nat) (user : Address) : R (Bool × List (Nat × Int) ×
    List (Nat × Int) × Option (List (Nat × Int) × List (Nat × Int) × Nat) × World) := do
  let c ← Cache.load (w.pools poolA)
  let s ← buildActions w poolA [who] c who [q]
  pure (s.check, s.actions.spender.toList, s.actions.pool.toList,
    ((s.fl.w.pools poolA).auctions t user).map (·.view), s.fl.w)

example : (builtA ((fillLiq.auction 0 samwise ⟨mp [(u2, 12375000)], mp [(u0, 305595329), (u1, 15395739)], 176⟩).goto
      12345 (176 + 200)) frodo ⟨6, samwise, 50⟩ 0 samwise).map (fun r => (r.1, r.2.1, r.2.2.1, r.2.2.2.1)) ≗
    .ok (true, [], [], some ([(u2, 6187500)], [(u0, 152797665), (u1, 7697870)], 176)) := by decide +kernel

/-- `test_fill_bad_debt_auction` -/
def fillBad : World := mk 12345 51 ⟨oracleA, 1000000, 0, 2⟩ 7 []
  [(⟨0, 7, 8500000, 9000000, 7500000, 9500000, 100000, 500000, 5000000, 15000000, 20⟩,
     ⟨1000000000, 1100000000, 1000000000, 1000000000, 750000000, 0, 12345⟩),
   (⟨1, 7, 7500000, 7500000, 7500000, 9500000, 100000, 500000, 5000000, 15000000, 20⟩,
     ⟨1000000000, 1200000000, 1000000000, 1000000000, 750000000, 0, 12345⟩)]
  [(backstopA, ⟨(mp [(0, 100000000), (1, 25000000)]), (mp []), (mp [])⟩)]

example : (do
    let w0 := ((fillBad.wired 1000000000).give lpA samwise 952000000)
    let (_, w) ← Backstop.deposit w0 [samwise] samwise poolA 952000000
    let w1 ← Backstop.updateTknVal w
    let r ← builtA ((w1.auction 1 backstopA ⟨mp [(u0, 100000000), (u1, 25000000)], mp [(lpA, 952000000)], 51⟩).goto
      12345 (51 + 200)) frodo ⟨7, backstopA, 100⟩ 1 backstopA
    pure (r.1, r.2.1, r.2.2.1, r.2.2.2.1)) ≗ .ok (true, [], [], none) := by decide +kernel

/-- `test_fill_interest_auction` -/
def fillInt : World := mk 12345 51 ⟨oracleA, 1000000, 0, 2⟩ 7 []
  [(⟨0, 7, 7500000, 7500000, 7500000, 9500000, 100000, 500000, 5000000, 15000000, 20⟩,
     ⟨1000000000, 1100000000, 1000000000, 1000000000, 750000000, 0, 12345⟩),
   (⟨1, 7, 7500000, 7500000, 7500000, 9500000, 100000, 500000, 5000000, 15000000, 20⟩,
     ⟨1000000000, 1100000000, 1000000000, 1000000000, 750000000, 0, 12345⟩),
   (⟨2, 7, 7500000, 7500000, 7500000, 9500000, 100000, 500000, 5000000, 15000000, 20⟩,
     ⟨1000000000, 1100000000, 1000000000, 1000000000, 750000000, 0, 12345⟩)]
  []

example : (do
    let w ← (((((fillInt.wired 2000000000).give lpA bombadil 1000000000).give lpA samwise 1000000000).give u0 poolA
      10000000000).give u1 poolA 10000000000).backed bombadil 500000000
    let r ← builtA ((w.auction 2 backstopA ⟨mp [(lpA, 1000000000)], mp [(u0, 1000000000), (u1, 250000000)], 51⟩).goto
      12345 (51 + 250)) samwise ⟨8, backstopA, 100⟩ 2 backstopA
    pure (r.1, r.2.1, r.2.2.1, r.2.2.2.1, r.2.2.2.2.balance lpA samwise,
      r.2.2.2.2.balance lpA backstopA, r.2.2.2.2.balance u0 samwise, r.2.2.2.2.balance u1 samwise)) ≗
    .ok (false, [], [], none, 250000000, 500000000 + 750000000, 1000000000, 250000000) := by decide +kernel

/-- `test_delete_liquidation_auction` -/
example : (builtA (agg.auction 0 samwise ⟨mp [(u0, 9520000000)], mp [(u0, 1000000000), (u1, 250000000)], 51⟩) samwise
      ⟨9, samwise, 0⟩ 0 samwise).map (fun r => (r.1, r.2.1, r.2.2.1, r.2.2.2.1)) ≗
    .ok (true, [], [], none) := by decide +kernel

/-- `test_actions_requires_positions_under_max_with_decrease` -/
def decr : World := mk 600 1234 ⟨oracleA, 2000000, 0, 2⟩ 7 []
  [(⟨0, 7, 7500000, 7500000, 7500000, 9500000, 100000, 500000, 5000000, 15000000, 20⟩,
     ⟨1000000000, 1000000000, 1000000000, 1000000000, 750000000, 0, 0⟩),
   (⟨1, 7, 7500000, 7500000, 7500000, 9500000, 100000, 500000, 5000000, 15000000, 20⟩,
     ⟨1000000000, 1000000000, 1000000000, 1000000000, 750000000, 0, 0⟩)]
  [(samwise, ⟨(mp [(0, 50000000), (1, 10000000)]), (mp [(0, 200000000), (1, 10)]), (mp [])⟩)]

example : (built decr samwise [⟨3, u1, 20⟩]).map
    (fun r => r.2.2.2.1.1.length + r.2.2.2.1.2.1.length) ≗ .ok 3 := by decide +kernel

/-- `test_actions_requires_positions_under_max` -/
def maxPos : World := mk 600 1234 ⟨oracleA, 2000000, 0, 1⟩ 7 []
  [(⟨0, 7, 7500000, 7500000, 7500000, 9500000, 100000, 500000, 5000000, 15000000, 20⟩,
     ⟨1000000000, 1000000000, 1000000000, 1000000000, 750000000, 0, 0⟩)]
  [(samwise, ⟨(mp []), (mp [(0, 200000000)]), (mp [])⟩)]

example : (built maxPos samwise [⟨4, u0, 10000000⟩]).map (fun r => r.1) ≗
    .error (.pool .maxPositionsExceeded) := by decide +kernel

end Actions
end Conformance
end Blend
