import Verif.Examples.Tests.Base
/-
  `pool/src/pool/status.rs`, tests (from line 150 on)
-/

namespace Blend
namespace Conformance
namespace Status
open Pool

/-- a pool with the given status, whose backstop holds `dep` LP tokens of which `q` are queued -/
def start (status : Nat) (dep q : Int) : R World := do
  let w ← (((base 0 0 ⟨oracleA, 0, status, 2⟩).wired 501000000000).give lpA samwise 500000000000).backed samwise dep
  if q = 0 then pure w else Backstop.queueWithdrawal w [samwise] samwise poolA q

/-- `execute_set_pool_status`: the new status -/
def set (status : Nat) (dep q : Int) (s : Nat) : R (Option Nat) := do
  let w ← start status dep q
  let w' ← setStatus w poolA s
  pure ((w'.pools poolA).inst.map (·.config.status))

/-- `execute_update_pool_status`: the new status -/
def update (status : Nat) (dep q : Int) : R (Option Nat) := do
  let w ← start status dep q
  let w' ← updateStatus w poolA
  pure ((w'.pools poolA).inst.map (·.config.status))

/-- `test_set_pool_status_active` -/
example : set 1 500000000000 0 0 ≗ .ok (some 0) := by decide +kernel
/-- `test_set_pool_status_active_blocks_without_backstop_minimum` -/
example : set 1 400000000000 0 0 ≗ .error (.pool .statusNotAllowed) := by decide +kernel
/-- `test_set_pool_status_active_blocks_with_too_high_q4w` -/
example : set 2 500000000000 300000000000 0 ≗ .error (.pool .statusNotAllowed) := by decide +kernel
/-- `test_set_pool_status_on_ice` -/
example : set 1 500000000000 0 2 ≗ .ok (some 2) := by decide +kernel
/-- `test_set_pool_status_admin_on_ice_blocks_with_too_high_q4w` -/
example : set 5 500000000000 400000000000 2 ≗ .error (.pool .statusNotAllowed) := by decide +kernel
/-- `test_set_pool_status_backstop_on_ice_blocks_with_too_high_q4w` -/
example : set 6 500000000000 400000000000 3 ≗ .error (.pool .statusNotAllowed) := by decide +kernel
/-- `test_set_pool_status_frozen` -/
example : set 1 500000000000 0 4 ≗ .ok (some 4) := by decide +kernel
/-- `test_set_non_admin_pool_status_panics` -/
example : set 2 500000000000 0 1 ≗ .error (.pool .badRequest) := by decide +kernel
/-- `test_update_pool_status_active` -/
example : update 3 500000000000 0 ≗ .ok (some 1) := by decide +kernel
/-- `test_update_pool_status_admin_set_no_changes` -/
example : update 0 500000000000 0 ≗ .ok (some 0) := by decide +kernel
/-- `test_update_pool_status_on_ice_tokens` -/
example : update 1 400000000000 0 ≗ .ok (some 3) := by decide +kernel
/-- `test_update_pool_status_on_ice_30_q4w` -/
example : update 1 500000000000 150000000000 ≗ .ok (some 3) := by decide +kernel
/-- `test_update_pool_status_on_ice_30_q4w_admin_active` -/
example : update 0 500000000000 150000000000 ≗ .ok (some 0) := by decide +kernel
/-- `test_update_pool_status_on_ice_50_q4w_admin_active` -/
example : update 0 500000000000 250000000000 ≗ .ok (some 3) := by decide +kernel
/-- `test_update_pool_status_frozen` -/
example : update 1 500000000000 300000000000 ≗ .ok (some 5) := by decide +kernel
/-- `test_update_pool_status_frozen_admin_on_ice` -/
example : update 2 500000000000 300000000000 ≗ .ok (some 2) := by decide +kernel
/-- `test_update_pool_status_frozen_75_q4w` -/
example : update 2 500000000000 400000000000 ≗ .ok (some 5) := by decide +kernel
/-- `test_update_pool_status_admin_frozen` -/
example : update 4 500000000000 0 ≗ .error (.pool .statusNotAllowed) := by decide +kernel
/-- `test_update_pool_status_setup` -/
example : update 6 500000000000 0 ≗ .error (.pool .statusNotAllowed) := by decide +kernel
/-- `test_admin_update_pool_status_unfreeze` -/
example : set 5 500000000000 125000000000 0 ≗ .ok (some 0) := by decide +kernel
/-- `test_calc_pool_backstop_threshold` -/
example : backstopThreshold ⟨200000000000, 0, 3000000000000, 250000000000⟩ = 6328125 := by decide +kernel
/-- `test_calc_pool_backstop_threshold_10_percent` -/
example : backstopThreshold ⟨10000000000, 0, 300000000000, 39750000000⟩ = 100 := by decide +kernel
/-- `test_calc_pool_backstop_threshold_too_small` -/
example : backstopThreshold ⟨5000000000, 0, 50000000000, 10000000000⟩ = 0 := by decide +kernel
/-- `test_calc_pool_backstop_threshold_over` -/
example : backstopThreshold ⟨150000000000, 0, 3646430000000, 181000000000⟩ = 10000002 := by decide +kernel
/-- `test_calc_pool_backstop_threshold_saturates` -/
example : backstopThreshold ⟨9999990000000, 0, 500000000000000, 100000000000000⟩ = 531691198313 := by decide +kernel
/-- `test_calc_pool_backstop_threshold_10pct` -/
example : backstopThreshold ⟨9999990000000, 0, 200000000000, 200000000000⟩ = 100 := by decide +kernel
/-- `test_calc_pool_backstop_threshold_5pct` -/
example : backstopThreshold ⟨9999990000000, 0, 100000000000, 100000000000⟩ = 3 := by decide +kernel

end Status
end Conformance
end Blend
