import Verif.Examples.Tests.Base
/-
  `pool/src/pool/config.rs`, tests (from line 184 on)
-/

namespace Blend
namespace Conformance
namespace Config
open Pool

/-- what the initialization tests look at -/
def init (ps : PoolState) (rate mx : Nat) : R (Option (Address × Address × Address × Address × Nat × Nat × Nat)) := do
  let ps' ← executeInit ps bombadil oracleA rate mx backstopA blndA
  pure (ps'.inst.map fun i => (i.admin, i.backstop, i.blnd, i.config.oracle, i.config.bstopRate,
    i.config.status, i.config.maxPositions))

def pool (status : Nat) : PoolState := { inst := some ⟨bombadil, backstopA, blndA, ⟨oracleA, 1000000, status, 2⟩⟩ }

/-- `test_execute_initialize` -/
example : init {} 1000000 2 ≗ .ok (some (bombadil, backstopA, blndA, oracleA, 1000000, 6, 2)) := by decide +kernel
/-- `test_execute_initialize_already_initialized` -/
example : init (pool 6) 1000000 3 ≗ .error (.pool .alreadyInitialized) := by decide +kernel
/-- `test_execute_initialize_bad_take_rate` -/
example : init {} 10000000 3 ≗ .error (.pool .invalidPoolInitArgs) := by decide +kernel
/-- `test_execute_initialize_bad_max_positions` -/
example : init {} 1000000 1 ≗ .error (.pool .invalidPoolInitArgs) := by decide +kernel

def update (rate mx : Nat) : R (Option PoolConfig) := do
  let ps ← executeUpdatePool (pool 0) rate mx
  pure (ps.inst.map (·.config))

/-- `test_execute_update_pool` -/
example : update 2000000 4 ≗ .ok (some ⟨oracleA, 2000000, 0, 4⟩) := by decide +kernel
/-- `test_execute_update_pool_validates` -/
example : update 10000000 4 ≗ .error (.pool .badRequest) := by decide +kernel

def meta0 : ReserveConfig := ⟨0, 7, 7500000, 7500000, 5000000, 9500000, 100000, 500000, 5000000, 15000000, 100⟩

/-- queue at ledger time 10000 -/
def queue (ps : PoolState) (c : ReserveConfig) : R PoolState := queueSetReserve ps 10000 u0 c

/-- `test_queue_set_reserve_status_6` -/
example : (do pure ((← queue (pool 6) meta0).resInit u0)) ≗ .ok (some ⟨meta0, 10000⟩) := by decide +kernel
/-- `test_queue_set_reserve` -/
example : (do pure ((← queue (pool 0) meta0).resInit u0)) ≗ .ok (some ⟨meta0, 10000 + SECONDS_PER_WEEK⟩) := by
  decide +kernel
/-- `test_queue_set_reserve_duplicate` -/
example : (do pure ((← queue (← queue (pool 0) meta0) meta0).resInit u0)) ≗ .error (.pool .badRequest) := by
  decide +kernel
/-- `test_queue_set_reserve_validates_metadata` -/
example : (do pure ((← queue (pool 0) { meta0 with lFactor := 17500000, util := 10000000 }).resInit u0)) ≗
    .error (.pool .invalidReserveMetadata) := by decide +kernel
/-- `test_execute_cancel_queued_reserve_initialization` -/
example : (do pure ((cancelSetReserve (← queue (pool 6) meta0) u0).resInit u0)) ≗ .ok none := by decide +kernel

/-- a pool in which the configuration is queued, unlocking at the given time -/
def queued (ps : PoolState) (c : ReserveConfig) (unlock : Nat) : PoolState :=
  { ps with resInit := upd ps.resInit u0 (some ⟨c, unlock⟩) }

/-- `test_execute_set_reserve_first_reserve` -/
example : (do pure ((← setReserve (queued (pool 0) meta0 10000) 10000 u0).resConfig u0)) ≗ .ok (some meta0) := by
  decide +kernel
/-- `test_execute_set_reserve_requires_block_passed` -/
example : (do pure ((← setReserve (queued (pool 0) meta0 10001) 10000 u0).resConfig u0)) ≗
    .error (.pool .initNotUnlocked) := by decide +kernel

/-- `default_reserve_meta`, `pool/src/testutils.rs` 182-207 -/
def dcfg : ReserveConfig := ⟨0, 7, 7500000, 7500000, 7500000, 9500000, 100000, 500000, 5000000, 15000000, 20⟩
def ddata : ReserveData := ⟨SCALAR_9, SCALAR_9, 1001000000, 1000000000, 750000000, 0, 0⟩

def listed : PoolState := (addReserve (base 0 0 ⟨oracleA, 1000000, 0, 2⟩) dcfg ddata).pools poolA

def updated (c : ReserveConfig) (now : Nat) : R (Option ReserveConfig × Option (Bool × Bool × Nat × Bool)) := do
  let ps ← setReserve (queued listed c now) now u0
  pure (ps.resConfig u0, (ps.resData u0).map fun d =>
    (decide (d.dRate > 1000000000), decide (d.backstopCredit > 0), d.lastTime, decide (d.irMod = 1000000000)))

/-- `test_execute_set_reserve_update`: the index is kept, interest is accrued, the rate modifier is not reset -/
example :
    let c : ReserveConfig := { dcfg with index := 123, cFactor := 7500001, lFactor := 7500001, maxUtil := 9500001, reactivity := 21 }
    updated c 10000 ≗ .ok (some { c with index := 0 }, some (true, true, 10000, false)) := by decide +kernel
/-- `test_execute_set_reserve_update_resets_ir_mod` -/
example :
    let c : ReserveConfig := { dcfg with rBase := 100001 }
    updated c 10000 ≗ .ok (some { c with index := 0 }, some (true, true, 10000, true)) := by decide +kernel
/-- `test_execute_set_reserve_validates_decimals_stay_same` -/
example : updated { meta0 with index := 99, decimals := 8, util := 777777, reactivity := 105 } 10000 ≗
    .error (.pool .invalidReserveMetadata) := by decide +kernel
/-- `test_initialize_reserve_sets_index` -/
example : (do
    let ps ← initReserve (pool 0) 10000 u0 meta0
    let ps ← initReserve ps 10000 u1 meta0
    pure (ps.resConfig u0, ps.resConfig u1)) ≗ .ok (some meta0, some { meta0 with index := 1 }) := by decide +kernel

def valid0 : ReserveConfig := { meta0 with decimals := 18, rBase := 1000 }
/-- `test_validate_reserve_metadata` -/
example : validMetadata valid0 = true := by decide
/-- `test_validate_reserve_metadata_validates_decimals` -/
example : validMetadata { valid0 with decimals := 19 } = false := by decide
/-- `test_validate_reserve_metadata_validates_c_factor` -/
example : validMetadata { valid0 with cFactor := 10000001 } = false := by decide
/-- `test_validate_reserve_metadata_validates_l_factor` -/
example : validMetadata { valid0 with lFactor := 10000001 } = false := by decide
/-- `test_validate_reserve_metadata_validates_util` -/
example : validMetadata { valid0 with util := 10000000 } = false := by decide
/-- `test_validate_reserve_metadata_validates_max_util` -/
example : validMetadata { valid0 with maxUtil := 10000001 } = false := by decide
/-- `test_validate_reserve_metadata_validates_r_base_too_high` -/
example : validMetadata { valid0 with rBase := 10000000 } = false := by decide
/-- `test_validate_reserve_metadata_validates_r_base_too_low` -/
example : validMetadata { valid0 with rBase := 999 } = false := by decide
/-- `test_validate_reserve_metadata_validates_r_order` -/
example : validMetadata { valid0 with rBase := 100, rOne := 5000001 } = false := by decide
/-- `test_validate_reserve_metadata_validates_reactivity` -/
example : validMetadata { valid0 with rBase := 100000, reactivity := 1001 } = false := by decide

end Config
end Conformance
end Blend
