import Verif.Examples.Tests.Base
/-
  `pool/src/pool/health_factor.rs` (from line 118 on) and `pool/src/pool/pool.rs` (from line 134 on), tests
-/

namespace Blend
namespace Conformance
namespace Health
open Pool

/-- `test_calculate_from_positions` -/
def calcW : World := mk 0 1234 ⟨oracleA, 2000000, 0, 5⟩ 7 [(u0, 10000000), (u1, 25000000), (u2, 10000000000)]
  [(⟨0, 7, 7500000, 7500000, 7500000, 9500000, 100000, 500000, 5000000, 15000000, 20⟩,
     ⟨1000000000, 1000000000, 1000000000, 1000000000, 750000000, 0, 0⟩),
   (⟨1, 9, 8500000, 8000000, 7500000, 9500000, 100000, 500000, 5000000, 15000000, 20⟩,
     ⟨1150000000, 1100000000, 1000000000, 100000000000, 70000000000, 0, 0⟩),
   (⟨2, 6, 7500000, 7500000, 7500000, 9500000, 100000, 500000, 5000000, 15000000, 20⟩,
     ⟨1001200000, 1001100000, 1000000000, 10000000, 5000000, 0, 0⟩)]
  []

example : (do
    let c ← Cache.load (calcW.pools poolA)
    let (d, _) ← calcPositionData calcW (calcW.pools poolA) c
      ⟨mp [(0, 15000000), (1, 50987654321)], mp [(0, 1001234567), (2, 250000)], mp [(1, 120987654321)]⟩
    pure (d.collateralBase, d.liabilityBase, d.collateralRaw, d.liabilityRaw, d.scalar)) ≗
    .ok (2627985925, 1852368828, 3503984567, 1480895062, 10000000) := by decide +kernel

/-- collateral base and raw, liability base and raw, scalar -/
def pd (cb cr lb lr s : Int) : PositionData :=
  { collateralBase := cb, collateralRaw := cr, liabilityBase := lb, liabilityRaw := lr, scalar := s }
/-- `test_as_health_factor_rounds_floor` -/
example : (pd 91234567 0 91000000 0 10000000).healthFactor ≗ .ok 10025776 := by decide +kernel
/-- `test_is_hf_under` and its variants -/
example : (pd 91234567 120000000 91233333 100000000 10000000).isHfUnder 10000100 ≗ .ok false := by decide +kernel
example : (pd 912345 1200000 912333 1000000 100000).isHfUnder 10000100 ≗ .ok false := by decide +kernel
example : (pd 91234567 120000000 0 0 10000000).isHfUnder 10000100 ≗ .ok false := by decide +kernel
example : (pd 91234567 120000000 91234567 100000000 10000000).isHfUnder 10000100 ≗ .ok true := by decide +kernel
/-- `test_is_hf_over` and its variants -/
example : (pd 91234567 120000000 91233333 100000000 10000000).isHfOver 11000000 ≗ .ok false := by decide +kernel
example : (pd 91234567000 120000000000 91233333000 100000000000 10000000000).isHfOver 11000000 ≗ .ok false := by
  decide +kernel
example : (pd 91234567 120000000 0 0 10000000).isHfOver 10000100 ≗ .ok true := by decide +kernel
example : (pd 191234567 220000000 91234567 100000000 10000000).isHfOver 10000100 ≗ .ok true := by decide +kernel

/-- `test_reserve_cache` -/
def cache1 : World := mk (123456 * 5) 123456 ⟨oracleA, 2000000, 0, 2⟩ 7 []
  [(⟨0, 7, 7500000, 7500000, 7500000, 9500000, 100000, 500000, 5000000, 15000000, 20⟩,
     ⟨1000000000, 1000000000, 1000000000, 1000000000, 750000000, 0, 0⟩)]
  []

/-- zero reserve data -/
def zero : ReserveData := ⟨0, 0, 0, 0, 0, 0, 0⟩

example : (do
    let ps := cache1.pools poolA
    let c ← Cache.load ps
    let (r, c1) ← c.loadReserve ps cache1.time u0 true
    let c2 := c1.put r
    let ps' := { ps with resData := upd ps.resData u0 (some zero) }
    let (r', c3) ← c2.loadReserve ps' cache1.time u0 true
    let ps2 ← c3.storeAll ps'
    pure (decide (r'.data.dRate = r.data.dRate ∧ r.data.dRate ≠ 0 ∧
      (ps2.resData u0).map ReserveData.dRate = some r.data.dRate))) ≗ .ok true := by decide +kernel

/-- `test_reserve_cache_stores_only_marked` -/
def cache3 : World := mk (123456 * 5) 123456 ⟨oracleA, 2000000, 0, 2⟩ 7 []
  [(⟨0, 7, 7500000, 7500000, 7500000, 9500000, 100000, 500000, 5000000, 15000000, 20⟩,
     ⟨1000000000, 1000000000, 1000000000, 1000000000, 750000000, 0, 0⟩),
   (⟨1, 7, 7500000, 7500000, 7500000, 9500000, 100000, 500000, 5000000, 15000000, 20⟩,
     ⟨1001000000, 1000000000, 1000000000, 1000000000, 750000000, 0, 0⟩),
   (⟨2, 7, 7500000, 7500000, 7500000, 9500000, 100000, 500000, 5000000, 15000000, 20⟩,
     ⟨1002000000, 1000000000, 1000000000, 1000000000, 750000000, 0, 0⟩)]
  []

example : (do
    let ps := cache3.pools poolA
    let c ← Cache.load ps
    let (r0, c) ← c.loadReserve ps cache3.time u0 false
    let (r1, c) ← c.loadReserve ps cache3.time u1 true
    let (r2, c) ← c.loadReserve ps cache3.time u2 true
    let c := ((c.put r0).put r1).put { r2 with data := { r2.data with dRate := 456 } }
    let c := c.put { r1 with data := { r1.data with dRate := 123 } }
    let (_, c) ← c.loadReserve ps cache3.time u2 false
    let ps' := { ps with resData := upd ps.resData u0 (some zero) }
    let (r', c) ← c.loadReserve ps' cache3.time u0 false
    let ps2 ← c.storeAll ps'
    pure (r'.data.dRate - r0.data.dRate, (ps2.resData u0).map ReserveData.dRate,
      (ps2.resData u1).map ReserveData.dRate, (ps2.resData u2).map ReserveData.dRate)) ≗
    .ok (0, some 0, some 123, some 456) := by decide +kernel

/-- `test_reserve_cache_panics_if_missing_reserve_to_store` -/
example : (do
    let ps := cache3.pools poolA
    let c ← Cache.load ps
    let (r0, c) ← c.loadReserve ps cache3.time u0 false
    let (r1, c) ← c.loadReserve ps cache3.time u1 true
    let (_, c) ← c.loadReserve ps cache3.time u2 true
    let ps2 ← ((c.put r0).put r1).storeAll ps
    pure ps2.resList) ≗ .error (.pool .internalReserveNotFound) := by decide +kernel

/-- the `test_require_action_allowed_*` tests -/
def allowed (status action : Nat) : R Unit := requireActionAllowed ⟨oracleA, 2000000, status, 2⟩ action
example : allowed 2 4 ≗ .error (.pool .invalidPoolStatus) := by decide +kernel
example : allowed 1 4 ≗ .ok () := by decide +kernel
example : allowed 2 9 ≗ .error (.pool .invalidPoolStatus) := by decide +kernel
example : allowed 1 9 ≗ .ok () := by decide +kernel
example : allowed 4 0 ≗ .error (.pool .invalidPoolStatus) := by decide +kernel
example : allowed 4 2 ≗ .error (.pool .invalidPoolStatus) := by decide +kernel
example : allowed 4 5 ≗ .ok () := by decide +kernel
example : allowed 4 1 ≗ .ok () := by decide +kernel
example : allowed 4 3 ≗ .ok () := by decide +kernel

/-- `test_load_price_decimals`, `test_load_price`, `test_load_price_panics_if_stale` -/
def cfg : PoolConfig := ⟨oracleA, 2000000, 0, 2⟩
def priced : World := (mk 1000 1234 cfg 7 [(u0, 123), (u1, 456)] [] [])
example : oracleScalar priced cfg ≗ .ok (10 ^ 7) := by decide +kernel
example : loadPrice priced cfg u0 ≗ .ok 123 := by decide +kernel
example : loadPrice priced cfg u1 ≗ .ok 456 := by decide +kernel
example : loadPrice { priced with time := 1000 + 24 * 60 * 60 + 1 } cfg u0 ≗ .error (.pool .stalePrice) := by
  decide +kernel
example : loadPrice { priced with time := 1000 + 24 * 60 * 60 } cfg u0 ≗ .ok 123 := by decide +kernel

/-- the `test_require_under_max_*` tests: positions, and the count before -/
example : requireUnderMax cfg ⟨mp [], mp [(0, 1)], mp []⟩ 0 ≗ .ok () := by decide +kernel
example : requireUnderMax cfg ⟨mp [(1, 2)], mp [(1, 1)], mp [(0, 42), (1, 42)]⟩ 1 ≗ .ok () := by decide +kernel
example : requireUnderMax cfg ⟨mp [(0, 123), (1, 123)], mp [(0, 42)], mp []⟩ 4 ≗ .ok () := by decide +kernel
example : requireUnderMax cfg ⟨mp [(0, 789), (1, 42)], mp [(0, 123)], mp []⟩ 2 ≗
    .error (.pool .maxPositionsExceeded) := by decide +kernel

end Health
end Conformance
end Blend
