import Verif.Examples.Tests.Base
/-
  `pool/src/pool/interest.rs` (from line 94 on) and `pool/src/pool/reserve.rs` (from line 236 on), tests
-/

namespace Blend
namespace Conformance
namespace ReserveTests

/-- the configuration of the interest tests -/
def cfg : ReserveConfig := ⟨0, 7, 7500000, 7500000, 7500000, 9500000, 100000, 500000, 5000000, 15000000, 20⟩
/-- `test_calc_accrual_util_under_target`, `_over_target`, `_over_95` -/
example : calcAccrual cfg 6565656 1000000000 0 500 ≗ .ok (1000000853, 999906566) := by decide +kernel
example : calcAccrual cfg 7979797 1000000000 0 500 ≗ .ok (1000002853, 1000047979) := by decide +kernel
example : calcAccrual cfg 9696969 1000000000 0 500 ≗ .ok (1000018247, 1000219696) := by decide +kernel
/-- `test_calc_ir_mod_over_limit`, `_under_limit` -/
example : (calcAccrual cfg 9696969 9997000000 0 12345).map (·.2) ≗ .ok 10000000000 := by decide +kernel
example : (calcAccrual cfg 2020202 150000000 0 50000).map (·.2) ≗ .ok 100000000 := by decide +kernel
/-- `test_calc_accrual_rounds_up` -/
example : calcAccrual cfg 500000 100000000 500 501 ≗ .ok (1000000001, 100000000) := by decide +kernel
/-- `test_calc_accrual_fixed_rate` -/
def fixedCfg : ReserveConfig := ⟨0, 7, 7500000, 7500000, 7500000, 9500000, 2500000, 0, 0, 0, 20⟩
example : calcAccrual fixedCfg 0 1000000000 0 500 ≗ .ok (1000003964, 999250000) := by decide +kernel
example : calcAccrual fixedCfg 6565656 1000000000 0 500 ≗ .ok (1000003964, 999906566) := by decide +kernel
example : calcAccrual fixedCfg 7565656 1000000000 0 500 ≗ .ok (1000003964, 1000006565) := by decide +kernel
example : calcAccrual fixedCfg 9565656 1000000000 0 500 ≗ .ok (1000003964, 1000206565) := by decide +kernel

/-- the reserve loaded at time 617280 -/
def loaded (rate : Nat) (d : ReserveData) : R ReserveData := do
  let w := mk 617280 123456 ⟨oracleA, rate, 0, 4⟩ 7 [] [(cfg, d)] []
  let r ← Reserve.load (w.pools poolA) rate w.time u0
  pure r.data
/-- `test_load_reserve`, `_zero_supply`, `_zero_util`, `_zero_bstop_rate` -/
example : loaded 2000000 ⟨1345678123, 1123456789, 1000000000, 990000000, 650000000, 0, 0⟩ ≗
    .ok ⟨1349657800, 1125547124, 1044981563, 990000000, 650000000, 517358, 617280⟩ := by decide +kernel
example : loaded 2000000 ⟨0, 0, 1000000000, 0, 0, 0, 0⟩ ≗ .ok ⟨0, 0, 1000000000, 0, 0, 0, 617280⟩ := by
  decide +kernel
example : loaded 2000000 ⟨0, 1000000000, 1000000000, 1000000000, 0, 0, 0⟩ ≗
    .ok ⟨0, 1000000000, 1000000000, 1000000000, 0, 0, 617280⟩ := by decide +kernel
example : loaded 0 ⟨1345678123, 1123456789, 1000000000, 990000000, 650000000, 0, 0⟩ ≗
    .ok ⟨1349657800, 1126069708, 1044981563, 990000000, 650000000, 0, 617280⟩ := by decide +kernel
/-- `test_store` -/
example : (do
    let w := mk 617280 123456 ⟨oracleA, 2000000, 0, 4⟩ 7 []
      [(cfg, ⟨1345678123, 1123456789, 1000000000, 990000000, 650000000, 0, 0⟩)] []
    let r ← Reserve.load (w.pools poolA) 2000000 w.time u0
    pure ((r.store (w.pools poolA)).resData u0)) ≗
    .ok (some ⟨1349657800, 1125547124, 1044981563, 990000000, 650000000, 517358, 617280⟩) := by decide +kernel

/-- a reserve with the given debt and supply rates, liability and collateral factors and supplies -/
def rd (dRate bRate bSupply dSupply : Int) : ReserveData := ⟨dRate, bRate, 1000000000, bSupply, dSupply, 0, 0⟩
def rv (l c : Nat) (d : ReserveData) : Reserve := ⟨u0, 0, l, c, 9500000, 10000000, d⟩
/-- `test_utilization`, `test_require_utilization_*` -/
example : (rd 1345678123 1123456789 990000000 650000000).utilization ≗ .ok 7864353 := by decide +kernel
example : (rv 7500000 7500000 (rd 1000000000 1000000000 990000000 650000000)).requireUtilBelowMax ≗ .ok () := by
  decide +kernel
example : (rv 7500000 7500000 (rd 1000000000 1000000000 1000000000 950000100)).requireUtilBelowMax ≗
    .error (.pool .invalidUtilRate) := by decide +kernel
/-- the token transfer math tests -/
example : (rd 1321834961 1000000000 990000000 650000000).toAssetFromD 11234567 ≗ .ok 14850244 := by decide +kernel
example : (rd 1000000000 1321834961 990000000 650000000).toAssetFromB 11234567 ≗ .ok 14850243 := by decide +kernel
example : (rv 11000000 7500000 (rd 1321834961 1000000000 990000000 650000000)).toEffectiveAssetFromD 11234567 ≗
    .ok 13500222 := by decide +kernel
example : (rv 7500000 8500000 (rd 1000000000 1321834961 990000000 650000000)).toEffectiveAssetFromB 11234567 ≗
    .ok 12622706 := by decide +kernel
example : (rd 1823912692 1000000000 990000000 650000000).totalLiabilities ≗ .ok 1185543250 := by decide +kernel
example : (rd 1000000000 1823912692 990000000 650000000).totalSupply ≗ .ok 1805673565 := by decide +kernel
example : (rd 1321834961 1000000000 990000000 650000000).toDUp 14850243 ≗ .ok 11234567 := by decide +kernel
example : (rd 1321834961 1000000000 990000000 650000000).toDDown 14850243 ≗ .ok 11234566 := by decide +kernel
example : (rd 1000000000 1321834961 990000000 650000000).toBUp 14850243 ≗ .ok 11234567 := by decide +kernel
example : (rd 1000000000 1321834961 990000000 650000000).toBDown 14850243 ≗ .ok 11234566 := by decide +kernel

end ReserveTests
end Conformance
end Blend
