import Verif.Examples.Tests.Base
/-
  `pool/src/emissions/manager.rs`, tests (from line 143 on)
-/

namespace Blend
namespace Conformance
namespace Emissions
open Pool

/-- `default_reserve_meta`, `pool/src/testutils.rs` 182-207 -/
def dcfg : ReserveConfig := ⟨0, 7, 7500000, 7500000, 7500000, 9500000, 100000, 500000, 5000000, 15000000, 20⟩
def ddata : ReserveData := ⟨SCALAR_9, SCALAR_9, SCALAR_9, 1000000000, 750000000, 0, 0⟩

/-- a pool with `n` default reserves -/
def pool : Nat → PoolState
  | 0 => { inst := some ⟨bombadil, backstopA, blndA, ⟨oracleA, 0, 0, 2⟩⟩ }
  | n + 1 =>
    let ps := pool n
    let a := u0 + n
    { ps with
      resList := ps.resList ++ [a]
      resConfig := upd ps.resConfig a (some { dcfg with index := n })
      resData := upd ps.resData a (some ddata) }

/-- the stored emissions of the four reserve tokens of two reserves, and of two more -/
def view (ps : PoolState) : List (Option EmisConfig) × List (Option EmisData) :=
  ([0, 1, 2, 3, 4, 5].map ps.emisConfig, [0, 2, 3].map ps.emisData)

/-- `test_gulp_emissions_no_pool_emissions_does_nothing` -/
example : (do pure ((view (← doGulp (pool 2) 1500000000 3024000000000)).1)) ≗
    .ok [none, none, none, none, none, none] := by decide +kernel

/-- the pool of the other two gulp tests -/
def running : PoolState :=
  { pool 3 with
    poolEmis := mp [(0, 2000000), (2, 5500000), (3, 2500000)]
    emisConfig := upd (upd (fun _ => none) 0 (some ⟨1500000200, 1500000⟩)) 3 (some ⟨1499990000, 3500000⟩)
    emisData := upd (upd (fun _ => none) 0 (some ⟨99999, 1499980000⟩)) 3 (some ⟨11111, 1499990000⟩) }

/-- `test_gulp_emissions` -/
example : (do pure (view (← doGulp running 1500000000 3024000000000))) ≗
    .ok ([some ⟨1500604800, 1000496⟩, none, some ⟨1500604800, 2750000⟩, some ⟨1500604800, 1250000⟩, none, none],
      [some ⟨99999 + 40 * SCALAR_7, 1500000000⟩, some ⟨0, 1500000000⟩, some ⟨11111, 1500000000⟩]) := by
  decide +kernel
/-- `test_gulp_emissions_too_small` -/
example : (do pure (view (← doGulp running 1500000000 1000000))) ≗ .error (.pool .badRequest) := by decide +kernel

def setE (l : List EmisMeta) : R (List (Nat × Nat)) := do
  let ps ← setPoolEmissions { pool 4 with poolEmis := mp [(2, 7500000)] } l
  pure ps.poolEmis.toList

/-- `test_set_pool_emissions` -/
example : setE [⟨0, 1, 3500000⟩, ⟨3, 0, 6500000⟩] ≗ .ok [(1, 3500000), (6, 6500000)] := by decide +kernel
/-- `test_set_pool_emissions_panics_if_over_100` -/
example : setE [⟨0, 1, 3500000⟩, ⟨3, 0, 6500001⟩] ≗ .error (.pool .badRequest) := by decide +kernel
/-- `test_set_pool_emissions_ok_if_under_100` -/
example : setE [⟨0, 1, 3400000⟩, ⟨3, 0, 6500000⟩] ≗ .ok [(1, 3400000), (6, 6500000)] := by decide +kernel

end Emissions
end Conformance
end Blend
