import Verif.Examples.Tests.Base
/-
  `pool/src/emissions/distributor.rs`, tests (from line 258 on)
-/

namespace Blend
namespace Conformance
namespace Distributor
open Pool

/-- a pool with the given emissions of one reserve token and of Samwise in it -/
def pool (id : Nat) (c : Option EmisConfig) (d : Option EmisData) (u : Option UserEmis) : PoolState :=
  { emisConfig := upd (fun _ => none) id c
    emisData := upd (fun _ => none) id d
    userEmis := upd (fun _ => .empty) id (match u with | some x => mp [(samwise, x)] | none => .empty) }

/-- the amount claimed, the emissions data and the user's emissions data afterwards -/
def run (ps : PoolState) (now id : Nat) (supply bal : Int) (claim : Bool) :
    R (Int × Option EmisData × Option UserEmis) := do
  let (x, ps') ← updateEmissions ps now id supply 10000000 samwise bal claim
  pure (x, ps'.emisData id, (ps'.userEmis id).get samwise)

def c0 : EmisConfig := ⟨1600000000, 100000⟩

/-- `test_update_emissions` -/
example : run (pool 2 c0 (some ⟨2345678, 1500000000⟩) (some ⟨1234567, 1000000⟩)) 1501000000 2 500000000 20000000 false ≗
    .ok (0, some ⟨2345678 + 2000000000, 1501000000⟩, some ⟨2345678 + 2000000000, 4003222222⟩) := by decide +kernel
/-- `test_update_emissions_no_config_ignores` -/
example : run {} 1501000000 3 1000000000 20000000 false ≗ .ok (0, none, none) := by decide +kernel
/-- `test_update_emissions_negative_time_diff`: "attempt to subtract with overflow" -/
example : run (pool 2 c0 (some ⟨2345678, 1501000001⟩) (some ⟨1234567, 1000000⟩)) 1501000000 2 500000000 20000000 false ≗
    .error .overflow := by decide +kernel
/-- `test_claim_emissions` -/
example : run (pool 2 c0 (some ⟨2345678, 1500000000⟩) (some ⟨1234567, 1000000⟩)) 1501000000 2 500000000 20000000 true ≗
    .ok (4003222222, some ⟨2345678 + 2000000000, 1501000000⟩, some ⟨2345678 + 2000000000, 0⟩) := by decide +kernel
/-- `test_claim_emissions_no_config_ignores` -/
example : run {} 1501000000 3 1000000000 20000000 true ≗ .ok (0, none, none) := by decide +kernel

/-- `update_emission_data`: what it returns and what it stores -/
def data (now id : Nat) (supply : Int) (c : Option EmisConfig) (d : Option EmisData) :
    R (Option EmisData × Option EmisData) := do
  let (x, ps') ← updateEmisData (pool id c d none) now id supply 10000000
  pure (x, ps'.emisData id)

/-- `test_update_emission_data_no_config_returns_none` -/
example : data 1501000000 3 500000000 none none ≗ .ok (none, none) := by decide +kernel
/-- `test_update_emission_data_expired_returns_old` -/
example : data 1601000000 2 500000000 (some ⟨1600000000, 100000⟩) (some ⟨2345678, 1600000000⟩) ≗
    .ok (some ⟨2345678, 1600000000⟩, some ⟨2345678, 1600000000⟩) := by decide +kernel
/-- `test_update_emission_data_updated_this_block_returns_old` -/
example : data 1501000000 3 500000000 (some ⟨1600000000, 100000⟩) (some ⟨2345678, 1501000000⟩) ≗
    .ok (some ⟨2345678, 1501000000⟩, some ⟨2345678, 1501000000⟩) := by decide +kernel
/-- `test_update_emission_data_no_eps_returns_old` -/
example : data 1501000000 2 500000000 (some ⟨1600000000, 0⟩) (some ⟨2345678, 1500000000⟩) ≗
    .ok (some ⟨2345678, 1500000000⟩, some ⟨2345678, 1500000000⟩) := by decide +kernel
/-- `test_update_emission_data_no_supply_returns_old` -/
example : data 1501000000 3 0 (some ⟨1600000000, 100000⟩) (some ⟨2345678, 1500000000⟩) ≗
    .ok (some ⟨2345678, 1500000000⟩, some ⟨2345678, 1500000000⟩) := by decide +kernel
/-- `test_update_emission_data_past_exp` -/
example : data 1700000000 2 1000000000 (some ⟨1600000001, 100000⟩) (some ⟨123456789, 1500000000⟩) ≗
    .ok (some ⟨100123457789, 1600000001⟩, some ⟨100123457789, 1600000001⟩) := by decide +kernel
/-- `test_update_emission_data_rounds_down` -/
example : data 1500000005 3 1000001111 (some ⟨1600000000, 100000⟩) (some ⟨123456789, 1500000000⟩) ≗
    .ok (some ⟨123461788, 1500000005⟩, some ⟨123461788, 1500000005⟩) := by decide +kernel

/-- `update_user_emissions`: what it returns and what it stores -/
def user (id : Nat) (bal : Int) (u : Option UserEmis) (claim : Bool) : R (Int × Option UserEmis) := do
  let (x, ps') ← updateUserEmis (pool id none none u) ⟨123456789, 1500000000⟩ id 10000000 samwise bal claim
  pure (x, (ps'.userEmis id).get samwise)

/-- `test_update_user_emissions_first_time` -/
example : user 2 0 none false ≗ .ok (0, some ⟨123456789, 0⟩) := by decide +kernel
/-- `test_update_user_emissions_first_time_had_tokens` -/
example : user 2 5000000 none false ≗ .ok (0, some ⟨123456789, 61728394⟩) := by decide +kernel
/-- `test_update_user_emissions_no_bal_no_accrual` -/
example : user 3 0 (some ⟨56789, 1000000⟩) false ≗ .ok (0, some ⟨123456789, 1000000⟩) := by decide +kernel
/-- `test_update_user_emissions_if_accrued_skips` -/
example : user 2 5000000 (some ⟨123456789, 11000000⟩) false ≗ .ok (0, some ⟨123456789, 11000000⟩) := by decide +kernel
/-- `test_update_user_emissions_accrues` -/
example : user 3 5000000 (some ⟨56789, 1000000⟩) false ≗ .ok (0, some ⟨123456789, 62700000⟩) := by decide +kernel
/-- `test_update_user_emissions_claim_returns_accrual` -/
example : user 3 5000000 (some ⟨56789, 1000000⟩) true ≗ .ok (62700000, some ⟨123456789, 0⟩) := by decide +kernel
/-- `test_update_user_emissions_claim_first_time_claims_tokens` -/
example : user 2 5000000 none true ≗ .ok (61728394, some ⟨123456789, 0⟩) := by decide +kernel
/-- `test_update_user_emissions_negative_index` -/
example : user 3 5000000 (some ⟨123456790, 1000000⟩) true ≗ .error (.pool .negativeAmount) := by decide +kernel

/-- the world of the claim tests: 100,000 BLND in the backstop that the pool may spend, two reserves -/
def world (d1 : EmisData) (x1 : UserEmis) : World :=
  let dcfg : ReserveConfig := ⟨0, 5, 7500000, 7500000, 7500000, 9500000, 100000, 500000, 5000000, 15000000, 20⟩
  let w := addReserve (addReserve (base 1501000000 123 ⟨oracleA, 0, 0, 2⟩) dcfg
    ⟨SCALAR_9, SCALAR_9, SCALAR_9, 10000000, 5000000, 0, 0⟩) { dcfg with decimals := 9 }
    ⟨SCALAR_9, SCALAR_9, SCALAR_9, 100000000000, 50000000000, 0, 0⟩
  let w := (w.give blndA backstopA 1000000000000).setAllowance blndA backstopA poolA 1000000000000 1000000
  (w.pos samwise ⟨mp [(0, 200000)], mp [(1, 1000000000)], mp [(1, 1000000000)]⟩).ps fun ps =>
    { ps with
      emisConfig := upd (upd ps.emisConfig 0 (some c0)) 3 (some ⟨1600000000, 150000⟩)
      emisData := upd (upd ps.emisData 0 (some ⟨2345678, 1500000000⟩)) 3 (some d1)
      userEmis := upd (upd ps.userEmis 0 (mp [(samwise, ⟨1234567, 1000000⟩)])) 3 (mp [(samwise, x1)]) }

/-- `execute_claim` by Samwise for Merry: the result, the BLND of Merry and of the backstop, and for each of
the two reserve tokens when its data was updated, whether Samwise's index is the token's, and what he has
still to claim -/
def claim (w : World) (ids : List Nat) :
    R (Int × Int × Int × List (Option Nat × Bool × Option Int)) := do
  let (x, w') ← executeClaim w poolA samwise ids merry
  let ps := w'.pools poolA
  pure (x, w'.balance blndA merry, w'.balance blndA backstopA, [0, 3].map fun id =>
    ((ps.emisData id).map (·.lastTime),
      decide ((ps.emisData id).map (·.index) = ((ps.userEmis id).get samwise).map (·.index)),
      ((ps.userEmis id).get samwise).map (·.accrued)))

/-- `test_execute_claim` -/
example : claim (world ⟨1345678, 1500000000⟩ ⟨1234567, 10000000⟩) [0, 3] ≗
    .ok (4003222222 + 3010222222, 4003222222 + 3010222222, 1000000000000 - (4003222222 + 3010222222),
      [(some 1501000000, true, some 0), (some 1501000000, true, some 0)]) := by decide +kernel
/-- `test_execute_claim_with_already_claimed_reserve` -/
example : claim (world ⟨1345678, 1501000000⟩ ⟨1345678, 0⟩) [0, 3] ≗
    .ok (4003222222, 4003222222, 1000000000000 - 4003222222,
      [(some 1501000000, true, some 0), (some 1501000000, true, some 0)]) := by decide +kernel
/-- `test_calc_claim_with_invalid_reserve_panics` -/
example : claim (world ⟨1345678, 1500000000⟩ ⟨1234567, 10000000⟩) [0, 3, 6] ≗ .error (.pool .badRequest) := by
  decide +kernel

end Distributor
end Conformance
end Blend
