import Verif.Examples.Tests.Base
/-
  `backstop/src/emissions/distributor.rs`, `claim.rs` and `manager.rs`, tests
-/

namespace Blend
namespace Conformance
namespace BackstopEmissions
open Backstop

/-! ### `distributor.rs` -/

abbrev E := BACKSTOP_EPOCH

/-- the backstop with the given emissions of the pool and of Samwise in it -/
def state (c : Option EmisConfig) (d : Option EmisData) (u : Option UserEmis) : BackstopState :=
  { lastDistro := E
    emisCfg := upd (fun _ => none) poolA c
    emisData := upd (fun _ => none) poolA d
    userEmis := upd (fun _ => .empty) poolA (match u with | some x => mp [(samwise, x)] | none => .empty) }

/-- what is claimed, the pool's emission data and Samwise's, after an update -/
def run (now : Nat) (b : BackstopState) (q : Int) (ub : UserBalance) (claim : Bool) :
    R (Int × Option EmisData × Option UserEmis) := do
  let (x, b') ← updateEmissions b now poolA ⟨1500000000, 2000000000, q⟩ samwise ub claim
  pure (x, b'.emisData poolA, (b'.userEmis poolA).get samwise)

def week (eps : Nat) : Option EmisConfig := some ⟨E + 7 * 24 * 60 * 60, eps⟩

/-- `test_update_emissions` -/
example : run (E + 1234) (state (week 1000000) (some ⟨22222, E⟩) (some ⟨11111, 3⟩)) 0 ⟨90000000, []⟩ false ≗
    .ok (0, some ⟨8248888, E + 1234⟩, some ⟨8248888, 74139996⟩) := by decide +kernel
/-- `test_update_emissions_no_config` -/
example : run (E + 1234) (state none none none) 0 ⟨90000000, []⟩ false ≗ .ok (0, none, none) := by decide +kernel
/-- `test_update_emissions_first_action` -/
example : run (E + 12345) (state (week 420000) (some ⟨22222, E⟩) none) 0 ⟨0, []⟩ false ≗
    .ok (0, some ⟨34588222, E + 12345⟩, some ⟨34588222, 0⟩) := by decide +kernel
/-- `test_update_emissions_config_set_after_user` -/
example : run (E + 12345) (state (week 420000) (some ⟨0, E⟩) none) 0 ⟨90000000, []⟩ false ≗
    .ok (0, some ⟨34566000, E + 12345⟩, some ⟨34566000, 311094000⟩) := by decide +kernel
/-- `test_update_emissions_q4w_not_counted` -/
example : run (E + 1234) (state (week 1000000) (some ⟨22222, E⟩) (some ⟨11111, 3⟩)) 45000000
    ⟨45000000, [⟨45000000, 5000⟩]⟩ false ≗
    .ok (0, some ⟨8503321, E + 1234⟩, some ⟨8503321, 38214948⟩) := by decide +kernel
/-- `test_claim_emissions` -/
example : run (E + 1234) (state (week 1000000) (some ⟨22222, E⟩) (some ⟨11111, 3⟩)) 0 ⟨90000000, []⟩ true ≗
    .ok (74139996, some ⟨8248888, E + 1234⟩, some ⟨8248888, 0⟩) := by decide +kernel
/-- `test_claim_emissions_no_config` -/
example : run (E + 1234) (state none none none) 0 ⟨90000000, []⟩ true ≗ .ok (0, none, none) := by decide +kernel
/-- `test_update_emissions_more_q4w_than_shares_panics` -/
example : run (E + 1234) (state (week 1000000) (some ⟨22222, E⟩) (some ⟨11111, 3⟩)) 1500000001
    ⟨45000000, [⟨45000000, 5000⟩]⟩ false ≗ .error (.backstop .negativeAmount) := by decide +kernel
/-- `test_update_emissions_negative_time_dif`: "attempt to subtract with overflow" -/
example : run (E + 1234) (state (week 1000000) (some ⟨22222, E + 1235⟩) (some ⟨11111, 3⟩)) 0
    ⟨45000000, []⟩ false ≗ .error .overflow := by decide +kernel
/-- `test_update_emissions_negative_user_index` -/
example : run (E + 1234) (state (week 1000000) (some ⟨22222, E⟩) (some ⟨34566001, 3⟩)) 0
    ⟨45000000, []⟩ false ≗ .error (.backstop .negativeAmount) := by decide +kernel

/-! ### `claim.rs` -/

abbrev T : Nat := 1500000000

/-- The world of the claim tests. The LP tokens that Comet mints for a deposit are the ones the test's
Comet minted. -/
def world (blnd : Int) (deposits : Bool) : World :=
  let w := (base (T + 12345) 0 ⟨oracleA, 0, 0, 2⟩).wired 1000000000
  let w := w.give blndA backstopA blnd
  { w with
    cometOut := fun x => if x = 753145677 + 62904190 then 64729326 else if x = 1005194703 then 65244800 + 77889107 - 64729326 else 0
    backstop := { w.backstop with
      emisCfg := upd (upd (fun _ => none) poolA (some ⟨T + 7 * 24 * 60 * 60, 1000000⟩)) poolB
        (some ⟨T + 7 * 24 * 60 * 60, 200000⟩)
      emisData := upd (upd (fun _ => none) poolA (some ⟨22222, T⟩)) poolB (some ⟨0, T + 10000⟩)
      userEmis := if deposits then upd (upd (fun _ => .empty) poolA (mp [(samwise, ⟨11111, 12345678⟩)])) poolB
        (mp [(samwise, ⟨0, 0⟩)]) else fun _ => .empty
      poolBal := mp [(poolA, ⟨1500000000, 2000000000, if deposits then 20000000 else 0⟩),
        (poolB, ⟨700000000, 750000000, if deposits then 35000000 else 0⟩)]
      userBal := if deposits then upd (upd (fun _ => .empty) poolA (mp [(samwise, ⟨90000000, []⟩)])) poolB
        (mp [(samwise, ⟨75000000, []⟩)]) else fun _ => .empty } }

/-- the claimed amount; the backstop's BLND and LP tokens; and for each pool the shares of Samwise and of
Frodo, the pool's tokens and shares, its emissions data and Samwise's -/
def seen (x : Int) (w : World) : Int × Int × Int × List (Int × Int × Int × Int) × List (Option EmisData × Option UserEmis) :=
  let b := w.backstop
  (x, w.balance blndA backstopA, w.balance lpA backstopA,
    [poolA, poolB].map (fun p => ((b.getUserBal p samwise).shares, (b.getUserBal p frodo).shares,
      (b.getPoolBal p).tokens, (b.getPoolBal p).shares)),
    [poolA, poolB].map (fun p => (b.emisData p, (b.userEmis p).get samwise)))

/-- `test_claim` (and the first half of `test_claim_twice`) -/
example : (do
    let (x, w) ← executeClaim (world 1000000000 true) samwise [poolA, poolB] frodo
    pure (seen x w)) ≗
    .ok (753145677 + 62904190, 1000000000 - (753145677 + 62904190), 64729326,
      [(90000000, 45400274, 2000000000 + 60533699, 1500000000 + 45400274),
       (75000000, 3915917, 750000000 + 4195626, 700000000 + 3915917)],
      [(some ⟨83434384, T + 12345⟩, some ⟨83434384, 0⟩), (some ⟨7052631, T + 12345⟩, some ⟨7052631, 0⟩)]) := by
  decide +kernel
/-- `test_claim_twice` -/
example : (do
    let (_, w) ← executeClaim (world 2000000000 true) samwise [poolA, poolB] frodo
    let (x, w) ← executeClaim { w with time := T + 12345 + 12345 } samwise [poolA, poolB] frodo
    pure (seen x w)) ≗
    .ok (1005194703, 2000000000 - (753145677 + 62904190) - 1005194703, 65244800 + 77889107,
      [(90000000, 45400274 + 42609092, 2000000000 + 60533699 + 56812124, 1500000000 + 45400274 + 42609092),
       (75000000, 3915917 + 20152958, 750000000 + 4195626 + 21592456, 700000000 + 3915917 + 20152958)],
      [(some ⟨164363961, T + 24690⟩, some ⟨164363961, 0⟩), (some ⟨43963099, T + 24690⟩, some ⟨43963099, 0⟩)]) := by
  decide +kernel
/-- `test_claim_no_deposits` -/
example : (do
    let (x, w) ← executeClaim (world 1000000000 false) samwise [poolA, poolB] frodo
    pure (seen x w, w.balance blndA frodo)) ≗
    .ok ((0, 1000000000, 0, [(0, 0, 2000000000, 1500000000), (0, 0, 750000000, 700000000)],
      [(some ⟨82322222, T + 12345⟩, some ⟨82322222, 0⟩), (some ⟨6700000, T + 12345⟩, some ⟨6700000, 0⟩)]), 0) := by
  decide +kernel

/-! ### `manager.rs` -/

/-- the world of the gulp tests: three pools in the reward zone; the emitter distributed last 10 seconds
before the epoch, the backstop `ago` seconds before that -/
def gulpWorld (ago : Nat) : World :=
  let w := (base E 0 ⟨oracleA, 0, 0, 2⟩).wired 0
  { w with
    emitter := { w.emitter with lastDistro := fun a => if a = backstopA then some (E - 10) else none }
    backstop := { w.backstop with
      lastDistro := E - 10 - ago
      rewardZone := [poolA, poolB, poolC]
      emisCfg := upd (upd (fun _ => none) poolA (some ⟨E + 1000, 1000000⟩)) poolB (some ⟨E - 12345, 500000⟩)
      emisData := upd (upd (fun _ => none) poolA (some ⟨887766, E - 12345⟩)) poolB (some ⟨453234, E - 12345⟩)
      poolEmis := upd (fun _ => 0) poolA 1001230000000
      poolBal := mp [(poolA, ⟨2000000000000, 3000000000000, 0⟩), (poolB, ⟨1500000000000, 2000000000000, 0⟩),
        (poolC, ⟨6000000000000, 5000000000000, 0⟩)] } }

def gulp (ago : Nat) : R (Nat × List (Int × Int × Option EmisConfig × Option EmisData)) := do
  let (_, w) ← gulpEmissions (gulpWorld ago)
  let b := w.backstop
  pure (b.lastDistro, [poolA, poolB, poolC].map fun p =>
    ((b.getPoolBal p).tokens, b.poolEmis p, b.emisCfg p, b.emisData p))

/-- `test_gulp_emissions` -/
example : gulp (7 * 24 * 60 * 60) ≗
    .ok (E - 10, [(3000000000000, 1545550000000, some ⟨E + 7 * 24 * 60 * 60, 2101653⟩, some ⟨949491, E⟩),
      (2000000000000, 362880000000, some ⟨E + 7 * 24 * 60 * 60, 1400000⟩, some ⟨453234, E⟩),
      (5000000000000, 907200000000, some ⟨E + 7 * 24 * 60 * 60, 3500000⟩, some ⟨0, E⟩)]) := by decide +kernel
/-- `test_gulp_emissions_too_soon` -/
example : gulp (59 * 60) ≗ .error (.backstop .badRequest) := by decide +kernel

/-- `gulp_pool_emissions`: the emissions left and the pool's BLND allowance -/
def gulpPoolA (emis allow : Int) : R (Int × Int) := do
  let w := ((base E 0 ⟨oracleA, 0, 0, 2⟩).wired 0).setAllowance blndA backstopA poolA allow 1000
  let (_, w') ← gulpPoolEmissions { w with backstop := { w.backstop with poolEmis := upd (fun _ => 0) poolA emis } } poolA
  pure (w'.backstop.poolEmis poolA, w'.allowance blndA backstopA poolA)

/-- `test_gulp_pool_emissions` -/
example : gulpPoolA 1001230000000 0 ≗ .ok (0, 1001230000000) := by decide +kernel
/-- `test_gulp_pool_emissions_has_allowance` -/
example : gulpPoolA 1230000000 1234567 ≗ .ok (0, 1231234567) := by decide +kernel
/-- `test_gulp_pool_emissions_no_emissions` -/
example : gulpPoolA 0 0 ≗ .error (.backstop .badRequest) := by decide +kernel

/-- `add_to_reward_zone` of `poolA` for `poolB`, with the given tokens in their backstops: the zone and the
emissions of the removed pool -/
def addRz (time : Nat) (rz : List Address) (last : Nat) (bal : PoolBalance) : R (List Address × Int) := do
  let w := base time 0 ⟨oracleA, 0, 0, 2⟩
  let w' ← addReward { w with backstop := { w.backstop with
    rewardZone := rz, lastDistro := last, lpVal := some (50000000, 1000000)
    poolEmis := upd (fun _ => 0) poolB 1
    poolBal := mp [(poolA, bal), (poolB, ⟨900000000000, 1000000000000, 10000000000⟩)] } } poolA poolB
  pure (w'.backstop.rewardZone, w'.backstop.poolEmis poolB)

def enough : PoolBalance := ⟨900000000000, 1000000000000, 10000000000⟩
def more : PoolBalance := ⟨900000000000, 1000010000000, 10000000000⟩
/-- `n` other pools -/
def others (n : Nat) : List Address := (List.range n).map (· + 300)
/-- the ten pools of the swap tests: `poolB` at index 7 -/
def zone : List Address := others 7 ++ [poolB] ++ (others 9).drop 7

/-- `test_add_to_rz_empty_adds_pool` -/
example : addRz E [] 0 enough ≗ .ok ([poolA], 1) := by decide +kernel
/-- `test_add_to_rz_before_epoch_max_10` -/
example : addRz (E - 100000) (others 9) 0 enough ≗ .ok (poolA :: others 9, 1) := by decide +kernel
/-- `test_add_to_rz_empty_pool_under_backstop_threshold` -/
example : addRz E [] 0 ⟨1000000000000, 750000000000, 10000000000⟩ ≗ .error (.backstop .invalidRewardZoneEntry) := by
  decide +kernel
/-- `test_add_to_rz_increases_size_over_time` -/
example : addRz (E + 2 ^ 23) (others 10) 0 enough ≗ .ok (poolA :: others 10, 1) := by decide +kernel
/-- `test_add_to_rz_takes_floor_for_size` -/
example : addRz (E + 2 ^ 23 - 1) (others 10) 0 enough ≗ .error (.backstop .invalidRewardZoneEntry) := by
  decide +kernel
/-- `test_add_to_rz_swap_happy_path` -/
example : addRz E zone (E - 24 * 60 * 60) more ≗ .ok (zone.set 7 poolA, 1) := by decide +kernel
/-- `test_add_to_rz_swap_not_enough_tokens` -/
example : addRz E zone (E - 24 * 60 * 60) enough ≗ .error (.backstop .invalidRewardZoneEntry) := by decide +kernel
/-- `test_add_to_rz_swap_distribution_too_long_ago` -/
example : addRz E zone (E - 24 * 60 * 60 - 1) more ≗ .error (.backstop .badRequest) := by decide +kernel
/-- `test_add_to_rz_to_remove_not_in_rz` -/
example : addRz E (others 10) (E - 24 * 60 * 60) more ≗ .error (.backstop .invalidRewardZoneEntry) := by
  decide +kernel
/-- `test_add_to_rz_already_exists_panics` -/
example : addRz E (others 1 ++ [poolB] ++ (others 6).drop 1 ++ [poolA] ++ (others 8).drop 6) (E - 24 * 60 * 60) more ≗
    .error (.backstop .badRequest) := by decide +kernel

end BackstopEmissions
end Conformance
end Blend
