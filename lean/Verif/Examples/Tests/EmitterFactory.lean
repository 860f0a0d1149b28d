import Verif.Examples.Tests.Base
/-
  `emitter/src/emitter.rs`, `emitter/src/backstop_manager.rs` and `pool-factory/src/test.rs`, tests
-/

namespace Blend
namespace Conformance
namespace EmitterFactory
open Emitter

abbrev newBackstop : Address := 4
abbrev newToken : Address := 13
abbrev million : Int := 1000000 * SCALAR_7

/-- the emitter tests run at ledger time 12345; the current backstop holds a million backstop tokens -/
def world (last : Nat) (newHolds : Int) (swap : Option Swap) : World :=
  let w := ((base 12345 500 ⟨oracleA, 0, 0, 2⟩).give lpA backstopA million).give lpA newBackstop newHolds
  { w with emitter := {
      inst := some ⟨blndA, backstopA, lpA⟩, swap := swap, dropped := fun a => decide (a = backstopA)
      lastDistro := fun a => if a = backstopA then some last else none } }

/-- the emitter's backstop, token and queued swap -/
def seen (w : World) : Option EmitterInst × Option Swap := (w.emitter.inst, w.emitter.swap)

/-- `test_execute_queue_swap_backstop` -/
example : (do pure (seen (← queueSwap (world 1000 (1000001 * SCALAR_7) none) newBackstop newToken))) ≗
    .ok (some ⟨blndA, backstopA, lpA⟩, some ⟨newBackstop, newToken, 2678400 + 12345⟩) := by decide +kernel
/-- `test_execute_queue_swap_backstop_insufficient_funds` -/
example : (do pure (seen (← queueSwap (world 1000 million none) newBackstop newToken))) ≗
    .error (.emitter .insufficientBackstopSize) := by decide +kernel
/-- `test_execute_queue_swap_backstop_already_exists` -/
example : (do pure (seen (← queueSwap (world 1000 (1000001 * SCALAR_7) (some ⟨newBackstop, newToken, 0⟩)) newBackstop
    newToken))) ≗ .error (.emitter .swapAlreadyExists) := by decide +kernel
/-- `test_execute_cancel_swap_backstop` -/
example : (do pure (seen (← cancelSwap (world 1000 million (some ⟨newBackstop, newToken, 13345⟩))))) ≗
    .ok (some ⟨blndA, backstopA, lpA⟩, none) := by decide +kernel
/-- `test_execute_cancel_swap_backstop_valid_swap` -/
example : (do pure (seen (← cancelSwap (world 1000 (1000001 * SCALAR_7) (some ⟨newBackstop, newToken, 13345⟩))))) ≗
    .error (.emitter .swapCannotBeCanceled) := by decide +kernel
/-- `test_execute_cancel_swap_backstop_none_queued` -/
example : (do pure (seen (← cancelSwap (world 1000 million none)))) ≗ .error (.emitter .swapNotQueued) := by
  decide +kernel

/-- after `execute_swap_backstop`: the emitter, both last distribution times and both BLND balances -/
def swapped (w : World) : R ((Option EmitterInst × Option Swap) × Option Nat × Option Nat × Int × Int) := do
  let w' ← swapBackstop w
  pure (seen w', w'.emitter.lastDistro backstopA, w'.emitter.lastDistro newBackstop, w'.balance blndA backstopA,
    w'.balance blndA newBackstop)

/-- `test_execute_swap_backstop` -/
example : swapped (world 10000 (1000001 * SCALAR_7) (some ⟨newBackstop, newToken, 12345⟩)) ≗
    .ok ((some ⟨blndA, newBackstop, newToken⟩, none), some 12345, some 12345, 2345 * SCALAR_7, 0) := by
  decide +kernel
/-- `test_execute_swap_backstop_not_unlocked` -/
example : swapped (world 10000 (1000001 * SCALAR_7) (some ⟨newBackstop, newToken, 12346⟩)) ≗
    .error (.emitter .swapNotUnlocked) := by decide +kernel
/-- `test_execute_swap_backstop_no_queue` -/
example : swapped (world 10000 (1000001 * SCALAR_7) none) ≗ .error (.emitter .swapNotQueued) := by decide +kernel
/-- `test_execute_swap_backstop_insufficient_funds` -/
example : swapped (world 10000 million (some ⟨newBackstop, newToken, 12345⟩)) ≗
    .error (.emitter .insufficientBackstopSize) := by decide +kernel

/-- `test_distribute` -/
example : (do
    let (x, w) ← executeDistribute (world 1000 0 none) backstopA
    pure (x, w.balance blndA backstopA, w.emitter.lastDistro backstopA)) ≗
    .ok (113450000000, 113450000000, some 12345) := by decide +kernel

/-- `execute_drop` of 20 million BLND to Frodo and `x` to Samwise -/
def dropTo (done : Bool) (x : Int) : R (Bool × Int × Int) := do
  let w := world 1000 0 none
  let w' ← drop { w with emitter := { w.emitter with dropped := fun _ => done } } [backstopA]
    [(frodo, 20000000 * SCALAR_7), (samwise, x)]
  pure (w'.emitter.dropped backstopA, w'.balance blndA frodo, w'.balance blndA samwise)

/-- `test_drop` -/
example : dropTo false (30000000 * SCALAR_7) ≗ .ok (true, 20000000 * SCALAR_7, 30000000 * SCALAR_7) := by
  decide +kernel
/-- `test_drop_already_dropped` -/
example : dropTo true (30000000 * SCALAR_7) ≗ .error (.emitter .badDrop) := by decide +kernel
/-- `test_drop_too_large` -/
example : dropTo false (30000001 * SCALAR_7) ≗ .error (.emitter .badDrop) := by decide +kernel

/-! ### The pool factory -/

/-- nothing deployed yet -/
def start : World :=
  { base 0 0 ⟨oracleA, 0, 0, 2⟩ with pools := fun _ => {}, deployAddr := fun a s => 100 + (a % 50) * 10 + s }

def initd : R World := Factory.init start ⟨backstopA, blndA⟩

/-- `test_pool_factory`: `initialize` works once -/
example : (do
    let _ ← Factory.init (← initd) ⟨backstopA, blndA⟩
    pure ()) ≗ .error (.factory .alreadyInitialized) := by decide +kernel
/-- `test_pool_factory`: two pools of one admin -/
example : (do
    let (a, w) ← Factory.deploy (← initd) [bombadil] bombadil 1 oracleA 1000000 6
    let (b, w) ← Factory.deploy w [bombadil] bombadil 2 oracleA 1000000 6
    pure ((w.pools a).inst.map (fun i => (i.admin, i.backstop, i.blnd, i.config)), decide (a = b), Factory.isPool w a, Factory.isPool w b, Factory.isPool w 150)) ≗
    .ok (some (bombadil, backstopA, blndA, ⟨oracleA, 1000000, 6, 6⟩), false, true, true, false) := by
  decide +kernel
/-- `test_pool_factory_invalid_pool_init_args_backstop_rate` -/
example : (do
    let (_, _) ← Factory.deploy (← initd) [bombadil] bombadil 1 oracleA 10000000 6
    pure ()) ≗ .error (.factory .invalidPoolInitArgs) := by decide +kernel
/-- `test_pool_factory_invalid_pool_init_args_max_positions` -/
example : (do
    let (_, _) ← Factory.deploy (← initd) [bombadil] bombadil 1 oracleA 1000000 1
    pure ()) ≗ .error (.factory .invalidPoolInitArgs) := by decide +kernel
/-- `test_pool_factory_frontrun_protection`: two admins, one salt (the address depends on the admin) -/
example : (do
    let (a, w) ← Factory.deploy (← initd) [sauron] sauron 1 oracleA 1000000 6
    let (b, w) ← Factory.deploy w [bombadil] bombadil 1 oracleA 1000000 6
    pure (decide (a = b), Factory.isPool w a, Factory.isPool w b)) ≗ .ok (false, true, true) := by decide +kernel

end EmitterFactory
end Conformance
end Blend
