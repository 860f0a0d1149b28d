import Verif.Examples.Tests.Base
/-
  `backstop/src/backstop/deposit.rs`, `withdrawal.rs` and `fund_management.rs`, tests
-/

namespace Blend
namespace Conformance
namespace BackstopFunds
open Backstop

/-- a backstop whose factory deployed `pools`, with LP tokens minted to users -/
def world (pools : List Address) (bals : List (Address × Int)) : World :=
  let w := (base 0 0 ⟨oracleA, 0, 0, 2⟩).wired 0
  bals.foldl (fun w x => w.give lpA x.1 x.2)
    { w with factory := { w.factory with deployed := fun a => decide (a ∈ pools) } }

def dep (w : World) (u p : Address) (x : Int) : R World := do
  let (_, w') ← executeDeposit w u p x
  pure w'

/-- `test_execute_deposit` -/
example : (do
    let w ← dep (world [poolA, poolB] [(samwise, 1000000000), (frodo, 1000000000)]) frodo poolA 250000000
    let w ← executeDonate w frodo poolA 250000000
    let (s0, w) ← executeDeposit w samwise poolA 300000000
    let (s1, w) ← executeDeposit w samwise poolB 700000000
    pure (s0, s1, w.backstop.getPoolBal poolA, w.backstop.getPoolBal poolB, w.backstop.getUserBal poolA samwise,
      w.backstop.getUserBal poolB samwise, w.balance lpA backstopA, w.balance lpA samwise)) ≗
    .ok (150000000, 700000000, ⟨400000000, 800000000, 0⟩, ⟨700000000, 700000000, 0⟩, ⟨150000000, []⟩,
      ⟨700000000, []⟩, 1500000000, 0) := by decide +kernel

/-- `execute_deposit`, only whether it works -/
def try_ (w : World) (u p : Address) (x : Int) : R Unit := do
  let (_, _) ← executeDeposit w u p x
  pure ()

def w1 : World := world [poolA] [(samwise, 1000000000)]

/-- `test_execute_deposit_too_many_tokens` -/
example : try_ w1 samwise poolA 1000000001 ≗ .error .token := by decide +kernel
/-- `test_execute_deposit_negative_tokens` -/
example : try_ w1 samwise poolA (-100) ≗ .error (.backstop .negativeAmount) := by decide +kernel
/-- `test_execute_deposit_from_is_to` -/
example : try_ w1 poolA poolA 100 ≗ .error (.backstop .badRequest) := by decide +kernel
/-- `test_execute_deposit_from_self` -/
example : try_ w1 backstopA poolA 100 ≗ .error (.backstop .badRequest) := by decide +kernel
/-- `text_execute_deposit_not_pool` -/
example : try_ (world [] [(samwise, 1000000000)]) samwise poolA 100 ≗ .error (.backstop .notPool) := by
  decide +kernel
/-- `test_execute_deposit_zero_share_mint` -/
example : (do
    let w ← dep (world [poolA, poolB] [(samwise, 1000000000), (frodo, 1000000000000000)]) frodo poolA 10000000
    let w ← executeDonate w frodo poolA (10000000 * SCALAR_7)
    try_ w samwise poolA 10000000) ≗ .error (.backstop .invalidShareMint) := by decide +kernel

/-- deposit at time 0, then move to ledger time 10000 -/
def deposited : R World := do pure ((← dep w1 samwise poolA 1000000000).goto 10000 200)

/-- `test_execute_queue_withdrawal` -/
example : (do
    let w ← executeQueue (← deposited) samwise poolA 420000000
    pure (w.backstop.getUserBal poolA samwise, w.backstop.getPoolBal poolA, w.balance lpA backstopA,
      w.balance lpA samwise)) ≗
    .ok (⟨580000000, [⟨420000000, 10000 + 21 * 24 * 60 * 60⟩]⟩, ⟨1000000000, 1000000000, 420000000⟩,
      1000000000, 0) := by decide +kernel
/-- `test_execute_queue_withdrawal_negative_amount` -/
example : (do
    let _ ← executeQueue (← deposited) samwise poolA (-420000000)
    pure ()) ≗ .error (.backstop .negativeAmount) := by decide +kernel

/-- 75 deposited, 25 queued at time 0, 40 at time 10000; now it is 20000 -/
def queuedTwice : R World := do
  let w ← dep w1 samwise poolA 750000000
  let w ← executeQueue w samwise poolA 250000000
  let w ← executeQueue (w.goto 10000 100) samwise poolA 400000000
  pure (w.goto 20000 200)

/-- `test_execute_dequeue_withdrawal` -/
example : (do
    let w ← executeDequeue (← queuedTwice) samwise poolA 300000000
    pure (w.backstop.getUserBal poolA samwise, w.backstop.getPoolBal poolA)) ≗
    .ok (⟨400000000, [⟨350000000, 10000 + 21 * 24 * 60 * 60⟩]⟩, ⟨750000000, 750000000, 350000000⟩) := by
  decide +kernel
/-- `test_execute_dequeue_withdrawal_negative_amount` -/
example : (do
    let _ ← executeDequeue (← queuedTwice) samwise poolA (-300000000)
    pure ()) ≗ .error (.backstop .negativeAmount) := by decide +kernel

/-- 100 deposited, 42 shares queued, 50 donated; the lock has passed -/
def unlocked : R World := do
  let w ← dep ((world [poolA] [(samwise, 1500000000)]).goto 10000 200) samwise poolA 1000000000
  let w ← executeQueue w samwise poolA 420000000
  let w ← executeDonate w samwise poolA 500000000
  pure (w.goto (10000 + 21 * 24 * 60 * 60 + 1) 200)

/-- `test_execute_withdrawal` -/
example : (do
    let (x, w) ← executeWithdraw (← unlocked) samwise poolA 420000000
    pure (x, w.backstop.getUserBal poolA samwise, w.backstop.getPoolBal poolA, w.balance lpA backstopA,
      w.balance lpA samwise)) ≗
    .ok (630000000, ⟨580000000, []⟩, ⟨580000000, 870000000, 0⟩, 870000000, 630000000) := by decide +kernel
/-- `test_execute_withdrawal_negative_amount` -/
example : (do
    let (_, _) ← executeWithdraw (← unlocked) samwise poolA (-420000000)
    pure ()) ≗ .error (.backstop .negativeAmount) := by decide +kernel
/-- `test_execute_withdrawal_zero_tokens` -/
example : (do
    let w ← dep ((world [poolA] [(samwise, 1500000000), (frodo, 1500000000)]).goto 10000 200) frodo poolA 10000001
    let w ← dep w samwise poolA 10000000
    let w ← executeQueue w samwise poolA 10000000
    let w ← executeDraw w poolA 19999999 frodo
    let (_, _) ← executeWithdraw (w.goto (10000 + 21 * 24 * 60 * 60 + 1) 200) samwise poolA 10000000
    pure ()) ≗ .error (.backstop .invalidTokenWithdraw) := by decide +kernel

/-- Frodo deposited `x` in each of the pools -/
def frodoIn (x : Int) (pools : List Address) : R World :=
  pools.foldlM (fun w p => dep w frodo p x) (world pools [(samwise, 1000000000), (frodo, 1000000000)])

/-- `execute_donate` / `execute_draw`: the pool's balance and the LP tokens of the backstop and Samwise -/
def seen (w : World) : PoolBalance × Int × Int :=
  (w.backstop.getPoolBal poolA, w.balance lpA backstopA, w.balance lpA samwise)

/-- `test_execute_donate` -/
example : (do pure (seen (← executeDonate (← frodoIn 250000000 [poolA]) samwise poolA 300000000))) ≗
    .ok (⟨250000000, 550000000, 0⟩, 550000000, 700000000) := by decide +kernel
/-- `test_execute_donate_negative_amount` -/
example : (do pure (seen (← executeDonate (← frodoIn 250000000 [poolA]) samwise poolA (-300000000)))) ≗
    .error (.backstop .negativeAmount) := by decide +kernel
/-- `test_execute_donate_from_is_to` -/
example : (do pure (seen (← executeDonate (← frodoIn 250000000 [poolA]) poolA poolA 100000000))) ≗
    .error (.backstop .badRequest) := by decide +kernel
/-- `test_execute_donate_from_is_self` -/
example : (do pure (seen (← executeDonate (← frodoIn 250000000 [poolA]) backstopA poolA 100000000))) ≗
    .error (.backstop .badRequest) := by decide +kernel
/-- `test_execute_donate_not_pool` -/
example : (do pure (seen (← executeDonate (world [] [(samwise, 1000000000)]) samwise poolA 300000000))) ≗
    .error (.backstop .notPool) := by decide +kernel
/-- `test_execute_draw` (Samwise also holds the 100 tokens `frodoIn` gave him) -/
example : (do pure (seen (← executeDraw (← frodoIn 500000000 [poolA]) poolA 300000000 samwise))) ≗
    .ok (⟨500000000, 200000000, 0⟩, 200000000, 1000000000 + 300000000) := by decide +kernel
/-- `test_execute_draw_only_can_take_from_pool` -/
example : (do pure (seen (← executeDraw (← frodoIn 500000000 [poolA, poolB]) poolA 510000000 samwise))) ≗
    .error (.backstop .insufficientFunds) := by decide +kernel
/-- `test_execute_draw_negative_amount` -/
example : (do pure (seen (← executeDraw (← frodoIn 500000000 [poolA]) poolA (-300000000) samwise))) ≗
    .error (.backstop .negativeAmount) := by decide +kernel
/-- `test_execute_update_comet_token_value` -/
example : (do pure (← updateTknVal ((base 0 0 ⟨oracleA, 0, 0, 2⟩).wired 1000000000)).backstop.lpVal) ≗
    .ok (some (100000000, 2500000)) := by decide +kernel

end BackstopFunds
end Conformance
end Blend
