import Verif.Examples.Tests.Base
/-
  `backstop/src/backstop/pool.rs` and `backstop/src/backstop/user.rs`, tests
-/

namespace Blend
namespace Conformance
namespace BackstopBalances
open Backstop

/-- a backstop holding a balance for the pool, with the given value of an LP token -/
def world (pb : PoolBalance) (lp : Int × Int) : World :=
  let w := base 0 0 ⟨oracleA, 0, 0, 2⟩
  { w with backstop := { w.backstop with poolBal := mp [(poolA, pb)], lpVal := some lp } }

/-- `load_pool_backstop_data`: tokens, share queued, BLND, USDC -/
def load (pb : PoolBalance) (lp : Int × Int) : R (Int × Int × Int × Int) := do
  let d ← loadPoolData (world pb lp) poolA
  pure (d.tokens, d.q4wPct, d.blnd, d.usdc)

/-- `test_load_pool_data` -/
example : load ⟨1500000000, 2500000000, 500000000⟩ (50000000, 500000) ≗
    .ok (2500000000, 3333334, 12500000000, 125000000) := by decide +kernel
/-- `test_load_pool_data_no_shares` -/
example : load ⟨0, 2500000000, 0⟩ (50000000, 500000) ≗ .ok (2500000000, 0, 12500000000, 125000000) := by
  decide +kernel

/-- a factory that deployed only `poolA` -/
def factory : World := (base 0 0 ⟨oracleA, 0, 0, 2⟩).wired 0

/-- `test_require_is_from_pool_factory` -/
example : requireIsFromFactory factory poolA 0 ≗ .ok () := by decide +kernel
/-- `test_require_is_from_pool_factory_skips_if_balance` -/
example : requireIsFromFactory (base 0 0 ⟨oracleA, 0, 0, 2⟩) poolA 1 ≗ .ok () := by decide +kernel
/-- `test_require_is_from_pool_factory_not_valid` -/
example : requireIsFromFactory factory poolB 0 ≗ .error (.backstop .notPool) := by decide +kernel

/-- `test_require_pool_above_threshold_under` -/
example : poolAboveThreshold ⟨200000000000, 0, 3000000000000, 250000000000⟩ = false := by decide +kernel
/-- `test_require_pool_above_threshold_zero` -/
example : poolAboveThreshold ⟨5000000000, 0, 50000000000, 10000000000⟩ = false := by decide +kernel
/-- `test_require_pool_above_threshold_over` -/
example : poolAboveThreshold ⟨150000000000, 0, 3646430000000, 181000000000⟩ = true := by decide +kernel
/-- `test_require_pool_above_threshold_saturates` -/
example : poolAboveThreshold ⟨9999990000000, 0, 500000000000000, 100000000000000⟩ = true := by decide +kernel

/-- `test_convert_to_shares_no_shares` -/
example : toShares ⟨0, 0, 0⟩ 1234567 ≗ .ok 1234567 := by decide +kernel
/-- `test_convert_to_shares` -/
example : toShares ⟨80321, 103302, 0⟩ 1234567 ≗ .ok 959920 := by decide +kernel
/-- `test_convert_to_tokens_no_shares` -/
example : toTokens ⟨0, 0, 0⟩ 1234567 ≗ .ok 1234567 := by decide +kernel
/-- `test_convert_to_tokens` -/
example : toTokens ⟨80321, 103302, 0⟩ 40000 ≗ .ok 51444 := by decide +kernel
/-- `test_deposit` -/
example : pbDeposit ⟨100, 200, 25⟩ 50 25 ≗ .ok ⟨125, 250, 25⟩ := by decide +kernel
/-- `test_withdraw` and `test_q4w` (the same calls) -/
example : pbWithdraw ⟨100, 200, 25⟩ 50 25 ≗ .ok ⟨75, 150, 0⟩ := by decide +kernel
/-- `test_withdraw_too_much` -/
example : pbWithdraw ⟨100, 200, 25⟩ 201 25 ≗ .error (.backstop .insufficientFunds) := by decide +kernel
/-- `test_dequeue_q4w` -/
example : pbDequeue ⟨100, 200, 25⟩ 25 ≗ .ok ⟨100, 200, 0⟩ := by decide +kernel
/-- `test_dequeue_q4w_too_much` -/
example : pbDequeue ⟨100, 200, 25⟩ 26 ≗ .error (.backstop .insufficientFunds) := by decide +kernel

/-- `test_add_shares` -/
example : addShares ⟨100, []⟩ 12318972 ≗ .ok ⟨12319072, []⟩ := by decide +kernel
/-- `test_q4w_none_queued` -/
example : queueShares ⟨1000, []⟩ 10000 500 ≗ .ok ⟨500, [⟨500, 10000 + 21 * 24 * 60 * 60⟩]⟩ := by decide +kernel
/-- `test_q4w_new_placed_last` -/
example : queueShares ⟨1000, [⟨200, 12592000⟩]⟩ 11000000 500 ≗
    .ok ⟨500, [⟨200, 12592000⟩, ⟨500, 11000000 + 21 * 24 * 60 * 60⟩]⟩ := by decide +kernel

/-- `n` entries of 200 shares -/
def entries (n : Nat) : List Q4W := (List.range n).map fun i => ⟨200, 12592000 + i⟩

/-- `test_q4w_new_to_max_works` -/
example : queueShares ⟨1000, entries 20⟩ 11000000 500 ≗
    .ok ⟨500, entries 20 ++ [⟨500, 11000000 + 21 * 24 * 60 * 60⟩]⟩ := by decide +kernel
/-- `test_q4w_new_over_max_panics` -/
example : queueShares ⟨1000, entries 21⟩ 11000000 500 ≗ .error (.backstop .tooManyQ4W) := by decide +kernel
/-- `test_q4w_over_shares_panics` -/
example : queueShares ⟨800, [⟨200, 12592000⟩]⟩ 11000000 801 ≗ .error (.backstop .balanceError) := by decide +kernel
/-- `test_withdraw_shares_no_q4w_panics` -/
example : dequeueShares ⟨1000, []⟩ 11000000 1 false ≗ .error (.backstop .balanceError) := by decide +kernel
/-- `test_withdraw_shares_exact_amount` -/
example : dequeueShares ⟨1000, [⟨200, 12592000⟩]⟩ 12592000 200 true ≗ .ok ⟨1000, []⟩ := by decide +kernel
/-- `test_withdraw_shares_less_than_entry` -/
example : dequeueShares ⟨1000, [⟨200, 12592000⟩]⟩ 12592000 150 false ≗ .ok ⟨1000, [⟨50, 12592000⟩]⟩ := by
  decide +kernel

def three : UserBalance := ⟨1000, [⟨125, 10000000⟩, ⟨200, 12592000⟩, ⟨50, 19592000⟩]⟩

/-- `test_withdraw_shares_multiple_entries` -/
example : dequeueShares three 22592000 300 true ≗ .ok ⟨1000, [⟨25, 12592000⟩, ⟨50, 19592000⟩]⟩ := by decide +kernel
/-- `test_withdraw_shares_multiple_entries_not_exp`, `test_try_dequeue_shares_require_expired_expect_panic` -/
example : dequeueShares three 11192000 300 true ≗ .error (.backstop .notExpired) := by decide +kernel
/-- `test_try_withdraw_shares_over_total` -/
example : dequeueShares three 11192000 376 false ≗ .error (.backstop .balanceError) := by decide +kernel

end BackstopBalances
end Conformance
end Blend
