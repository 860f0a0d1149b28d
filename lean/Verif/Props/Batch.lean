import Verif.Lemmas.Batch
import Verif.Props.SameLedger
/-
  C65: several submits in a ledger do the same as one.
-/

namespace Blend
namespace Props
open Pool Spec Demo

variable {w w1 w2 w' : World} {p sender spender dst : Address} {auth auth1 auth2 : List Address} {l1 l2 : List Request}

/-- **C65** Requests have the same effect in one submit as in two submits one after the other in the same ledger (if all of
these go through): all accounts have the same shares, all auctions, the backstop's tokens and interest, and all balances of
all tokens are the same. Splitting requests gains nothing from rounding and loses nothing. -/
theorem C65_batching (hr : Reachable w)
    (h : step w (.pool p auth (.submit sender spender dst (l1 ++ l2))) = .ok w')
    (h1 : step w (.pool p auth1 (.submit sender spender dst l1)) = .ok w1)
    (h2 : step w1 (.pool p auth2 (.submit sender spender dst l2)) = .ok w2) :
    (∀ x i, (getPositions (w'.pools p) x).supply.bal i = (getPositions (w2.pools p) x).supply.bal i ∧
      (getPositions (w'.pools p) x).collateral.bal i = (getPositions (w2.pools p) x).collateral.bal i ∧
      (getPositions (w'.pools p) x).liabilities.bal i = (getPositions (w2.pools p) x).liabilities.bal i) ∧
    (w'.pools p).auctions = (w2.pools p).auctions ∧
    (w'.backstop.getPoolBal p).tokens = (w2.backstop.getPoolBal p).tokens ∧
    (∀ a, creditOf (w'.pools p) w'.time a = creditOf (w2.pools p) w2.time a) ∧
    ∀ t x, w'.balance t x = w2.balance t x := by
  have hr1 := hr.step h1
  have hp := (submit_view hr h1).1
  have hp1 := (submit_view hr1 h2).1
  obtain ⟨B, run, pos, auc, lp, cr, bal⟩ := submit_full hr h
  obtain ⟨B1, run1, pos1, auc1, lp1, cr1, bal1⟩ := submit_full hr h1
  obtain ⟨B2, run2, pos2, auc2, lp2, cr2, bal2⟩ := submit_full hr1 h2
  obtain ⟨Bm, r1, r2⟩ := run_split run
  obtain rfl := run_unique (hr.ratesPos hp) r1 run1
  have e : Bm = (booksOf w1 p).shift sender (Bm.acct sender).pays (Bm.acct sender).gets
      (fun t x => Bm.wallet t x - w1.balance t x) := by
    have ha : Bm.acct = upd (accountOf (w1.pools p)) sender ((accountOf (w1.pools p) sender).shift (Bm.acct sender).pays (Bm.acct sender).gets) := by
      funext x
      by_cases hx : x = sender
      · subst hx
        rw [upd_same]
        simp only [Account.shift, accountOf, Int.zero_add, pos1]
      · rw [upd_ne hx]
        obtain ⟨o1, o2⟩ := run_others r1 hx
        simp only [accountOf, pos1]
        cases hB : Bm.acct x
        rw [hB] at o1 o2
        simp only [Account.mk.injEq, true_and]
        exact ⟨o1, o2⟩
    cases Bm
    simp only [Books.shift, booksOf, Books.mk.injEq]
    refine ⟨ha, auc1.symm, lp1.symm, ?_, ?_⟩
    · funext t x; omega
    · funext a; exact (cr1 a).symm
  rw [e] at r2
  obtain rfl := run_shift (.of_submit hr h1) (hr1.ratesPos hp1) r2 run2
  refine ⟨fun x i => ?_, auc.trans auc2.symm, lp.trans lp2.symm, fun a => (cr a).trans (cr2 a).symm, fun t x => ?_⟩
  · obtain ⟨p1, p2, p3⟩ := pos x i
    obtain ⟨q1, q2, q3⟩ := pos2 x i
    rw [p1, p2, p3, q1, q2, q3]
    simp only [Books.shift]
    by_cases hx : x = sender
    · subst hx; rw [upd_same]; exact ⟨rfl, rfl, rfl⟩
    · rw [upd_ne hx]; exact ⟨rfl, rfl, rfl⟩
  · rw [bal, bal2]
    simp only [Books.shift, upd_same, Account.shift]
    have := bal1 t x
    split_ifs at this ⊢ <;> omega

/-- non-vacuity: dave supplies collateral and fills half of bob's liquidation, and repays a part of his new debt and withdraws, in one submit
or in two -/
example : ∃ w w' w1 w2, Reachable w ∧
    step w (.pool poolA [dave] (.submit dave dave dave ([⟨2, usdcA, 100000000001⟩, ⟨6, bob, 50⟩] ++ [⟨5, usdcA, 1000000007⟩, ⟨3, usdcA, 333⟩]))) = .ok w' ∧
    step w (.pool poolA [dave] (.submit dave dave dave [⟨2, usdcA, 100000000001⟩, ⟨6, bob, 50⟩])) = .ok w1 ∧
    step w1 (.pool poolA [dave] (.submit dave dave dave [⟨5, usdcA, 1000000007⟩, ⟨3, usdcA, 333⟩])) = .ok w2 ∧
    (accountOf (w2.pools poolA) dave).debt 0 < (accountOf (w1.pools poolA) dave).debt 0 := by
  obtain ⟨w, w', _, hr, hs, h⟩ := Demo.reach_step (ops := setup ++ trade ++ emissions ++ claims ++ liquidation.take 3)
    (op := .pool poolA [dave] (.submit dave dave dave ([⟨2, usdcA, 100000000001⟩, ⟨6, bob, 50⟩] ++ [⟨5, usdcA, 1000000007⟩, ⟨3, usdcA, 333⟩])))
    (f := fun w _ => okAnd (step w (.pool poolA [dave] (.submit dave dave dave [⟨2, usdcA, 100000000001⟩, ⟨6, bob, 50⟩]))) fun w1 =>
      okAnd (step w1 (.pool poolA [dave] (.submit dave dave dave [⟨5, usdcA, 1000000007⟩, ⟨3, usdcA, 333⟩]))) fun w2 =>
        decide ((accountOf (w2.pools poolA) dave).debt 0 < (accountOf (w1.pools poolA) dave).debt 0)) (by decide +kernel)
  obtain ⟨w1, h1, h⟩ := okAnd_iff.1 h
  obtain ⟨w2, h2, h⟩ := okAnd_iff.1 h
  exact ⟨w, w', w1, w2, hr, hs, h1, h2, of_decide_eq_true h⟩

end Props
end Blend
