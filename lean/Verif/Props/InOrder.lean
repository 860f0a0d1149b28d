import Verif.Lemmas.LiveOrder
import Verif.Props.Exits
import Verif.Examples.HealthDemo
/-
  C59: exactly the submits that are in order go through.
-/

namespace Blend
namespace Props
open Spec Pool Demo

variable {w : World} {p : Address} {auth : List Address} {sender spender dst : Address} {i : PoolInst} {reqs : List Request} {A : Account}

/-- the plan of a submit leads to one account only -/
theorem plan_unique {ps : PoolState} {now : Nat} (hrt : RatesPos ps now) {A0 : Account} {l : List Request} {A A1 : Account}
    (h : Plan ps now A0 l A A1) : ∀ {A2}, Plan ps now A0 l A A2 → A1 = A2 := by
  induction h with
  | nil A => intro A2 h; cases h; rfl
  | cons c1 c2 c3 _ _ ih =>
    intro A2 h
    cases h with
    | cons d1 d2 d3 _ d5 =>
      rw [c1] at d1; cases d1
      have := Current.unique c2 d2
      subst this
      have hr := hrt _ _ c2
      have := Effect.unique hr.1 hr.2 c3 d3
      subst this
      exact ih d5

/-- **C59** A submit of supplies, withdrawals, borrows and repayments that went through was orderly and covered, and it left
its sender with the account, and everybody with the tokens, that the plan of its requests says. -/
theorem C59_only_if {w' : World} (hr : Reachable w) (hs : step w (.pool p auth (.submit sender spender dst reqs)) = .ok w')
    (hi : (w.pools p).inst = some i) (hpl : ∀ q ∈ reqs, Plain q) (hpr : PricesOk w (w.pools p)) :
    ∃ A, Orderly w p i sender reqs A ∧ Covered w p spender A ∧ HasPositions A (getPositions (w'.pools p) sender) ∧
      ∀ t x, w'.balance t x = w.balance t x + (if x = p then A.pays t - A.gets t else 0) - (if x = spender then A.pays t else 0)
        + (if x = dst then A.gets t else 0) := by
  obtain ⟨A, h1, h2, h3, h4, h5⟩ := orderly_of_ok hr hs hi hpl hpr
  exact ⟨A, h1, ⟨h2, h3⟩, h4, h5⟩

/-- **C59** Conversely, an orderly and covered submit is accepted, with that outcome, unless an amount overflows: there is
no other reason for which it could fail. -/
theorem C59_accepted (hr : Reachable w) (hp : w.poolAddr p = true) (hcall : Caller w p auth sender spender dst)
    (hi : (w.pools p).inst = some i) (hpl : ∀ q ∈ reqs, Plain q) (hpr : PricesOk w (w.pools p)) (ho : Orderly w p i sender reqs A)
    (hc : Covered w p spender A) :
    step w (.pool p auth (.submit sender spender dst reqs)) = .error .overflow ∨
    ∃ w', step w (.pool p auth (.submit sender spender dst reqs)) = .ok w' ∧ HasPositions A (getPositions (w'.pools p) sender) ∧
      ∀ t x, w'.balance t x = w.balance t x + (if x = p then A.pays t - A.gets t else 0) - (if x = spender then A.pays t else 0)
        + (if x = dst then A.gets t else 0) := by
  cases hs : step w (.pool p auth (.submit sender spender dst reqs)) with
  | error e =>
    refine .inl ?_
    have := orderly_live (E := Unexpected False) hr hp unexpected_overflow hcall hi hpl (fun _ => hpr) ho (fun _ => hc.paid) (fun _ => hc.out)
    rcases of_unexpected this hs with h | ⟨_, h⟩
    · rw [h]
    · exact h.elim
  | ok w' =>
    obtain ⟨A', h1, _, h3⟩ := C59_only_if hr hs hi hpl hpr
    have := plan_unique (hr.ratesPos hp) ho.plan h1.plan
    subst this
    exact .inr ⟨w', rfl, h3⟩

/-- **C59** An orderly submit that is not covered fails for lack of tokens (or because an amount overflows). -/
theorem C59_uncovered (hr : Reachable w) (hp : w.poolAddr p = true) (hcall : Caller w p auth sender spender dst)
    (hi : (w.pools p).inst = some i) (hpl : ∀ q ∈ reqs, Plain q) (hpr : PricesOk w (w.pools p)) (ho : Orderly w p i sender reqs A)
    (hc : ¬ Covered w p spender A) :
    step w (.pool p auth (.submit sender spender dst reqs)) = .error .overflow ∨
    step w (.pool p auth (.submit sender spender dst reqs)) = .error .token := by
  cases hs : step w (.pool p auth (.submit sender spender dst reqs)) with
  | error e =>
    have := orderly_live (E := Unexpected True) hr hp unexpected_overflow hcall hi hpl (fun _ => hpr) ho
      (fun hE => (unexpected_token hE trivial).elim) (fun hE => (unexpected_token hE trivial).elim)
    rcases of_unexpected this hs with h | ⟨h, _⟩
    · rw [h]; exact .inl rfl
    · rw [h]; exact .inr rfl
  | ok w' =>
    obtain ⟨A', h1, h2, _⟩ := C59_only_if hr hs hi hpl hpr
    have := plan_unique (hr.ratesPos hp) ho.plan h1.plan
    subst this
    exact (hc h2).elim

/-- a submit of bob: he repays some of his debt, adds collateral, borrows more and takes some collateral out -/
def bobsRequests : List Request := [⟨5, usdcA, 1000000000⟩, ⟨2, usdcA, 20000000000⟩, ⟨4, usdcA, 5000000000⟩, ⟨3, xlmA, 7000000001⟩]

/-- non-vacuity: in a reachable world, with interest to accrue and a risky request, there is an orderly and covered submit,
which goes through; paid for by somebody without tokens the same submit is orderly and not covered, and it fails -/
example : ∃ w i A, Reachable w ∧ w.poolAddr poolA = true ∧ (w.pools poolA).inst = some i ∧ PricesOk w (w.pools poolA) ∧
    Caller w poolA [bob] bob bob bob ∧ (∀ q ∈ bobsRequests, Plain q) ∧ Orderly w poolA i bob bobsRequests A ∧ Covered w poolA bob A ∧
    (∃ k, A.debt k ≠ 0) ∧ (∃ w', step w (.pool poolA [bob] (.submit bob bob bob bobsRequests)) = .ok w') ∧
    Caller w poolA [bob, 77] bob 77 bob ∧ ¬ Covered w poolA 77 A ∧
    step w (.pool poolA [bob, 77] (.submit bob 77 bob bobsRequests)) = .error .token := by
  obtain ⟨w, w', _, hr, hs, h⟩ := Demo.reach_step (ops := setup ++ trade ++ [.ledger 100000 20000, prices 1713239200 10000000 1000000])
    (op := .pool poolA [bob] (.submit bob bob bob bobsRequests))
    (f := fun w w' => pricesOk w (w.pools poolA) && decide ((accountOf (w'.pools poolA) bob).debt 0 ≠ 0) && w.poolAddr poolA &&
      (w.pools poolA).inst.isSome && errIs (step w (.pool poolA [bob, 77] (.submit bob 77 bob bobsRequests))) .token &&
      decide (∀ x ∈ [bob, 77], ¬ w.isProtocol x)) (by decide +kernel)
  simp only [Bool.and_eq_true, decide_eq_true_eq] at h
  obtain ⟨⟨⟨⟨⟨h1, h2⟩, h3⟩, h4⟩, h5⟩, h6⟩ := h
  obtain ⟨i, hi⟩ := Option.isSome_iff_exists.1 h4
  have hpl : ∀ q ∈ bobsRequests, Plain q := by unfold bobsRequests Plain; decide
  have h5 := errIs_iff.1 h5
  obtain ⟨A, o, c, hpos, _⟩ := C59_only_if hr hs hi hpl (pricesOk_iff h1)
  have c1 : Caller w poolA [bob] bob bob bob := ⟨fun x hx => h6 x (by simp_all), by simp, by simp, by decide, by decide, by decide⟩
  have c2 : Caller w poolA [bob, 77] bob 77 bob := ⟨h6, by simp, by simp, by decide, by decide, by decide⟩
  refine ⟨w, i, A, hr, h3, hi, pricesOk_iff h1, c1, hpl, o, c, ⟨0, ?_⟩, ⟨w', hs⟩, c2, fun hc => ?_, h5⟩
  · rw [← (hpos 0).2.2]; exact h2
  · rcases C59_accepted hr h3 c2 hi hpl (pricesOk_iff h1) o hc with h | ⟨_, h, _⟩
    · rw [h5] at h; cases h
    · rw [h5] at h; cases h

end Props
end Blend
