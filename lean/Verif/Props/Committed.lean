import Verif.Props.BackstopGroup
import Verif.Props.BackstopPar
/-
  C96: the capital of a pool's backstop is committed for 21 days.
-/

namespace Blend
namespace Props
open Spec Backstop

/-- the shares of a pool that are not queued, as a sum over accounts -/
theorem unqueued_sum {w : World} (hr : Reachable w) (p : Address) :
    (w.backstop.getPoolBal p).shares - (w.backstop.getPoolBal p).q4w =
      ∑ u ∈ (w.backstop.userBal p).keys, (w.backstop.getUserBal p u).shares := by
  obtain ⟨h1, h2, _⟩ := C30_share_accounting hr p
  rw [h1, h2, SMap.sum_keys _ _ ⟨0, []⟩, SMap.sum_keys _ _ ⟨0, []⟩, ← Finset.sum_sub_distrib]
  refine Finset.sum_congr rfl fun u hu => ?_
  have := SMap.mem_keys.1 hu
  unfold BackstopState.getUserBal
  cases hv : (w.backstop.userBal p).get u with
  | none => exact absurd hv this
  | some v => simp

theorem history_steps {P : Op → Prop} {w w' : World} (h : History P w w') : Steps w w' := by
  induction h with
  | refl => exact .refl _
  | tail _ _ hs ih => exact ih.tail ⟨_, hs⟩

/-- **C96** In less than 21 days the shares of a pool's backstop do not fall below those that were not queued for withdrawal at the start,
whatever happens. -/
theorem C96_shares {w w' : World} (hr : Reachable w) (hs : Steps w w') (ht : w'.time < w.time + days21) (p : Address) :
    (w.backstop.getPoolBal p).shares - (w.backstop.getPoolBal p).q4w ≤ (w'.backstop.getPoolBal p).shares := by
  rw [unqueued_sum hr p]
  refine le_trans (Finset.sum_le_sum fun u _ => C32_lock hr hs ht p u) ?_
  exact (groupShares_le (hr.steps hs) (w.backstop.userBal p).keys p).2

/-- **C96** In less than 21 days without a fill of a bad debt auction of the pool, the backstop tokens held for a pool do not fall below
the part that was not queued for withdrawal at the start: tokens after ≥ tokens before · (shares − queued shares) / shares. -/
theorem C96_committed {w w' : World} (hr : Reachable w) {p : Address} (h : History (fun op => ¬ FillsDebtOf p op) w w')
    (ht : w'.time < w.time + days21) :
    (w.backstop.getPoolBal p).tokens * ((w.backstop.getPoolBal p).shares - (w.backstop.getPoolBal p).q4w) ≤
      (w'.backstop.getPoolBal p).tokens * (w.backstop.getPoolBal p).shares := by
  obtain ⟨_, _, hT, hQ, hQS, _⟩ := C30_share_accounting hr p
  rcases (show (w.backstop.getPoolBal p).q4w = (w.backstop.getPoolBal p).shares ∨
    (w.backstop.getPoolBal p).q4w < (w.backstop.getPoolBal p).shares by omega) with e | hlt
  · rw [e, sub_self, mul_zero]
    exact mul_nonneg (C30_share_accounting (hr.steps (history_steps h)) p).2.2.1 (by omega)
  · suffices key : (w.backstop.getPoolBal p).tokens * (w'.backstop.getPoolBal p).shares ≤
        (w'.backstop.getPoolBal p).tokens * (w.backstop.getPoolBal p).shares by
      have := mul_le_mul_of_nonneg_left (C96_shares hr (history_steps h) ht p) hT
      linarith
    induction h with
    | refl => exact le_refl _
    | @tail a b op hab ho hst ih =>
      have ha := hr.steps (history_steps hab)
      have hab' := history_steps hab
      have htm : a.time ≤ b.time := (step_res ha.base hst).time
      have ih := ih (by omega)
      have hSa := C96_shares hr hab' (by omega) p
      have hSb := C96_shares hr (hab'.tail ⟨_, hst⟩) ht p
      have hstep := C33_share_price ha hst p (by omega) (fun auth s sp d reqs e r hr' h7 => ho (by
        subst e; exact ⟨rfl, r, hr', h7⟩))
      have hTb := (C30_share_accounting (ha.step hst) p).2.2.1
      generalize (w.backstop.getPoolBal p).tokens = T at *
      generalize (w.backstop.getPoolBal p).shares = S at *
      generalize (a.backstop.getPoolBal p).tokens = Ta at *
      generalize (a.backstop.getPoolBal p).shares = Sa at *
      generalize (b.backstop.getPoolBal p).tokens = Tb at *
      generalize (b.backstop.getPoolBal p).shares = Sb at *
      have hSa0 : 0 < Sa := by omega
      have e1 : T * Sa * Sb ≤ Ta * S * Sb := mul_le_mul_of_nonneg_right ih (by omega)
      have e2 : Ta * Sb * S ≤ Tb * Sa * S := mul_le_mul_of_nonneg_right hstep (by omega)
      have e3 : (T * Sb) * Sa ≤ (Tb * S) * Sa := by linarith
      exact le_of_mul_le_mul_right e3 hSa0

end Props

namespace Demo
open Pool Spec

/-- decidable form of `¬ FillsDebtOf p` -/
def noDraw (p : Address) (op : Op) : Bool :=
  match op with
  | .pool q _ (.submit _ _ _ reqs) => q != p || reqs.all fun r => r.type != 7
  | _ => true

theorem noDraw_ok {p : Address} {op : Op} (h : noDraw p op = true) : ¬ FillsDebtOf p op := by
  unfold FillsDebtOf
  split
  · rintro ⟨rfl, r, hr, h7⟩
    simp only [noDraw, bne_self_eq_false, Bool.false_or, List.all_eq_true] at h
    exact absurd h7 (by simpa using h r hr)
  · exact id

/-- carol has queued 200000 of her 500000 shares; 20.99 days later most of these are withdrawn, the rest queued and dequeued: the tokens
left are more than the 300000 that were not queued -/
example : ∃ w w', Reachable w ∧ History (fun op => ¬ FillsDebtOf poolA op) w w' ∧ w'.time < w.time + days21 ∧
    0 < (w.backstop.getPoolBal poolA).q4w ∧ (w'.backstop.getPoolBal poolA).tokens < (w.backstop.getPoolBal poolA).tokens ∧
    0 < (w.backstop.getPoolBal poolA).tokens * ((w.backstop.getPoolBal poolA).shares - (w.backstop.getPoolBal poolA).q4w) := by
  obtain ⟨w, w', hr, hrun, h⟩ := Demo.reach_runs (ops := setup ++ queue.take 4)
    (ops' := [.backstop [carol] (.withdraw carol poolA 120000000000), .ledger 1814300 362860,
      .backstop [carol] (.queueWithdrawal carol poolA 100000000000)])
    (f := fun w w' => decide (w'.time < w.time + 1814400 ∧
      0 < (w.backstop.getPoolBal poolA).q4w ∧ (w'.backstop.getPoolBal poolA).tokens < (w.backstop.getPoolBal poolA).tokens ∧
      0 < (w.backstop.getPoolBal poolA).tokens * ((w.backstop.getPoolBal poolA).shares - (w.backstop.getPoolBal poolA).q4w)))
    (by decide +kernel)
  obtain ⟨h1, h2, h3, h4⟩ := of_decide_eq_true h
  exact ⟨w, w', hr, Props.run_history hrun (fun op ho => noDraw_ok (by
    have : ∀ op ∈ [Op.backstop [carol] (.withdraw carol poolA 120000000000), .ledger 1814300 362860,
      .backstop [carol] (.queueWithdrawal carol poolA 100000000000)], noDraw poolA op = true := by decide
    exact this op ho)), h1, h2, h3, h4⟩

end Demo
end Blend
