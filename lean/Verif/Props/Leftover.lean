import Verif.Lemmas.Leftover
import Verif.Spec.Gift
import Verif.Examples.Demo
/-
  C86: what rounding can leave in a pool.
-/

namespace Blend.Props
open Pool Spec

/-- What one operation can add to what the pool is left with: nothing by operations that do not call the pool; otherwise less than
two tokens and one unit of the exchange rate per supplied share when interest is accrued, and the worth of one share per request. -/
theorem C86_step {w w' : World} (hr : Reachable w) {op : Op} (h : step w op = .ok w') {p a : Address} (hp : w.poolAddr p = true)
    (hg : ¬ Gives p op) (hn : ¬ IsBlnd w a) {d : ReserveData} (hd : (w.pools p).resData a = some d) {R : Int}
    (hR : ∀ dA, Current (w.pools p) w.time a dA → dA.bRate ≤ R ∧ dA.dRate ≤ R) :
    ∃ d', (w'.pools p).resData a = some d' ∧ leftover (w'.balance a p) d' ≤ leftover (w.balance a p) d
      + callsOf p op * (if d.lastTime = w.time then 0 else 2 * ONE9 + d.bSupply) + requestsOn p a op * R :=
  leftover_step hr h hp hg hn hd hR

/-- In any history, whatever people do, the pool is left with at most two tokens and one unit of the rate per supplied share for
every call of the pool and the worth of one share for every request on the token. -/
theorem C86_history {p a : Address} {M R : Int} {l : List Op} {w w' : World} (hr : Reachable w) (hp : w.poolAddr p = true)
    (h : Played (Within p a M R) w l w') {d : ReserveData} (hd : (w.pools p).resData a = some d) :
    ∃ d', (w'.pools p).resData a = some d' ∧ leftover (w'.balance a p) d' ≤ leftover (w.balance a p) d
      + (l.map (callsOf p)).sum * (2 * ONE9 + M) + (l.map (requestsOn p a)).sum * R := by
  induction h generalizing d with
  | nil w => exact ⟨d, hd, by simp⟩
  | @cons w w1 w2 op l q hs t ih =>
    obtain ⟨q1, q2, q3, q4⟩ := q
    obtain ⟨d1, hd1, h1⟩ := C86_step hr hs hp q1 q2 hd q4
    have hM := q3 d hd
    have hB := ((hr.pinv hp).dataOk (hr.base.cfg p) hd).bSupply
    have hp1 : w1.poolAddr p = true := by rw [(Steps.poolAddr hr.base (.tail (.refl _) ⟨_, hs⟩)).1]; exact hp
    obtain ⟨d2, hd2, h2⟩ := ih (hr.step hs) hp1 hd1
    refine ⟨d2, hd2, ?_⟩
    have hc : (callsOf p op : Int) * (if d.lastTime = w.time then 0 else 2 * ONE9 + d.bSupply) ≤ callsOf p op * (2 * ONE9 + M) := by
      refine mul_le_mul_of_nonneg_left ?_ (by omega)
      unfold ONE9
      split <;> omega
    rw [List.map_cons, List.map_cons, List.sum_cons, List.sum_cons]
    rw [Nat.cast_add, Nat.cast_add, Int.add_mul, Int.add_mul]
    omega

/-- Within one ledger, once interest has been accrued, only the requests on the token count. -/
theorem C86_ledger {p a : Address} {R : Int} {l : List Op} {w w' : World} (hr : Reachable w) (hp : w.poolAddr p = true)
    (h : Played (fun w op => ¬ Gives p op ∧ ¬ IsBlnd w a ∧ (∀ dt ds, op ≠ .ledger dt ds) ∧
      ∀ d, (w.pools p).resData a = some d → d.bRate ≤ R ∧ d.dRate ≤ R) w l w')
    {d : ReserveData} (hd : (w.pools p).resData a = some d) (ht : d.lastTime = w.time) :
    ∃ d', (w'.pools p).resData a = some d' ∧ leftover (w'.balance a p) d' ≤ leftover (w.balance a p) d
      + (l.map (requestsOn p a)).sum * R := by
  induction h generalizing d with
  | nil w => exact ⟨d, hd, by simp⟩
  | @cons w w1 w2 op l q hs t ih =>
    obtain ⟨q1, q2, q3, q4⟩ := q
    have hcur : ∀ dA, Current (w.pools p) w.time a dA → dA = d := by
      rintro dA ⟨c, d0, i, x1, x2, x3, x4⟩
      rw [hd] at x2; cases x2
      rw [accrue_idem ht] at x4
      cases x4; rfl
    obtain ⟨d1, hd1, h1⟩ := C86_step (R := R) hr hs hp q1 q2 hd (fun dA hA => by rw [hcur dA hA]; exact q4 d hd)
    rw [if_pos ht, Int.mul_zero, Int.add_zero] at h1
    have ht1 : d1.lastTime = w1.time := by
      rw [((step_frame hr.base hs).time q3).1]
      rcases data_step hr hs hp hd with ⟨_, e⟩ | ⟨dA, d', hA, e, _, _, e3, _⟩
      · rw [hd1] at e; cases e; exact ht
      · rw [hd1] at e; cases e
        rw [e3, hcur dA hA]; exact ht
    have hp1 : w1.poolAddr p = true := by rw [(Steps.poolAddr hr.base (.tail (.refl _) ⟨_, hs⟩)).1]; exact hp
    obtain ⟨d2, hd2, h2⟩ := ih (hr.step hs) hp1 hd1 ht1
    refine ⟨d2, hd2, ?_⟩
    rw [List.map_cons, List.sum_cons]
    rw [Nat.cast_add, Int.add_mul]
    omega

open Demo in
/-- non-vacuity: a year after the loans dave supplies 1234567 USDC units, which leaves some of them to the pool: the bound is not
trivial, for the pool is left with more than before, but with less than 2 tokens and one unit of the rate per share. -/
example : ∃ w w' d d', Reachable w ∧ w.poolAddr poolA = true ∧
    step w (.pool poolA [dave] (.submit dave dave dave [⟨0, usdcA, 1234567⟩])) = .ok w' ∧
    ¬ Gives poolA (.pool poolA [dave] (.submit dave dave dave [⟨0, usdcA, 1234567⟩])) ∧ ¬ IsBlnd w usdcA ∧
    (w.pools poolA).resData usdcA = some d ∧ (w'.pools poolA).resData usdcA = some d' ∧ d.lastTime ≠ w.time ∧
    leftover (w.balance usdcA poolA) d < leftover (w'.balance usdcA poolA) d' := by
  have h : okAnd (Demo.run genesis (setup ++ trade ++ [.ledger 31536000 6000000])) (fun w => w.poolAddr poolA &&
      (match w.emitter.inst with | some e => decide (e.blnd ≠ usdcA) | none => true) &&
      (match w.backstop.inst with | some e => decide (e.blnd ≠ usdcA) | none => true) &&
      okAnd (step w (.pool poolA [dave] (.submit dave dave dave [⟨0, usdcA, 1234567⟩]))) (fun w' =>
        match (w.pools poolA).resData usdcA, (w'.pools poolA).resData usdcA with
        | some d, some d' => decide (d.lastTime ≠ w.time ∧ leftover (w.balance usdcA poolA) d < leftover (w'.balance usdcA poolA) d')
        | _, _ => false)) = true := by decide +kernel
  obtain ⟨w, _, hr, h⟩ := Demo.reach h
  simp only [Bool.and_eq_true] at h
  obtain ⟨⟨⟨h1, h2⟩, h3⟩, h⟩ := h
  obtain ⟨w', hw', h⟩ := okAnd_iff.1 h
  cases hd : (w.pools poolA).resData usdcA with
  | none => rw [hd] at h; cases h
  | some d =>
    cases hd' : (w'.pools poolA).resData usdcA with
    | none => rw [hd, hd'] at h; cases h
    | some d' =>
      rw [hd, hd'] at h
      obtain ⟨e1, e2⟩ := of_decide_eq_true h
      refine ⟨w, w', d, d', hr, h1, hw', ?_, ?_, hd, hd', e1, e2⟩
      · show ¬ (dave = poolA); decide
      · rintro (⟨e, he, hb⟩ | ⟨e, he, hb⟩)
        · rw [he] at h2; exact of_decide_eq_true h2 hb
        · rw [he] at h3; exact of_decide_eq_true h3 hb

end Blend.Props
