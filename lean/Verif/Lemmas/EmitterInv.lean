import Verif.Lemmas.Minted
import Verif.Lemmas.BReach
import Verif.Spec.Emitter
/-
  Invariants of the emitter.
-/

namespace Blend

open Spec

theorem _root_.Blend.Spec.DropHistory.steps {w w' : World} {D : Int} (h : DropHistory w w' D) : Steps w w' := by
  induction h with
  | refl => exact .refl _
  | tail _ hs ih => exact .tail ih ⟨_, hs⟩

theorem Steps.dropHistory {w w' : World} (h : Steps w w') : ∃ D, DropHistory w w' D := by
  induction h with
  | refl => exact ⟨0, .refl _⟩
  | tail _ hs ih => obtain ⟨D, h⟩ := ih; obtain ⟨op, hs⟩ := hs; exact ⟨_, .tail h hs⟩

/-- the current backstop has a distribution record, not in the future -/
def EmInv (w : World) : Prop := ∀ i, w.emitter.inst = some i → ∃ last, w.emitter.lastDistro i.backstop = some last ∧ last ≤ w.time

theorem step_time {w w' : World} {op : Op} (hb : Base w) (h : step w op = .ok w') : w.time ≤ w'.time := (step_res hb h).time

theorem mints_frame {blnd : Address} : ∀ {l : List (Address × Int)} {w w' : World},
    l.foldlM (fun w x => mint w blnd x.1 x.2) w = .ok w' →
    w' = { w with tok := w'.tok } ∧ (∀ t x, w'.balance t x = w.balance t x + if t = blnd then paidTo l x else 0) := by
  intro l
  induction l with
  | nil => intro w w' h; rw [foldlM_nil] at h; subst h; simp [paidTo]
  | cons y l ih =>
    intro w w' h
    rw [foldlM_cons] at h
    obtain ⟨w1, h1, h2⟩ := h
    have r := mint_res h1
    obtain ⟨i1, i2⟩ := ih h2
    refine ⟨?_, fun t x => ?_⟩
    · have hf := r.frame; rw [i1, hf]
    rw [i2, r.bal]
    by_cases ht : t = blnd
    · simp only [ht, true_and, if_true, paidTo, List.filter_cons]
      by_cases hx : y.1 = x
      · simp [hx]; ring
      · simp [hx, Ne.symm hx]
    · simp [ht]

/-- one step of the emitter, as far as the distribution is concerned -/
theorem emission_step {w w' : World} {op : Op} (hb : Base w) (h : step w op = .ok w') (he : EmInv w)
    {i : EmitterInst} (hi : w.emitter.inst = some i) (ht : ∀ j, w.backstop.inst = some j → j.backstopToken ≠ i.blnd) :
    ∃ i' last last', w'.emitter.inst = some i' ∧ i'.blnd = i.blnd ∧ w.emitter.lastDistro i.backstop = some last ∧
      w'.emitter.lastDistro i'.backstop = some last' ∧ last ≤ last' ∧ last' ≤ w'.time ∧
      minted w' i.blnd = minted w i.blnd + ((last' : Int) - last) * ONE7 + dropTotal w op := by
  obtain ⟨last, hl, hle⟩ := he i hi
  have htm := step_time hb h
  rcases emitter_step hb h with ⟨h1, h2, h3⟩ | hc
  · refine ⟨i, last, last, by rw [h1, hi], rfl, hl, by rw [h1, hl], le_refl _, hle.trans htm, ?_⟩
    unfold minted
    rw [minted_other h h2 h3 hi ht]
    have : dropTotal w op = 0 := by
      unfold dropTotal
      split
      · exact absurd rfl (h2 _ _)
      · exact absurd rfl (h3 _)
      · rfl
    rw [this]; ring
  · cases hc with
    | init auth b s t w' hn => rw [hi] at hn; cases hn
    | distribute auth j l w' hj hl' hle' r =>
      rw [hi] at hj; cases hj
      rw [hl] at hl'; cases hl'
      have hf := r.frame
      have e1 := congrArg World.emitter hf
      have e2 := congrArg World.time hf
      simp only at e1 e2
      refine ⟨i, last, w.time, by rw [e1]; exact hi, rfl, hl, by rw [e1]; simp [upd], hle, by omega, ?_⟩
      unfold minted
      rw [r.minted, if_pos rfl]
      simp only [dropTotal]
      rw [Nat.cast_sub hle]
      show _ = (w.tok i.blnd).minted + _ + 0
      unfold SCALAR_7 ONE7
      ring
    | queue auth j b t w' hj hs hlt =>
      rw [hi] at hj; cases hj
      rename_i e; subst e
      refine ⟨i, last, last, hi, rfl, hl, hl, le_refl _, hle, ?_⟩
      simp [dropTotal, minted]
    | cancel auth j s w' hj hs hlt =>
      rw [hi] at hj; cases hj
      rename_i e; subst e
      refine ⟨i, last, last, hi, rfl, hl, hl, le_refl _, hle, ?_⟩
      simp [dropTotal, minted]
    | swap auth j s l w1 w' hj hs hu hlt hl' hle' r =>
      rw [hi] at hj; cases hj
      rw [hl] at hl'; cases hl'
      rename_i e; subst e
      have e2 := congrArg World.time r.frame
      simp only at e2
      refine ⟨_, last, w.time, rfl, rfl, hl, by simp [upd], hle, by simp [e2], ?_⟩
      unfold minted
      simp only
      rw [r.minted, if_pos rfl]
      simp only [dropTotal]
      rw [Nat.cast_sub hle]
      show _ = (w.tok i.blnd).minted + _ + 0
      unfold SCALAR_7 ONE7
      ring
    | drop op j l w1 w' hj ho hd hsum hf =>
      rw [hi] at hj; cases hj
      rename_i e; subst e
      obtain ⟨hfr, _⟩ := mints_frame hf
      have e2 := congrArg World.time hfr
      simp only at e2
      refine ⟨i, last, last, hi, rfl, hl, hl, le_refl _, by simpa [e2] using hle, ?_⟩
      unfold minted
      simp only
      rw [mints_minted hf]
      have : dropTotal w op = (l.map (·.2)).sum := by
        obtain ⟨auth, ⟨rfl, _⟩ | ⟨rfl, h, _⟩⟩ := ho
        · rfl
        · simp [dropTotal, h]
      rw [this]; ring

theorem EmInv.step {w w' : World} {op : Op} (hb : Base w) (he : EmInv w) (h : Blend.step w op = .ok w') : EmInv w' := by
  have htm := step_time hb h
  intro i' hi'
  rcases emitter_step hb h with ⟨h1, h2, h3⟩ | hc
  · rw [h1] at hi' ⊢
    obtain ⟨l, hl, hle⟩ := he i' hi'
    exact ⟨l, hl, by omega⟩
  · cases hc with
    | init auth b s t w' hn e =>
      subst e
      simp only [Option.some.injEq] at hi'; subst hi'
      exact ⟨w.time, by simp [upd], le_refl _⟩
    | distribute auth j l w' hj hl' hle' r =>
      have hf := r.frame
      have e1 := congrArg World.emitter hf
      simp only at e1
      rw [e1] at hi' ⊢
      simp only at hi'
      rw [hj] at hi'; cases hi'
      exact ⟨w.time, by simp [upd], htm⟩
    | queue auth j b t w' hj hs hlt e =>
      subst e
      exact he i' hi'
    | cancel auth j s w' hj hs hlt e =>
      subst e
      exact he i' hi'
    | swap auth j s l w1 w' hj hs hu hlt hl' hle' r e =>
      subst e
      simp only [Option.some.injEq] at hi'; subst hi'
      exact ⟨w.time, by simp [upd], htm⟩
    | drop op j l w1 w' hj ho hd hsum hf e =>
      subst e
      obtain ⟨l, hl, hle⟩ := he i' hi'
      exact ⟨l, hl, hle.trans htm⟩

theorem Reachable.eminv {w : World} (h : Reachable w) : EmInv w := by
  obtain ⟨w0, h0, hs⟩ := h
  have : Base w ∧ EmInv w := hs.inv (P := fun w => Base w ∧ EmInv w)
    (fun _ _ _ h hs => ⟨(step_res h.1 hs).base, h.2.step h.1 hs⟩) ⟨.of_genesis h0, fun i hi => by rw [h0.emitter] at hi; cases hi⟩
  exact this.2

theorem Backstop.inst_keep {w w' : World} (hr : Reachable w) (hs : Steps w w') {j : BackstopInst} (hj : w.backstop.inst = some j) :
    w'.backstop.inst = some j := by
  have : Backstop.BAll w' ∧ w'.backstop.inst = some j := hs.inv (P := fun w => Backstop.BAll w ∧ w.backstop.inst = some j)
    (fun a b op h hs => ⟨h.1.step hs, by
      exact bmicros_inst (i := j) (step_bres h.1.base h.1.inv h.1.allow hs).micros h.2⟩) ⟨hr.ball, hj⟩
  exact this.2

end Blend
