import Verif.Props.Emitter
import Verif.Props.Registry
import Verif.Spec.EmitterTerms
/-
  C69: exactly the calls of the emitter and the factory that are in order go through.
-/

namespace Blend
namespace Props
open Pool Spec Demo

theorem paidTo_cons (x : Address × Int) (l : List (Address × Int)) (a : Address) :
    paidTo (x :: l) a = (if x.1 = a then x.2 else 0) + paidTo l a := by
  unfold paidTo
  by_cases h : x.1 = a
  · rw [List.filter_cons_of_pos (by simpa using h), if_pos h]; simp
  · rw [List.filter_cons_of_neg (by simpa using h), if_neg h]; simp

theorem paidTo_nonneg {l : List (Address × Int)} (h : ∀ x ∈ l, 0 ≤ x.2) (a : Address) : 0 ≤ paidTo l a := by
  induction l with
  | nil => simp [paidTo]
  | cons x l ih =>
    rw [paidTo_cons]
    have := ih fun y hy => h y (List.mem_cons_of_mem _ hy)
    have := h x List.mem_cons_self
    split <;> omega

theorem paidTo_notMem {l : List (Address × Int)} {a : Address} (h : ∀ x ∈ l, x.1 ≠ a) : paidTo l a = 0 := by
  induction l with
  | nil => simp [paidTo]
  | cons x l ih =>
    rw [paidTo_cons, if_neg (h x List.mem_cons_self), ih fun y hy => h y (List.mem_cons_of_mem _ hy)]
    rfl

theorem mint_iff {w : World} {t d : Address} {a : Int} (hb : 0 ≤ w.balance t d) :
    (∃ w', mint w t d a = .ok w') ↔ 0 ≤ a ∧ w.balance t d + a ≤ 2 ^ 127 - 1 := by
  unfold mint
  simp only [bind_ok, require_ok, chk_ok, pure_ok, InI128]
  constructor
  · rintro ⟨w', _, h0, v, ⟨⟨_, h1⟩, _⟩, _⟩
    exact ⟨h0, by omega⟩
  · rintro ⟨h0, h1⟩
    exact ⟨_, (), h0, _, ⟨⟨by omega, by omega⟩, rfl⟩, rfl⟩

/-- payments can be made exactly when none is negative and the new balances are in range -/
theorem mints_iff {t : Address} : ∀ {l : List (Address × Int)} {w : World}, (∀ a, 0 ≤ w.balance t a) →
    ((∃ w', l.foldlM (fun w x => mint w t x.1 x.2) w = .ok w') ↔ (∀ x ∈ l, 0 ≤ x.2) ∧ PaymentsFit w t l) := by
  intro l
  induction l with
  | nil => exact fun {w} _ => ⟨fun _ => ⟨by simp, fun _ h => absurd h List.not_mem_nil⟩, fun _ => ⟨w, foldlM_nil.2 rfl⟩⟩
  | cons x l ih =>
    intro w hb
    simp only [foldlM_cons]
    have step : ∀ w1, mint w t x.1 x.2 = .ok w1 → ((∃ w', l.foldlM (fun w x => mint w t x.1 x.2) w1 = .ok w') ↔
        (∀ x ∈ l, 0 ≤ x.2) ∧ ∀ y ∈ l, w.balance t y.1 + paidTo (x :: l) y.1 ≤ 2 ^ 127 - 1) := by
      intro w1 hm
      have r := mint_res hm
      have hx := r.nonneg
      rw [ih (w := w1) fun a => by rw [r.bal]; have := hb a; split <;> omega]
      refine and_congr_right fun _ => forall₂_congr fun y _ => ?_
      rw [r.bal, paidTo_cons]
      by_cases e : x.1 = y.1
      · simp only [e, and_self, if_true]; constructor <;> intro h <;> omega
      · rw [if_neg (by rintro ⟨_, h⟩; exact e h.symm), if_neg e]; constructor <;> intro h <;> omega
    constructor
    · rintro ⟨w', w1, hm, hf⟩
      obtain ⟨h1, h2⟩ := (step w1 hm).1 ⟨w', hf⟩
      obtain ⟨hx, hfit⟩ := (mint_iff (hb x.1)).1 ⟨w1, hm⟩
      refine ⟨fun y hy => ?_, fun y hy => ?_⟩
      · rcases List.mem_cons.1 hy with rfl | hy
        · exact hx
        · exact h1 y hy
      · rcases List.mem_cons.1 hy with rfl | hy
        · by_cases hex : ∃ z ∈ l, z.1 = y.1
          · obtain ⟨z, hz, e⟩ := hex
            have := h2 z hz
            rwa [e] at this
          · rw [paidTo_cons, if_pos rfl, paidTo_notMem fun z hz e => hex ⟨z, hz, e⟩]
            omega
        · exact h2 y hy
    · rintro ⟨h1, h2⟩
      have hn : ∀ y ∈ l, 0 ≤ y.2 := fun y hy => h1 y (List.mem_cons_of_mem _ hy)
      obtain ⟨w1, hm⟩ := (mint_iff (w := w) (t := t) (a := x.2) (hb x.1)).2 ⟨h1 x List.mem_cons_self, by
        have := h2 x List.mem_cons_self
        rw [paidTo_cons, if_pos rfl] at this
        have := paidTo_nonneg hn x.1
        omega⟩
      obtain ⟨w', hf⟩ := (step w1 hm).2 ⟨hn, fun y hy => h2 y (List.mem_cons_of_mem _ hy)⟩
      exact ⟨w', w1, hm, hf⟩

theorem mints_allow {t : Address} : ∀ {l : List (Address × Int)} {w w' : World},
    l.foldlM (fun w x => mint w t x.1 x.2) w = .ok w' → ∀ t', (w'.tok t').allow = (w.tok t').allow := by
  intro l
  induction l with
  | nil => intro w w' h; rw [foldlM_nil] at h; subst h; exact fun _ => rfl
  | cons y l ih =>
    intro w w' h t'
    rw [foldlM_cons] at h
    obtain ⟨w1, h1, h2⟩ := h
    rw [ih h2, (mint_res h1).allow]

theorem paidTo_one (a x : Address) (n : Int) : paidTo [(a, n)] x = if x = a then n else 0 := by
  rw [paidTo_cons]
  by_cases h : a = x
  · subst h; simp [paidTo]
  · rw [if_neg h, if_neg fun e => h e.symm]; simp [paidTo]

theorem sum_fold_ok : ∀ {l : List (Address × Int)} {a : Int}, (∀ x ∈ l, 0 ≤ x.2) → 0 ≤ a → a + (l.map (·.2)).sum ≤ 2 ^ 127 - 1 →
    l.foldlM (fun acc x => chk (acc + x.2)) a = .ok (a + (l.map (·.2)).sum) := by
  intro l
  induction l with
  | nil => intro a _ _ _; rw [foldlM_nil]; simp
  | cons x l ih =>
    intro a hn ha hs
    rw [List.map_cons, List.sum_cons] at hs ⊢
    have hx := hn x List.mem_cons_self
    have hl : ∀ y ∈ l, 0 ≤ y.2 := fun y hy => hn y (List.mem_cons_of_mem _ hy)
    have h0 : 0 ≤ (l.map (·.2)).sum := List.sum_nonneg fun y hy => by
      obtain ⟨z, hz, rfl⟩ := List.mem_map.1 hy; exact hl z hz
    rw [foldlM_cons]
    refine ⟨a + x.2, chk_ok.2 ⟨⟨by omega, by omega⟩, rfl⟩, ?_⟩
    rw [ih hl (by omega) (by omega)]
    congr 1; omega

theorem distribute_iff {w : World} {i : EmitterInst} {last : Nat} {n : Int} {w1 : World} (hr : Reachable w) (hi : w.emitter.inst = some i)
    (hl : w.emitter.lastDistro i.backstop = some last) :
    Emitter.executeDistribute w i.backstop = .ok (n, w1) ↔ n = ((w.time : Int) - last) * ONE7 ∧
      [(i.backstop, ((w.time : Int) - last) * ONE7)].foldlM (fun w x => mint w i.blnd x.1 x.2)
        { w with emitter := { w.emitter with lastDistro := upd w.emitter.lastDistro i.backstop (some w.time) } } = .ok w1 := by
  obtain ⟨l, hl', hle⟩ := hr.eminv i hi
  rw [hl] at hl'; cases hl'
  have ht : ((w.time - last : Nat) : Int) = (w.time : Int) - last := by omega
  have hb := hr.base.balances i.blnd i.backstop
  unfold Emitter.executeDistribute Emitter.inst
  rw [foldlM_cons]
  simp only [foldlM_nil, bind_ok, unwrap_ok, chk_ok, pure_ok, Prod.mk.injEq, subU_ok]
  constructor
  · rintro ⟨_, h1, _, ⟨_, rfl⟩, _, ⟨_, rfl⟩, j, hj, w2, hm, rfl, rfl⟩
    rw [hl] at h1; cases h1
    rw [hi] at hj; cases hj
    rw [ht] at hm
    exact ⟨by rw [ht]; rfl, w2, hm, rfl⟩
  · rintro ⟨rfl, w2, hm, rfl⟩
    have hfit := ((mint_iff (w := { w with emitter := { w.emitter with lastDistro := upd w.emitter.lastDistro i.backstop (some w.time) } })
      (t := i.blnd) (d := i.backstop) hb).1 ⟨_, hm⟩)
    have hb' : 0 ≤ World.balance { w with emitter := { w.emitter with lastDistro := upd w.emitter.lastDistro i.backstop (some w.time) } } i.blnd i.backstop := hb
    refine ⟨last, hl, _, ⟨hle, rfl⟩, ((w.time : Int) - last) * ONE7, ⟨⟨?_, ?_⟩, by rw [ht]; rfl⟩, i, hi, _, hm, rfl, rfl⟩
    · rw [ht]; show _ ≤ ((w.time : Int) - last) * ONE7; omega
    · rw [ht]; show ((w.time : Int) - last) * ONE7 ≤ _; omega

/-- what the payments leave -/
theorem paid {w w1 : World} {e e' : EmitterState} {t : Address} {l : List (Address × Int)} (hr : Reachable w)
    (h : l.foldlM (fun w x => mint w t x.1 x.2) { w with emitter := e } = .ok w1) :
    (∀ x ∈ l, 0 ≤ x.2) ∧ PaymentsFit w t l ∧ EmitterOutcome w { w1 with emitter := e' } e' t l ∧ w1.emitter = e ∧ w1.time = w.time := by
  have k := (mints_iff (w := { w with emitter := e }) (fun a => hr.base.balances t a)).1 ⟨w1, h⟩
  obtain ⟨h1, h2⟩ := mints_frame h
  have h3 := mints_allow h
  refine ⟨k.1, k.2, ⟨by rw [h1], h2, h3⟩, by rw [h1], by rw [h1]⟩

theorem outcome_nil (w : World) (e : EmitterState) (t : Address) : EmitterOutcome w { w with emitter := e } e t [] :=
  ⟨rfl, fun t' x => by
    show w.balance t' x = _
    simp [paidTo], fun _ => rfl⟩

theorem fits_nil (w : World) (t : Address) : PaymentsFit w t [] := fun _ h => absurd h List.not_mem_nil

theorem drop_iff {w : World} {auth : List Address} {l : List (Address × Int)} {i : EmitterInst} {w' : World} (hi : w.emitter.inst = some i)
    (hn : ∀ x ∈ l, 0 ≤ x.2) : Emitter.drop w auth l = .ok w' ↔ i.backstop ∈ auth ∧ w.emitter.dropped i.backstop = false ∧
      (l.map (·.2)).sum ≤ 50000000 * ONE7 ∧ ∃ w1, l.foldlM (fun w x => mint w i.blnd x.1 x.2) w = .ok w1 ∧
        w' = { w1 with emitter := { w1.emitter with dropped := upd w1.emitter.dropped i.backstop true } } := by
  unfold Emitter.drop Emitter.inst
  simp only [bind_ok, unwrap_ok, requireAuth_ok, require_ok, pure_ok]
  constructor
  · rintro ⟨j, hj, _, ha, _, hd, tot, ht, _, hle, w1, hm, rfl⟩
    rw [hi] at hj; cases hj
    have := sum_fold ht
    unfold SCALAR_7 at hle
    exact ⟨ha, hd, by unfold ONE7; omega, w1, hm, rfl⟩
  · rintro ⟨ha, hd, hs, w1, hm, rfl⟩
    unfold ONE7 at hs
    refine ⟨i, hi, (), ha, (), hd, _, sum_fold_ok hn (le_refl _) (by omega), (), ?_, w1, hm, rfl⟩
    unfold SCALAR_7; omega

/-- **C69.** A call of the emitter that goes through was in order, the payments fit, and it did exactly what was planned. -/
theorem C69_emitter_only_if {w w' : World} {op : Op} (hr : Reachable w) (ho : EmitterOp op) (h : step w op = .ok w') :
    ∃ e t l, EmitterPlan w op e t l ∧ PaymentsFit w t l ∧ EmitterOutcome w w' e t l := by
  have hdrop : ∀ {auth : List Address} {l : List (Address × Int)}, Emitter.drop w auth l = .ok w' →
      ∃ i, w.emitter.inst = some i ∧ i.backstop ∈ auth ∧ w.emitter.dropped i.backstop = false ∧ (∀ x ∈ l, 0 ≤ x.2) ∧
        (l.map (·.2)).sum ≤ 50000000 * ONE7 ∧ PaymentsFit w i.blnd l ∧
        EmitterOutcome w w' { w.emitter with dropped := upd w.emitter.dropped i.backstop true } i.blnd l := by
    intro auth l h
    obtain ⟨_, _, _, _, i, w1, hi, ha, hd, hm, rfl⟩ := Emitter.drop_ok (L := fun _ => True) (A := fun _ => True) h
    obtain ⟨k1, k2, k3, _⟩ := paid (e := w.emitter) (e' := { w.emitter with dropped := upd w.emitter.dropped i.backstop true }) hr hm
    exact ⟨i, hi, ha, hd, k1, ((drop_iff hi k1).1 h).2.2.1, k2, k3⟩
  rcases ho with ⟨auth, c, rfl⟩ | ⟨auth, rfl⟩
  · simp only [step, bind_ok, require_ok] at h
    obtain ⟨_, _, h⟩ := h
    cases c with
    | «initialize» b s t =>
      simp only [emitterCall, Emitter.init, bind_ok, require_ok, pure_ok] at h
      obtain ⟨_, hn, rfl⟩ := h
      exact ⟨_, b, [], .init hn, fits_nil _ _, outcome_nil _ _ _⟩
    | distribute =>
      simp only [emitterCall, Emitter.distribute, Emitter.inst, bind_ok, pure_ok, Prod.exists, unwrap_ok] at h
      obtain ⟨n, w1, ⟨i, hi, h⟩, rfl⟩ := h
      obtain ⟨last, hl, _⟩ := hr.eminv i hi
      obtain ⟨_, h⟩ := (distribute_iff hr hi hl).1 h
      obtain ⟨_, k2, k3, k4, _⟩ := paid (e' := w1.emitter) hr h
      exact ⟨_, _, _, .distribute hi hl, k2, by rw [← k4]; exact k3⟩
    | queueSwap b t =>
      simp only [emitterCall, Emitter.queueSwap, Emitter.inst, Emitter.newBackstopLarger, bind_ok, pure_ok, require_ok,
        unwrap_ok, decide_eq_true_eq] at h
      obtain ⟨_, hs, i, hi, _, hl, rfl⟩ := h
      exact ⟨_, i.blnd, [], .queue hi hs hl, fits_nil _ _, outcome_nil _ _ _⟩
    | cancelSwap =>
      simp only [emitterCall, Emitter.cancelSwap, Emitter.queuedSwap, Emitter.inst, Emitter.newBackstopLarger, bind_ok,
        pure_ok, require_ok, unwrap_ok, decide_eq_true_eq] at h
      obtain ⟨s, hs, i, hi, _, hl, rfl⟩ := h
      cases hsw : w.emitter.swap with
      | none => rw [hsw] at hs; simp at hs
      | some s' => exact ⟨_, i.blnd, [], .cancel hi hsw (by rw [hsw] at hs; simp at hs; subst hs; omega), fits_nil _ _, outcome_nil _ _ _⟩
    | swapBackstop =>
      simp only [emitterCall, Emitter.swapBackstop, Emitter.queuedSwap, Emitter.inst, Emitter.newBackstopLarger, bind_ok,
        pure_ok, require_ok, unwrap_ok, decide_eq_true_eq, Prod.exists] at h
      obtain ⟨s, hs, _, hu, i, hi, _, hlt, n, w1, h, rfl⟩ := h
      obtain ⟨last, hl, _⟩ := hr.eminv i hi
      obtain ⟨_, h⟩ := (distribute_iff hr hi hl).1 h
      have hsw : w.emitter.swap = some s := by
        cases hsw : w.emitter.swap with
        | none => rw [hsw] at hs; simp at hs
        | some s' => rw [hsw] at hs; simp at hs; rw [hs]
      obtain ⟨_, k2, k3, k4, k5⟩ := paid (e' := { w.emitter with
          swap := none
          inst := some ⟨i.blnd, s.newBackstop, s.newBackstopToken⟩
          lastDistro := upd (upd w.emitter.lastDistro i.backstop (some w.time)) s.newBackstop (some w.time) }) hr h
      have hE : ({ w1.emitter with
          swap := none
          inst := some { i with backstop := s.newBackstop, backstopToken := s.newBackstopToken }
          lastDistro := upd w1.emitter.lastDistro s.newBackstop (some w1.time) } : EmitterState) = { w.emitter with
          swap := none
          inst := some ⟨i.blnd, s.newBackstop, s.newBackstopToken⟩
          lastDistro := upd (upd w.emitter.lastDistro i.backstop (some w.time)) s.newBackstop (some w.time) } := by rw [k4, k5]
      exact ⟨_, _, _, .swap hi hsw (by omega) hlt hl, k2, by rw [hE]; exact k3⟩
    | drop l =>
      simp only [emitterCall] at h
      obtain ⟨i, hi, ha, hd, k1, k2, k3, k4⟩ := hdrop h
      exact ⟨_, _, _, .drop hi hd (.inl ⟨auth, rfl, ha⟩) k1 k2, k3, k4⟩
  · simp only [step, bind_ok, require_ok, backstopCall, Backstop.drop, Backstop.inst, unwrap_ok] at h
    obtain ⟨_, _, b, hb, _, he, l, hl, h⟩ := h
    obtain ⟨i, hi, ha, hd, k1, k2, k3, k4⟩ := hdrop h
    exact ⟨_, _, _, .drop hi hd (.inr ⟨auth, b, rfl, hb, he, hl, by simpa using ha⟩) k1 k2, k3, k4⟩

/-- **C69.** A call of the emitter that is in order goes through, if the payments fit. -/
theorem C69_emitter_accepted {w : World} {op : Op} {e : EmitterState} {t : Address} {l : List (Address × Int)} (hr : Reachable w)
    (hsig : SignedBy w op) (h : EmitterPlan w op e t l) (hfit : PaymentsFit w t l) :
    ∃ w', step w op = .ok w' ∧ EmitterOutcome w w' e t l := by
  have pay : ∀ {e1 : EmitterState} {t : Address} {l : List (Address × Int)}, (∀ x ∈ l, 0 ≤ x.2) → PaymentsFit w t l →
      ∃ w1, l.foldlM (fun w x => mint w t x.1 x.2) { w with emitter := e1 } = .ok w1 := fun {e1 t l} h1 h2 =>
    (mints_iff (w := { w with emitter := e1 }) (fun a => hr.base.balances t a)).2 ⟨h1, h2⟩
  have dist : ∀ {i : EmitterInst} {last : Nat}, w.emitter.inst = some i → w.emitter.lastDistro i.backstop = some last →
      ∀ x ∈ [(i.backstop, ((w.time : Int) - last) * ONE7)], 0 ≤ x.2 := by
    intro i last hi hl x hx
    obtain ⟨l, hl', hle⟩ := hr.eminv i hi
    rw [hl] at hl'; cases hl'
    rw [List.mem_singleton] at hx; subst hx
    unfold ONE7
    show 0 ≤ ((w.time : Int) - last) * _
    omega
  cases h with
  | @init auth b s k hn =>
    refine ⟨_, ?_, outcome_nil _ _ _⟩
    simp only [step, bind_ok, require_ok, emitterCall, Emitter.init, pure_ok]
    exact ⟨(), hsig, (), hn, trivial⟩
  | @distribute auth i last hi hl =>
    obtain ⟨w1, h⟩ := pay (dist hi hl) hfit
    have hd := (distribute_iff hr hi hl).2 ⟨rfl, h⟩
    obtain ⟨_, _, k3, k4, _⟩ := paid (e' := w1.emitter) hr h
    refine ⟨w1, ?_, by rw [← k4]; exact k3⟩
    simp only [step, bind_ok, require_ok, emitterCall, Emitter.distribute, Emitter.inst, pure_ok, Prod.exists, unwrap_ok]
    exact ⟨(), hsig, _, w1, ⟨i, hi, hd⟩, rfl⟩
  | @queue auth i b k hi hs hlt =>
    refine ⟨_, ?_, outcome_nil _ _ _⟩
    simp only [step, bind_ok, require_ok, emitterCall, Emitter.queueSwap, Emitter.inst, Emitter.newBackstopLarger, pure_ok,
        unwrap_ok, decide_eq_true_eq]
    exact ⟨(), hsig, (), hs, i, hi, (), hlt, rfl⟩
  | @cancel auth i s hi hs hle =>
    refine ⟨_, ?_, outcome_nil _ _ _⟩
    simp only [step, bind_ok, require_ok, emitterCall, Emitter.cancelSwap, Emitter.queuedSwap, Emitter.inst,
        Emitter.newBackstopLarger, pure_ok, unwrap_ok, decide_eq_true_eq, hs]
    exact ⟨(), hsig, s, rfl, i, hi, (), by omega, trivial⟩
  | @swap auth i s last hi hs hu hlt hl =>
    obtain ⟨w1, h⟩ := pay (dist hi hl) hfit
    have hd := (distribute_iff hr hi hl).2 ⟨rfl, h⟩
    obtain ⟨_, _, k3, k4, k5⟩ := paid (e' := { w.emitter with
          swap := none
          inst := some ⟨i.blnd, s.newBackstop, s.newBackstopToken⟩
          lastDistro := upd (upd w.emitter.lastDistro i.backstop (some w.time)) s.newBackstop (some w.time) }) hr h
    refine ⟨_, ?_, k3⟩
    simp only [step, bind_ok, require_ok, emitterCall, Emitter.swapBackstop, Emitter.queuedSwap, Emitter.inst,
        Emitter.newBackstopLarger, pure_ok, unwrap_ok, decide_eq_true_eq, Prod.exists, hs]
    have hE : ({ w1.emitter with
          swap := none
          inst := some { i with backstop := s.newBackstop, backstopToken := s.newBackstopToken }
          lastDistro := upd w1.emitter.lastDistro s.newBackstop (some w1.time) } : EmitterState) = { w.emitter with
          swap := none
          inst := some ⟨i.blnd, s.newBackstop, s.newBackstopToken⟩
          lastDistro := upd (upd w.emitter.lastDistro i.backstop (some w.time)) s.newBackstop (some w.time) } := by rw [k4, k5]
    exact ⟨(), hsig, s, rfl, (), by omega, i, hi, (), hlt, _, w1, hd, by rw [hE]⟩
  | @drop op i l hi hd hop hn hsum =>
    obtain ⟨w1, h⟩ := pay (e1 := w.emitter) hn hfit
    obtain ⟨_, _, k3, k4, _⟩ := paid (e' := { w.emitter with dropped := upd w.emitter.dropped i.backstop true }) hr h
    refine ⟨_, ?_, k3⟩
    rcases hop with ⟨auth, rfl, ha⟩ | ⟨auth, b, rfl, hb, he, hl, hbs⟩
    · simp only [step, bind_ok, require_ok, emitterCall]
      exact ⟨(), hsig, (drop_iff hi hn).2 ⟨ha, hd, hsum, w1, h, by rw [k4]⟩⟩
    · simp only [step, bind_ok, require_ok, backstopCall, Backstop.drop, Backstop.inst, unwrap_ok]
      exact ⟨(), hsig, b, hb, (), he, _, hl, (drop_iff hi hn).2 ⟨by simp [hbs], hd, hsum, w1, h, by rw [k4]⟩⟩

/-- **C69.** A call of the factory goes through exactly when it is in order, and does exactly what was planned. -/
theorem C69_factory {w w' : World} {auth : List Address} {c : FactoryCall} (hsig : ∀ a ∈ auth, ¬ w.isProtocol a) :
    step w (.factory auth c) = .ok w' ↔ FactoryPlan w auth c w' := by
  constructor
  · intro h
    simp only [step, bind_ok, require_ok] at h
    obtain ⟨_, _, h⟩ := h
    rcases factoryCall_ok h with ⟨m, rfl, h1, rfl⟩ | ⟨a, s, o, r, n, m, rfl, h1, h2, h3, h4, h5, h6, rfl⟩
    · exact .init h1
    · exact .deploy h1 h2 h3 h4 h5 h6
  · intro h
    cases h with
    | @init m hn =>
      simp only [step, bind_ok, require_ok, factoryCall, Factory.init, pure_ok]
      exact ⟨(), hsig, (), by rw [hn]; rfl, trivial⟩
    | @deploy a salt o r n m h1 h2 h3 h4 h5 h6 =>
      simp only [step, bind_ok, require_ok, factoryCall, Factory.deploy, pure_ok, requireAuth_ok, unwrap_ok, Prod.exists, Prod.mk.injEq,
        Pool.call, executeInit]
      refine ⟨(), hsig, _, _, ⟨(), h1, m, h2, (), by omega, (), by omega, (), h5, (), by rw [h6]; rfl, _,
        ⟨(), by simp, _, ⟨(), by rw [h6]; rfl, (), by omega, (), by omega, rfl⟩, rfl⟩, rfl, rfl⟩, rfl⟩

/-! ### The hypotheses are met -/

/-- a drop of the modelled backstop and a swap of the backstop are in order in reachable worlds, and mint tokens -/
example : ∃ w e l, Reachable w ∧ EmitterPlan w (.emitter [] .swapBackstop) e blndA l ∧ PaymentsFit w blndA l ∧
    l = [(backstopA, 2678500 * ONE7)] ∧ e.inst = some ⟨blndA, carol, lpA⟩ := by
  obtain ⟨w, _, hr, h⟩ := Demo.reach (ops := swapOps) (f := fun w => decide (w.emitter.inst = some ⟨blndA, backstopA, lpA⟩ ∧
    w.emitter.swap = some ⟨carol, lpA, w.time⟩ ∧ w.balance lpA backstopA < w.balance lpA carol ∧
    w.emitter.lastDistro backstopA = some (w.time - 2678500) ∧ 2678500 ≤ w.time ∧ w.balance blndA backstopA = 0)) (by decide +kernel)
  obtain ⟨h1, h2, h3, h4, h5, h6⟩ := of_decide_eq_true h
  have e : ((w.time : Int) - (w.time - 2678500 : Nat)) = 2678500 := by omega
  refine ⟨w, _, _, hr, .swap h1 h2 (le_refl _) h3 h4, ?_, by simp only [e], rfl⟩
  intro x hx
  simp only [e] at hx ⊢
  rw [List.mem_singleton] at hx; subst hx
  rw [paidTo_one, if_pos rfl]
  show w.balance blndA backstopA + _ ≤ _
  rw [h6]; decide

example : ∃ w e, Reachable w ∧ EmitterPlan w (.backstop [] .drop) e blndA [(carol, 70000000), (bob, 5), (carol, 1)] := by
  obtain ⟨w, _, hr, h⟩ := Demo.reach (ops := swapOps.take 3) (f := fun w => decide (w.emitter.inst = some ⟨blndA, backstopA, lpA⟩ ∧
    w.emitter.dropped backstopA = false ∧ w.backstop.inst = some ⟨lpA, emitterA, blndA, usdcA, factoryA⟩ ∧ w.emitterAddr = emitterA ∧
    w.backstop.dropList = some [(carol, 70000000), (bob, 5), (carol, 1)] ∧ w.backstopAddr = backstopA)) (by decide +kernel)
  obtain ⟨h1, h2, h3, h4, h5, h6⟩ := of_decide_eq_true h
  exact ⟨w, _, hr, .drop h1 h2 (.inr ⟨[], _, rfl, h3, h4.symm, h5, h6.symm⟩) (by decide) (by decide)⟩

/-- a deployment is in order -/
example : ∃ w w', Reachable w ∧ FactoryPlan w [adminA] (.deploy adminA 1 oracleA 1000000 4) w' := by
  obtain ⟨w, w', _, hr, hs, _⟩ := Demo.reach_step (ops := story) (op := .factory [adminA] (.deploy adminA 1 oracleA 1000000 4))
    (f := fun _ w' => decide (Factory.isPool w' (poolA + 1) = true)) (by decide +kernel)
  have hs' := hs
  simp only [step, bind_ok, require_ok] at hs
  exact ⟨w, w', hr, (C69_factory hs.choose_spec.1).1 hs'⟩

end Props
end Blend
