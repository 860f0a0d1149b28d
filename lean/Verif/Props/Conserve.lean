import Verif.Lemmas.Conserve
import Verif.Props.Emitter
import Verif.Examples.Demo
/-
  C79: tokens are moved, not made.
-/

namespace Blend
namespace Props
open Spec

/-- **C79** In any one operation, the number of tokens of any kind in all hands changes exactly by what the operation may create:
nothing, except for mints and burns by others, the emissions and the drop of BLND, and Comet's LP tokens for a claim. -/
theorem C79_step {w w' : World} (hr : Reachable w) {op : Op} (h : step w op = .ok w') {t : Address} {n : Int}
    (hn : Created w w' t n op) : Issued w w' t n := by
  obtain ⟨m, hm, hc⟩ := step_issued hr h t
  have : n = m := by
    unfold Created at hn hc
    split at hn
    · exact hn.trans hc.symm
    · exact hn.trans hc.symm
    · obtain ⟨i, l, h1, h2, _, rfl⟩ := hn
      obtain ⟨j, l', h3, h4, _, rfl⟩ := hc
      rw [h1] at h3; cases h3
      rw [h2] at h4; cases h4; rfl
    · obtain ⟨i, l, h1, h2, _, rfl⟩ := hn
      obtain ⟨j, l', h3, h4, _, rfl⟩ := hc
      rw [h1] at h3; cases h3
      rw [h2] at h4; cases h4; rfl
    · obtain ⟨i, h1, rfl⟩ := hn
      obtain ⟨j, h3, rfl⟩ := hc
      rw [h1] at h3; cases h3; rfl
    · obtain ⟨i, l, h1, h2, rfl⟩ := hn
      obtain ⟨j, l', h3, h4, rfl⟩ := hc
      rw [h1] at h3; cases h3
      rw [h2] at h4; cases h4; rfl
    · obtain ⟨x, h1, h2, h3⟩ := hn
      obtain ⟨y, h4, h5, h6⟩ := hc
      rw [h1] at h4; cases h4
      by_cases hx : 0 < x
      · obtain ⟨i, hi, rfl⟩ := h3 hx
        obtain ⟨j, hj, rfl⟩ := h6 hx
        rw [hi] at hj; cases hj; rfl
      · rw [h2 (by omega), h5 (by omega)]
    · rename_i e1 e2 e3 e4 e5 e6 e7
      split at hc
      · exact absurd rfl (e1 _ _ _)
      · exact absurd rfl (e2 _ _ _)
      · exact absurd rfl (e3 _)
      · exact absurd rfl (e4 _)
      · exact absurd rfl (e5 _ _)
      · exact absurd rfl (e6 _)
      · exact absurd rfl (e7 _ _ _ _)
      · exact hn.trans hc.symm
  rw [this]; exact hm

/-- **C79** Every successful operation creates some definite number of tokens of every kind, so every history does. -/
theorem C79_supply {w w' : World} (hr : Reachable w) (hs : Steps w w') (t : Address) : ∃ n, Supply t w w' n ∧ Issued w w' t n := by
  induction hs with
  | refl => exact ⟨0, .refl _, .refl' fun _ => rfl⟩
  | tail st h ih =>
    obtain ⟨n, h1, h2⟩ := ih
    obtain ⟨op, h⟩ := h
    obtain ⟨k, h3, h4⟩ := step_issued (hr.steps st) h t
    exact ⟨n + k, .tail h1 h h4, h2.trans h3⟩

/-- **C79** Over any history, the number of tokens in all hands changes by exactly what its operations may create. -/
theorem C79_history {w w' : World} (hr : Reachable w) {t : Address} {n : Int} (h : Supply t w w' n) : Issued w w' t n := by
  suffices hh : Issued w w' t n ∧ Steps w w' from hh.1
  induction h with
  | refl => exact ⟨.refl' fun _ => rfl, .refl _⟩
  | tail _ hs hc ih => exact ⟨ih.1.trans (C79_step (hr.steps ih.2) hs hc), .tail ih.2 ⟨_, hs⟩⟩

/-- what one operation creates of BLND -/
theorem blnd_created {w w' : World} (hr : Reachable w) {op : Op} (h : step w op = .ok w') {i i' : EmitterInst}
    (hi : w.emitter.inst = some i) (hi' : w'.emitter.inst = some i') {l l' : Nat} (hl : w.emitter.lastDistro i.backstop = some l)
    (hl' : w'.emitter.lastDistro i'.backstop = some l') (hle : l ≤ l') (ht : ∀ j, w.backstop.inst = some j → j.backstopToken ≠ i.blnd)
    {n : Int} (hn : Created w w' i.blnd n op) : n ≤ ((l' : Int) - l) * ONE7 + dropTotal w op := by
  have hpos : 0 ≤ ((l' : Int) - l) * ONE7 := mul_nonneg (by omega) (by decide)
  have key : ∀ auth, op = .emitter auth .distribute ∨ op = .emitter auth .swapBackstop → l' = w.time := by
    intro auth ho
    obtain ⟨_, _, j, _, _, _, h1, h2, _⟩ := C39_distribute hr ⟨auth, ho⟩ h
    rw [hi'] at h1; cases h1
    rw [hl'] at h2; cases h2; rfl
  unfold Created at hn
  split at hn
  · rename_i t' d k
    simp only [step, bind_ok, require_ok] at h
    obtain ⟨_, h, _⟩ := h
    have := h i (by simp [hi])
    rw [if_neg this] at hn
    simp only [dropTotal]; omega
  · rename_i t' d k
    simp only [step, bind_ok, require_ok] at h
    obtain ⟨_, _, _, h, _⟩ := h
    simp only [dropTotal]
    split at hn <;> omega
  · obtain ⟨j, x, h1, h2, _, rfl⟩ := hn
    rw [hi] at h1; cases h1
    rw [hl] at h2; cases h2
    rw [key _ (.inl rfl), if_pos rfl]
    simp [dropTotal]
  · obtain ⟨j, x, h1, h2, _, rfl⟩ := hn
    rw [hi] at h1; cases h1
    rw [hl] at h2; cases h2
    rw [key _ (.inr rfl), if_pos rfl]
    simp [dropTotal]
  · obtain ⟨j, h1, rfl⟩ := hn
    rw [hi] at h1; cases h1
    rw [if_pos rfl]
    simp only [dropTotal]; omega
  · obtain ⟨j, x, h1, h2, rfl⟩ := hn
    rw [hi] at h1; cases h1
    rw [if_pos rfl]
    simp only [dropTotal, h2]
    simp only [Option.getD]
    omega
  · obtain ⟨x, h1, h2, h3⟩ := hn
    simp only [dropTotal]
    by_cases hx : 0 < x
    · obtain ⟨j, hj, rfl⟩ := h3 hx
      rw [if_neg (ht j hj)]; omega
    · rw [h2 (by omega)]; omega
  · rename_i e1 e2 e3 e4 e5 e6 e7
    have : dropTotal w op = 0 := by
      unfold dropTotal
      split
      · exact absurd rfl (e5 _ _)
      · exact absurd rfl (e6 _)
      · rfl
    omega

/-- **C79** The supply of BLND: over any history after the emitter is initialized, no more BLND comes into being than one token
for every second between distributions, and the drops. -/
theorem C79_blnd {w w' : World} {D : Int} {i : EmitterInst} (hr : Reachable w) (hs : DropHistory w w' D)
    (hi : w.emitter.inst = some i) (ht : ∀ j, w'.backstop.inst = some j → j.backstopToken ≠ i.blnd) :
    ∃ last n, w.emitter.lastDistro i.backstop = some last ∧ last ≤ w.time ∧ Issued w w' i.blnd n ∧
      n ≤ ((w'.time : Int) - last) * ONE7 + D := by
  obtain ⟨l0, hl0, hle0⟩ := hr.eminv i hi
  suffices hh : ∃ i' last' n, w'.emitter.inst = some i' ∧ i'.blnd = i.blnd ∧ w'.emitter.lastDistro i'.backstop = some last' ∧
      l0 ≤ last' ∧ last' ≤ w'.time ∧ Issued w w' i.blnd n ∧ n ≤ ((last' : Int) - l0) * ONE7 + D by
    obtain ⟨i', last', n, _, _, _, _, h5, h6, h7⟩ := hh
    refine ⟨l0, n, hl0, hle0, h6, h7.trans ?_⟩
    have : ((last' : Int) - l0) * ONE7 ≤ ((w'.time : Int) - l0) * ONE7 := mul_le_mul_of_nonneg_right (by omega) (by decide)
    omega
  induction hs with
  | refl => exact ⟨i, l0, 0, hi, rfl, hl0, le_rfl, hle0, .refl' fun _ => rfl, by simp⟩
  | @tail a b op D h1 h2 ih =>
    have hra := hr.steps h1.steps
    have hj : ∀ j, a.backstop.inst = some j → j.backstopToken ≠ i.blnd := fun j hj =>
      ht j (Backstop.inst_keep hra (.tail (.refl _) ⟨op, h2⟩) hj)
    obtain ⟨i1, l1, n, e1, e2, e3, e4, e5, e6, e7⟩ := ih hj
    obtain ⟨i2, l2, l3, f1, f2, f3, f4, f5, f6, f7⟩ := emission_step hra.base h2 hra.eminv e1 fun j hj => by
      rw [e2]; exact ht j (Backstop.inst_keep hra (.tail (.refl _) ⟨op, h2⟩) hj)
    rw [e3] at f3; cases f3
    obtain ⟨k, k1, k2⟩ := step_issued hra h2 i.blnd
    have := blnd_created hra h2 e1 f1 e3 f4 f5 (fun j hj' => by rw [e2]; exact hj j hj') (n := k) (by rw [e2]; exact k2)
    refine ⟨i2, l3, n + k, f1, f2.trans e2, f4, e4.trans f5, f6, e6.trans k1, ?_⟩
    linarith

section Demo
open Blend.Demo

/-- ten thousand seconds after the emitter was initialized, a distribution creates 10000 BLND, and no USDC -/
example : ∃ w w', Reachable w ∧ step w (.emitter [] .distribute) = .ok w' ∧ Issued w w' blndA 100000000000 ∧ Issued w w' usdcA 0 := by
  obtain ⟨w, w', _, hr, hs, hf⟩ := reach_step (ops := setup ++ trade ++ [.ledger 10000 2000]) (op := .emitter [] .distribute)
    (f := fun w _ => optAnd w.emitter.inst fun i => optAnd (w.emitter.lastDistro i.backstop) fun l =>
      decide (i.blnd = blndA ∧ l + 10000 = w.time)) (by decide +kernel)
  obtain ⟨i, hi, hf⟩ := optAnd_iff.1 hf
  obtain ⟨l, hl, hf⟩ := optAnd_iff.1 hf
  obtain ⟨hb, hl'⟩ := of_decide_eq_true hf
  refine ⟨w, w', hr, hs, C79_step hr hs ⟨i, l, hi, hl, by omega, ?_⟩, C79_step hr hs ⟨i, l, hi, hl, by omega, ?_⟩⟩
  · rw [if_pos hb, ← hl']; simp [ONE7]
  · rw [hb]; rfl

/-- borrowing moves tokens and makes none; so does a fill of an auction -/
example : ∃ w w', Reachable w ∧ step w (.pool poolA [dave] (.submit dave dave dave [⟨2, usdcA, 100000000000⟩, ⟨6, bob, 50⟩])) = .ok w' ∧
    Issued w w' usdcA 0 ∧ Issued w w' xlmA 0 ∧ w'.balance usdcA dave ≠ w.balance usdcA dave := by
  obtain ⟨w, w', _, hr, hs, hf⟩ := reach_step (ops := setup ++ trade ++ emissions ++ claims ++ liquidation.take 3)
    (op := .pool poolA [dave] (.submit dave dave dave [⟨2, usdcA, 100000000000⟩, ⟨6, bob, 50⟩]))
    (f := fun w w' => decide (w'.balance usdcA dave ≠ w.balance usdcA dave)) (by decide +kernel)
  exact ⟨w, w', hr, hs, C79_step hr hs rfl, C79_step hr hs rfl, of_decide_eq_true hf⟩

/-- carol's claim from the backstop creates the LP tokens Comet gives for it, and no BLND -/
example : ∃ w w' n, Reachable w ∧ step w (.backstop [carol] (.claim carol [poolA] carol)) = .ok w' ∧ 0 < n ∧
    Issued w w' lpA n ∧ Issued w w' blndA 0 := by
  obtain ⟨w, hw, hr, hf⟩ := reach (ops := setup ++ trade ++ emissions)
    (f := fun w => okAnd (exec w (.backstop [carol] (.claim carol [poolA] carol))) fun r => optAnd w.backstop.inst fun i =>
      match r.1 with
      | .int x => decide (0 < x ∧ 0 < w.cometOut x ∧ i.backstopToken = lpA)
      | _ => false) (by decide +kernel)
  obtain ⟨⟨r, w'⟩, hs, hf⟩ := okAnd_iff.1 hf
  obtain ⟨i, hi, hf⟩ := optAnd_iff.1 hf
  cases r with
  | int x =>
    obtain ⟨hx, hc, ht⟩ := of_decide_eq_true hf
    have hs' := exec_step hs
    refine ⟨w, w', _, hr, hs', hc, C79_step hr hs' ⟨x, hs, fun h => absurd hx (by omega), fun _ => ⟨i, hi, ?_⟩⟩,
      C79_step hr hs' ⟨x, hs, fun h => absurd hx (by omega), fun _ => ⟨i, hi, ?_⟩⟩⟩
    · rw [if_pos ht]
    · rw [ht]; rfl
  | _ => simp at hf

/-- the hypotheses of `C79_blnd`: a drop of 7 BLND and a distribution of 10000 -/
example : ∃ w w' i, Reachable w ∧ DropHistory w w' 70000000 ∧ w.emitter.inst = some i ∧
    (∀ j, w'.backstop.inst = some j → j.backstopToken ≠ i.blnd) ∧ w.balance i.blnd carol + 70000000 = w'.balance i.blnd carol := by
  obtain ⟨w, hw, hr, hf⟩ := reach (ops := setup ++ trade ++ [.ledger 10000 2000])
    (f := fun w => okAnd (step w (.emitter [] .distribute)) fun w1 => okAnd (step w1 (.backstop [] .drop)) fun w2 =>
      optAnd w.emitter.inst fun i => optAnd w2.backstop.inst fun j => optAnd w1.backstop.dropList fun l =>
      decide (j.backstopToken ≠ i.blnd ∧ (l.map (·.2)).sum = 70000000 ∧ w.balance i.blnd carol + 70000000 = w2.balance i.blnd carol))
    (by decide +kernel)
  obtain ⟨w1, h1, hf⟩ := okAnd_iff.1 hf
  obtain ⟨w2, h2, hf⟩ := okAnd_iff.1 hf
  obtain ⟨i, hi, hf⟩ := optAnd_iff.1 hf
  obtain ⟨j, hj, hf⟩ := optAnd_iff.1 hf
  obtain ⟨l, hl, hf⟩ := optAnd_iff.1 hf
  obtain ⟨ht, hl', hb⟩ := of_decide_eq_true hf
  refine ⟨w, w2, i, hr, ?_, hi, fun k hk => by rw [hj] at hk; cases hk; exact ht, hb⟩
  have := DropHistory.tail (.tail (.refl w) h1) h2
  simpa [dropTotal, hl, hl'] using this

end Demo

end Props
end Blend
