import Verif.Lemmas.IsolStep
import Verif.Props.Isolation
import Verif.Examples.Demo
/-
  C87: what another pool contains does not matter.
-/

namespace Blend.Props
open Spec Pool

variable {q : Address} {w g : World}

private theorem other_away (h : OtherPool q w g) : g = w.away q (g.pools q) := by
  rw [h.rest]
  simp only [World.away]
  congr 1
  funext p
  by_cases hp : p = q
  · subst hp; exact upd_same.symm
  · rw [upd_ne hp]; exact h.pools p hp

private theorem away_other (X : PoolState) (w : World) : OtherPool q w (w.away q X) := ⟨fun _ hp => upd_ne hp, rfl⟩

/-- C87: an operation that does not call the pool `q` does the same whatever that pool contains: it fails with the same error, or it
returns the same and changes the rest in the same way, and it leaves the contents of `q` alone. -/
theorem C87_independent (h : OtherPool q w g) {op : Op} (hc : ¬ CallsPool w q op) :
    (∀ e, exec w op = .error e ↔ exec g op = .error e) ∧
    (∀ r w', exec w op = .ok (r, w') → ∃ g', exec g op = .ok (r, g') ∧ OtherPool q w' g' ∧ g'.pools q = g.pools q) ∧
    (∀ r g', exec g op = .ok (r, g') → ∃ w', exec w op = .ok (r, w') ∧ OtherPool q w' g') := by
  have hs := isol_exec (g.pools q) w op hc
  rw [← other_away h] at hs
  rcases hw : exec w op with e0 | ⟨r0, w0⟩
  · rw [hw] at hs
    rw [show exec g op = .error e0 from hs]
    exact ⟨fun e => Iff.rfl, ⟨fun _ _ h => (by cases h), fun _ _ h => (by cases h)⟩⟩
  · rw [hw] at hs
    rw [show exec g op = .ok (r0, w0.away q (g.pools q)) from hs]
    refine ⟨fun e => ⟨fun h => (by cases h), fun h => (by cases h)⟩, fun r w' h => ?_, fun r g' h => ?_⟩
    · cases h; exact ⟨_, rfl, away_other _ _, upd_same⟩
    · cases h; exact ⟨_, rfl, away_other _ _⟩

/-- C87: the events are the same. -/
theorem C87_same_events (h : OtherPool q w g) {op : Op} (hc : ¬ CallsPool w q op) : logOf g op = logOf w op := by
  have hs := isol_log (g.pools q) w op hc
  rw [← other_away h] at hs
  rw [hs]
  cases logOf w op <;> rfl

/-- C87: whole histories in which `q` is not called. -/
theorem C87_history (h : OtherPool q w g) {l : List Op} {w' : World} (hh : Played (fun w op => ¬ CallsPool w q op) w l w') :
    ∃ g', Played (fun w op => ¬ CallsPool w q op) g l g' ∧ OtherPool q w' g' ∧ g'.pools q = g.pools q := by
  induction hh generalizing g with
  | nil w => exact ⟨g, .nil _, h, rfl⟩
  | @cons w w1 w2 op l hq hs _ ih =>
    have h1 := (isol_step (g.pools q) w op hq).ok hs
    rw [← other_away h] at h1
    obtain ⟨g', h2, h3, h4⟩ := ih (away_other (g.pools q) w1)
    have hg : ¬ CallsPool g q op := by
      rw [h.rest]
      cases op with
      | factory auth c => cases c <;> exact hq
      | _ => exact hq
    exact ⟨g', .cons hg h1 h2, h3, h4.trans upd_same⟩

/-- C87: what the admin of a pool does, and every other call of it but submits, claims and its collection of emissions, is such a
difference: for everybody else it is as if it had not been done. -/
theorem C87_private {auth : List Address} {c : Call} (hs : step w (.pool q auth c) = .ok g) (h1 : ∀ a b d l, c ≠ .submit a b d l)
    (h2 : ∀ a l d, c ≠ .claim a l d) (h3 : c ≠ .gulpEmissions) : OtherPool q w g := by
  have key : ∃ ps, g = w.setPool q ps := by
    simp only [step, bind_ok, require_ok] at hs
    obtain ⟨_, hp, _, ha, h⟩ := hs
    cases c with
    | submit a b d l => exact absurd rfl (h1 a b d l)
    | claim a l d => exact absurd rfl (h2 a l d)
    | gulpEmissions => exact absurd rfl h3
    | «initialize» => simp only [call, bind_ok, pure_ok] at h; obtain ⟨_, _, _, _, rfl⟩ := h; exact ⟨_, rfl⟩
    | setAdmin => simp only [call, bind_ok, pure_ok] at h; obtain ⟨_, _, _, _, _, _, rfl⟩ := h; exact ⟨_, rfl⟩
    | updatePool => simp only [call, bind_ok, pure_ok] at h; obtain ⟨_, _, _, _, rfl⟩ := h; exact ⟨_, rfl⟩
    | queueSetReserve => simp only [call, bind_ok, pure_ok] at h; obtain ⟨_, _, _, _, rfl⟩ := h; exact ⟨_, rfl⟩
    | cancelSetReserve => simp only [call, bind_ok, pure_ok] at h; obtain ⟨_, _, rfl⟩ := h; exact ⟨_, rfl⟩
    | setReserve => simp only [call, bind_ok, pure_ok] at h; obtain ⟨_, _, rfl⟩ := h; exact ⟨_, rfl⟩
    | badDebt =>
      simp only [call, transferBadDebt, bind_ok, pure_ok, Prod.exists] at h
      obtain ⟨_, _, _, _, _, _, _, _, _, _, _, _, _, _, _, rfl⟩ := h
      exact ⟨_, rfl⟩
    | updateStatus => simp only [call, Pool.updateStatus, bind_ok, pure_ok] at h; obtain ⟨_, _, _, _, _, _, rfl⟩ := h; exact ⟨_, rfl⟩
    | setStatus => simp only [call, Pool.setStatus, bind_ok, pure_ok] at h; obtain ⟨_, _, _, _, _, _, _, _, _, _, rfl⟩ := h; exact ⟨_, rfl⟩
    | setEmissionsConfig => simp only [call, bind_ok, pure_ok] at h; obtain ⟨_, _, _, _, rfl⟩ := h; exact ⟨_, rfl⟩
    | newLiquidation =>
      simp only [call, createLiquidation, bind_ok, pure_ok, Prod.exists] at h
      obtain ⟨_, _, _, _, _, _, _, rfl⟩ := h
      exact ⟨_, rfl⟩
    | newBadDebt => simp only [call, createBadDebt, bind_ok, pure_ok] at h; obtain ⟨_, _, _, _, rfl⟩ := h; exact ⟨_, rfl⟩
    | newInterest => simp only [call, createInterest, bind_ok, pure_ok] at h; obtain ⟨_, _, _, _, rfl⟩ := h; exact ⟨_, rfl⟩
  obtain ⟨ps, rfl⟩ := key
  exact ⟨fun _ hp => upd_ne hp, rfl⟩

open Demo in
/-- the admin of a second pool with the same token freezes it: a borrow from the first one goes as before -/
example : ∃ w g w', Reachable w ∧ step w (.pool 101 [alice] (.setStatus 4)) = .ok g ∧ OtherPool 101 w g ∧ (g.pools 101).inst ≠ (w.pools 101).inst ∧
    ∃ r g', exec w (.pool poolA [bob] (.submit bob bob bob [⟨2, xlmA, 1000000000000⟩, ⟨4, usdcA, 60000000000⟩])) = .ok (r, w') ∧
      exec g (.pool poolA [bob] (.submit bob bob bob [⟨2, xlmA, 1000000000000⟩, ⟨4, usdcA, 60000000000⟩])) = .ok (r, g') ∧
      OtherPool 101 w' g' := by
  have h : okAnd (Demo.run genesis (setup ++ trade.take 2 ++ Demo.second)) (fun w =>
      okAnd (step w (.pool 101 [alice] (.setStatus 4))) (fun g =>
        decide ((g.pools 101).inst.map (·.config.status) ≠ (w.pools 101).inst.map (·.config.status))) &&
      okAnd (exec w (.pool poolA [bob] (.submit bob bob bob [⟨2, xlmA, 1000000000000⟩, ⟨4, usdcA, 60000000000⟩]))) (fun _ => true)) = true := by
    decide +kernel
  obtain ⟨w, _, hr, h⟩ := Demo.reach h
  simp only [Bool.and_eq_true] at h
  obtain ⟨h1, h2⟩ := h
  obtain ⟨g, hg, h1⟩ := okAnd_iff.1 h1
  obtain ⟨⟨r, w'⟩, hw, -⟩ := okAnd_iff.1 h2
  have ho : OtherPool 101 w g := C87_private hg (by intros; simp) (by intros; simp) (by simp)
  obtain ⟨g', hg', ho', -⟩ := (C87_independent ho (op := .pool poolA [bob] (.submit bob bob bob
    [⟨2, xlmA, 1000000000000⟩, ⟨4, usdcA, 60000000000⟩])) (by simp [CallsPool])).2.1 r w' hw
  exact ⟨w, g, w', hr, hg, ho, fun e => of_decide_eq_true h1 (by rw [e]), r, g', hw, hg', ho'⟩

end Blend.Props
