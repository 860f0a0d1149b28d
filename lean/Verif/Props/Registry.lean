import Verif.Lemmas.BDeployed
import Verif.Examples.Demo
/-
  C42: the registry of the pool factory.
-/

namespace Blend
namespace Props
open Spec Pool Demo

/-- a step registers no pool but the one it deploys, and forgets none -/
theorem registry_step {w w' : World} {op : Op} (hb : Base w) (h : step w op = .ok w') (a : Address) :
    Factory.isPool w' a = true ↔ Factory.isPool w a = true ∨
      ∃ auth admin salt oracle rate n, op = .factory auth (.deploy admin salt oracle rate n) ∧ w.deployAddr admin salt = a := by
  unfold Factory.isPool
  by_cases ho : ∃ auth c, op = .factory auth c
  · obtain ⟨auth, c, rfl⟩ := ho
    simp only [step, bind_ok] at h
    obtain ⟨_, _, h⟩ := h
    rcases factoryCall_ok h with ⟨m, rfl, _, rfl⟩ | ⟨x, s, o, r, n, m, rfl, _, _, _, _, _, _, rfl⟩
    · simp
    · simp only [upd_apply]
      by_cases ha : a = w.deployAddr x s
      · simp only [if_pos ha, true_iff]
        exact .inr ⟨auth, x, s, o, r, n, rfl, ha.symm⟩
      · simp only [if_neg ha]
        constructor
        · exact .inl
        · rintro (h | ⟨_, _, _, _, _, _, he, h⟩)
          · exact h
          · cases he; exact absurd h.symm ha
  · push Not at ho
    rw [(step_frame hb h).factory ho]
    constructor
    · exact .inl
    · rintro (h | ⟨_, _, _, _, _, _, he, _⟩)
      · exact h
      · exact absurd he (ho _ _)

/-- the registry never forgets a pool -/
theorem C42_never_forgets {w w' : World} (hr : Reachable w) (hs : Steps w w') {a : Address}
    (h : Factory.isPool w a = true) : Factory.isPool w' a = true :=
  (hs.inv (P := fun w => Base w ∧ Factory.isPool w a = true)
    (fun _ _ _ hp hst => ⟨(step_res hp.1 hst).base, (registry_step hp.1 hst a).2 (.inl hp.2)⟩) ⟨hr.base, h⟩).2

/-- **C42** In every history that starts from an empty deployment, `is_pool` is true exactly for the
addresses at which a `deploy` call of the factory succeeded in that history. -/
theorem C42_registry {w0 w : World} (hg : Genesis w0) (hs : Steps w0 w) (a : Address) :
    Factory.isPool w a = true ↔
      ∃ v v' auth admin salt oracle rate n, Steps w0 v ∧
        step v (.factory auth (.deploy admin salt oracle rate n)) = .ok v' ∧ v.deployAddr admin salt = a ∧ Steps v' w := by
  have hr0 : Reachable w0 := ⟨w0, hg, .refl w0⟩
  constructor
  · induction hs with
    | refl => intro h; rw [Factory.isPool, hg.factory] at h; cases h
    | @tail u u' hu hst ih =>
      intro h
      obtain ⟨op, hst⟩ := hst
      rcases (registry_step (hr0.steps hu).base hst a).1 h with h | ⟨auth, x, s, o, r, n, rfl, he⟩
      · obtain ⟨v, v', auth, x, s, o, r, n, h1, h2, h3, h4⟩ := ih h
        exact ⟨v, v', auth, x, s, o, r, n, h1, h2, h3, h4.tail ⟨op, hst⟩⟩
      · exact ⟨u, u', auth, x, s, o, r, n, hu, hst, he, .refl _⟩
  · rintro ⟨v, v', auth, x, s, o, r, n, h1, h2, h3, h4⟩
    have hv := hr0.steps h1
    exact C42_never_forgets (hv.step h2) h4 ((registry_step hv.base h2 a).2 (.inr ⟨_, _, _, _, _, _, rfl, h3⟩))

/-- **C42** A successful `deploy` was authorized by the new pool's admin, has valid arguments, lands on
an address without a pool, and leaves there a pool in setup that is wired to the factory's backstop and
BLND token. No other address is registered. -/
theorem C42_deploy {w w' : World} {auth : List Address} {admin oracle : Address} {salt rate n : Nat} (hr : Reachable w)
    (h : step w (.factory auth (.deploy admin salt oracle rate n)) = .ok w') :
    admin ∈ auth ∧ rate < 10000000 ∧ 2 ≤ n ∧
    Factory.isPool w (w.deployAddr admin salt) = false ∧
    (∃ m, w.factory.meta? = some m ∧
      w'.pools (w.deployAddr admin salt) =
        { w.pools (w.deployAddr admin salt) with inst := some ⟨admin, m.backstop, m.blnd, ⟨oracle, rate, 6, n⟩⟩ }) ∧
    (∀ x, Factory.isPool w' x = true ↔ Factory.isPool w x = true ∨ x = w.deployAddr admin salt) ∧
    ∀ x, x ≠ w.deployAddr admin salt → w'.pools x = w.pools x := by
  have hreg := registry_step hr.base h
  simp only [step, bind_ok] at h
  obtain ⟨_, _, h⟩ := h
  rcases factoryCall_ok h with ⟨m, hc, _, _⟩ | ⟨x, s, o, r, n', m, hc, ha, hm, hrate, hn, _, hi, hw⟩
  · cases hc
  · cases hc
    refine ⟨ha, hrate, hn, ?_, ⟨m, hm, by subst hw; exact pools_setPool ..⟩, fun y => ?_, fun y hy => by
      subst hw; exact pools_setPool_ne _ _ _ _ hy⟩
    · by_contra hd
      obtain ⟨_, _, i, _, hi', _⟩ := hr.dep.pool _ (by simpa [Factory.isPool] using hd)
      rw [hi] at hi'; cases hi'
    · rw [hreg y]
      constructor
      · rintro (h | ⟨_, _, _, _, _, _, he, h⟩)
        · exact .inl h
        · cases he; exact .inr h.symm
      · rintro (h | h)
        · exact .inl h
        · exact .inr ⟨_, _, _, _, _, _, rfl, h.symm⟩

/-- **C42** At all times every registered pool is wired to the factory's backstop and BLND token. -/
theorem C42_wired {w : World} (hr : Reachable w) {a : Address} (h : Factory.isPool w a = true) :
    ∃ m i, w.factory.meta? = some m ∧ (w.pools a).inst = some i ∧ i.backstop = m.backstop ∧ i.blnd = m.blnd :=
  (hr.dep.pool a h).2

/-! ### The hypotheses are met -/

/-- the demo's pool is registered at the end of the story, another pool address is not -/
example : ∃ w, Reachable w ∧ Factory.isPool w poolA = true ∧ Factory.isPool w (poolA + 1) = false := by
  obtain ⟨w, _, hr, h⟩ := Demo.reach (ops := story) (f := fun w => decide (Factory.isPool w poolA = true ∧
    Factory.isPool w (poolA + 1) = false)) (by decide +kernel)
  exact ⟨w, hr, of_decide_eq_true h⟩

/-- a second pool is deployed at the end of the story -/
example : ∃ w w', Reachable w ∧ step w (.factory [adminA] (.deploy adminA 1 oracleA 1000000 4)) = .ok w' ∧
    Factory.isPool w' (poolA + 1) = true := by
  obtain ⟨w, w', _, hr, hs, h⟩ := Demo.reach_step (ops := story) (op := .factory [adminA] (.deploy adminA 1 oracleA 1000000 4))
    (f := fun _ w' => decide (Factory.isPool w' (poolA + 1) = true)) (by decide +kernel)
  exact ⟨w, w', hr, hs, of_decide_eq_true h⟩

end Props
end Blend
