import Verif.Lemmas.FollowManage
import Verif.Props.Follow
/-
  C80: the management of the protocol can be followed from the events.
-/

namespace Blend
namespace Props
open Spec

theorem dated_steps {w w' : World} {l : List (Nat × Event)} (h : Dated w l w') : Steps w w' := by
  induction h with
  | start => exact .refl _
  | tail _ hs _ ih => exact .tail ih ⟨_, hs⟩

/-- where a list that is appended to another can be cut -/
theorem cut_append {α : Type} {a b l1 l2 : List α} {e : α} (h : a ++ b = l1 ++ e :: l2) :
    (∃ l3, a = l1 ++ e :: l3) ∨ ∃ l3, b = l3 ++ e :: l2 ∧ l1 = a ++ l3 := by
  rcases List.append_eq_append_iff.1 h with ⟨c, h1, h2⟩ | ⟨c, h1, h2⟩
  · exact .inr ⟨c, h2, h1⟩
  · cases c with
    | nil => exact .inr ⟨[], by simpa using h2.symm, by simpa using h1.symm⟩
    | cons x c =>
      simp only [List.cons_append, List.cons.injEq] at h2
      obtain ⟨rfl, _⟩ := h2
      exact .inl ⟨c, h1⟩

/-- **C80** Every history has a log. -/
theorem C80_total {w w' : World} (hr : Reachable w) (hs : Steps w w') : ∃ l, Dated w l w' := by
  induction hs with
  | refl => exact ⟨[], .start⟩
  | tail st h ih =>
    obtain ⟨l, hl⟩ := ih
    obtain ⟨op, h⟩ := h
    obtain ⟨ev, hev⟩ := log_total (hr.steps st) h
    exact ⟨_, .tail hl h hev⟩

/-- **C80** An observer that knows the settings of a pool at some time and from then on sees nothing but the published events has
the settings of the pool at any later time: the admin, the take rate, the maximum number of positions, the status, what is
queued and from when it can be put into effect, the reserves with their parameters, and the emission schedules. And every event it
sees agrees with its notes. -/
theorem C80_pool {w w' : World} (hr : Reachable w) {l : List (Nat × Event)} (h : Dated w l w') {p : Address} {F : SetupNotes}
    (hF : F.Right (w.pools p)) : (l.foldl (SetupNotes.see p) F).Right (w'.pools p) ∧
      ∀ l1 e l2, l = l1 ++ e :: l2 → (l1.foldl (SetupNotes.see p) F).Agrees p e := by
  induction h with
  | start => exact ⟨hF, fun l1 e l2 h => by simp at h⟩
  | @tail l w1 w2 op ev hl hs hev ih =>
    obtain ⟨ih1, ih2⟩ := ih
    obtain ⟨F', ⟨g1, g2⟩, g3⟩ := setup_step (hr.steps (dated_steps hl)) hs hev ih1
    refine ⟨by rw [List.foldl_append, g1]; exact g3, fun l1 e l2 hc => ?_⟩
    rcases cut_append hc with ⟨l3, h3⟩ | ⟨l3, h3, rfl⟩
    · exact ih2 l1 e l3 h3
    · obtain ⟨m1, m2, rfl, rfl, h5⟩ := List.map_eq_append_iff.1 h3
      obtain ⟨x, m3, rfl, rfl, _⟩ := List.map_eq_cons_iff.1 h5
      rw [List.foldl_append]
      exact g2 m1 x m3 rfl

/-- a pool that is not initialized has no reserves -/
theorem uninit_resList {w : World} (hr : Reachable w) {p : Address} (hi : (w.pools p).inst = none) : (w.pools p).resList = [] := by
  obtain ⟨w0, h0, hs⟩ := hr
  have : Reachable w ∧ ((w.pools p).inst = none → (w.pools p).resList = []) :=
    hs.inv (P := fun w => Reachable w ∧ ((w.pools p).inst = none → (w.pools p).resList = [])) (fun x y op hx hst => by
      refine ⟨hx.1.step hst, fun hn => ?_⟩
      rcases admin_step hx.1.base hst p with h | h
      · rw [h.resList]
        exact hx.2 (by rw [← h.inst]; exact hn)
      · generalize y.pools p = ps at h hn
        cases h with
        | inst _ _ _ => cases hn
        | queue _ i _ _ hi => simp only [hi] at hn; cases hn
        | cancel _ i _ hi => simp only [hi] at hn; cases hn
        | setReserve auth b q _ hq ht r =>
          rw [r.inst] at hn
          rw [uninit_resInit hx.1 hn b] at hq
          cases hq
        | emis _ i l _ hi _ h =>
          unfold Pool.setPoolEmissions at h
          simp only [bind_ok, pure_ok, Prod.exists] at h
          obtain ⟨_, _, _, _, _, rfl⟩ := h
          simp only [hi] at hn; cases hn
        | expire b => exact hx.2 hn) ⟨⟨w0, h0, .refl _⟩, fun _ => by rw [h0.pools]⟩
  exact this.2 hi

/-- **C80** The settings of a new pool are the arguments of `deploy`. -/
theorem C80_new_pool {w w' : World} (hr : Reachable w) {auth : List Address} {a o : Address} {s r m : Nat}
    (h : step w (.factory auth (.deploy a s o r m)) = .ok w') :
    logOf w (.factory auth (.deploy a s o r m)) = .ok [.deploy (w.deployAddr a s)] ∧
    ({ admin := a, rate := r, maxPositions := m, status := 6 } : SetupNotes).Right (w'.pools (w.deployAddr a s)) := by
  obtain ⟨ev, hev⟩ := log_total hr h
  refine ⟨?_, ?_⟩
  · rw [hev]
    simp only [logOf, factoryLog, bind_ok, Prod.exists, pure_ok] at hev
    obtain ⟨x, w2, hx, rfl⟩ := hev
    simp only [Factory.deploy, bind_ok, pure_ok, require_ok, Prod.mk.injEq] at hx
    obtain ⟨_, _, _, _, _, _, _, _, _, _, _, _, _, _, rfl, _⟩ := hx
    rfl
  · simp only [step, bind_ok, require_ok] at h
    obtain ⟨_, _, h⟩ := h
    rcases factoryCall_ok h with ⟨_, hc, _⟩ | ⟨_, _, _, _, _, mm, hc, _, _, _, _, hp, hn, e⟩
    · cases hc
    cases hc
    rw [e]
    show SetupNotes.Right ((w.setPool _ _).pools _) _
    rw [pools_setPool]
    have hl := uninit_resList hr hn
    have hcfg := hr.base.cfg (w.deployAddr a s)
    have hnone : ∀ b, (w.pools (w.deployAddr a s)).resConfig b = none := by
      intro b
      cases hb : (w.pools (w.deployAddr a s)).resConfig b with
      | none => rfl
      | some c =>
        have := hcfg.idx b c hb
        rw [hl] at this; simp at this
    refine ⟨⟨_, rfl, rfl, rfl, rfl, rfl⟩, fun b q hq => ?_, hl.symm, fun b => (hnone b).symm, fun id => ?_⟩
    · rw [uninit_resInit hr hn b] at hq; cases hq
    · cases hx : (w.pools (w.deployAddr a s)).emisConfig id with
      | none => rfl
      | some c =>
        obtain ⟨b, _, _, hb, _⟩ := ((hr.einv hp).emis id).isSet c hx
        change (w.pools (w.deployAddr a s)).resList[id / 2]? = some b at hb
        rw [hl] at hb; simp at hb

/-- **C80** An observer that knows, at some time after the emitter is initialized, the reward zone, the backstop the emitter serves
and the queued swap, and the deployed pools, and from then on sees nothing but the published events, has them at any later time.
And every event it sees agrees with its notes. -/
theorem C80_system {w w' : World} (hr : Reachable w) {l : List (Nat × Event)} (h : Dated w l w') {F : SystemNotes}
    (hF : F.Right w) : (l.foldl SystemNotes.see F).Right w' ∧
      ∀ l1 e l2, l = l1 ++ e :: l2 → (l1.foldl SystemNotes.see F).Agrees e := by
  induction h with
  | start => exact ⟨hF, fun l1 e l2 h => by simp at h⟩
  | @tail l w1 w2 op ev hl hs hev ih =>
    obtain ⟨ih1, ih2⟩ := ih
    obtain ⟨F', ⟨g1, g2⟩, g3⟩ := system_step (hr.steps (dated_steps hl)) hs hev ih1
    refine ⟨by rw [List.foldl_append, g1]; exact g3, fun l1 e l2 hc => ?_⟩
    rcases cut_append hc with ⟨l3, h3⟩ | ⟨l3, h3, rfl⟩
    · exact ih2 l1 e l3 h3
    · obtain ⟨m1, m2, rfl, rfl, h5⟩ := List.map_eq_append_iff.1 h3
      obtain ⟨x, m3, rfl, rfl, _⟩ := List.map_eq_cons_iff.1 h5
      rw [List.foldl_append]
      exact g2 m1 x m3 rfl

end Props

namespace Demo
open Spec

/-- run a list of operations and collect the events with their times -/
def runDated (w : World) (l : List (Nat × Event)) : List Op → R (List (Nat × Event) × World)
  | [] => pure (l, w)
  | op :: ops => do
    let w' ← step w op
    let ev ← logOf w op
    runDated w' (l ++ ev.map fun e => (w.time, e)) ops

theorem runDated_dated {w0 : World} : ∀ {ops : List Op} {w w' : World} {l l' : List (Nat × Event)},
    Dated w0 l w → runDated w l ops = .ok (l', w') → Dated w0 l' w' := by
  intro ops
  induction ops with
  | nil =>
    intro w w' l l' h e
    simp only [runDated, pure_ok, Prod.mk.injEq] at e
    obtain ⟨rfl, rfl⟩ := e; exact h
  | cons op t ih =>
    intro w w' l l' h e
    simp only [runDated, bind_ok] at e
    obtain ⟨w1, h1, ev, h2, e⟩ := e
    exact ih (.tail h h1 h2) e

/-- what is managed in the demo pool after it is deployed: reserves, emissions, the status, new parameters for XLM after a week, a
new admin, a change that stays queued -/
def manageOps : List Op := setup.drop 4 ++ trade ++ emissions ++ [
  .pool poolA [adminA] (.queueSetReserve xlmA { xlmCfg with lFactor := 6000000 }),
  .pool poolA [adminA] (.updatePool 2000000 6),
  .ledger 604800 120960,
  .pool poolA [] (.setReserve xlmA),
  .pool poolA [adminA, dave] (.setAdmin dave),
  .pool poolA [dave] (.queueSetReserve usdcA usdcCfg)]

/-- From the arguments of `deploy` and the events after it, the observer has it all; the hypotheses of `C80_pool`, `C80_new_pool`
and `C80_system` are met. -/
example : ∃ w0 w w' l F, Reachable w0 ∧ step w0 (.factory [adminA] (.deploy adminA 0 oracleA 1000000 4)) = .ok w ∧
    w0.deployAddr adminA 0 = poolA ∧ Dated w l w' ∧ F.Right w ∧
    (let G := l.foldl (SetupNotes.see poolA) { admin := adminA, rate := 1000000, maxPositions := 4, status := 6 }
     G.Right (w'.pools poolA) ∧ G.admin = dave ∧ G.rate = 2000000 ∧ G.maxPositions = 6 ∧ G.status = 0 ∧
     G.reserves = [usdcA, xlmA] ∧ G.config xlmA = some { xlmCfg with lFactor := 6000000, index := 1 } ∧
     G.queued usdcA = some (usdcCfg, w'.time + 604800) ∧ (∃ eps, 0 < eps ∧ G.emissions 0 = some (eps, 1713149200 + 604800))) ∧
    (let G := l.foldl SystemNotes.see F
     G.Right w' ∧ G.zone = [poolA]) := by
  have : okAnd (run genesis (setup.take 3)) (fun w0 => okAnd (step w0 (.factory [adminA] (.deploy adminA 0 oracleA 1000000 4))) fun w =>
      okAnd (runDated w [] manageOps) fun r =>
        let G := r.1.foldl (SetupNotes.see poolA) { admin := adminA, rate := 1000000, maxPositions := 4, status := 6 }
        let F : SystemNotes := { backstop := backstopA, token := lpA, pools := fun p => p = poolA }
        decide (w0.deployAddr adminA 0 = poolA) && decide (G.admin = dave ∧ G.rate = 2000000 ∧ G.maxPositions = 6 ∧ G.status = 0) &&
        decide (G.reserves = [usdcA, xlmA] ∧ G.config xlmA = some { xlmCfg with lFactor := 6000000, index := 1 } ∧
          G.queued usdcA = some (usdcCfg, r.2.time + 604800)) &&
        optAnd (G.emissions 0) (fun x => decide (0 < x.1 ∧ x.2 = 1713149200 + 604800)) &&
        decide ((r.1.foldl SystemNotes.see F).zone = [poolA]) &&
        decide (w0.emitter.inst = some ⟨blndA, backstopA, lpA⟩ ∧ w0.emitter.swap = none ∧ w0.backstop.rewardZone = [])) = true := by
    decide +kernel
  obtain ⟨w0, h0, h⟩ := okAnd_iff.1 this
  obtain ⟨w, h1, h⟩ := okAnd_iff.1 h
  obtain ⟨⟨l, w'⟩, h2, h⟩ := okAnd_iff.1 h
  simp only [Bool.and_eq_true, decide_eq_true_eq, optAnd_iff] at h
  obtain ⟨⟨⟨⟨⟨ha, hb⟩, hc⟩, x, hx, hx1, hx2⟩, hd⟩, he⟩ := h
  have hr0 : Reachable w0 := ⟨genesis, genesis_ok, run_steps h0⟩
  have hD := runDated_dated .start h2
  have hnew := (Props.C80_new_pool hr0 h1).2
  rw [ha] at hnew
  have hF : SystemNotes.Right w { backstop := backstopA, token := lpA, pools := fun p => p = poolA } := by
    have fr := step_frame hr0.base h1
    refine ⟨?_, ⟨⟨blndA, backstopA, lpA⟩, ?_, rfl, rfl⟩, ?_, fun p => ?_⟩
    · rcases Backstop.rewardZone_step hr0.ball h1 with h | ⟨_, _, _, h, _⟩
      · rw [h, he.2.2]
      · cases h
    · rw [fr.emitter (by simp) (by simp)]; exact he.1
    · rw [fr.emitter (by simp) (by simp)]; exact he.2.1.symm
    · have h1' := h1
      simp only [step, bind_ok, require_ok] at h1'
      obtain ⟨_, _, h1'⟩ := h1'
      rcases factoryCall_ok h1' with ⟨_, h, _⟩ | ⟨_, _, _, _, _, mm, h, _, _, _, _, hp, hn, e⟩
      · cases h
      cases h
      rw [e, ha]
      simp only [upd_apply]
      split
      · simp_all
      · rename_i hne
        refine iff_of_false hne ?_
        intro hdp
        have h3 : w0.factory.deployed = fun _ => false := by
          have key : run genesis (setup.take 3) = .ok w0 := h0
          simp only [setup, List.take, run, bind_ok, pure_ok] at key
          obtain ⟨a1, k1, a2, k2, a3, k3, rfl⟩ := key
          have r1 : Reachable genesis := ⟨genesis, genesis_ok, .refl _⟩
          have r2 := r1.step k1
          have r3 := r2.step k2
          simp only [step, bind_ok, require_ok] at k3
          obtain ⟨_, _, k3⟩ := k3
          rcases factoryCall_ok k3 with ⟨_, _, _, rfl⟩ | ⟨_, _, _, _, _, _, h, _⟩
          · show a2.factory.deployed = _
            rw [(step_frame r2.base k2).factory (by simp), (step_frame r1.base k1).factory (by simp)]
            rfl
          · cases h
        rw [h3] at hdp; cases hdp
  exact ⟨w0, w, w', l, _, hr0, h1, ha, hD, hF, ⟨(Props.C80_pool (hr0.step h1) hD hnew).1, hb.1, hb.2.1, hb.2.2.1, hb.2.2.2, hc.1, hc.2.1, hc.2.2,
    x.1, hx1, by rw [hx, ← hx2]⟩, (Props.C80_system (hr0.step h1) hD hF).1, hd⟩

end Demo
end Blend
