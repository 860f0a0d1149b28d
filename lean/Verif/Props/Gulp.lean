import Verif.Lemmas.GulpLive
import Verif.Props.Exits
import Verif.Examples.Demo
/-
  C71: exactly the gulps of emissions that are in order go through.
-/

namespace Blend
namespace Props
open Spec Backstop
open Pool (Unexpected unexpected_overflow of_unexpected)

/-- **C71** A gulp of the backstop that goes through was in order. -/
theorem C71_backstop_only_if {w w' : World} (hr : Reachable w) {auth : List Address} (hs : step w (.backstop auth .gulpEmissions) = .ok w') :
    ∃ secs, GulpReady w secs := by
  obtain ⟨secs, x, h1, h2, _, h3, h4, _⟩ := C37_gulp hr hs
  refine ⟨secs, ?_, h2, h1, ?_, fun p hp hq => (C44_all_queued_reverts hq auth).2.2.2.2 hp w' hs⟩
  · simp only [step, bind_ok, require_ok, backstopCall, gulpEmissions, inst, unwrap_ok, Prod.exists] at hs
    obtain ⟨_, _, _, _, ⟨_, _, i, hi, _, he, _⟩, _⟩ := hs
    exact ⟨i, hi, he⟩
  · by_contra hc
    push Not at hc
    have : (w.backstop.rewardZone.map x).sum ≤ 0 := by
      have : ∀ l : List Address, (∀ p ∈ l, x p ≤ 0) → (l.map x).sum ≤ 0 := by
        intro l
        induction l with
        | nil => intro _; simp
        | cons p l ih =>
          intro h
          have := ih fun q hq => h q (List.mem_cons_of_mem _ hq)
          have := h p List.mem_cons_self
          simp only [List.map_cons, List.sum_cons]
          omega
      exact this _ fun p hp => hc p hp (x p) (h3 p hp).1
    omega

/-- **C71** A gulp of the backstop that is in order goes through, by anybody, unless a number leaves the range of its type. -/
theorem C71_backstop_accepted {w : World} (hr : Reachable w) (ht : w.time < 10 ^ 18) {auth : List Address} (hau : ∀ x ∈ auth, ¬ w.isProtocol x)
    {secs : Nat} (hg : GulpReady w secs) :
    (∃ w', step w (.backstop auth .gulpEmissions) = .ok w') ∨ step w (.backstop auth .gulpEmissions) = .error .overflow := by
  cases hs : step w (.backstop auth .gulpEmissions) with
  | ok w' => exact .inl ⟨w', rfl⟩
  | error e =>
    right
    have key : NoErr (Unexpected False) (step w (.backstop auth .gulpEmissions)) := by
      have hov : Unexpected False .overflow = false := unexpected_overflow
      obtain ⟨i, hi, hie⟩ := hg.inst
      obtain ⟨p0, hp0, x0, hx0, hpos⟩ := hg.zone
      have h7 : (1 : Int) ≤ SCALAR_7 := by norm_num [SCALAR_7]
      have hs7 : (0 : Int) < SCALAR_7 := by norm_num [SCALAR_7]
      have hinv := hr.ball.inv
      simp only [step, backstopCall, gulpEmissions]
      refine NoErr.bind (NoErr.req hau) fun _ _ => NoErr.bind ?_ fun _ _ => NoErr.pure
      refine NoErr.bind (NoErr.req (by intro h; rw [h] at hp0; cases hp0)) fun _ _ => NoErr.bind (NoErr.unwrap hi) fun i' hi' => ?_
      simp only [Backstop.inst, hi, unwrap_ok, Option.some.injEq] at hi'
      subst hi'
      refine NoErr.bind (NoErr.req hie) fun _ _ => NoErr.bind (NoErr.unwrap hg.distributed) fun el hel => ?_
      simp only [hg.distributed, Emitter.getLastDistro, unwrap_ok, Option.some.injEq] at hel
      subst hel
      have hel := hr.clock.past _ _ hg.distributed
      have hhour := hg.hour
      refine NoErr.bind (NoErr.req (by omega)) fun _ _ => NoErr.bind (chk_live hov) fun em hem => NoErr.bind (mulDiv_live hov h7) fun tb htb =>
        NoErr.bind (mulDiv_live hov h7) fun tp _ => NoErr.bind ?_ fun tn htn => NoErr.bind ?_ fun _ _ => NoErr.pure
      · unfold totalNonQueued
        exact totalNonQueued_live hov (b := w.backstop) hinv _ _
      · simp only [chk_ok] at hem
        obtain ⟨_, rfl⟩ := hem
        have etb : tb = (secs : Int) * 7000000 := by
          refine (isFloor_of_mulDiv htb hs7).unique hs7 ⟨?_, ?_⟩ <;> rw [Nat.add_sub_cancel_left] <;> unfold SCALAR_7 <;> linarith
        replace htn : totalNonQueued w.backstop w.backstop.rewardZone = .ok tn := htn
        have hle := totalNonQueued_le hinv htn
        obtain ⟨y0, hy0⟩ := totalNonQueued_some htn p0 hp0
        have hy : y0 = x0 := (unqueued_spec hinv hy0).unique hinv hx0
        refine gulpFold_live hov hr ?_ ?_ ?_ _ _ (C36_reward_zone hr).1 hg.free hle (fun p _ => ⟨rfl, rfl⟩) fun p => rfl
        · have := hle p0 hp0 y0 hy0
          omega
        · rw [etb]; positivity
        · rw [etb]; push_cast at hel ht ⊢; omega
    rcases of_unexpected key hs with h | ⟨_, h⟩
    · rw [h]
    · exact h.elim

theorem keys_nodup {α : Type} (m : SMap α) : (m.toList.map (·.1)).Nodup := by
  have := m.sorted
  rw [List.Nodup, List.pairwise_map]
  exact this.imp fun h e => by omega

/-- **C71** A gulp of a pool that goes through was in order, and does what the specification says. -/
theorem C71_pool_only_if {w w' : World} {p : Address} {auth : List Address} (hs : step w (.pool p auth .gulpEmissions) = .ok w') :
    PoolGulpReady w p ∧ PoolGulpOutcome w w' p := by
  simp only [step, bind_ok, require_ok, Pool.call, Pool.gulpEmissions, Pool.doGulp, PoolState.getInst, unwrap_ok, Prod.exists, pure_ok, Prod.mk.injEq] at hs
  obtain ⟨_, hp, _, _, _, _, ⟨i, hi, _, hb, n, w1, hg, ps, ⟨_, hn, hl⟩, rfl, rfl⟩, rfl⟩ := hs
  obtain ⟨_, hn', _, bi, hbi, rfl⟩ := Pool.gulpPoolAuth_frame hg
  subst hn'
  have h1 : ONE7 ≤ w.backstop.poolEmis p := by unfold SCALAR_7 at hn; unfold ONE7; omega
  have h0 : 0 ≤ w.backstop.poolEmis p := by unfold ONE7 at h1; omega
  obtain ⟨k1, k2⟩ := Pool.poolFold_exact h0 _ _ _ (keys_nodup _) hl
  refine ⟨⟨⟨i, hi, hb⟩, by rw [hbi]; simp, h1⟩, ?_, fun j hj => ?_, fun id s hid => ?_, fun id hid => ?_, fun t x => ?_⟩
  · show upd _ p 0 p = 0; exact upd_same
  · rw [hbi] at hj; cases hj
    simp [World.setPool, World.setBackstop, World.setAllowance, World.allowance]
  · obtain ⟨m, eps, j1, j2, j3, j4⟩ := k1 (id, s) (SMap.mem_toList.2 hid)
    rw [pools_setPool]
    exact ⟨m, eps, j1, j2, j3, j4⟩
  · rw [pools_setPool]
    refine k2 id fun hm => ?_
    obtain ⟨⟨k, v⟩, hm', rfl⟩ := List.mem_map.1 hm
    rw [SMap.mem_toList] at hm'
    change (w.pools p).poolEmis.get k = some v at hm'
    rw [hid] at hm'; cases hm'
  · obtain ⟨_, a1, _, _⟩ := setAllowance_res w bi.blnd w.backstopAddr p (w.allowance bi.blnd w.backstopAddr p + w.backstop.poolEmis p)
      (w.seq + LEDGER_BUMP_USER)
    exact a1 t x

/-- **C71** A gulp of a pool that is in order goes through, by anybody, unless a number leaves the range of its type. -/
theorem C71_pool_accepted {w : World} (hr : Reachable w) (ht : w.time < 10 ^ 18) {p : Address} (hp : w.poolAddr p = true) {auth : List Address}
    (hau : ∀ x ∈ auth, ¬ w.isProtocol x) (hg : PoolGulpReady w p) :
    (∃ w', step w (.pool p auth .gulpEmissions) = .ok w') ∨ step w (.pool p auth .gulpEmissions) = .error .overflow := by
  cases hs : step w (.pool p auth .gulpEmissions) with
  | ok w' => exact .inl ⟨w', rfl⟩
  | error e =>
    right
    have key : NoErr (Unexpected False) (step w (.pool p auth .gulpEmissions)) := by
      have hov : Unexpected False .overflow = false := unexpected_overflow
      obtain ⟨i, hi, hib⟩ := hg.inst
      obtain ⟨bi, hbi⟩ := Option.ne_none_iff_exists'.1 hg.backstop
      have h1 := hg.waiting
      have h0 : 0 ≤ w.backstop.poolEmis p := by unfold ONE7 at h1; omega
      have hc := hr.clock.waiting p
      have hnow := hr.clock.now
      simp only [step, Pool.call, Pool.gulpEmissions]
      refine NoErr.bind (NoErr.req hp) fun _ _ => NoErr.bind (NoErr.req hau) fun _ _ => NoErr.bind ?_ fun _ _ => NoErr.pure
      refine NoErr.bind (NoErr.unwrap hi) fun i' hi' => ?_
      simp only [PoolState.getInst, hi, unwrap_ok, Option.some.injEq] at hi'
      subst hi'
      refine NoErr.bind (NoErr.req hib) fun _ _ => NoErr.bind ?_ ?_
      · unfold gulpPoolEmissionsAuth gulpPoolEmissions
        refine NoErr.bind (NoErr.req (by simp)) fun _ _ => NoErr.bind (NoErr.req (by unfold ONE7 at h1; omega)) fun _ _ =>
          NoErr.bind (NoErr.unwrap hbi) fun bi' _ => NoErr.bind (chk_live hov) fun x hx => NoErr.bind (NoErr.bind (NoErr.req ?_) fun _ _ => NoErr.pure)
            fun _ _ => NoErr.pure
        simp only [chk_ok] at hx
        obtain ⟨_, rfl⟩ := hx
        exact add_nonneg (allowance_nonneg hr.raw _ _) h0
      · rintro ⟨n, w1⟩ h
        obtain ⟨_, hn, _, bi', _, rfl⟩ := Pool.gulpPoolAuth_frame h
        refine NoErr.bind ?_ fun _ _ => NoErr.pure
        unfold Pool.doGulp
        refine NoErr.bind (NoErr.req (by rw [hn]; unfold ONE7 at h1; unfold SCALAR_7; omega)) fun _ _ => ?_
        refine Pool.poolFold_live hov (by omega) (by push_cast at ht hnow ⊢; omega) _ _ (keys_nodup _) fun kv hkv => ?_
        have hkv' : (w.pools p).poolEmis.get kv.1 = some kv.2 := SMap.mem_toList.1 hkv
        obtain ⟨c1, c2⟩ := C24_split_bounded hr p
        refine ⟨Pool.takesEmis hr hp (c2 _ _ hkv'), ?_⟩
        have := SMap.le_sum (f := fun _ (v : Nat) => (v : Int)) (fun _ v _ => Int.natCast_nonneg v) hkv'
        omega
    rcases of_unexpected key hs with h | ⟨_, h⟩
    · rw [h]
    · exact h.elim

/-- **C71** (finding 20) Anybody can gulp a pool without an emission split: the waiting BLND is gone, no reserve token gets any of it. -/
theorem C71_gulp_without_split {w w' : World} {p : Address} {auth : List Address} (he : ∀ id, (w.pools p).poolEmis.get id = none)
    (hs : step w (.pool p auth .gulpEmissions) = .ok w') :
    ONE7 ≤ w.backstop.poolEmis p ∧ w'.backstop.poolEmis p = 0 ∧
    ∀ id, (w'.pools p).received id = (w.pools p).received id ∧ (w'.pools p).emisConfig id = (w.pools p).emisConfig id := by
  obtain ⟨h1, h2⟩ := C71_pool_only_if hs
  exact ⟨h1.waiting, h2.taken, fun id => ⟨(h2.others id (he id)).1, (h2.others id (he id)).2.1⟩⟩

/-! The hypotheses are met. -/

example : ∃ w w' secs, Reachable w ∧ w.time < 10 ^ 18 ∧ step w (.backstop [] .gulpEmissions) = .ok w' ∧ GulpReady w secs := by
  obtain ⟨w, w', _, hr, hs, h⟩ := Demo.reach_step (ops := Demo.setup ++ Demo.trade ++ Demo.emissions.take 2)
    (op := .backstop [] .gulpEmissions) (f := fun w _ => decide (w.time < 10 ^ 18)) (by decide +kernel)
  obtain ⟨secs, hg⟩ := C71_backstop_only_if hr hs
  exact ⟨w, w', secs, hr, by simpa using h, hs, hg⟩

example : ∃ w w', Reachable w ∧ w.time < 10 ^ 18 ∧ w.poolAddr Demo.poolA = true ∧ step w (.pool Demo.poolA [] .gulpEmissions) = .ok w' ∧
    PoolGulpReady w Demo.poolA ∧ (w.pools Demo.poolA).received 3 < (w'.pools Demo.poolA).received 3 := by
  obtain ⟨w, w', _, hr, hs, h⟩ := Demo.reach_step (ops := Demo.setup ++ Demo.trade ++ Demo.emissions.take 3)
    (op := .pool Demo.poolA [] .gulpEmissions) (f := fun w w' => decide (w.time < 10 ^ 18 ∧ w.poolAddr Demo.poolA = true ∧
      (w.pools Demo.poolA).received 3 < (w'.pools Demo.poolA).received 3)) (by decide +kernel)
  simp only [decide_eq_true_eq] at h
  exact ⟨w, w', hr, h.1, h.2.1, hs, (C71_pool_only_if hs).1, h.2.2⟩

example : ∃ w w', Reachable w ∧ (∀ id, (w.pools Demo.poolA).poolEmis.get id = none) ∧
    step w (.pool Demo.poolA [] .gulpEmissions) = .ok w' ∧ w.backstop.poolEmis Demo.poolA = 30000000000 := by
  obtain ⟨w, w', _, hr, hs, h⟩ := Demo.reach_step (ops := Demo.setup ++ Demo.trade ++
      [.pool Demo.poolA [Demo.adminA] (.setEmissionsConfig [])] ++ Demo.emissions.take 3)
    (op := .pool Demo.poolA [] .gulpEmissions) (f := fun w _ => decide (w.backstop.poolEmis Demo.poolA = 30000000000 ∧
      (w.pools Demo.poolA).poolEmis.toList = [])) (by decide +kernel)
  simp only [decide_eq_true_eq] at h
  refine ⟨w, w', hr, fun id => ?_, hs, h.1⟩
  cases hid : (w.pools Demo.poolA).poolEmis.get id with
  | none => rfl
  | some v =>
    have := SMap.mem_toList.2 hid
    rw [h.2] at this; cases this

end Props
end Blend
