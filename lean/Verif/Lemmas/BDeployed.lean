import Verif.Lemmas.BOps
/-
  Only pools of the factory have a backstop; pools of the factory keep the backstop and BLND token of the
  factory.
-/

namespace Blend
namespace Backstop

/-- the backstop holds something for `q`, or rewards it -/
def Known (b : BackstopState) (q : Address) : Prop :=
  (b.getPoolBal q).shares ≠ 0 ∨ (b.getPoolBal q).tokens ≠ 0 ∨ b.emisCfg q ≠ none ∨ q ∈ b.rewardZone ∨ b.poolEmis q ≠ 0

structure Dep (w : World) : Prop where
  known : ∀ q, Known w.backstop q → w.factory.deployed q = true
  pool : ∀ q, w.factory.deployed q = true → w.poolAddr q = true ∧
    ∃ m i, w.factory.meta? = some m ∧ (w.pools q).inst = some i ∧ i.backstop = m.backstop ∧ i.blnd = m.blnd

theorem satMul_zero (x : Int) : satMul 0 x = 0 := by
  unfold satMul; simp

theorem threshold_tokens {w : World} {q : Address} {pd : PoolData} (h : loadPoolData w q = .ok pd)
    (ht : poolAboveThreshold pd = true) : (w.backstop.getPoolBal q).tokens ≠ 0 := by
  intro h0
  have hb : pd.blnd = 0 := by
    have key : ∀ {x y : Int}, fixedMulFloor (w.backstop.getPoolBal q).tokens x SCALAR_7 = .ok y → y = 0 := by
      intro x y h
      unfold fixedMulFloor at h
      have := mulDivFloor_spec h (by norm_num [SCALAR_7])
      rw [h0] at this
      norm_num [SCALAR_7] at this
      omega
    simp only [loadPoolData, bind_ok, pure_ok, Prod.exists, ite_ok] at h
    rcases h with ⟨_, _, _, _, _, _, _, hb, _, _, rfl⟩ | ⟨_, _, _, _, _, _, _, hb, _, _, rfl⟩ <;> exact key hb
  unfold poolAboveThreshold at ht
  simp [hb, satMul_zero] at ht

/-- what the backstop knows is new only for pools of the factory -/
theorem call_known {w w' : World} {auth : List Address} {c : BackstopCall} (inv : BInv w.time w.backstop)
    (dep : ∀ q, Known w.backstop q → w.factory.deployed q = true)
    (h : backstopCall w auth c = .ok w') : ∀ q, Known w'.backstop q → w.factory.deployed q = true := by
  intro q hq
  have setBal_known : ∀ {b1 : BackstopState} {p u : Address} {pb : PoolBalance} {ub : UserBalance},
      SameBals w.backstop b1 → (pb.shares ≠ 0 ∨ pb.tokens ≠ 0 → w.factory.deployed p = true) →
      Known (setBal b1 p u pb ub) q → w.factory.deployed q = true := by
    intro b1 p u pb ub hs h0 hk
    unfold Known at hk
    rw [getPoolBal_set] at hk
    by_cases e : q = p
    · subst e
      rw [if_pos rfl] at hk
      rcases hk with h | h | h
      · exact h0 (.inl h)
      · exact h0 (.inr h)
      · refine dep q (.inr (.inr ?_))
        unfold SameBals at hs
        rw [hs] at h
        exact h
    · rw [if_neg e, hs.poolBal] at hk
      unfold SameBals at hs
      rw [hs] at hk
      exact dep q hk
  cases call_cases inv h with
  | @deposit s p a m r =>
    obtain ⟨x, b1, i, w2, hu, _, _, rfl⟩ := r.ex
    refine setBal_known (emis_same hu) (fun _ => ?_) hq
    by_cases h0 : (w.backstop.getPoolBal p).shares = 0
    · exact r.known h0
    · exact dep p (.inl h0)
  | @queue s p a r =>
    obtain ⟨x, b1, hu, rfl⟩ := r.ex
    refine setBal_known (emis_same hu) (fun h => dep p ?_) hq
    exact h.elim .inl fun h => .inr (.inl h)
  | @dequeue s p a r =>
    obtain ⟨x, b1, q', hu, _, rfl⟩ := r.ex
    refine setBal_known (emis_same hu) (fun h => dep p ?_) hq
    exact h.elim .inl fun h => .inr (.inl h)
  | @withdraw s p a tk r =>
    obtain ⟨q', i, hi, _, hb, _⟩ := r.ex
    rw [hb] at hq
    refine setBal_known (b1 := w.backstop) rfl (fun _ => dep p (.inr (.inl ?_))) hq
    have := r.pos; have := r.le.1
    omega
  | @claim s ps d r =>
    by_contra hn
    have hz : ¬ Known w.backstop q := fun hk => hn (dep q hk)
    unfold Known at hz
    push Not at hz
    obtain ⟨z1, z2, z3, z4, z5⟩ := hz
    have e := r.zero q z3 z1
    obtain ⟨b1, hb1, cr⟩ := r.ex
    unfold Known at hq
    rw [e, cr.frame] at hq
    simp only [z1, z2] at hq
    rw [hb1] at hq
    simp only [z3, z4, z5] at hq
    simp at hq
  | @draw p a d hp r =>
    obtain ⟨i, hi, t⟩ := r.ex
    rw [t.frame] at hq
    unfold Known at hq
    simp only [] at hq
    change (((w.backstop.setPoolBal p _).getPoolBal q).shares ≠ 0 ∨ ((w.backstop.setPoolBal p _).getPoolBal q).tokens ≠ 0 ∨
      w.backstop.emisCfg q ≠ none ∨ q ∈ w.backstop.rewardZone ∨ w.backstop.poolEmis q ≠ 0) at hq
    rw [getPoolBal_setPoolBal] at hq
    by_cases e : q = p
    · subst e
      rw [if_pos rfl] at hq
      rcases hq with h | h | h
      · exact dep q (.inl h)
      · refine dep q (.inr (.inl ?_))
        have := r.nonneg; have := r.le; simp only at h; omega
      · exact dep q (.inr (.inr h))
    · rw [if_neg e] at hq
      exact dep q hq
  | @donate s p a hs hp r =>
    obtain ⟨i, w1, hi, t, rfl⟩ := r.ex
    unfold Known at hq
    change (((w.backstop.setPoolBal p _).getPoolBal q).shares ≠ 0 ∨ ((w.backstop.setPoolBal p _).getPoolBal q).tokens ≠ 0 ∨
      w.backstop.emisCfg q ≠ none ∨ q ∈ w.backstop.rewardZone ∨ w.backstop.poolEmis q ≠ 0) at hq
    rw [getPoolBal_setPoolBal] at hq
    by_cases e : q = p
    · subst e
      by_cases h0 : (w.backstop.getPoolBal q).shares = 0
      · exact r.known h0
      · exact dep q (.inl h0)
    · rw [if_neg e] at hq
      exact dep q hq
  | @reward a r' r =>
    obtain ⟨pd, hpd, hth⟩ := r.above
    have hta := dep a (.inr (.inl (threshold_tokens hpd hth)))
    have hrz : ∀ {rz : List Address}, (q ∈ rz → q = a ∨ q ∈ w.backstop.rewardZone) →
        Known { w.backstop with rewardZone := rz } q → w.factory.deployed q = true := by
      intro rz h1 hk
      rcases hk with h | h | h | h | h
      · exact dep q (.inl h)
      · exact dep q (.inr (.inl h))
      · exact dep q (.inr (.inr (.inl h)))
      · rcases h1 h with rfl | h
        · exact hta
        · exact dep q (.inr (.inr (.inr (.inl h))))
      · exact dep q (.inr (.inr (.inr (.inr h))))
    rcases r.ex with ⟨_, rfl⟩ | ⟨_, _, _, _, rfl⟩
    · exact hrz (fun h => by simpa using h) hq
    · refine hrz (fun h => ?_) hq
      have : ∀ {l : List Address}, q ∈ replaceFirst l r' a → q = a ∨ q ∈ l := by
        intro l
        induction l with
        | nil => simp [replaceFirst]
        | cons x l ih =>
          unfold replaceFirst
          split
          · simp only [List.mem_cons]
            rintro (h | h)
            · exact .inl h
            · exact .inr (.inr h)
          · simp only [List.mem_cons]
            rintro (h | h)
            · exact .inr (.inl h)
            · rcases ih h with h | h
              · exact .inl h
              · exact .inr (.inr h)
      exact this h
  | gulp hne hb hq' =>
    by_cases hr : q ∈ w.backstop.rewardZone
    · exact dep q (.inr (.inr (.inr (.inl hr))))
    · obtain ⟨h1, h2, _, _⟩ := hq' q hr
      unfold Known at hq
      rw [h1, h2, hb] at hq
      exact dep q hq
  | init hn hb => rw [hb] at hq; exact dep q hq
  | @gulpPool p hp hb =>
    rw [hb] at hq
    rcases hq with h | h | h | h | h
    · exact dep q (.inl h)
    · exact dep q (.inr (.inl h))
    · exact dep q (.inr (.inr (.inl h)))
    · exact dep q (.inr (.inr (.inr (.inl h))))
    · refine dep q (.inr (.inr (.inr (.inr ?_))))
      simp only [upd_apply] at h
      split at h
      · simp at h
      · exact h
  | lpVal hb => rw [hb] at hq; exact dep q hq
  | drop hb => rw [hb] at hq; exact dep q hq

theorem psteps_known {w w' : World} {p : Address} {auth : List Address} {D : Pool.Eff → Prop}
    (h : Pool.PSteps p auth D w w') : w'.factory = w.factory ∧ ((w'.backstop.getPoolBal p).tokens ≤ (w.backstop.getPoolBal p).tokens ∨
      (w.backstop.getPoolBal p).shares ≠ 0 ∨ w.factory.deployed p = true) := by
  induction h with
  | refl => exact ⟨rfl, .inl (le_refl _)⟩
  | tail h1 h2 ih =>
    obtain ⟨i1, i2⟩ := ih
    have hsh := (psteps_eff h1).shares
    cases h2 with
    | setPool ps => exact ⟨i1, i2⟩
    | transfer hs h => rw [(transfer_res h).frame]; exact ⟨i1, i2⟩
    | pull _ hpos h => rw [(transferFrom_res h).frame]; exact ⟨i1, i2⟩
    | draw hD h =>
      have r := executeDraw_res h
      obtain ⟨i, _, t⟩ := r.ex
      rw [t.frame]
      refine ⟨i1, i2.imp_left fun h => le_trans ?_ h⟩
      show ((BackstopState.setPoolBal _ p _).getPoolBal p).tokens ≤ _
      rw [getPoolBal_setPoolBal, if_pos rfl]
      have := r.nonneg
      simp only; omega
    | donate hD hs h =>
      have r := executeDonate_res h
      obtain ⟨i, w1, _, t, rfl⟩ := r.ex
      refine ⟨by show w1.factory = _; rw [t.frame]; exact i1, ?_⟩
      right
      by_cases h0 : (w.backstop.getPoolBal p).shares = 0
      · exact .inr (i1 ▸ r.known (by rw [hsh]; exact h0))
      · exact .inl h0
    | gulp hD h =>
      unfold gulpPoolEmissions Backstop.inst at h
      simp only [bind_ok, require_ok, unwrap_ok, pure_ok, Prod.mk.injEq, chk_ok] at h
      obtain ⟨_, _, i, _, _, _, w1, ha, _, rfl⟩ := h
      obtain ⟨_, rfl⟩ := approve_res ha
      exact ⟨i1, i2⟩

theorem Dep.step {w w' : World} {op : Op} (ba : BAll w) (d : Dep w) (h : Blend.step w op = .ok w') : Dep w' := by
  have fr := step_frame ba.base h
  have sr := step_res ba.base h
  -- the factory's list only grows
  have grow : ∀ q, w.factory.deployed q = true → w'.factory.deployed q = true := by
    intro q hq
    by_cases hf : ∀ auth c, op ≠ .factory auth c
    · rw [fr.factory hf]; exact hq
    · push Not at hf
      obtain ⟨auth, c, rfl⟩ := hf
      simp only [Blend.step, bind_ok, require_ok] at h
      obtain ⟨_, _, h⟩ := h
      rcases factoryCall_ok h with ⟨m, _, _, rfl⟩ | ⟨a, s, o, r, n, m, rfl, _, _, _, _, _, _, rfl⟩
      · exact hq
      · simp only [upd_apply]; split
        · rfl
        · exact hq
  refine ⟨fun q hq => ?_, fun q hq => ?_⟩
  · rcases step_other h with ⟨p, auth, c, rfl, e⟩ | ⟨auth, c, rfl, hc⟩ | e | e
    · by_contra hkn
      have hkn : ¬ w.factory.deployed q = true := fun hd => hkn (grow q hd)
      have hst := h
      refine hkn (d.known q ?_)
      unfold Known at hq ⊢
      by_cases hqp : q = p
      · subst hqp
        rw [e.emisCfg, e.rewardZone, e.shares] at hq
        rcases hq with h0 | h0 | h0 | h0 | h0
        · exact .inl h0
        · by_cases hd : Pool.CallEff c .donate
          · simp only [Blend.step, bind_ok, require_ok] at h
            obtain ⟨_, _, _, _, h⟩ := h
            have h1 := (psteps_known (Pool.call_psteps h)).2
            have h2 := ba.inv.pool q
            rcases h1 with h1 | h1 | h1
            · have := (ba.step hst).inv.pool q
              exact .inr (.inl (by omega))
            · exact .inl h1
            · exact absurd h1 hkn
          · have := e.donate hd
            have h1 := (ba.step hst).inv.pool q
            have h2 := ba.inv.pool q
            exact .inr (.inl (by omega))
        · exact .inr (.inr (.inl h0))
        · exact .inr (.inr (.inr (.inl h0)))
        · refine .inr (.inr (.inr (.inr ?_)))
          rcases e.emis with h | h
          · rw [← h]; exact h0
          · exact absurd h h0
      · rw [e.other q hqp, e.emisCfg, e.rewardZone, e.poolEmis q hqp] at hq
        exact hq
    · exact grow q (call_known ba.inv d.known hc q hq)
    · rw [e] at hq; exact grow q (d.known q hq)
    · rw [e] at hq; exact grow q (d.known q hq)
  · by_cases hf : ∀ auth c, op ≠ .factory auth c
    · rw [fr.factory hf] at hq ⊢
      obtain ⟨h1, m, i, h2, h3, h4, h5⟩ := d.pool q hq
      obtain ⟨i', e1, e2, e3⟩ := (Pool.micros_cfg (sr.micros q h1) (ba.base.cfg q)).2.inst i h3
      exact ⟨by rw [sr.poolAddr]; exact h1, m, i', h2, e1, e2.trans h4, e3.trans h5⟩
    · push Not at hf
      obtain ⟨auth, c, rfl⟩ := hf
      simp only [Blend.step, bind_ok, require_ok] at h
      obtain ⟨_, _, h⟩ := h
      rcases factoryCall_ok h with ⟨m, _, hn, rfl⟩ | ⟨a, s, o, r, n, m, rfl, _, hm, _, _, hp, hi, rfl⟩
      · obtain ⟨h1, m, i, h2, _⟩ := d.pool q hq
        rw [hn] at h2; simp at h2
      · simp only [upd_apply] at hq
        by_cases e : q = w.deployAddr a s
        · subst e
          exact ⟨hp, m, _, hm, by simp only [World.setPool, upd_same]; rfl, rfl, rfl⟩
        · rw [if_neg e] at hq
          obtain ⟨h1, m', i, h2, h3, h4, h5⟩ := d.pool q hq
          refine ⟨h1, m', i, h2, ?_, h4, h5⟩
          simp only [World.setPool]; rw [upd_ne e]; exact h3

theorem Dep.genesis {w : World} (h : Genesis w) : Dep w := by
  refine ⟨fun q hq => ?_, fun q hq => ?_⟩
  · rw [h.backstop] at hq
    rcases hq with h | h | h | h | h
    · exact absurd rfl h
    · exact absurd rfl h
    · exact absurd rfl h
    · simp at h
    · exact absurd rfl h
  · rw [h.factory] at hq; simp at hq

theorem _root_.Blend.Reachable.dep {w : World} (h : Reachable w) : Dep w := by
  obtain ⟨w0, h0, hs⟩ := h
  exact (hs.inv (P := fun w => BAll w ∧ Dep w) (fun _ _ _ h hs => ⟨h.1.step hs, h.2.step h.1 hs⟩) ⟨.genesis h0, .genesis h0⟩).2

end Backstop
end Blend
