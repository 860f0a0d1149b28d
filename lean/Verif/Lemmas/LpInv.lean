import Verif.Lemmas.BStep
/-
  Comet's share supply and the LP token value stored by the backstop are never negative.
-/

namespace Blend
namespace Backstop

structure LpOk (w : World) : Prop where
  shares : 0 ≤ w.cometShares
  val : ∀ b u, w.backstop.lpVal = some (b, u) → 0 ≤ b ∧ 0 ≤ u

theorem psteps_comet {w w' : World} {p : Address} {auth : List Address} {D : Pool.Eff → Prop}
    (h : Pool.PSteps p auth D w w') : w'.cometShares = w.cometShares := by
  induction h with
  | refl => rfl
  | tail h1 h2 ih =>
    rw [← ih]
    cases h2 with
    | setPool ps => rfl
    | transfer hs h => rw [(transfer_res h).frame]
    | pull _ hpos h => rw [(transferFrom_res h).frame]
    | draw hD h =>
      obtain ⟨i, _, t⟩ := (executeDraw_res h).ex
      rw [t.frame]; rfl
    | donate hD hs h =>
      obtain ⟨i, w1, _, t, rfl⟩ := (executeDonate_res h).ex
      show w1.cometShares = _
      rw [t.frame]
    | gulp hD h =>
      unfold gulpPoolEmissions Backstop.inst at h
      simp only [bind_ok, require_ok, unwrap_ok, pure_ok, Prod.mk.injEq, chk_ok] at h
      obtain ⟨_, _, i, _, _, _, w1, ha, _, rfl⟩ := h
      obtain ⟨_, rfl⟩ := approve_res ha
      rfl

theorem mints_comet {t : Address} (l : List (Address × Int)) {w w' : World}
    (h : l.foldlM (fun w x => mint w t x.1 x.2) w = .ok w') : w'.cometShares = w.cometShares := by
  rw [(Emitter.mints_wf (L := fun _ => False) (A := fun _ => False) l w w' h).2]

theorem emitter_comet {w w' : World} {auth : List Address} {c : EmitterCall} (h : emitterCall w auth c = .ok w') :
    w'.cometShares = w.cometShares := by
  have hd : ∀ {b n w'}, Emitter.executeDistribute w b = .ok (n, w') → w'.cometShares = w.cometShares := by
    intro b n w' h
    obtain ⟨last, i, _, _, _, _, r⟩ := Emitter.distribute_ok h
    rw [r.frame]
  cases c with
  | «initialize» b s t =>
    simp only [emitterCall, Emitter.init, bind_ok, pure_ok] at h
    obtain ⟨_, _, rfl⟩ := h; rfl
  | distribute =>
    simp only [emitterCall, Emitter.distribute, bind_ok, pure_ok, Prod.exists] at h
    obtain ⟨n, w1, ⟨_, _, h⟩, rfl⟩ := h
    exact hd h
  | queueSwap b t =>
    simp only [emitterCall, Emitter.queueSwap, bind_ok, pure_ok] at h
    obtain ⟨_, _, _, _, _, _, rfl⟩ := h; rfl
  | cancelSwap =>
    simp only [emitterCall, Emitter.cancelSwap, bind_ok, pure_ok] at h
    obtain ⟨_, _, _, _, _, _, rfl⟩ := h; rfl
  | swapBackstop =>
    simp only [emitterCall, Emitter.swapBackstop, bind_ok, pure_ok, Prod.exists] at h
    obtain ⟨_, _, _, _, _, _, _, _, n, w1, h, rfl⟩ := h
    have := hd h
    exact this
  | drop l =>
    obtain ⟨_, _, _, _, i, w1, _, _, _, hm, rfl⟩ := Emitter.drop_ok (L := fun _ => False) (A := fun _ => False) h
    have := mints_comet l hm
    exact this

theorem call_comet {w w' : World} {auth : List Address} {c : BackstopCall} (h : backstopCall w auth c = .ok w') :
    w.cometShares ≤ w'.cometShares := by
  cases c with
  | «initialize» t e u b f l =>
    simp only [backstopCall, init, bind_ok, pure_ok] at h
    obtain ⟨_, _, _, _, _, _, rfl⟩ := h; exact le_refl _
  | deposit s p a =>
    simp only [backstopCall, bind_ok, pure_ok, Prod.exists] at h
    obtain ⟨m, _, h, rfl⟩ := h
    obtain ⟨x, b1, i, w2, _, _, t, rfl⟩ := (deposit_res h).ex
    show _ ≤ w2.cometShares
    rw [t.frame]; exact le_refl _
  | queueWithdrawal s p a =>
    obtain ⟨x, b1, _, rfl⟩ := (queue_res h).ex; exact le_refl _
  | dequeueWithdrawal s p a =>
    obtain ⟨x, b1, _, _, _, rfl⟩ := (dequeue_res h).ex; exact le_refl _
  | withdraw s p a =>
    simp only [backstopCall, bind_ok, pure_ok, Prod.exists] at h
    obtain ⟨m, _, h, rfl⟩ := h
    obtain ⟨q, i, _, _, _, t⟩ := (withdraw_res h).ex
    rw [t.frame]; exact le_refl _
  | gulpEmissions =>
    simp only [backstopCall, gulpEmissions, bind_ok, pure_ok, Prod.exists, Prod.mk.injEq] at h
    obtain ⟨_, _, ⟨_, _, i, _, _, _, el, _, _, _, ne, _, tb, htb, tp, _, tn, htn, b1, hf, _, rfl⟩, rfl⟩ := h
    exact le_refl _
  | addReward a r =>
    rcases (addReward_res h).ex with ⟨_, rfl⟩ | ⟨_, _, _, _, rfl⟩ <;> exact le_refl _
  | gulpPoolEmissions p =>
    simp only [backstopCall, gulpPoolEmissionsAuth, gulpPoolEmissions, bind_ok, pure_ok, Prod.exists, Prod.mk.injEq] at h
    obtain ⟨_, _, ⟨_, _, _, _, i, _, _, _, w1, ha, _, rfl⟩, rfl⟩ := h
    obtain ⟨_, rfl⟩ := approve_res ha
    exact le_refl _
  | claim s ps d =>
    simp only [backstopCall, claim, executeClaim, cometDeposit, bind_ok, pure_ok, Prod.exists, ite_ok,
      Prod.mk.injEq, chk_ok] at h
    obtain ⟨_, _, ⟨_, _, _, _, c, cl, b1, hl, ⟨hc, i, hi, lp, w2, ⟨w3, ht, w4, hm, s', ⟨_, rfl⟩, rfl, rfl⟩, b2, hd, _, rfl⟩ |
      ⟨_, _, rfl⟩⟩, rfl⟩ := h
    · show _ ≤ w4.cometShares + _
      have m := mint_res hm
      have := m.nonneg
      rw [m.frame]; show _ ≤ w3.cometShares + _; 
      have e : w3.cometShares = w.cometShares := by rw [(transfer_res ht).frame]; rfl
      rw [e]
      omega
    · exact le_refl _
  | drop =>
    simp only [backstopCall, drop, bind_ok] at h
    obtain ⟨_, _, _, _, l, _, h⟩ := h
    obtain ⟨_, _, _, _, i, w1, _, _, _, hm, rfl⟩ := Emitter.drop_ok (L := fun _ => False) (A := fun _ => False) h
    have := mints_comet l hm
    exact le_of_eq this.symm
  | draw p a d =>
    simp only [backstopCall, draw, bind_ok] at h
    obtain ⟨_, _, h⟩ := h
    obtain ⟨i, _, t⟩ := (executeDraw_res h).ex
    rw [t.frame]; exact le_refl _
  | donate s p a =>
    simp only [backstopCall, donate, bind_ok, requireAuth_ok] at h
    obtain ⟨_, hm, _, _, h⟩ := h
    obtain ⟨i, w1, _, t, rfl⟩ := (executeDonate_res h).ex
    show _ ≤ w1.cometShares; rw [t.frame]
  | updateTknVal =>
    simp only [backstopCall, updateTknVal, bind_ok, pure_ok] at h
    obtain ⟨_, _, _, _, _, _, rfl⟩ := h
    exact le_refl _

theorem step_comet {w w' : World} {op : Op} (h : step w op = .ok w') (h0 : 0 ≤ w.cometShares) : 0 ≤ w'.cometShares := by
  cases op with
  | pool p auth c =>
    simp only [step, bind_ok, require_ok] at h
    obtain ⟨_, hp, _, ha, h⟩ := h
    rw [psteps_comet (Pool.call_psteps h)]; exact h0
  | backstop auth c =>
    simp only [step, bind_ok, require_ok] at h
    obtain ⟨_, ha, h⟩ := h
    exact le_trans h0 (call_comet h)
  | emitter auth c =>
    simp only [step, bind_ok, require_ok] at h
    obtain ⟨_, ha, h⟩ := h
    rw [emitter_comet h]; exact h0
  | factory auth c =>
    simp only [step, bind_ok, require_ok] at h
    obtain ⟨_, ha, h⟩ := h
    rcases factoryCall_ok h with ⟨m, _, _, rfl⟩ | ⟨a, s, o, r, n, m, rfl, _, _, _, _, _, _, rfl⟩ <;> exact h0
  | ledger dt ds => simp only [step, pure_ok] at h; subst h; exact h0
  | oracles o => simp only [step, pure_ok] at h; subst h; exact h0
  | comet s o =>
    simp only [step, pure_ok, bind_ok, require_ok] at h
    obtain ⟨_, h, rfl⟩ := h
    exact h
  | tokenTransfer t s d a =>
    simp only [step, bind_ok, require_ok] at h
    obtain ⟨_, hs, h⟩ := h
    rw [(transfer_res h).frame]; exact h0
  | tokenMint t d a =>
    simp only [step, bind_ok, require_ok] at h
    obtain ⟨_, hs, h⟩ := h
    rw [(mint_res h).frame]; exact h0
  | tokenBurn t s a =>
    simp only [step, bind_ok, require_ok, pure_ok] at h
    obtain ⟨_, hs, _, ha, rfl⟩ := h
    exact h0
  | tokenApprove t o s a e =>
    simp only [step, bind_ok, require_ok] at h
    obtain ⟨_, hs, h⟩ := h
    obtain ⟨_, rfl⟩ := approve_res h
    exact h0
  | expireAuction p t u => simp only [step, pure_ok] at h; subst h; exact h0
  | expireQueued p a => simp only [step, pure_ok] at h; subst h; exact h0
  | expireDropList => simp only [step, pure_ok] at h; subst h; exact h0

theorem LpOk.step {w w' : World} {op : Op} (ba : BAll w) (lp : LpOk w) (h : Blend.step w op = .ok w') : LpOk w' := by
  refine ⟨step_comet h lp.shares, ?_⟩
  rcases step_other h with ⟨p, auth, c, rfl, e⟩ | ⟨auth, c, rfl, hc⟩ | e | e
  · rw [e.lpVal]; exact lp.val
  · by_cases ht : c = .updateTknVal
    · subst ht
      simp only [backstopCall, updateTknVal, bind_ok, pure_ok] at hc
      obtain ⟨i, hi, b, hb, u, hu, rfl⟩ := hc
      intro b' u' he
      simp only [World.setBackstop, Option.some.injEq, Prod.mk.injEq] at he
      obtain ⟨rfl, rfl⟩ := he
      have key : ∀ {x y : Int}, 0 ≤ x → fixedDivFloor x w.cometShares SCALAR_7 = .ok y → 0 ≤ y := by
        intro x y hx hd
        rcases lp.shares.lt_or_eq with hp | hp
        · exact mulDivFloor_nonneg hd hp (mul_nonneg hx (by norm_num [SCALAR_7]))
        · exfalso
          unfold fixedDivFloor mulDivFloor at hd; rw [← hp] at hd
          simp only [bind_ok, require_ok, ne_eq, not_true_eq_false, false_and, exists_false, and_false] at hd
      exact ⟨key (ba.base.balances _ _) hb, key (ba.base.balances _ _) hu⟩
    · have : w'.backstop.lpVal = w.backstop.lpVal := by
        cases call_cases ba.inv hc with
        | @deposit s p a m r =>
          obtain ⟨x, b1, i, w2, hu, _, _, rfl⟩ := r.ex
          have := emis_same hu; unfold SameBals at this
          show b1.lpVal = _; rw [this]
        | @queue s p a r =>
          obtain ⟨x, b1, hu, rfl⟩ := r.ex
          have := emis_same hu; unfold SameBals at this
          show b1.lpVal = _; rw [this]
        | @dequeue s p a r =>
          obtain ⟨x, b1, q', hu, _, rfl⟩ := r.ex
          have := emis_same hu; unfold SameBals at this
          show b1.lpVal = _; rw [this]
        | @withdraw s p a tk r =>
          obtain ⟨q', i, hi, _, hb, _⟩ := r.ex
          rw [hb]; rfl
        | @claim s ps d r =>
          obtain ⟨b1, hb1, cr⟩ := r.ex
          rw [cr.frame]; show b1.lpVal = _; rw [hb1]
        | @draw p a d hp r =>
          obtain ⟨i, hi, t⟩ := r.ex
          rw [t.frame]; rfl
        | @donate s p a hs hp r =>
          obtain ⟨i, w1, hi, t, rfl⟩ := r.ex
          rfl
        | @reward a r' r => rcases r.ex with ⟨_, rfl⟩ | ⟨_, _, _, _, rfl⟩ <;> rfl
        | gulp hne hb hq' => rw [hb]
        | init hn hb => rw [hb]
        | @gulpPool p hp hb => rw [hb]
        | lpVal hb => exact absurd rfl ht
        | drop hb => rw [hb]
      rw [this]; exact lp.val
  · rw [e]; exact lp.val
  · rw [e]; exact lp.val

theorem _root_.Blend.Reachable.lpOk {w : World} (h : Reachable w) : LpOk w := by
  obtain ⟨w0, h0, hs⟩ := h
  refine (hs.inv (P := fun w => BAll w ∧ LpOk w) (fun _ _ _ h hs => ⟨h.1.step hs, h.2.step h.1 hs⟩)
    ⟨.genesis h0, h0.cometShares, ?_⟩).2
  rw [h0.backstop]; simp

end Backstop
end Blend
