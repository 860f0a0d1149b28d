import Verif.Lemmas.AuctionFrame
import Verif.Lemmas.Frames
/-
  The prices of the oracles change only by the operation that says so.
-/

namespace Blend
open Pool

theorem mints_oracle {t : Address} {l : List (Address × Int)} {w w' : World}
    (h : l.foldlM (fun w x => mint w t x.1 x.2) w = .ok w') : w'.oracle = w.oracle :=
  foldlM_inv (fun v : World => v.oracle = w.oracle) (fun b d x _ hb hs => by rw [(mint_res hs).frame]; exact hb) rfl h

theorem Emitter.drop_oracle {w w' : World} {auth : List Address} {l : List (Address × Int)}
    (h : Emitter.drop w auth l = .ok w') : w'.oracle = w.oracle := by
  obtain ⟨_, _, _, _, i, w1, _, _, _, hm, rfl⟩ := Emitter.drop_ok (L := fun _ => True) (A := fun _ => True) h
  have := mints_oracle hm
  exact this

theorem Emitter.distribute_oracle {w w' : World} {b : Address} {n : Int} (h : Emitter.executeDistribute w b = .ok (n, w')) :
    w'.oracle = w.oracle := by
  obtain ⟨last, i, _, _, _, _, r⟩ := Emitter.distribute_ok h
  rw [r.frame]

theorem Emitter.call_oracle {w w' : World} {auth : List Address} {c : EmitterCall} (h : emitterCall w auth c = .ok w') :
    w'.oracle = w.oracle := by
  cases c with
  | «initialize» b s t =>
    simp only [emitterCall, init, bind_ok, pure_ok] at h
    obtain ⟨_, _, rfl⟩ := h; rfl
  | distribute =>
    simp only [emitterCall, distribute, bind_ok, pure_ok, Prod.exists] at h
    obtain ⟨n, w1, ⟨_, _, h⟩, rfl⟩ := h
    exact Emitter.distribute_oracle h
  | queueSwap b t =>
    simp only [emitterCall, queueSwap, bind_ok, pure_ok] at h
    obtain ⟨_, _, _, _, _, _, rfl⟩ := h; rfl
  | cancelSwap =>
    simp only [emitterCall, cancelSwap, bind_ok, pure_ok] at h
    obtain ⟨_, _, _, _, _, _, rfl⟩ := h; rfl
  | swapBackstop =>
    simp only [emitterCall, swapBackstop, bind_ok, pure_ok, Prod.exists] at h
    obtain ⟨s, _, _, _, i, _, _, _, n, w1, hx, rfl⟩ := h
    have := Emitter.distribute_oracle hx
    exact this
  | drop l => exact Emitter.drop_oracle h

theorem Backstop.call_oracle {w w' : World} {auth : List Address} {c : BackstopCall} (h : backstopCall w auth c = .ok w') :
    w'.oracle = w.oracle := by
  cases c with
  | «initialize» t e u b f l =>
    simp only [backstopCall, init, bind_ok, pure_ok] at h
    obtain ⟨_, _, _, _, _, _, rfl⟩ := h; rfl
  | deposit s p a =>
    simp only [backstopCall, deposit, executeDeposit, bind_ok, pure_ok, Prod.exists, requireAuth_ok,
      Prod.mk.injEq] at h
    obtain ⟨_, _, ⟨_, hm, _, _, _, _, _, _, _, b1, _, i, _, w2, ht, _, _, _, _, _, _, _, _, _, rfl⟩, rfl⟩ := h
    show w2.oracle = _; rw [(transfer_res ht).frame]; rfl
  | queueWithdrawal s p a =>
    simp only [backstopCall, queueWithdrawal, executeQueue, bind_ok, pure_ok, Prod.exists] at h
    obtain ⟨_, _, _, _, _, _, _, _, _, _, _, rfl⟩ := h; rfl
  | dequeueWithdrawal s p a =>
    simp only [backstopCall, dequeueWithdrawal, executeDequeue, bind_ok, pure_ok, Prod.exists] at h
    obtain ⟨_, _, _, _, _, _, _, _, _, _, _, _, _, rfl⟩ := h; rfl
  | withdraw s p a =>
    simp only [backstopCall, withdraw, executeWithdraw, bind_ok, pure_ok, Prod.exists, Prod.mk.injEq] at h
    obtain ⟨_, _, ⟨_, _, _, h0, ub, hq, tk, htk, _, hnz, pb', hpb, i, hi, w2, ht, _, rfl⟩, rfl⟩ := h
    rw [(transfer_res ht).frame]; rfl
  | gulpEmissions =>
    simp only [backstopCall, gulpEmissions, bind_ok, pure_ok, Prod.exists, Prod.mk.injEq] at h
    obtain ⟨_, _, ⟨_, _, i, _, _, _, el, _, _, _, ne, _, tb, htb, tp, _, tn, htn, b1, hf, _, rfl⟩, rfl⟩ := h
    rfl
  | addReward a r =>
    simp only [backstopCall, addReward, bind_ok, pure_ok, Prod.exists, ite_ok] at h
    obtain ⟨_, _, _, _, _, _, ⟨_, _, _, rfl⟩ | ⟨_, _, _, _, _, _, _, _, _, _, _, rfl⟩⟩ := h <;> rfl
  | gulpPoolEmissions p =>
    simp only [backstopCall, gulpPoolEmissionsAuth, gulpPoolEmissions, bind_ok, pure_ok, Prod.exists, Prod.mk.injEq] at h
    obtain ⟨_, _, ⟨_, _, _, _, i, _, _, _, w1, ha, _, rfl⟩, rfl⟩ := h
    obtain ⟨_, rfl⟩ := approve_res ha
    rfl
  | claim s ps d =>
    simp only [backstopCall, claim, executeClaim, cometDeposit, bind_ok, pure_ok, Prod.exists, ite_ok,
      Prod.mk.injEq] at h
    obtain ⟨_, _, ⟨_, _, _, _, c, cl, b1, hl, ⟨hc, i, hi, lp, w2, ⟨w3, ht, w4, hm, s', _, rfl, rfl⟩, b2, hd, _, rfl⟩ |
      ⟨_, _, rfl⟩⟩, rfl⟩ := h
    · show w4.oracle = _
      rw [(mint_res hm).frame]; show w3.oracle = _; rw [(transfer_res ht).frame]; rfl
    · rfl
  | drop =>
    simp only [backstopCall, drop, bind_ok] at h
    obtain ⟨_, _, _, _, _, _, h⟩ := h
    exact Emitter.drop_oracle h
  | draw p a d =>
    simp only [backstopCall, draw, bind_ok] at h
    obtain ⟨_, _, h⟩ := h
    obtain ⟨i, _, t⟩ := (executeDraw_res h).ex
    rw [t.frame]; rfl
  | donate s p a =>
    simp only [backstopCall, donate, bind_ok, requireAuth_ok] at h
    obtain ⟨_, hm, _, _, h⟩ := h
    obtain ⟨i, w1, _, t, rfl⟩ := (executeDonate_res h).ex
    show w1.oracle = _; rw [t.frame]
  | updateTknVal =>
    simp only [backstopCall, updateTknVal, bind_ok, pure_ok] at h
    obtain ⟨_, _, _, _, _, _, rfl⟩ := h
    rfl

theorem step_oracle {w w' : World} {op : Op} (h : step w op = .ok w') (hn : ∀ o, op ≠ .oracles o) : w'.oracle = w.oracle := by
  cases op with
  | pool p auth c =>
    simp only [step, bind_ok, require_ok] at h
    obtain ⟨_, hp, _, ha, h⟩ := h
    exact (psteps_seq (call_psteps h)).2.2.1
  | backstop auth c =>
    simp only [step, bind_ok, require_ok] at h
    obtain ⟨_, ha, h⟩ := h
    exact Backstop.call_oracle h
  | emitter auth c =>
    simp only [step, bind_ok, require_ok] at h
    obtain ⟨_, ha, h⟩ := h
    exact Emitter.call_oracle h
  | factory auth c =>
    simp only [step, bind_ok, require_ok] at h
    obtain ⟨_, ha, h⟩ := h
    rcases factoryCall_ok h with ⟨_, _, _, rfl⟩ | ⟨_, _, _, _, _, _, _, _, _, _, _, _, _, rfl⟩ <;> rfl
  | ledger dt ds => simp only [step, pure_ok] at h; subst h; rfl
  | oracles o => exact absurd rfl (hn o)
  | comet s o => simp only [step, pure_ok, bind_ok] at h; obtain ⟨_, _, rfl⟩ := h; rfl
  | tokenTransfer t s d a =>
    simp only [step, bind_ok, require_ok] at h
    obtain ⟨_, hs, h⟩ := h
    rw [(transfer_res h).frame]
  | tokenMint t d a =>
    simp only [step, bind_ok, require_ok] at h
    obtain ⟨_, hs, h⟩ := h
    rw [(mint_res h).frame]
  | tokenBurn t s a =>
    simp only [step, bind_ok, require_ok, pure_ok] at h
    obtain ⟨_, hs, _, ha, rfl⟩ := h; rfl
  | tokenApprove t o s a e =>
    simp only [step, bind_ok, require_ok] at h
    obtain ⟨_, hs, h⟩ := h
    obtain ⟨_, rfl⟩ := approve_res h
    rfl
  | expireAuction p t u => simp only [step, pure_ok] at h; subst h; rfl
  | expireQueued p a => simp only [step, pure_ok] at h; subst h; rfl
  | expireDropList => simp only [step, pure_ok] at h; subst h; rfl

end Blend
