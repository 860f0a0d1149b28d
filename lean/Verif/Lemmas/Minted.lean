import Verif.Lemmas.InstChange
import Verif.Lemmas.BOps
/-
  Who can mint a token: only the emitter (BLND) and Comet (the LP token), besides foreign issuers.
-/

namespace Blend
open Pool

theorem pstep_minted {w w' : World} {p : Address} {auth : List Address} {D : Eff → Prop} (h : PStep p auth D w w') (t : Address) :
    (w'.tok t).minted = (w.tok t).minted := by
  cases h with
  | setPool ps => rfl
  | transfer hs h => exact (transfer_res h).minted t
  | pull _ _ h => exact (transferFrom_res h).minted t
  | draw _ h =>
    obtain ⟨i, _, r⟩ := (Backstop.executeDraw_res h).ex
    exact r.minted t
  | donate _ _ h =>
    obtain ⟨i, w1, _, r, rfl⟩ := (Backstop.executeDonate_res h).ex
    exact r.minted t
  | gulp _ h =>
    simp only [Backstop.gulpPoolEmissions, bind_ok, pure_ok, Prod.mk.injEq] at h
    obtain ⟨_, _, i, _, _, _, w1, ha, _, rfl⟩ := h
    obtain ⟨_, rfl⟩ := approve_res ha
    exact (setAllowance_res _ _ _ _ _ _).2.2.2 t

theorem psteps_minted {w w' : World} {p : Address} {auth : List Address} {D : Eff → Prop} (h : PSteps p auth D w w') (t : Address) :
    (w'.tok t).minted = (w.tok t).minted := by
  induction h with
  | refl => rfl
  | tail _ hs ih => exact (pstep_minted hs t).trans ih

theorem Backstop.claimLoop_inst {now : Nat} {s : Address} : ∀ {ps : List Address} {c c' : Int} {cl cl' : SMap Int}
    {b b' : BackstopState}, claimLoop now s ps (c, cl, b) = .ok (c', cl', b') → b'.inst = b.inst := by
  intro ps
  induction ps with
  | nil =>
    intro c c' cl cl' b b' h
    simp only [claimLoop, pure_ok, Prod.mk.injEq] at h
    rw [h.2.2]
  | cons q ps ih =>
    intro c c' cl cl' b b' h
    simp only [claimLoop, bind_ok, Prod.exists, chk_ok] at h
    obtain ⟨a, b1, hu, _, ⟨_, rfl⟩, h⟩ := h
    rw [ih h]
    rcases updateEmissions_ok hu with ⟨_, rfl, _⟩ | ⟨_, _, _, _, r⟩
    · rfl
    · rw [r.eq]

theorem Backstop.call_minted {w w' : World} {auth : List Address} {c : BackstopCall} (hc : c ≠ .drop) {t : Address}
    (ht : ∀ i, w.backstop.inst = some i → i.backstopToken ≠ t)
    (h : backstopCall w auth c = .ok w') : (w'.tok t).minted = (w.tok t).minted := by
  cases c with
  | «initialize» t e u b f l =>
    simp only [backstopCall, init, bind_ok, pure_ok] at h
    obtain ⟨_, _, _, _, _, _, rfl⟩ := h; rfl
  | deposit s p a =>
    simp only [backstopCall, deposit, executeDeposit, bind_ok, pure_ok, Prod.exists, requireAuth_ok,
      Prod.mk.injEq] at h
    obtain ⟨_, _, ⟨_, hm, _, _, _, _, _, _, _, b1, _, i, _, w2, ht, _, _, _, _, _, _, _, _, _, rfl⟩, rfl⟩ := h
    exact (transfer_res ht).minted t
  | queueWithdrawal s p a =>
    simp only [backstopCall, queueWithdrawal, executeQueue, bind_ok, pure_ok, Prod.exists] at h
    obtain ⟨_, _, _, _, _, _, _, _, _, _, _, rfl⟩ := h; rfl
  | dequeueWithdrawal s p a =>
    simp only [backstopCall, dequeueWithdrawal, executeDequeue, bind_ok, pure_ok, Prod.exists] at h
    obtain ⟨_, _, _, _, _, _, _, _, _, _, _, _, _, rfl⟩ := h; rfl
  | withdraw s p a =>
    simp only [backstopCall, withdraw, executeWithdraw, bind_ok, pure_ok, Prod.exists, Prod.mk.injEq] at h
    obtain ⟨_, _, ⟨_, _, _, h0, ub, hq, tk, htk, _, hnz, pb', hpb, i, hi, w2, ht, _, rfl⟩, rfl⟩ := h
    exact (transfer_res ht).minted t
  | gulpEmissions =>
    simp only [backstopCall, gulpEmissions, bind_ok, pure_ok, Prod.exists, Prod.mk.injEq] at h
    obtain ⟨_, _, ⟨_, _, i, _, _, _, el, _, _, _, ne, _, tb, htb, tp, _, tn, htn, b1, hf, _, rfl⟩, rfl⟩ := h
    rfl
  | addReward a r =>
    simp only [backstopCall, addReward, bind_ok, pure_ok, Prod.exists, ite_ok] at h
    obtain ⟨_, _, _, _, _, _, ⟨_, _, _, rfl⟩ | ⟨_, _, _, _, _, _, _, _, _, _, _, rfl⟩⟩ := h <;> rfl
  | gulpPoolEmissions p =>
    simp only [backstopCall, gulpPoolEmissionsAuth, gulpPoolEmissions, bind_ok, pure_ok, Prod.exists, Prod.mk.injEq] at h
    obtain ⟨_, _, ⟨_, _, _, _, i, _, _, _, w1, ha, _, rfl⟩, rfl⟩ := h
    obtain ⟨_, rfl⟩ := approve_res ha
    exact (setAllowance_res _ _ _ _ _ _).2.2.2 t
  | claim s ps d =>
    simp only [backstopCall, claim, executeClaim, cometDeposit, bind_ok, pure_ok, Prod.exists, ite_ok,
      Prod.mk.injEq] at h
    obtain ⟨_, _, ⟨_, _, _, _, c, cl, b1, hl, ⟨hc, i, hi, lp, w2, ⟨w3, h3, w4, hm, s', _, rfl, rfl⟩, b2, hd, _, rfl⟩ |
      ⟨_, _, rfl⟩⟩, rfl⟩ := h
    · show (w4.tok t).minted = _
      rw [(mint_res hm).minted]
      have hne : i.backstopToken ≠ t := by
        refine ht i ?_
        simp only [inst, unwrap_ok] at hi
        have hb1 : b1.inst = w.backstop.inst :=
          (claimLoop_inst hl)
        rw [← hb1]
        exact hi
      rw [if_neg (Ne.symm hne), add_zero]
      exact (transfer_res h3).minted t
    · rfl
  | drop => exact absurd rfl hc
  | draw p a d =>
    simp only [backstopCall, draw, bind_ok] at h
    obtain ⟨_, _, h⟩ := h
    obtain ⟨i, _, r⟩ := (executeDraw_res h).ex
    exact r.minted t
  | donate s p a =>
    simp only [backstopCall, donate, bind_ok, requireAuth_ok] at h
    obtain ⟨_, hm, _, _, h⟩ := h
    obtain ⟨i, w1, _, r, rfl⟩ := (executeDonate_res h).ex
    exact r.minted t
  | updateTknVal =>
    simp only [backstopCall, updateTknVal, bind_ok, pure_ok] at h
    obtain ⟨_, _, _, _, _, _, rfl⟩ := h
    rfl

theorem mints_minted {blnd : Address} : ∀ {l : List (Address × Int)} {w w' : World},
    l.foldlM (fun w x => mint w blnd x.1 x.2) w = .ok w' →
    (w'.tok blnd).minted = (w.tok blnd).minted + (l.map (·.2)).sum := by
  intro l
  induction l with
  | nil => intro w w' h; rw [foldlM_nil] at h; simp [h]
  | cons x l ih =>
    intro w w' h
    rw [foldlM_cons] at h
    obtain ⟨w1, h1, h2⟩ := h
    rw [ih h2, (mint_res h1).minted, if_pos rfl]
    simp only [List.map_cons, List.sum_cons]
    omega

/-- what an operation other than the emitter's own mints of another token than the LP token: nothing -/
theorem minted_other {w w' : World} {op : Op} (h : step w op = .ok w') (h1 : ∀ auth c, op ≠ .emitter auth c)
    (h2 : ∀ auth, op ≠ .backstop auth .drop) {i : EmitterInst} (hi : w.emitter.inst = some i)
    (ht : ∀ j, w.backstop.inst = some j → j.backstopToken ≠ i.blnd) :
    (w'.tok i.blnd).minted = (w.tok i.blnd).minted := by
  cases op with
  | pool p auth c =>
    simp only [step, bind_ok, require_ok] at h
    obtain ⟨_, _, _, _, h⟩ := h
    exact psteps_minted (call_psteps h) _
  | backstop auth c =>
    simp only [step, bind_ok, require_ok] at h
    obtain ⟨_, _, h⟩ := h
    exact Backstop.call_minted (by rintro rfl; exact h2 auth rfl) ht h
  | emitter auth c => exact absurd rfl (h1 auth c)
  | factory auth c =>
    simp only [step, bind_ok, require_ok] at h
    obtain ⟨_, _, h⟩ := h
    cases c with
    | «initialize» m =>
      simp only [factoryCall, Factory.init, bind_ok, require_ok, pure_ok] at h
      obtain ⟨_, _, rfl⟩ := h; rfl
    | deploy a s o r m =>
      simp only [factoryCall, Factory.deploy, bind_ok, require_ok, pure_ok, Prod.exists, Prod.mk.injEq] at h
      obtain ⟨_, _, ⟨_, _, m, _, _, _, _, _, _, _, _, _, w1, h, rfl, rfl⟩, rfl⟩ := h
      exact psteps_minted (call_psteps h) _
  | ledger dt ds => simp only [step, pure_ok] at h; subst h; rfl
  | oracles o => simp only [step, pure_ok] at h; subst h; rfl
  | comet s o => simp only [step, bind_ok, require_ok, pure_ok] at h; obtain ⟨_, _, rfl⟩ := h; rfl
  | tokenTransfer t a b n =>
    simp only [step, bind_ok, require_ok] at h
    obtain ⟨_, _, h⟩ := h
    exact (transfer_res h).minted _
  | tokenMint t a n =>
    simp only [step, bind_ok, require_ok] at h
    obtain ⟨_, hn, h⟩ := h
    rw [(mint_res h).minted, if_neg, add_zero]
    exact Ne.symm (hn i (by simp [hi]))
  | tokenBurn t a n =>
    simp only [step, bind_ok, require_ok, pure_ok] at h
    obtain ⟨_, _, _, _, rfl⟩ := h
    unfold World.setBalance
    by_cases e : i.blnd = t
    · subst e; simp [upd]
    · simp [upd, e]
  | tokenApprove t a b n e =>
    simp only [step, bind_ok, require_ok] at h
    obtain ⟨_, _, h⟩ := h
    obtain ⟨_, rfl⟩ := approve_res h
    exact (setAllowance_res _ _ _ _ _ _).2.2.2 _
  | expireAuction p t u => simp only [step, pure_ok] at h; subst h; rfl
  | expireQueued p a => simp only [step, pure_ok] at h; subst h; rfl
  | expireDropList => simp only [step, pure_ok] at h; subst h; rfl

end Blend
