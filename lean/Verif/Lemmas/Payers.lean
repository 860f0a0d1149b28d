import Verif.Spec.Access
import Verif.Lemmas.Reach
/-
  Who can lose tokens in an operation.
-/

namespace Blend
open Pool

/-- `x` keeps its tokens `t` and its allowance for `p`, ledger number and backstop address stay -/
structure Kept (t x p : Address) (w w' : World) : Prop where
  bal : w.balance t x ≤ w'.balance t x
  allow : (w'.tok t).allow x p = (w.tok t).allow x p
  seq : w'.seq = w.seq
  backstop : w'.backstopAddr = w.backstopAddr

theorem Kept.trans {t x p : Address} {a b c : World} (h : Kept t x p a b) (h' : Kept t x p b c) : Kept t x p a c :=
  ⟨h.bal.trans h'.bal, h'.allow.trans h.allow, h'.seq.trans h.seq, h'.backstop.trans h.backstop⟩

theorem Kept.transfer {w w' : World} {t' s d t x p : Address} {amt : Int} (r : TransferRes w t' s d amt w') (hx : x ≠ s) :
    Kept t x p w w' := by
  refine ⟨?_, by rw [r.allow], by rw [r.frame], by rw [r.frame]⟩
  rw [r.bal]; unfold moved
  rw [if_neg (c := t = t' ∧ x = s) (fun e => hx e.2)]
  have := r.nonneg
  split <;> omega

theorem pstep_kept {w w' : World} {p : Address} {auth : List Address} {D : Eff → Prop} {t x : Address} (hp : x ≠ p)
    (hbk : x ≠ w.backstopAddr) (ha : x ∉ auth) (hal : w.allowance t x p ≤ 0) (h : PStep p auth D w w') : Kept t x p w w' := by
  cases h with
  | setPool ps => exact ⟨le_rfl, rfl, rfl, rfl⟩
  | transfer hs h =>
    refine .transfer (transfer_res h) ?_
    rintro rfl
    rcases hs with hs | hs
    · exact hp hs
    · exact ha hs
  | @pull _ t' owner dst amt _ hpos h =>
    have r := transferFrom_res h
    have hne : ¬ (t = t' ∧ x = owner) := by
      rintro ⟨rfl, rfl⟩
      have := r.allowed; omega
    refine ⟨?_, ?_, by rw [r.frame], by rw [r.frame]⟩
    · rw [r.bal]; unfold moved
      rw [if_neg hne]
      split <;> omega
    · rw [r.allow, if_neg]
      exact fun e => hne ⟨e.1, e.2.1⟩
  | draw _ h =>
    obtain ⟨i, _, r⟩ := (Backstop.executeDraw_res h).ex
    have k := Kept.transfer (t := t) (x := x) (p := p) r hbk
    exact ⟨k.bal, k.allow, k.seq, k.backstop⟩
  | @donate _ sender _ _ hs h =>
    obtain ⟨i, w1, _, r, rfl⟩ := (Backstop.executeDonate_res h).ex
    exact Kept.trans (.transfer (x := x) r fun e => ha (e ▸ hs)) ⟨le_rfl, rfl, rfl, rfl⟩
  | gulp _ h =>
    unfold Backstop.gulpPoolEmissions Backstop.inst at h
    simp only [bind_ok, require_ok, unwrap_ok, pure_ok, Prod.mk.injEq, chk_ok] at h
    obtain ⟨_, _, i, _, al, _, w1, hap, _, rfl⟩ := h
    obtain ⟨_, rfl⟩ := approve_res hap
    obtain ⟨a1, a2, a3, _⟩ := setAllowance_res w i.blnd w.backstopAddr p al (w.seq + Backstop.LEDGER_BUMP_USER)
    refine ⟨le_of_eq (a2 t x).symm, ?_, rfl, rfl⟩
    exact (a3 t x p).trans (if_neg fun e => hbk e.2.1)

theorem psteps_kept {w w' : World} {p : Address} {auth : List Address} {D : Eff → Prop} {t x : Address} (hp : x ≠ p)
    (hbk : x ≠ w.backstopAddr) (ha : x ∉ auth) (hal : w.allowance t x p ≤ 0) (h : PSteps p auth D w w') : Kept t x p w w' := by
  induction h with
  | refl => exact ⟨le_rfl, rfl, rfl, rfl⟩
  | tail _ hs ih =>
    refine ih.trans (pstep_kept hp (by rw [ih.backstop]; exact hbk) ha ?_ hs)
    unfold World.allowance at hal ⊢
    rw [ih.allow, ih.seq]; exact hal

theorem step_kept {w w' : World} {op : Op} (h : step w op = .ok w') {t x : Address}
    (hx : ¬ w.isProtocol x) (hs : x ∉ (Spec.signers op)) (hal : ∀ p auth c, op = .pool p auth c → w.allowance t x p ≤ 0) :
    w.balance t x ≤ w'.balance t x := by
  have hbk : x ≠ w.backstopAddr := fun e => hx (.inr (.inl e))
  cases op with
  | pool p auth c =>
    simp only [step, bind_ok, require_ok] at h
    obtain ⟨_, hp, _, _, h⟩ := h
    exact (psteps_kept (fun e => hx (by rw [e]; exact protocol_pool hp)) hbk hs (hal _ _ _ rfl) (call_psteps h)).bal
  | backstop auth c =>
    simp only [step, bind_ok, require_ok] at h
    obtain ⟨_, _, h⟩ := h
    exact (Backstop.call_wf_auth h).1.bal t x fun e => e.elim hbk hs
  | emitter auth c =>
    simp only [step, bind_ok, require_ok] at h
    obtain ⟨_, _, h⟩ := h
    exact (Emitter.call_wf (L := fun _ => False) (A := fun _ => False) h).1.bal t x id
  | factory auth c =>
    simp only [step, bind_ok, require_ok] at h
    obtain ⟨_, _, h⟩ := h
    cases c with
    | «initialize» m =>
      simp only [factoryCall, Factory.init, bind_ok, pure_ok] at h
      obtain ⟨_, _, rfl⟩ := h; exact le_rfl
    | deploy a s o r n =>
      simp only [factoryCall, Factory.deploy, bind_ok, pure_ok, Prod.exists, Prod.mk.injEq] at h
      obtain ⟨_, _, ⟨_, _, _, _, _, _, _, _, _, _, _, _, w1, hc, rfl, rfl⟩, rfl⟩ := h
      simp only [Pool.call, executeInit, bind_ok, pure_ok] at hc
      obtain ⟨_, _, _, _, rfl⟩ := hc
      exact le_rfl
  | ledger => cases h; exact le_rfl
  | oracles => cases h; exact le_rfl
  | comet =>
    simp only [step, bind_ok, pure_ok] at h
    obtain ⟨_, _, rfl⟩ := h; exact le_rfl
  | tokenTransfer tk src dst amt =>
    simp only [step, bind_ok] at h
    obtain ⟨_, _, h⟩ := h
    exact (Kept.transfer (p := 0) (transfer_res h) fun e => hs (by simp [Spec.signers, e])).bal
  | tokenMint tk dst amt =>
    simp only [step, bind_ok] at h
    obtain ⟨_, _, h⟩ := h
    have r := mint_res h
    rw [r.bal]
    have := r.nonneg
    split <;> omega
  | tokenBurn tk src amt =>
    simp only [step, bind_ok, pure_ok] at h
    obtain ⟨_, _, _, _, rfl⟩ := h
    rw [balance_setBalance, if_neg]
    exact fun e => hs (by simp [Spec.signers, e.2])
  | tokenApprove tk o s a e =>
    simp only [step, bind_ok] at h
    obtain ⟨_, _, h⟩ := h
    obtain ⟨_, rfl⟩ := approve_res h
    rw [(setAllowance_res _ _ _ _ _ _).2.1]
  | expireAuction => cases h; exact le_rfl
  | expireQueued => cases h; exact le_rfl
  | expireDropList => cases h; exact le_rfl

end Blend
