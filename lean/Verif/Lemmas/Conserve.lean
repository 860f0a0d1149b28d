import Verif.Spec.Supply
import Verif.Lemmas.Payers
import Verif.Lemmas.InstChange
import Verif.Lemmas.Exec
import Verif.Lemmas.BOps
import Mathlib.Tactic.Abel
/-
  Operations move tokens, they do not create them.
-/

namespace Blend
open Spec

theorem _root_.Blend.Spec.Issued.refl' {w w' : World} {t : Address} (h : ∀ a, w'.balance t a = w.balance t a) : Issued w w' t 0 :=
  ⟨∅, fun a _ => h a, by simp⟩

/-- the sum over a larger set is the same -/
theorem issued_grow {w w' : World} {t : Address} {S T : Finset Address} (h : ∀ a, a ∉ S → w'.balance t a = w.balance t a) (hs : S ⊆ T) :
    ∑ a ∈ T, (w'.balance t a - w.balance t a) = ∑ a ∈ S, (w'.balance t a - w.balance t a) := by
  symm
  refine Finset.sum_subset hs fun a _ ha => ?_
  rw [h a ha]; omega

theorem _root_.Blend.Spec.Issued.trans {a b c : World} {t : Address} {n m : Int} (h : Issued a b t n) (h' : Issued b c t m) :
    Issued a c t (n + m) := by
  obtain ⟨S, h1, h2⟩ := h
  obtain ⟨T, h3, h4⟩ := h'
  refine ⟨S ∪ T, fun x hx => ?_, ?_⟩
  · rw [Finset.mem_union, not_or] at hx
    rw [h3 x hx.2, h1 x hx.1]
  · have e1 := issued_grow h1 (Finset.subset_union_left (s₂ := T))
    have e2 := issued_grow h3 (Finset.subset_union_right (s₁ := S))
    have : ∀ x ∈ S ∪ T, c.balance t x - a.balance t x = (b.balance t x - a.balance t x) + (c.balance t x - b.balance t x) := by
      intros; omega
    rw [Finset.sum_congr rfl this, Finset.sum_add_distrib, e1, e2, h2, h4]

/-- the number is determined -/
theorem _root_.Blend.Spec.Issued.unique {w w' : World} {t : Address} {n m : Int} (h : Issued w w' t n) (h' : Issued w w' t m) : n = m := by
  obtain ⟨S, h1, h2⟩ := h
  obtain ⟨T, h3, h4⟩ := h'
  rw [← h2, ← h4, ← issued_grow h1 (Finset.subset_union_left (s₂ := T)), ← issued_grow h3 (Finset.subset_union_right (s₁ := S))]

theorem moved_issued {w w' : World} {t' s d t : Address} {amt : Int}
    (h : ∀ t0 x, w'.balance t0 x = w.balance t0 x + moved t' s d amt t0 x) : Issued w w' t 0 := by
  by_cases ht : t = t'
  · subst ht
    refine ⟨{s, d}, fun a ha => ?_, ?_⟩
    · simp only [Finset.mem_insert, Finset.mem_singleton, not_or] at ha
      rw [h]; unfold moved
      rw [if_neg (fun e => ha.2 e.2), if_neg (fun e => ha.1 e.2)]; omega
    · by_cases hsd : s = d
      · subst hsd
        simp [h, moved]
      · rw [Finset.sum_pair hsd]
        have hds : ¬ d = s := fun e => hsd e.symm
        simp [h, moved, hsd, hds]
  · refine .refl' fun a => ?_
    rw [h]; unfold moved
    rw [if_neg (fun e => ht e.1), if_neg (fun e => ht e.1)]; omega

theorem mint_issued {w w' : World} {t' d t : Address} {amt : Int}
    (r : ∀ t0 x, w'.balance t0 x = w.balance t0 x + if t0 = t' ∧ x = d then amt else 0) :
    Issued w w' t (if t' = t then amt else 0) := by
  by_cases ht : t' = t
  · subst ht
    refine ⟨{d}, fun a ha => ?_, ?_⟩
    · simp only [Finset.mem_singleton] at ha
      rw [r, if_neg (fun e => ha e.2)]; omega
    · simp [r]
  · rw [if_neg ht]
    refine .refl' fun a => ?_
    rw [r, if_neg (fun e => ht e.1.symm)]; omega

theorem mints_issued {t' t : Address} : ∀ {l : List (Address × Int)} {w w' : World},
    l.foldlM (fun w x => mint w t' x.1 x.2) w = .ok w' → Issued w w' t (if t' = t then (l.map (·.2)).sum else 0)
  | [], w, w', h => by
    rw [foldlM_nil] at h; cases h
    simp only [List.map_nil, List.sum_nil, ite_self]
    exact .refl' fun _ => rfl
  | x :: l, w, w', h => by
    rw [foldlM_cons] at h
    obtain ⟨w1, h1, h2⟩ := h
    have := (mint_issued (t := t) (mint_res h1).bal).trans (mints_issued (t := t) h2)
    convert this using 1
    split <;> simp

namespace Pool

theorem pstep_issued {w w' : World} {p : Address} {auth : List Address} {D : Eff → Prop} {t : Address}
    (h : PStep p auth D w w') : Issued w w' t 0 := by
  cases h with
  | setPool ps => exact .refl' fun _ => rfl
  | transfer hs h => exact moved_issued (transfer_res h).bal
  | @pull _ t' owner dst amt _ hpos h => exact moved_issued (transferFrom_res h).bal
  | draw _ h =>
    obtain ⟨i, _, r⟩ := (Backstop.executeDraw_res h).ex
    exact moved_issued r.bal
  | @donate _ sender _ _ hs h =>
    obtain ⟨i, w1, _, r, rfl⟩ := (Backstop.executeDonate_res h).ex
    exact moved_issued (w' := w1) r.bal
  | gulp _ h =>
    unfold Backstop.gulpPoolEmissions Backstop.inst at h
    simp only [bind_ok, require_ok, unwrap_ok, pure_ok, Prod.mk.injEq, chk_ok] at h
    obtain ⟨_, _, i, _, al, _, w1, hap, _, rfl⟩ := h
    obtain ⟨_, rfl⟩ := approve_res hap
    obtain ⟨a1, a2, a3, _⟩ := setAllowance_res w i.blnd w.backstopAddr p al (w.seq + Backstop.LEDGER_BUMP_USER)
    exact .refl' fun x => a2 t x

theorem psteps_issued {w w' : World} {p : Address} {auth : List Address} {D : Eff → Prop} {t : Address}
    (h : PSteps p auth D w w') : Issued w w' t 0 := by
  induction h with
  | refl => exact .refl' fun _ => rfl
  | tail _ hs ih => exact ih.trans (pstep_issued hs)

end Pool

namespace Backstop

theorem call_issued {w w' : World} {auth : List Address} {c : BackstopCall} (h : backstopCall w auth c = .ok w')
    (hc : c ≠ .drop) (hc' : ∀ s ps d, c ≠ .claim s ps d) (t : Address) : Issued w w' t 0 := by
  cases c with
  | «initialize» t e u b f l =>
    simp only [backstopCall, init, bind_ok, pure_ok] at h
    obtain ⟨_, _, _, _, _, _, rfl⟩ := h; exact .refl' fun _ => rfl
  | deposit s p a =>
    simp only [backstopCall, deposit, executeDeposit, bind_ok, pure_ok, Prod.exists, requireAuth_ok,
      Prod.mk.injEq] at h
    obtain ⟨_, _, ⟨_, hm, _, _, _, _, _, _, _, b1, _, i, _, w2, ht, _, _, _, _, _, _, _, _, _, rfl⟩, rfl⟩ := h
    exact moved_issued (w' := w2) (transfer_res ht).bal
  | queueWithdrawal s p a =>
    simp only [backstopCall, queueWithdrawal, executeQueue, bind_ok, pure_ok, Prod.exists] at h
    obtain ⟨_, _, _, _, _, _, _, _, _, _, _, rfl⟩ := h; exact .refl' fun _ => rfl
  | dequeueWithdrawal s p a =>
    simp only [backstopCall, dequeueWithdrawal, executeDequeue, bind_ok, pure_ok, Prod.exists] at h
    obtain ⟨_, _, _, _, _, _, _, _, _, _, _, _, _, rfl⟩ := h; exact .refl' fun _ => rfl
  | withdraw s p a =>
    simp only [backstopCall, withdraw, executeWithdraw, bind_ok, pure_ok, Prod.exists, Prod.mk.injEq] at h
    obtain ⟨_, _, ⟨_, _, _, _, _, _, _, _, _, _, pb', _, i, _, w2, ht, _, rfl⟩, rfl⟩ := h
    exact moved_issued (transfer_res ht).bal
  | gulpEmissions =>
    simp only [backstopCall, gulpEmissions, bind_ok, pure_ok, Prod.exists, Prod.mk.injEq] at h
    obtain ⟨_, _, ⟨_, _, _, _, _, _, _, _, _, _, _, _, _, _, _, _, _, _, b1, _, _, rfl⟩, rfl⟩ := h
    exact .refl' fun _ => rfl
  | addReward a r =>
    simp only [backstopCall, addReward, bind_ok, pure_ok, Prod.exists, ite_ok] at h
    obtain ⟨_, _, _, _, _, _, ⟨_, _, _, rfl⟩ | ⟨_, _, _, _, _, _, _, _, _, _, _, rfl⟩⟩ := h <;>
      exact .refl' fun _ => rfl
  | gulpPoolEmissions p =>
    simp only [backstopCall, gulpPoolEmissionsAuth, gulpPoolEmissions, bind_ok, pure_ok, Prod.exists,
      Prod.mk.injEq] at h
    obtain ⟨_, _, ⟨_, _, _, _, i, _, _, _, w1, ha, _, rfl⟩, rfl⟩ := h
    obtain ⟨_, rfl⟩ := approve_res ha
    exact .refl' fun x => (setAllowance_res _ _ _ _ _ _).2.1 t x
  | claim s ps d => exact absurd rfl (hc' s ps d)
  | drop => exact absurd rfl hc
  | draw p a d =>
    simp only [backstopCall, draw, bind_ok] at h
    obtain ⟨_, _, h⟩ := h
    obtain ⟨i, _, r⟩ := (executeDraw_res h).ex
    exact moved_issued r.bal
  | donate s p a =>
    simp only [backstopCall, donate, bind_ok, requireAuth_ok] at h
    obtain ⟨_, hm, _, _, h⟩ := h
    obtain ⟨i, w1, _, r, rfl⟩ := (executeDonate_res h).ex
    exact moved_issued (w' := w1) r.bal
  | updateTknVal =>
    simp only [backstopCall, updateTknVal, bind_ok, pure_ok] at h
    obtain ⟨_, _, _, _, _, _, rfl⟩ := h; exact .refl' fun _ => rfl

end Backstop

/-- every operation creates what it may create -/
theorem step_issued {w w' : World} (hr : Reachable w) {op : Op} (h : step w op = .ok w') (t : Address) :
    ∃ n, Issued w w' t n ∧ Created w w' t n op := by
  cases op with
  | pool p auth c =>
    simp only [step, bind_ok, require_ok] at h
    obtain ⟨_, hp, _, _, h⟩ := h
    exact ⟨0, Pool.psteps_issued (Pool.call_psteps h), rfl⟩
  | backstop auth c =>
    have h' := h
    simp only [step, bind_ok, require_ok] at h'
    obtain ⟨_, _, h'⟩ := h'
    cases c with
    | claim s ps d =>
      obtain ⟨r, hx⟩ := step_exec h
      have hx' := hx
      simp only [exec, backstopRet, Backstop.claim, Backstop.executeClaim, Backstop.cometDeposit, Backstop.inst, bind_ok, pure_ok,
        Prod.exists, Prod.mk.injEq, ite_ok, unwrap_ok] at hx'
      obtain ⟨_, _, x, wx, ⟨_, _, _, _, n, cl, b1, hl, hx'⟩, rfl, rfl⟩ := hx'
      have hin : b1.inst = w.backstop.inst := by rw [(Backstop.claimLoop_same hl).1]
      rcases hx' with ⟨hpos, i, hi, lp, w2, ⟨w3, ht, w4, hm, s, _, rfl, rfl⟩, b2, _, rfl, rfl⟩ | ⟨hpos, rfl, rfl⟩
      · have r := transfer_res ht
        have m := mint_res hm
        have e := (moved_issued (t := t) r.bal).trans (mint_issued (t := t) m.bal)
        refine ⟨_, e, n, hx, fun hh => absurd hh (by omega), fun _ => ⟨i, ?_, ?_⟩⟩
        · exact hin ▸ hi
        · rw [zero_add]; rfl
      · exact ⟨0, .refl' fun _ => rfl, n, hx, fun _ => rfl, fun hh => absurd hh (by omega)⟩
    | drop =>
      rcases emitter_step hr.base h with ⟨_, _, h3⟩ | hc
      · exact absurd rfl (h3 _)
      · cases hc with
        | drop _ i l w1 w' hi ho _ _ hf hw =>
          obtain ⟨_, ⟨e, _⟩ | ⟨_, hl, _⟩⟩ := ho
          · cases e
          subst hw
          exact ⟨_, mints_issued (t := t) (w' := w1) hf, i, l, hi, hl, rfl⟩
    | _ => exact ⟨0, Backstop.call_issued h' (by simp) (by simp) t, rfl⟩
  | emitter auth c =>
    rcases emitter_step hr.base h with ⟨_, h2, _⟩ | hc
    · exact absurd rfl (h2 _ _)
    · cases hc with
      | init _ _ _ _ _ hn hw => subst hw; exact ⟨0, .refl' fun _ => rfl, rfl⟩
      | distribute _ i last _ hi hl hle r =>
        refine ⟨_, mint_issued (t := t) r.bal, i, last, hi, hl, hle, ?_⟩
        unfold SCALAR_7 ONE7
        split <;> omega
      | queue _ _ _ _ _ _ _ _ hw => subst hw; exact ⟨0, .refl' fun _ => rfl, rfl⟩
      | cancel _ _ _ _ _ _ _ hw => subst hw; exact ⟨0, .refl' fun _ => rfl, rfl⟩
      | swap _ i s last w1 _ hi _ _ _ hl hle r hw =>
        subst hw
        refine ⟨_, mint_issued (t := t) (w := w) (w' := { w1 with emitter := _ }) r.bal, i, last, hi, hl, hle, ?_⟩
        unfold SCALAR_7 ONE7
        split <;> omega
      | drop _ i l w1 w' hi ho _ _ hf hw =>
        obtain ⟨_, ⟨e, _⟩ | ⟨e, _⟩⟩ := ho
        · cases e
          subst hw
          exact ⟨_, mints_issued (t := t) (w' := w1) hf, i, hi, rfl⟩
        · cases e
  | factory auth c =>
    simp only [step, bind_ok, require_ok] at h
    obtain ⟨_, _, h⟩ := h
    refine ⟨0, ?_, rfl⟩
    cases c with
    | «initialize» m =>
      simp only [factoryCall, Factory.init, bind_ok, pure_ok] at h
      obtain ⟨_, _, rfl⟩ := h; exact .refl' fun _ => rfl
    | deploy a s o r n =>
      simp only [factoryCall, Factory.deploy, bind_ok, pure_ok, Prod.exists, Prod.mk.injEq] at h
      obtain ⟨_, _, ⟨_, _, _, _, _, _, _, _, _, _, _, _, w1, hc, rfl, rfl⟩, rfl⟩ := h
      simp only [Pool.call, Pool.executeInit, bind_ok, pure_ok] at hc
      obtain ⟨_, _, _, _, rfl⟩ := hc
      exact .refl' fun _ => rfl
  | ledger => cases h; exact ⟨0, .refl' fun _ => rfl, rfl⟩
  | oracles => cases h; exact ⟨0, .refl' fun _ => rfl, rfl⟩
  | comet =>
    simp only [step, bind_ok, pure_ok] at h
    obtain ⟨_, _, rfl⟩ := h; exact ⟨0, .refl' fun _ => rfl, rfl⟩
  | tokenTransfer tk src dst amt =>
    simp only [step, bind_ok] at h
    obtain ⟨_, _, h⟩ := h
    exact ⟨0, moved_issued (transfer_res h).bal, rfl⟩
  | tokenMint tk dst amt =>
    simp only [step, bind_ok] at h
    obtain ⟨_, _, h⟩ := h
    exact ⟨_, mint_issued (mint_res h).bal, rfl⟩
  | tokenBurn tk src amt =>
    simp only [step, bind_ok, pure_ok] at h
    obtain ⟨_, _, _, _, rfl⟩ := h
    refine ⟨_, ?_, rfl⟩
    by_cases ht : tk = t
    · subst ht
      refine ⟨{src}, fun a ha => ?_, ?_⟩
      · simp only [Finset.mem_singleton] at ha
        rw [balance_setBalance, if_neg (fun e => ha e.2)]
      · simp [balance_setBalance]
    · rw [if_neg ht]
      refine .refl' fun a => ?_
      rw [balance_setBalance, if_neg (fun e => ht e.1.symm)]
  | tokenApprove tk o s a e =>
    simp only [step, bind_ok] at h
    obtain ⟨_, _, h⟩ := h
    obtain ⟨_, rfl⟩ := approve_res h
    exact ⟨0, .refl' fun x => (setAllowance_res _ _ _ _ _ _).2.1 _ _, rfl⟩
  | expireAuction => cases h; exact ⟨0, .refl' fun _ => rfl, rfl⟩
  | expireQueued => cases h; exact ⟨0, .refl' fun _ => rfl, rfl⟩
  | expireDropList => cases h; exact ⟨0, .refl' fun _ => rfl, rfl⟩

end Blend
