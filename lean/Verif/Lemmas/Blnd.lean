import Verif.Lemmas.EmitterInv
import Verif.Props.BackstopEmissions
/-
  The BLND the backstop holds against the BLND it owes.
-/

namespace Blend

open Spec

namespace Backstop

/-- what the backstop owes for pool `p`: emissions waiting for the pool, the pool's allowance, and what was
allotted to its depositors and not paid yet -/
def owed (w : World) (t p : Address) : Int :=
  w.backstop.poolEmis p + ((w.tok t).allow w.backstopAddr p).1 + (w.backstop.received p - w.backstop.claimed p)

/-- the balance of token `t` covers what is owed for all pools (all but finitely many owe nothing) and `K` -/
def Cover (w : World) (t : Address) (K : Int) : Prop :=
  ∃ S : Finset Address, ∀ F : Finset Address, S ⊆ F → ∑ p ∈ F, owed w t p + K ≤ w.balance t w.backstopAddr

/-- allowances of the backstop are not negative -/
def RawOk (w : World) : Prop := ∀ t p, 0 ≤ ((w.tok t).allow w.backstopAddr p).1

theorem Cover.mono {w w' : World} {t : Address} {K K' : Int} (h : Cover w t K) (ho : ∀ p, owed w' t p ≤ owed w t p)
    (hb : w.balance t w.backstopAddr + (K' - K) ≤ w'.balance t w'.backstopAddr) : Cover w' t K' := by
  obtain ⟨S, h⟩ := h
  refine ⟨S, fun F hF => ?_⟩
  have := h F hF
  have := Finset.sum_le_sum (s := F) fun p _ => ho p
  linarith

/-- one pool owes less, the balance falls by no more -/
theorem Cover.one {w w' : World} {t p : Address} {K d : Int} (h : Cover w t K) (ho : ∀ q, q ≠ p → owed w' t q ≤ owed w t q)
    (hp : owed w' t p ≤ owed w t p - d) (hb : w.balance t w.backstopAddr - d ≤ w'.balance t w'.backstopAddr) :
    Cover w' t K := by
  obtain ⟨S, h⟩ := h
  refine ⟨insert p S, fun F hF => ?_⟩
  have h1 := h F ((Finset.subset_insert _ _).trans hF)
  have hpF : p ∈ F := hF (Finset.mem_insert_self _ _)
  rw [← Finset.add_sum_erase _ _ hpF] at h1 ⊢
  have h2 := Finset.sum_le_sum (s := F.erase p) fun q hq => ho q (Finset.ne_of_mem_erase hq)
  linarith

/-- what a call of a pool keeps -/
structure PKeep (P : BackstopInst → Prop) (w : World) (K : Int) : Prop where
  raw : RawOk w
  cover : ∀ i, w.backstop.inst = some i → i.blnd ≠ i.backstopToken ∧ P i → Cover w i.blnd K

theorem allowance_le {w : World} (h : RawOk w) (t p : Address) :
    w.allowance t w.backstopAddr p ≤ ((w.tok t).allow w.backstopAddr p).1 := by
  unfold World.allowance
  simp only
  split
  · exact h t p
  · exact le_refl _

theorem allowance_nonneg {w : World} (h : RawOk w) (t p : Address) : 0 ≤ w.allowance t w.backstopAddr p := by
  unfold World.allowance
  simp only
  split
  · exact le_refl _
  · exact h t p

theorem gulpPool_keep {P : BackstopInst → Prop} {w w' : World} {p : Address} {n K : Int} (h : gulpPoolEmissions w p = .ok (n, w')) (k : PKeep P w K) :
    PKeep P w' K := by
  unfold gulpPoolEmissions inst at h
  simp only [bind_ok, require_ok, unwrap_ok, pure_ok, Prod.mk.injEq, chk_ok] at h
  obtain ⟨_, _, i, hi, _, ⟨_, rfl⟩, w1, ha, _, rfl⟩ := h
  obtain ⟨h0, rfl⟩ := approve_res ha
  obtain ⟨_, hb, hal, _⟩ := setAllowance_res w i.blnd w.backstopAddr p
    (w.allowance i.blnd w.backstopAddr p + w.backstop.poolEmis p) (w.seq + LEDGER_BUMP_USER)
  refine ⟨fun t q => ?_, fun j hj hne => ?_⟩
  · show 0 ≤ (((w.setAllowance _ _ _ _ _).tok t).allow w.backstopAddr q).1
    rw [hal]
    split
    · exact h0
    · exact k.raw t q
  · have : w.backstop.inst = some j := hj
    rw [hi] at this; cases this
    have key : ∀ q, owed ((w.setAllowance i.blnd w.backstopAddr p
        (w.allowance i.blnd w.backstopAddr p + w.backstop.poolEmis p) (w.seq + LEDGER_BUMP_USER)).setBackstop
        { w.backstop with poolEmis := upd w.backstop.poolEmis p 0 }) i.blnd q ≤ owed w i.blnd q := by
      intro q
      unfold owed
      show upd w.backstop.poolEmis p 0 q + (((w.setAllowance _ _ _ _ _).tok i.blnd).allow w.backstopAddr q).1 +
        (w.backstop.received q - w.backstop.claimed q) ≤ _
      rw [hal]
      by_cases e : q = p
      · subst e
        have := allowance_le k.raw i.blnd q
        simp only [upd_same, true_and, if_true]
        linarith
      · simp [e, upd_ne e]
    refine (k.cover i hi hne).mono key ?_
    show _ + (K - K) ≤ (w.setAllowance _ _ _ _ _).balance i.blnd w.backstopAddr
    rw [hb]; simp

theorem pstep_keep {P : BackstopInst → Prop} {w w' : World} {p : Address} {auth : List Address} {D : Pool.Eff → Prop} {K : Int} (hp : p ≠ w.backstopAddr)
    (hauth : w.backstopAddr ∉ auth) (k : PKeep P w K) (h : Pool.PStep p auth D w w') :
    PKeep P w' K ∧ w'.backstopAddr = w.backstopAddr := by
  cases h with
  | setPool ps => exact ⟨⟨k.raw, k.cover⟩, rfl⟩
  | @transfer _ t src dst amt hs h =>
    have r := transfer_res h
    have hne : w.backstopAddr ≠ src := by
      rintro rfl
      rcases hs with hs | hs
      · exact hp hs.symm
      · exact hauth hs
    have ea : w'.backstopAddr = w.backstopAddr := by rw [r.frame]
    have eb : w'.backstop = w.backstop := by rw [r.frame]
    refine ⟨⟨fun t q => ?_, fun j hj hne' => ?_⟩, ea⟩
    · rw [r.allow, ea]; exact k.raw t q
    · rw [eb] at hj
      refine (k.cover j hj hne').mono (fun q => by unfold owed; rw [eb, ea, r.allow]) ?_
      rw [ea, r.bal]
      unfold moved
      have := r.nonneg
      simp only [hne, and_false, if_false]
      split <;> omega
  | @pull _ t owner dst amt _ hpos h =>
    have r := transferFrom_res h
    have ea : w'.backstopAddr = w.backstopAddr := by rw [r.frame]
    have eb : w'.backstop = w.backstop := by rw [r.frame]
    refine ⟨⟨fun t q => ?_, fun j hj hne' => ?_⟩, ea⟩
    · rw [r.allow, ea]
      split
      · have := r.allowed; show 0 ≤ _ - amt; omega
      · exact k.raw t q
    · rw [eb] at hj
      by_cases e : w.backstopAddr = owner ∧ j.blnd = t
      · obtain ⟨rfl, rfl⟩ := e
        refine (k.cover j hj hne').one (p := p) (d := amt) (fun q hq => ?_) ?_ ?_
        · unfold owed; rw [eb, ea, r.allow, if_neg (by simp [hq])]
        · unfold owed; rw [eb, ea, r.allow, if_pos (by simp)]
          have := allowance_le k.raw j.blnd p
          simp only
          linarith
        · rw [ea, r.bal]
          have := moved_self j.blnd w.backstopAddr dst r.nonneg j.blnd
          rw [if_pos rfl] at this
          omega
      · refine (k.cover j hj hne').mono (fun q => ?_) ?_
        · unfold owed; rw [eb, ea, r.allow, if_neg (by rintro ⟨h1, h2, _⟩; exact e ⟨h2, h1⟩)]
        · rw [ea, r.bal]
          unfold moved
          have := r.nonneg
          split <;> split <;> simp_all
  | @draw _ amt dst hD h =>
    have r := executeDraw_res h
    obtain ⟨i, hi, t⟩ := r.ex
    have ea : w'.backstopAddr = w.backstopAddr := by rw [t.frame]; rfl
    have eff := pstep_eff (.draw hD h : Pool.PStep p auth D w w')
    refine ⟨⟨fun t' q => ?_, fun j hj hne' => ?_⟩, ea⟩
    · rw [t.allow, ea]; exact k.raw t' q
    · rw [eff.inst, hi] at hj; cases hj
      refine (k.cover i hi hne').mono (fun q => ?_) ?_
      · unfold owed; rw [eff.received, eff.claimed, ea, t.allow, t.frame]; exact le_refl _
      · rw [ea, t.bal]
        unfold moved
        simp only [hne'.1, false_and, if_false]
        show _ ≤ w.balance _ _ + _
        omega
  | @donate _ sender amt hD hs h =>
    have r := executeDonate_res h
    obtain ⟨i, w1, hi, t, rfl⟩ := r.ex
    have ea : w1.backstopAddr = w.backstopAddr := by rw [t.frame]
    refine ⟨⟨fun t' q => ?_, fun j hj hne' => ?_⟩, ea⟩
    · show 0 ≤ ((w1.tok t').allow w1.backstopAddr q).1
      rw [t.allow, ea]; exact k.raw t' q
    · have : w.backstop.inst = some j := hj
      rw [hi] at this; cases this
      refine (k.cover i hi hne').mono (fun q => ?_) ?_
      · unfold owed
        show w.backstop.poolEmis q + ((w1.tok i.blnd).allow w1.backstopAddr q).1 + _ ≤ _
        rw [ea, t.allow]; exact le_refl _
      · show _ ≤ w1.balance _ w1.backstopAddr
        rw [ea, t.bal]
        unfold moved
        simp only [hne'.1, false_and, if_false]
        omega
  | gulp hD h =>
    have k' := gulpPool_keep h k
    refine ⟨k', ?_⟩
    unfold gulpPoolEmissions Backstop.inst at h
    simp only [bind_ok, require_ok, unwrap_ok, pure_ok, Prod.mk.injEq, chk_ok] at h
    obtain ⟨_, _, i, _, _, _, w1, ha, _, rfl⟩ := h
    obtain ⟨_, rfl⟩ := approve_res ha
    rfl

theorem psteps_keep {P : BackstopInst → Prop} {w w' : World} {p : Address} {auth : List Address} {D : Pool.Eff → Prop} {K : Int} (hp : p ≠ w.backstopAddr)
    (hauth : w.backstopAddr ∉ auth) (k : PKeep P w K) (h : Pool.PSteps p auth D w w') :
    PKeep P w' K ∧ w'.backstopAddr = w.backstopAddr := by
  induction h with
  | refl => exact ⟨k, rfl⟩
  | tail _ hs ih =>
    obtain ⟨h1, h2⟩ := ih
    obtain ⟨h3, h4⟩ := pstep_keep (h2 ▸ hp) (h2 ▸ hauth) h1 hs
    exact ⟨h3, h4.trans h2⟩

/-! ### every operation -/

/-- the BLND token of the emitter -/
def EmitsBlnd (w : World) (i : BackstopInst) : Prop := ∃ ei, w.emitter.inst = some ei ∧ ei.blnd = i.blnd

/-- BLND minted to the backstop that it has not allotted yet -/
def pending (w : World) : Int :=
  (((w.emitter.lastDistro w.backstopAddr).getD w.backstop.lastDistro : Nat) - (w.backstop.lastDistro : Int)) * ONE7

structure BlndInv (w : World) : Prop where
  fresh : w.emitter.inst = none → ∀ a, w.emitter.lastDistro a = none
  past : ∀ a l, w.emitter.lastDistro a = some l → l ≤ w.time
  unset : w.backstop.inst = none → ∀ p, w.backstop.poolEmis p = 0 ∧ w.backstop.emisCfg p = none
  known : w.backstop.inst ≠ none → ∃ ei l, w.emitter.inst = some ei ∧ w.emitter.lastDistro w.backstopAddr = some l ∧
    w.backstop.lastDistro ≤ l
  keep : PKeep (EmitsBlnd w) w (pending w)

/-- nothing that matters changes except that tokens may arrive -/
theorem BlndInv.same {w w' : World} (k : BlndInv w) (he : w'.emitter = w.emitter) (ht : w.time ≤ w'.time)
    (ha : w'.backstopAddr = w.backstopAddr) (hi : w'.backstop.inst = w.backstop.inst)
    (hld : w'.backstop.lastDistro = w.backstop.lastDistro) (hpe : w'.backstop.poolEmis = w.backstop.poolEmis)
    (hec : w'.backstop.emisCfg = w.backstop.emisCfg)
    (hr : w'.backstop.received = w.backstop.received) (hc : w'.backstop.claimed = w.backstop.claimed)
    (hal : ∀ t s, (w'.tok t).allow w.backstopAddr s = (w.tok t).allow w.backstopAddr s)
    (hb : ∀ i, w.backstop.inst = some i → i.blnd ≠ i.backstopToken → w.balance i.blnd w.backstopAddr ≤ w'.balance i.blnd w.backstopAddr) :
    BlndInv w' := by
  have hp : pending w' = pending w := by unfold pending; rw [he, ha, hld]
  refine ⟨by rw [he]; exact k.fresh, fun a l h => ?_, by rw [hi, hpe, hec]; exact k.unset, ?_, ?_⟩
  · rw [he] at h; exact (k.past a l h).trans ht
  · rw [hi, he, ha, hld]; exact k.known
  · rw [hp]
    refine ⟨fun t p => by rw [ha, hal]; exact k.keep.raw t p, fun i h1 h2 => ?_⟩
    rw [hi] at h1
    have h3 : EmitsBlnd w i := by have := h2.2; unfold EmitsBlnd at this ⊢; rwa [he] at this
    refine (k.keep.cover i h1 ⟨h2.1, h3⟩).mono (fun p => ?_) ?_
    · unfold owed; rw [hpe, hr, hc, ha, hal]
    · rw [ha]; have := hb i h1 h2.1; omega

theorem claimLoop_total {now : Nat} {s : Address} : ∀ {ps : List Address} {c c' : Int} {cl cl' : SMap Int} {b b' : BackstopState},
    claimLoop now s ps (c, cl, b) = .ok (c', cl', b') →
    ∃ g : Address → Int, (∀ p, b'.claimed p = b.claimed p + g p) ∧ ∀ F : Finset Address, ps.toFinset ⊆ F → ∑ p ∈ F, g p = c' - c := by
  intro ps
  induction ps with
  | nil =>
    intro c c' cl cl' b b' h
    simp only [claimLoop, pure_ok, Prod.mk.injEq] at h
    obtain ⟨rfl, rfl, rfl⟩ := h
    exact ⟨fun _ => 0, fun _ => by simp, fun F _ => by simp⟩
  | cons q ps ih =>
    intro c c' cl cl' b b' h
    simp only [claimLoop, bind_ok, Prod.exists, chk_ok] at h
    obtain ⟨x, b1, hu, _, ⟨_, rfl⟩, h⟩ := h
    have e : b1.claimed = b.claimed := by have := emis_same hu; unfold SameBals at this; rw [this]
    obtain ⟨g, h1, h2⟩ := ih h
    refine ⟨fun p => g p + if p = q then x else 0, fun p => ?_, fun F hF => ?_⟩
    · rw [h1]
      simp only [upd_apply, e]
      split
      · rename_i e; subst e; ring
      · ring
    · rw [List.toFinset_cons] at hF
      rw [Finset.sum_add_distrib, h2 F ((Finset.subset_insert _ _).trans hF),
        Finset.sum_ite_eq' F q, if_pos (hF (Finset.mem_insert_self _ _))]
      ring

/-- a sum over a list without duplicates bounds the sum over any finite set, if the rest is zero -/
theorem sum_rz {g : Address → Int} {l : List Address} (hn : l.Nodup) (h0 : ∀ p, p ∉ l → g p = 0) {F : Finset Address}
    (hF : l.toFinset ⊆ F) : ∑ p ∈ F, g p = (l.map g).sum := by
  rw [← Finset.sum_subset hF fun p _ hp => h0 p (by simpa using hp), List.sum_toFinset _ hn]

end Backstop

namespace Spec

/-- The operation is a swap of the emitter that makes this backstop, which is already initialized, the
emitter's backstop again. -/
def ReturnSwap (w : World) (op : Op) : Prop :=
  ∃ auth s, op = .emitter auth .swapBackstop ∧ w.emitter.swap = some s ∧ s.newBackstop = w.backstopAddr ∧ w.backstop.inst ≠ none

end Spec

namespace Backstop

theorem call_blnd {w w' : World} {auth : List Address} {c : BackstopCall} (hr : Reachable w) (k : BlndInv w)
    (hauth : ∀ a ∈ auth, ¬ w.isProtocol a) (h : backstopCall w auth c = .ok w') (hd : c ≠ .drop) : BlndInv w' := by
  have hs : step w (.backstop auth c) = .ok w' := by
    simp only [step, bind_ok, require_ok]; exact ⟨(), hauth, h⟩
  have he : w'.emitter = w.emitter := (step_frame hr.base hs).emitter (by simp) (by
    intro a e; cases e; exact hd rfl)
  have htm : w'.time = w.time := ((step_frame hr.base hs).time (by simp)).1
  have hprot : w.isProtocol w.backstopAddr := .inr (.inl rfl)
  have cs := call_cases hr.ball.inv h
  cases cs with
  | @deposit s p a m r =>
    obtain ⟨x, b1, i, w2, hu, hi, t, rfl⟩ := r.ex
    have e := emis_same hu
    unfold SameBals at e
    have hne := r.ne.2
    refine k.same he htm.ge (by show w2.backstopAddr = _; rw [t.frame]; rfl) ?_ ?_ ?_ ?_ ?_ ?_ ?_ ?_
    iterate 6 (show _ = _; simp only [World.setBackstop, setBal]; rw [e])
    · intro t' s'
      show (w2.tok t').allow _ _ = _
      rw [t.allow]; rfl
    · intro j hj hn
      rw [hi] at hj; cases hj
      show _ ≤ w2.balance _ _
      rw [t.bal, moved_to hne]
      simp [hn]
      rfl
  | @queue s p a r =>
    obtain ⟨x, b1, hu, rfl⟩ := r.ex
    have e := emis_same hu
    unfold SameBals at e
    refine k.same he htm.ge rfl ?_ ?_ ?_ ?_ ?_ ?_ (fun _ _ => rfl) (fun _ _ _ => le_refl _)
    iterate 6 (show _ = _; simp only [World.setBackstop, setBal]; rw [e])
  | @dequeue s p a r =>
    obtain ⟨x, b1, q', hu, _, rfl⟩ := r.ex
    have e := emis_same hu
    unfold SameBals at e
    refine k.same he htm.ge rfl ?_ ?_ ?_ ?_ ?_ ?_ (fun _ _ => rfl) (fun _ _ _ => le_refl _)
    iterate 6 (show _ = _; simp only [World.setBackstop, setBal]; rw [e])
  | @withdraw s p a tk r =>
    obtain ⟨q', i, hi, _, e, t⟩ := r.ex
    refine k.same he htm.ge (by rw [t.frame]; rfl) (by rw [e]; rfl) (by rw [e]; rfl) (by rw [e]; rfl) (by rw [e]; rfl) (by rw [e]; rfl)
      (by rw [e]; rfl) (fun t' s' => by rw [t.allow]; rfl) fun j hj hn => ?_
    rw [hi] at hj; cases hj
    rw [t.bal]
    unfold moved
    simp only [hn, false_and, if_false]
    show _ ≤ w.balance _ _ + _
    omega
  | @claim s ps d r =>
    simp only [backstopCall, claim, executeClaim, cometDeposit, bind_ok, pure_ok, Prod.exists, ite_ok, inst, unwrap_ok, requireAuth_ok,
      Prod.mk.injEq, chk_ok] at h
    obtain ⟨n, _, ⟨_, hm, _, _, c, cl, b1, hl, h⟩, rfl⟩ := h
    obtain ⟨g, hg, hsum⟩ := claimLoop_total hl
    obtain ⟨e1, _⟩ := claimLoop_same hl
    obtain ⟨_, _, k3, k4, _⟩ :=
      claimLoop_ok (now := w.time) (F := True) (U := fun _ => True) trivial (S := BS.of w) hr.ball.inv hl
    have hc0 : 0 ≤ c := by
      have : 0 ≤ claimSum cl ps := by
        unfold claimSum
        refine List.sum_nonneg fun x hx => ?_
        obtain ⟨p, hp, rfl⟩ := List.mem_map.1 hx
        obtain ⟨y, hy, hy0⟩ := k3 p hp
        rw [hy]; exact hy0
      omega
    -- the world after the loop and the transfer
    have fin : ∀ w'' : World, w''.emitter = w.emitter → w''.time = w.time → w''.backstopAddr = w.backstopAddr →
        (∀ t, (w''.tok t).allow = (w.tok t).allow) → w''.backstop = { b1 with poolBal := w''.backstop.poolBal, userBal := w''.backstop.userBal } →
        (∀ i, w.backstop.inst = some i → i.blnd ≠ i.backstopToken →
          w.balance i.blnd w.backstopAddr - c ≤ w''.balance i.blnd w.backstopAddr) → BlndInv w'' := by
      intro w'' f1 f2 f3 f4 f5 f6
      have g1 : w''.backstop.inst = w.backstop.inst := by rw [f5, e1]
      have g2 : w''.backstop.lastDistro = w.backstop.lastDistro := by rw [f5, e1]
      have g3 : w''.backstop.poolEmis = w.backstop.poolEmis := by rw [f5, e1]
      have g4 : w''.backstop.emisCfg = w.backstop.emisCfg := by rw [f5, e1]
      have g5 : w''.backstop.received = w.backstop.received := by rw [f5, e1]
      have g6 : w''.backstop.claimed = b1.claimed := by rw [f5]
      have hp : pending w'' = pending w := by unfold pending; rw [f1, f3, g2]
      refine ⟨by rw [f1]; exact k.fresh, by rw [f1, f2]; exact k.past, by rw [g1, g3, g4]; exact k.unset,
        by rw [g1, f1, f3, g2]; exact k.known, ?_⟩
      rw [hp]
      refine ⟨fun t p => by rw [f3, f4]; exact k.keep.raw t p, fun i h1 h2 => ?_⟩
      rw [g1] at h1
      have h3 : EmitsBlnd w i := by have := h2.2; unfold EmitsBlnd at this ⊢; rwa [f1] at this
      obtain ⟨S, hS⟩ := k.keep.cover i h1 ⟨h2.1, h3⟩
      refine ⟨S ∪ ps.toFinset, fun F hF => ?_⟩
      have a1 := hS F (Finset.subset_union_left.trans hF)
      have a2 := hsum F (Finset.subset_union_right.trans hF)
      have a3 := f6 i h1 h2.1
      have a4 : ∑ p ∈ F, owed w'' i.blnd p = ∑ p ∈ F, owed w i.blnd p - ∑ p ∈ F, g p := by
        rw [← Finset.sum_sub_distrib]
        refine Finset.sum_congr rfl fun p _ => ?_
        unfold owed
        rw [g3, g5, g6, f3, f4, hg p]
        ring
      rw [f3, a4, a2]
      omega
    rcases h with ⟨hcl, i, hi, lp, w2, ⟨w3, ht, w4, hmt, s', ⟨_, rfl⟩, rfl, rfl⟩, b2, hd', _, rfl⟩ | ⟨hcl, _, rfl⟩
    · have r3 := transfer_res ht
      have r4 := mint_res hmt
      obtain ⟨f, _⟩ := creditLoop_frame hd'
      have hw4 : w4.backstop = b1 := by rw [r4.frame]; show w3.backstop = b1; rw [r3.frame]; rfl
      refine fin _ he htm ?_ (fun t => ?_) ?_ fun j hj hn => ?_
      · show w4.backstopAddr = _; rw [r4.frame]; show w3.backstopAddr = _; rw [r3.frame]; rfl
      · show (w4.tok t).allow = _; rw [r4.allow, r3.allow]; rfl
      · show b2 = { b1 with poolBal := b2.poolBal, userBal := b2.userBal }
        rw [← hw4]; exact f
      · have hj' : b1.inst = some j := by rw [e1]; exact hj
        have : b1.inst = some i := hi
        rw [hj'] at this; cases this
        show _ ≤ w4.balance _ _
        rw [r4.bal, r3.bal]
        have h1 := moved_self i.blnd w.backstopAddr i.backstopToken r3.nonneg i.blnd
        rw [if_pos rfl] at h1
        simp only [hn, false_and, if_false]
        show w.balance _ _ - c ≤ w.balance _ _ + _ + 0
        omega
    · exact fin _ he htm rfl (fun _ => rfl) rfl fun i _ _ => by
        show _ ≤ w.balance _ _
        omega
  | @draw p a d hp r =>
    obtain ⟨i, hi, t⟩ := r.ex
    have e := congrArg World.backstop t.frame
    simp only at e
    refine k.same he htm.ge (by rw [t.frame]; rfl) (by rw [e]; rfl) (by rw [e]; rfl) (by rw [e]; rfl) (by rw [e]; rfl) (by rw [e]; rfl)
      (by rw [e]; rfl) (fun t' s' => by rw [t.allow]; rfl) fun j hj hn => ?_
    rw [hi] at hj; cases hj
    rw [t.bal]
    unfold moved
    simp only [hn, false_and, if_false]
    show _ ≤ w.balance _ _ + _
    omega
  | @donate s p a hs hp r =>
    obtain ⟨i, w1, hi, t, rfl⟩ := r.ex
    refine k.same he htm.ge (by show w1.backstopAddr = _; rw [t.frame]) rfl rfl rfl rfl rfl rfl (fun t' s' => by
      show (w1.tok t').allow _ _ = _; rw [t.allow]) fun j hj hn => ?_
    rw [hi] at hj; cases hj
    show _ ≤ w1.balance _ _
    rw [t.bal]
    unfold moved
    simp only [hn, false_and, if_false]
    omega
  | @reward a r' r =>
    rcases r.ex with ⟨_, rfl⟩ | ⟨_, _, _, _, rfl⟩ <;>
      exact k.same he htm.ge rfl rfl rfl rfl rfl rfl rfl (fun _ _ => rfl) (fun _ _ _ => le_refl _)
  | gulp hne hb hq =>
    obtain ⟨secs, x, h1, h2, h3, _, _, h4, h5, h6, h7⟩ := Props.C37_gulp hr hs
    have hw : w' = w.setBackstop w'.backstop := by
      simp only [backstopCall, gulpEmissions, bind_ok, pure_ok, Prod.exists, Prod.mk.injEq] at h
      obtain ⟨_, _, ⟨_, _, _, _, _, _, _, _, _, _, _, _, _, _, _, _, _, _, b1, _, _, rfl⟩, rfl⟩ := h
      rfl
    have hin : w'.backstop.inst = w.backstop.inst := by rw [hb]
    have hsome : w.backstop.inst ≠ none := by
      simp only [backstopCall, gulpEmissions, bind_ok, pure_ok, Prod.exists, Prod.mk.injEq, inst, unwrap_ok] at h
      obtain ⟨_, _, ⟨_, _, i, hi, _⟩, _⟩ := h
      rw [hi]; simp
    have ha : w'.backstopAddr = w.backstopAddr := by rw [hw]; rfl
    have htok : w'.tok = w.tok := by rw [hw]; rfl
    have hp1 : pending w = (secs : Int) * ONE7 := by unfold pending; rw [h2]; simp
    have hp2 : pending w' = 0 := by unfold pending; rw [he, ha, h2, h3]; simp
    refine ⟨by rw [he]; exact k.fresh, by rw [he, htm]; exact k.past, by rw [hin]; exact fun h => absurd h hsome, fun _ => ?_, ?_⟩
    · obtain ⟨ei, l, k1, k2, k3⟩ := k.known hsome
      rw [h2] at k2; cases k2
      exact ⟨ei, _, by rw [he]; exact k1, by rw [he, ha]; exact h2, by rw [h3]⟩
    · rw [hp2]
      refine ⟨fun t p => by rw [ha, htok]; exact k.keep.raw t p, fun i i1 i2 => ?_⟩
      rw [hin] at i1
      have i3 : EmitsBlnd w i := by have := i2.2; unfold EmitsBlnd at this ⊢; rwa [he] at this
      obtain ⟨S, hS⟩ := k.keep.cover i i1 ⟨i2.1, i3⟩
      refine ⟨S ∪ w.backstop.rewardZone.toFinset, fun F hF => ?_⟩
      have a1 := hS F (Finset.subset_union_left.trans hF)
      have hn := (Props.C36_reward_zone hr).1
      have hrz := Finset.subset_union_right.trans hF
      have a2 := sum_rz (g := fun p => w'.backstop.received p - w.backstop.received p) hn
        (fun p hp => by show _ - _ = _; rw [(h5 p hp).1]; ring) hrz
      have a3 := sum_rz (g := fun p => w'.backstop.poolEmis p - w.backstop.poolEmis p) hn
        (fun p hp => by show _ - _ = _; rw [(h5 p hp).2.1]; ring) hrz
      have hcl : w'.backstop.claimed = w.backstop.claimed := by rw [hb]
      have a4 : ∑ p ∈ F, owed w' i.blnd p = ∑ p ∈ F, owed w i.blnd p +
          ∑ p ∈ F, (w'.backstop.received p - w.backstop.received p) + ∑ p ∈ F, (w'.backstop.poolEmis p - w.backstop.poolEmis p) := by
        rw [← Finset.sum_add_distrib, ← Finset.sum_add_distrib]
        refine Finset.sum_congr rfl fun p _ => ?_
        unfold owed
        rw [ha, htok, hcl]
        ring
      have hbal : w'.balance i.blnd w'.backstopAddr = w.balance i.blnd w.backstopAddr := by
        rw [ha]; unfold World.balance; rw [htok]
      rw [a4, a2, a3, hbal]
      rw [hp1] at a1
      unfold ONE7 at a1
      linarith
  | @init t e u b f l hn hb =>
    simp only [backstopCall, Backstop.init, bind_ok, pure_ok, Emitter.getLastDistro, unwrap_ok] at h
    obtain ⟨_, _, _, _, ld, hld, rfl⟩ := h
    have hein : w.emitter.inst ≠ none := fun h => by
      have := k.fresh h w.backstopAddr
      rw [hld] at this; cases this
    obtain ⟨ei, hei⟩ := Option.ne_none_iff_exists'.1 hein
    refine ⟨k.fresh, k.past, (fun h => by cases h), fun _ => ⟨ei, ld, hei, hld, le_refl _⟩, k.keep.raw, fun i h1 h2 => ?_⟩
    have hp : pending (w.setBackstop { w.backstop with inst := some ⟨t, e, b, u, f⟩, dropList := some l, lastDistro := ld }) = 0 := by
      unfold pending
      show (((w.emitter.lastDistro w.backstopAddr).getD ld : Nat) - (ld : Int)) * ONE7 = 0
      rw [hld]; simp
    rw [hp]
    refine ⟨∅, fun F _ => ?_⟩
    have : ∑ p ∈ F, owed (w.setBackstop { w.backstop with inst := some ⟨t, e, b, u, f⟩, dropList := some l, lastDistro := ld }) i.blnd p = 0 := by
      refine Finset.sum_eq_zero fun p _ => ?_
      obtain ⟨u1, u2⟩ := k.unset hn p
      obtain ⟨_, _, u3, u4⟩ := hr.ball.inv.unset p u2
      unfold owed
      show w.backstop.poolEmis p + ((w.tok i.blnd).allow w.backstopAddr p).1 + (w.backstop.received p - w.backstop.claimed p) = 0
      rw [u1, u3, u4]
      rcases hr.ball.allow i.blnd p with h | ⟨j, h, _⟩
      · rw [h]; rfl
      · rw [hn] at h; cases h
    rw [this]
    have := hr.base.balances i.blnd w.backstopAddr
    simpa [World.setBackstop, World.balance] using this
  | @gulpPool p hp hb =>
    simp only [backstopCall, gulpPoolEmissionsAuth, bind_ok, pure_ok, Prod.exists] at h
    obtain ⟨n, w1, ⟨_, _, h⟩, e⟩ := h
    rw [e] at h
    have k' := gulpPool_keep h k.keep
    have ha : w'.backstopAddr = w.backstopAddr := (gulpPool_micros (now := 0) (F := True) (U := fun _ => True) h).2.1
    have hp' : pending w' = pending w := by unfold pending; rw [he, ha, hb]
    have hE : EmitsBlnd w' = EmitsBlnd w := by funext i; unfold EmitsBlnd; rw [he]
    refine ⟨by rw [he]; exact k.fresh, by rw [he, htm]; exact k.past, fun h q => ?_, ?_, by rw [hp', hE]; exact k'⟩
    · rw [hb] at h ⊢
      obtain ⟨u1, u2⟩ := k.unset h q
      exact ⟨by simp only [upd_apply]; split <;> simp [u1], u2⟩
    · rw [hb, he, ha]; exact k.known
  | lpVal hb =>
    simp only [backstopCall, updateTknVal, bind_ok, pure_ok] at h
    obtain ⟨_, _, _, _, _, _, rfl⟩ := h
    exact k.same he htm.ge rfl rfl rfl rfl rfl rfl rfl (fun _ _ => rfl) (fun _ _ _ => le_refl _)
  | drop => exact absurd rfl hd

theorem BlndInv.genesis {w : World} (h : Genesis w) : BlndInv w := by
  refine ⟨fun _ a => by rw [h.emitter], (fun a l hl => by rw [h.emitter] at hl; cases hl), (fun _ p => by rw [h.backstop]; exact ⟨rfl, rfl⟩),
    (fun hn => by rw [h.backstop] at hn; exact absurd rfl hn), fun t p => ?_, (fun i hi => by rw [h.backstop] at hi; cases hi)⟩
  rw [h.allowances t _ p (.inr (.inl rfl))]

/-- the emitter distributes `amt` tokens to `x` and moves on the distribution time of backstops other than this one -/
theorem BlndInv.emit {w w' : World} {ei ei' : EmitterInst} {last : Nat} {x : Address} (k : BlndInv w)
    (hei : w.emitter.inst = some ei) (hei' : w'.emitter.inst = some ei') (hbl : ei'.blnd = ei.blnd)
    (hl : w.emitter.lastDistro ei.backstop = some last) (hle : last ≤ w.time)
    (hld : ∀ a, w'.emitter.lastDistro a = if a = ei.backstop ∨ a = x then some w.time else w.emitter.lastDistro a)
    (hx : x = w.backstopAddr → x = ei.backstop ∨ w.backstop.inst = none)
    (ht : w'.time = w.time) (ha : w'.backstopAddr = w.backstopAddr) (hb : w'.backstop = w.backstop)
    (hal : ∀ t, (w'.tok t).allow = (w.tok t).allow)
    (hbal : ∀ t a, w'.balance t a = w.balance t a + if t = ei.blnd ∧ a = ei.backstop then ((w.time - last : Nat) : Int) * SCALAR_7 else 0) :
    BlndInv w' := by
  refine ⟨(fun h => by rw [hei'] at h; cases h), fun a l h => ?_, by rw [hb]; exact k.unset, fun h => ?_, ?_⟩
  · rw [hld] at h
    rw [ht]
    split at h
    · cases h; exact le_refl _
    · exact k.past a l h
  · rw [hb] at h
    obtain ⟨_, l, k1, k2, k3⟩ := k.known h
    rw [ha, hb]
    by_cases e : w.backstopAddr = ei.backstop ∨ w.backstopAddr = x
    · exact ⟨ei', w.time, hei', by rw [hld, if_pos e], k3.trans (k.past _ _ k2)⟩
    · exact ⟨ei', l, hei', by rw [hld, if_neg e]; exact k2, k3⟩
  · refine ⟨fun t p => by rw [ha, hal]; exact k.keep.raw t p, fun i h1 h2 => ?_⟩
    rw [hb] at h1
    have hs : w.backstop.inst ≠ none := by rw [h1]; simp
    have h3 : ei.blnd = i.blnd := by
      obtain ⟨j, j1, j2⟩ := h2.2
      rw [hei'] at j1; cases j1
      exact hbl.symm.trans j2
    refine (k.keep.cover i h1 ⟨h2.1, ei, hei, h3⟩).mono (fun p => ?_) ?_
    · unfold owed; rw [hb, ha, hal]
    · obtain ⟨_, l, k1, k2, k3⟩ := k.known hs
      rw [ha, hbal]
      unfold pending
      rw [hb, ha, hld, k2]
      by_cases e : w.backstopAddr = ei.backstop
      · rw [← e, k2] at hl; cases hl
        rw [if_pos (.inl e), if_pos ⟨h3.symm, e⟩, Nat.cast_sub hle]
        simp only [Option.getD_some]
        unfold SCALAR_7 ONE7
        linarith
      · have e' : w.backstopAddr ≠ x := fun h => by
          rcases hx h.symm with h' | h'
          · exact e (h.trans h')
          · exact hs h'
        rw [if_neg (by simp [e, e']), if_neg (by simp [e])]
        simp

theorem BlndInv.step {w w' : World} {op : Op} (hr : Reachable w) (k : BlndInv w) (h : Blend.step w op = .ok w')
    (hsw : ¬ ReturnSwap w op) : BlndInv w' := by
  have hprot : w.isProtocol w.backstopAddr := .inr (.inl rfl)
  have fr := step_frame hr.base h
  have htm := step_time hr.base h
  rcases emitter_step hr.base h with ⟨he, ho, hd⟩ | hc
  · -- the emitter does not change
    cases op with
    | pool p auth c =>
      simp only [Blend.step, bind_ok, require_ok] at h
      obtain ⟨_, hp, _, hau, h⟩ := h
      have eff := psteps_eff (Pool.call_psteps h)
      obtain ⟨k', ha⟩ := psteps_keep (hr.base.pool_ne hp) (fun hm => hau _ hm hprot) k.keep (Pool.call_psteps h)
      have hp' : pending w' = pending w := by unfold pending; rw [he, ha, eff.lastDistro]
      have hE : EmitsBlnd w' = EmitsBlnd w := by funext i; unfold EmitsBlnd; rw [he]
      refine ⟨by rw [he]; exact k.fresh, fun a l h => by rw [he] at h; exact (k.past a l h).trans htm, fun hn q => ?_, ?_,
        by rw [hp', hE]; exact k'⟩
      · rw [eff.inst] at hn
        obtain ⟨u1, u2⟩ := k.unset hn q
        refine ⟨?_, by rw [eff.emisCfg]; exact u2⟩
        by_cases e : q = p
        · subst e
          rcases eff.emis with e | e
          · rw [e]; exact u1
          · exact e
        · rw [eff.poolEmis q e]; exact u1
      · rw [eff.inst, he, ha, eff.lastDistro]; exact k.known
    | backstop auth c =>
      have h' := h
      simp only [Blend.step, bind_ok, require_ok] at h'
      obtain ⟨_, hau, h'⟩ := h'
      exact call_blnd hr k hau h' fun e => hd auth (by rw [e])
    | emitter auth c => exact absurd rfl (ho auth c)
    | factory auth c =>
      simp only [Blend.step, bind_ok, require_ok] at h
      obtain ⟨_, hau, h⟩ := h
      cases c with
      | «initialize» m =>
        simp only [factoryCall, Factory.init, bind_ok, pure_ok] at h
        obtain ⟨_, _, rfl⟩ := h
        exact k.same he htm rfl rfl rfl rfl rfl rfl rfl (fun _ _ => rfl) (fun _ _ _ => le_refl _)
      | deploy a s o r m =>
        simp only [factoryCall, Factory.deploy, bind_ok, pure_ok, Prod.exists, require_ok, requireAuth_ok,
          Prod.mk.injEq] at h
        obtain ⟨x, w1, ⟨_, hm, mt, _, _, hr', _, _, _, hp, _, hi, w2, hc, rfl, rfl⟩, rfl⟩ := h
        simp only [Pool.call, bind_ok, pure_ok] at hc
        obtain ⟨_, _, _, _, rfl⟩ := hc
        exact k.same he htm rfl rfl rfl rfl rfl rfl rfl (fun _ _ => rfl) (fun _ _ _ => le_refl _)
    | ledger dt ds =>
      simp only [Blend.step, pure_ok] at h
      subst h
      exact k.same he htm rfl rfl rfl rfl rfl rfl rfl (fun _ _ => rfl) (fun _ _ _ => le_refl _)
    | oracles o =>
      simp only [Blend.step, pure_ok] at h
      subst h
      exact k.same he htm rfl rfl rfl rfl rfl rfl rfl (fun _ _ => rfl) (fun _ _ _ => le_refl _)
    | comet s o =>
      simp only [Blend.step, pure_ok, bind_ok] at h
      obtain ⟨_, _, rfl⟩ := h
      exact k.same he htm rfl rfl rfl rfl rfl rfl rfl (fun _ _ => rfl) (fun _ _ _ => le_refl _)
    | tokenTransfer t s d a =>
      simp only [Blend.step, bind_ok, require_ok] at h
      obtain ⟨_, hs, h⟩ := h
      have r := transfer_res h
      have e : w'.backstop = w.backstop := by rw [r.frame]
      have hne : w.backstopAddr ≠ s := by rintro rfl; exact hs hprot
      refine k.same he htm (by rw [r.frame]) (by rw [e]) (by rw [e]) (by rw [e]) (by rw [e]) (by rw [e]) (by rw [e])
        (fun _ _ => by rw [r.allow]) (fun i _ _ => ?_)
      rw [r.bal]
      unfold moved
      have := r.nonneg
      simp only [hne, and_false, if_false]
      split <;> omega
    | tokenMint t d a =>
      simp only [Blend.step, bind_ok, require_ok] at h
      obtain ⟨_, hs, h⟩ := h
      have r := mint_res h
      have e : w'.backstop = w.backstop := by rw [r.frame]
      refine k.same he htm (by rw [r.frame]) (by rw [e]) (by rw [e]) (by rw [e]) (by rw [e]) (by rw [e]) (by rw [e])
        (fun _ _ => by rw [r.allow]) (fun i _ _ => ?_)
      rw [r.bal]
      have := r.nonneg
      split <;> omega
    | tokenBurn t s a =>
      simp only [Blend.step, bind_ok, require_ok, pure_ok] at h
      obtain ⟨_, hs, _, ha, rfl⟩ := h
      have hne : w.backstopAddr ≠ s := by rintro rfl; exact hs hprot
      refine k.same he htm rfl rfl rfl rfl rfl rfl rfl (fun _ _ => by rw [allow_setBalance]) (fun i _ _ => ?_)
      rw [balance_setBalance, if_neg (by simp [hne])]
    | tokenApprove t o s a e =>
      simp only [Blend.step, bind_ok, require_ok] at h
      obtain ⟨_, hs, h⟩ := h
      obtain ⟨_, rfl⟩ := approve_res h
      have hne : w.backstopAddr ≠ o := by rintro rfl; exact hs hprot
      obtain ⟨_, hb, hal, _⟩ := setAllowance_res w t o s a e
      refine k.same he htm rfl rfl rfl rfl rfl rfl rfl (fun _ _ => by rw [hal, if_neg (by simp [hne])]) (fun i _ _ => ?_)
      rw [hb]
    | expireAuction p t u =>
      simp only [Blend.step, pure_ok] at h
      subst h
      exact k.same he htm rfl rfl rfl rfl rfl rfl rfl (fun _ _ => rfl) (fun _ _ _ => le_refl _)
    | expireQueued p a =>
      simp only [Blend.step, pure_ok] at h
      subst h
      exact k.same he htm rfl rfl rfl rfl rfl rfl rfl (fun _ _ => rfl) (fun _ _ _ => le_refl _)
    | expireDropList =>
      simp only [Blend.step, pure_ok] at h
      subst h
      exact k.same he htm rfl rfl rfl rfl rfl rfl rfl (fun _ _ => rfl) (fun _ _ _ => le_refl _)
  · cases hc with
    | init auth b s t w' hn e =>
      subst e
      have hni : w.backstop.inst = none := by
        by_contra hne
        obtain ⟨ei, _, h1, _⟩ := k.known hne
        rw [hn] at h1; cases h1
      refine ⟨(fun h => by cases h), fun a l h => ?_, k.unset, fun h => absurd hni h, k.keep.raw, fun i hi => ?_⟩
      · simp only [upd_apply] at h
        split at h
        · cases h; exact le_refl _
        · exact k.past a l h
      · have : w.backstop.inst = some i := hi
        rw [hni] at this; cases this
    | distribute auth ei l w' hei hl hle r =>
      have hf := r.frame
      have e1 := congrArg World.emitter hf
      simp only at e1
      refine k.emit hei (ei' := ei) (by rw [e1]; exact hei) rfl hl hle (x := ei.backstop) (fun a => ?_) (fun _ => .inl rfl)
        (by rw [hf]) (by rw [hf]) (by rw [hf]) (fun t => by rw [r.allow]) (fun t a => by rw [r.bal]; rfl)
      rw [e1]; simp only [upd_apply, or_self]
    | queue auth ei b t w' hei hs hlt e =>
      subst e
      have h1 : ∀ i, EmitsBlnd { w with emitter := { w.emitter with swap := some ⟨b, t, w.time + 31 * 24 * 60 * 60⟩ } } i = EmitsBlnd w i := fun _ => rfl
      exact ⟨k.fresh, k.past, k.unset, k.known, k.keep.raw, k.keep.cover⟩
    | cancel auth ei s w' hei hs hlt e =>
      subst e
      exact ⟨k.fresh, k.past, k.unset, k.known, k.keep.raw, k.keep.cover⟩
    | swap auth ei s l w1 w' hei hs hu hlt hl hle r e =>
      subst e
      have hf := r.frame
      refine k.emit hei (ei' := { ei with backstop := s.newBackstop, backstopToken := s.newBackstopToken }) rfl rfl hl hle
        (x := s.newBackstop) (fun a => ?_) (fun hx => ?_)
        (by show w1.time = _; rw [hf]) (by show w1.backstopAddr = _; rw [hf]) (by show w1.backstop = _; rw [hf])
        (fun t => by show (w1.tok t).allow = _; rw [r.allow]) (fun t a => by show w1.balance t a = _; rw [r.bal]; rfl)
      · simp only [upd_apply]
        by_cases h1 : a = s.newBackstop <;> by_cases h2 : a = ei.backstop <;> simp [h1, h2]
      · right
        by_contra hn
        exact hsw ⟨auth, s, rfl, hs, hx, hn⟩
    | drop op ei l w1 w' hei ho hd hsum hf e =>
      subst e
      obtain ⟨hfr, hbal⟩ := mints_frame hf
      have hal : ∀ (l : List (Address × Int)) (w w1 : World), l.foldlM (fun w x => mint w ei.blnd x.1 x.2) w = .ok w1 →
          (∀ t, (w1.tok t).allow = (w.tok t).allow) ∧ ∀ t x, w.balance t x ≤ w1.balance t x := by
        intro l
        induction l with
        | nil => intro w w1 h; rw [foldlM_nil] at h; subst h; exact ⟨fun _ => rfl, fun _ _ => le_refl _⟩
        | cons y l ih =>
          intro w w1 h
          rw [foldlM_cons] at h
          obtain ⟨w2, h1, h2⟩ := h
          have r := mint_res h1
          obtain ⟨i1, i2⟩ := ih _ _ h2
          refine ⟨fun t => by rw [i1, r.allow], fun t x => le_trans ?_ (i2 t x)⟩
          rw [r.bal]
          have := r.nonneg
          split <;> omega
      obtain ⟨a1, a2⟩ := hal _ _ _ hf
      have eb : w1.backstop = w.backstop := by rw [hfr]
      have ea : w1.backstopAddr = w.backstopAddr := by rw [hfr]
      have et : w1.time = w.time := by rw [hfr]
      have k1 : BlndInv { w1 with emitter := w.emitter } :=
        k.same rfl (by show w.time ≤ w1.time; omega) ea (by show w1.backstop.inst = _; rw [eb]) (by show w1.backstop.lastDistro = _; rw [eb])
          (by show w1.backstop.poolEmis = _; rw [eb]) (by show w1.backstop.emisCfg = _; rw [eb]) (by show w1.backstop.received = _; rw [eb])
          (by show w1.backstop.claimed = _; rw [eb]) (fun t s => by show (w1.tok t).allow _ _ = _; rw [a1])
          (fun i _ _ => a2 _ _)
      exact ⟨k1.fresh, k1.past, k1.unset, k1.known, k1.keep.raw, k1.keep.cover⟩

end Backstop
end Blend
