import Verif.Lemmas.Blnd
import Verif.Lemmas.Claimed
import Verif.Lemmas.ClaimLoop
import Verif.Lemmas.PoolEmis
import Verif.Props.PoolEmissions
import Verif.Lemmas.LivePool
/-
  The allowance a pool has from the backstop against what its reserve tokens have been allotted and not paid.
-/

namespace Blend
open Spec

namespace Backstop

theorem mints_allow {b t : Address} : ∀ {l : List (Address × Int)} {w w1 : World}, l.foldlM (fun w x => mint w b x.1 x.2) w = .ok w1 →
    (w1.tok t).allow = (w.tok t).allow := by
  intro l
  induction l with
  | nil => intro w w1 h; rw [foldlM_nil] at h; subst h; rfl
  | cons y l ih =>
    intro w w1 h
    rw [foldlM_cons] at h
    obtain ⟨w2, h1, h2⟩ := h
    rw [ih h2, (mint_res h1).allow]

theorem pstep_allow {w w' : World} {p q : Address} {auth : List Address} {D : Pool.Eff → Prop}
    (hD : q = p → ¬ D .gulp ∧ ¬ D .pull) (h : Pool.PStep p auth D w w') (t : Address) :
    (w'.tok t).allow w.backstopAddr q = (w.tok t).allow w.backstopAddr q ∧ w'.backstopAddr = w.backstopAddr := by
  cases h with
  | setPool ps => exact ⟨rfl, rfl⟩
  | transfer hs h => have r := transfer_res h; exact ⟨by rw [r.allow], by rw [r.frame]⟩
  | @pull _ t' owner dst amt hd hpos h =>
    have r := transferFrom_res h
    refine ⟨?_, by rw [r.frame]⟩
    rw [r.allow, if_neg]
    rintro ⟨_, _, e⟩
    exact (hD e).2 hd
  | draw hD h =>
    have r := executeDraw_res h
    obtain ⟨i, hi, t⟩ := r.ex
    exact ⟨by rw [t.allow]; rfl, by rw [t.frame]; rfl⟩
  | donate hD hs h =>
    have r := executeDonate_res h
    obtain ⟨i, w1, hi, t, rfl⟩ := r.ex
    exact ⟨by show (w1.tok _).allow _ _ = _; rw [t.allow], by show w1.backstopAddr = _; rw [t.frame]⟩
  | gulp hd h =>
    unfold gulpPoolEmissions Backstop.inst at h
    simp only [bind_ok, require_ok, unwrap_ok, pure_ok, Prod.mk.injEq, chk_ok] at h
    obtain ⟨_, _, i, _, _, _, w1, ha, _, rfl⟩ := h
    obtain ⟨_, rfl⟩ := approve_res ha
    refine ⟨?_, rfl⟩
    obtain ⟨_, _, hal, _⟩ := setAllowance_res w i.blnd w.backstopAddr p _ (w.seq + LEDGER_BUMP_USER)
    show ((w.setAllowance _ _ _ _ _).tok t).allow _ _ = _
    rw [hal, if_neg]
    rintro ⟨_, _, e⟩
    exact (hD e).1 hd

theorem psteps_allow {w w' : World} {p q : Address} {auth : List Address} {D : Pool.Eff → Prop}
    (hD : q = p → ¬ D .gulp ∧ ¬ D .pull) (h : Pool.PSteps p auth D w w') (t : Address) :
    (w'.tok t).allow w.backstopAddr q = (w.tok t).allow w.backstopAddr q ∧ w'.backstopAddr = w.backstopAddr := by
  induction h with
  | refl => exact ⟨rfl, rfl⟩
  | tail _ hs ih =>
    have := pstep_allow hD hs t
    rw [ih.2] at this
    exact ⟨this.1.trans ih.1, this.2⟩

theorem call_allow {w w' : World} {auth : List Address} {c : BackstopCall} (hr : Reachable w)
    (hauth : ∀ a ∈ auth, ¬ w.isProtocol a) (h : backstopCall w auth c = .ok w') {q : Address} (hq : w.isProtocol q) (t : Address) :
    (w'.tok t).allow w.backstopAddr q = (w.tok t).allow w.backstopAddr q := by
  have cs := call_cases hr.ball.inv h
  cases cs with
  | deposit r =>
    obtain ⟨x, b1, i, w2, hu, hi, t, rfl⟩ := r.ex
    show (w2.tok _).allow _ _ = _
    rw [t.allow]; rfl
  | queue r => obtain ⟨x, b1, hu, rfl⟩ := r.ex; rfl
  | dequeue r => obtain ⟨x, b1, q', hu, _, rfl⟩ := r.ex; rfl
  | withdraw r => obtain ⟨q', i, hi, _, e, t⟩ := r.ex; rw [t.allow]; rfl
  | claim r =>
    simp only [backstopCall, claim, executeClaim, cometDeposit, bind_ok, pure_ok, Prod.exists, ite_ok, inst, unwrap_ok, requireAuth_ok,
      Prod.mk.injEq, chk_ok] at h
    obtain ⟨n, _, ⟨_, hm, _, _, c, cl, b1, hl, h⟩, rfl⟩ := h
    rcases h with ⟨hcl, i, hi, lp, w2, ⟨w3, ht, w4, hmt, s', ⟨_, rfl⟩, rfl, rfl⟩, b2, hd', _, rfl⟩ | ⟨hcl, _, rfl⟩
    · have r3 := transfer_res ht
      have r4 := mint_res hmt
      show (w4.tok t).allow _ _ = _; rw [r4.allow, r3.allow]; rfl
    · rfl
  | draw hp r => obtain ⟨i, hi, t⟩ := r.ex; rw [t.allow]; rfl
  | donate hs hp r => obtain ⟨i, w1, hi, t, rfl⟩ := r.ex; show (w1.tok _).allow _ _ = _; rw [t.allow]
  | reward r => rcases r.ex with ⟨_, rfl⟩ | ⟨_, _, _, _, rfl⟩ <;> rfl
  | gulp hne hb hq =>
    simp only [backstopCall, gulpEmissions, bind_ok, pure_ok, Prod.exists, Prod.mk.injEq] at h
    obtain ⟨_, _, ⟨_, _, _, _, _, _, _, _, _, _, _, _, _, _, _, _, _, _, b1, _, _, rfl⟩, rfl⟩ := h
    rfl
  | init hn hb =>
    simp only [backstopCall, Backstop.init, bind_ok, pure_ok, Emitter.getLastDistro, unwrap_ok] at h
    obtain ⟨_, _, _, _, ld, hld, rfl⟩ := h
    rfl
  | @gulpPool p hp hb =>
    simp only [backstopCall, gulpPoolEmissionsAuth, gulpPoolEmissions, Backstop.inst, bind_ok, pure_ok, Prod.exists, require_ok,
      unwrap_ok, Prod.mk.injEq, chk_ok] at h
    obtain ⟨n, w1, ⟨_, _, _, _, i, _, _, _, w2, ha, _, rfl⟩, rfl⟩ := h
    obtain ⟨_, rfl⟩ := approve_res ha
    obtain ⟨_, _, hal, _⟩ := setAllowance_res w i.blnd w.backstopAddr p _ (w.seq + LEDGER_BUMP_USER)
    show ((w.setAllowance _ _ _ _ _).tok t).allow _ _ = _
    rw [hal, if_neg]
    rintro ⟨_, _, rfl⟩
    exact hauth _ hp hq
  | lpVal hb =>
    simp only [backstopCall, updateTknVal, bind_ok, pure_ok] at h
    obtain ⟨_, _, _, _, _, _, rfl⟩ := h
    rfl
  | drop hb =>
    simp only [backstopCall, Backstop.drop, Emitter.drop, bind_ok, pure_ok] at h
    obtain ⟨l, _, _, _, i, _, _, _, _, _, _, _, _, _, _, _, w1, hf, rfl⟩ := h
    show (w1.tok t).allow _ _ = _
    rw [mints_allow hf]

end Backstop

open Backstop

/-- the allowance of a pool changes only in its own claims and gulps -/
theorem step_allow {w w' : World} {op : Op} (hr : Reachable w) (h : step w op = .ok w') {p : Address} (hp : w.poolAddr p = true)
    (hg : ∀ auth, op ≠ .pool p auth .gulpEmissions) (hc : ∀ auth s l d, op ≠ .pool p auth (.claim s l d)) (t : Address) :
    (w'.tok t).allow w.backstopAddr p = (w.tok t).allow w.backstopAddr p := by
  have hprot : w.isProtocol w.backstopAddr := .inr (.inl rfl)
  have hq : w.isProtocol p := .inr (.inr (.inr hp))
  cases op with
  | pool q auth c =>
    simp only [Blend.step, bind_ok, require_ok] at h
    obtain ⟨_, _, _, hau, h⟩ := h
    refine (psteps_allow (D := Pool.CallEff c) (p := q) (auth := auth) ?_ (Pool.call_psteps h) t).1
    rintro rfl
    cases c with
    | claim => exact absurd rfl (hc _ _ _ _)
    | gulpEmissions => exact absurd rfl (hg _)
    | _ => simp [Pool.CallEff]
  | backstop auth c =>
    simp only [Blend.step, bind_ok, require_ok] at h
    obtain ⟨_, hau, h⟩ := h
    exact call_allow hr hau h hq t
  | emitter auth c =>
    rcases emitter_step hr.base h with ⟨_, ho, _⟩ | hc
    · exact absurd rfl (ho auth c)
    · cases hc with
      | init auth b s t w' hn e => subst e; rfl
      | distribute auth ei l w' hei hl hle r => rw [r.allow]
      | queue auth ei b t w' hei hs hlt e => subst e; rfl
      | cancel auth ei s w' hei hs hlt e => subst e; rfl
      | swap auth ei s l w1 w' hei hs hu hlt hl hle r e => subst e; show (w1.tok t).allow _ _ = _; rw [r.allow]
      | drop op ei l w1 w' hei ho hd hsum hf e => subst e; show (w1.tok t).allow _ _ = _; rw [mints_allow hf]
  | factory auth c =>
    simp only [Blend.step, bind_ok, require_ok] at h
    obtain ⟨_, hau, h⟩ := h
    rcases factoryCall_ok h with ⟨m, rfl, _, rfl⟩ | ⟨x, s, o, r, n, m, rfl, _, _, _, _, _, _, rfl⟩ <;> rfl
  | tokenTransfer t s d a =>
    simp only [Blend.step, bind_ok, require_ok] at h
    obtain ⟨_, hs, h⟩ := h
    rw [(transfer_res h).allow]
  | tokenMint t d a =>
    simp only [Blend.step, bind_ok, require_ok] at h
    obtain ⟨_, hs, h⟩ := h
    rw [(mint_res h).allow]
  | tokenBurn t s a =>
    simp only [Blend.step, bind_ok, require_ok, pure_ok] at h
    obtain ⟨_, hs, _, ha, rfl⟩ := h
    rw [allow_setBalance]
  | tokenApprove t o s a e =>
    simp only [Blend.step, bind_ok, require_ok] at h
    obtain ⟨_, hs, h⟩ := h
    obtain ⟨_, rfl⟩ := approve_res h
    have hne : w.backstopAddr ≠ o := by rintro rfl; exact hs hprot
    obtain ⟨_, hb, hal, _⟩ := setAllowance_res w t o s a e
    rw [hal, if_neg (by simp [hne])]
  | comet s o =>
    simp only [Blend.step, pure_ok, bind_ok] at h
    obtain ⟨_, _, rfl⟩ := h
    rfl
  | _ => simp only [Blend.step, pure_ok] at h; subst h; rfl

/-! ### shares -/

namespace Pool

/-- the configured emission shares add up to at most one -/
def SharesOk (ps : PoolState) : Prop := ps.poolEmis.sum (fun _ x => (x : Int)) ≤ 10000000

theorem setPoolEmisLoop_sum {rl : List Address} : ∀ {l : List EmisMeta} {m m' : SMap Nat} {t t' : Nat},
    setPoolEmisLoop rl l (m, t) = .ok (m', t') → m.sum (fun _ x => (x : Int)) ≤ t → m'.sum (fun _ x => (x : Int)) ≤ t' := by
  intro l
  induction l with
  | nil =>
    intro m m' t t' h h0
    simp only [setPoolEmisLoop, pure_ok, Prod.mk.injEq] at h
    obtain ⟨rfl, rfl⟩ := h; exact h0
  | cons x l ih =>
    intro m m' t t' h h0
    simp only [setPoolEmisLoop, bind_ok, chkU64_ok] at h
    obtain ⟨k, _, key, _, _, _, _, ⟨_, rfl⟩, h⟩ := h
    refine ih h ?_
    rw [SMap.sum_set]
    have : 0 ≤ ((m.get key).map fun x : Nat => (x : Int)).getD 0 := by
      cases m.get key <;> simp
    push_cast
    omega

theorem micro_shares {now : Nat} {U : Address → Prop} {S S' : VS} (h : PMicro now U S S') (k : SharesOk S.ps) : SharesOk S'.ps := by
  have same : S'.ps.poolEmis = S.ps.poolEmis → SharesOk S'.ps := fun e => by unfold SharesOk; rw [e]; exact k
  cases h with
  | share V1 k a u c d δ x m' vb' pb' pd' h1 h2 h3 h4 h5 => exact same (updateEmissions_other h5).1.poolEmis
  | emis V1 k a u c d i claim amt h1 h2 h3 h4 h5 => exact same (updateEmissions_other h5).1.poolEmis
  | gulp V' a id n h1 h2 h3 => obtain ⟨_, _, rfl⟩ := updateReserveEmisConfig_other h3; exact same rfl
  | queueReserve V' a c h =>
    simp only [queueSetReserve, bind_ok, pure_ok] at h
    obtain ⟨_, _, _, _, _, _, rfl⟩ := h
    exact same rfl
  | setReserve V' a h =>
    obtain ⟨q, _, _, h | h⟩ := setReserve_ok h
    · obtain ⟨_, _, _, _, _, _, _, _, _, rfl⟩ := h; exact same rfl
    · obtain ⟨_, _, rfl⟩ := h; exact same rfl
  | poolEmis V' l h =>
    simp only [setPoolEmissions, bind_ok, pure_ok, Prod.exists, require_ok] at h
    obtain ⟨m, t, hl, _, ht, rfl⟩ := h
    have := setPoolEmisLoop_sum hl (by simp [SMap.sum, SMap.empty])
    unfold SharesOk
    show m.sum _ ≤ _
    omega
  | _ => exact same rfl

theorem _root_.Blend.Reachable.shares {w : World} (hr : Reachable w) {p : Address} (hp : w.poolAddr p = true) : SharesOk (w.pools p) :=
  hr.pool_inv (I := fun _ S => SharesOk S.ps) (fun _ _ _ => by simp [SharesOk, SMap.sum, SMap.empty]) (fun _ _ _ h => h)
    (fun _ hm h => micro_shares hm h) hp

/-- a gulp of `n` tokens allots the shares of `n`, rounded down -/
theorem gulpFold_received {now : Nat} {n : Int} : ∀ {l : List (Nat × Nat)} {ps ps' : PoolState},
    l.foldlM (fun ps kv => do
      let asset ← unwrap (ps.resList[kv.1 / 2]?)
      let n ← fixedMulFloor (kv.2 : Int) n SCALAR_7
      updateReserveEmisConfig ps now asset kv.1 n) ps = .ok ps' →
    ∃ g : Nat → Int, (∀ id, ps'.received id = ps.received id + g id) ∧
      ∀ F : Finset Nat, (l.map (·.1)).toFinset ⊆ F → SCALAR_7 * ∑ id ∈ F, g id ≤ (l.map fun kv => (kv.2 : Int)).sum * n := by
  intro l
  induction l with
  | nil => intro ps ps' h; rw [foldlM_nil] at h; subst h; exact ⟨fun _ => 0, fun _ => by simp, fun F _ => by simp⟩
  | cons kv l ih =>
    intro ps ps' h
    rw [foldlM_cons] at h
    obtain ⟨ps1, h1, h2⟩ := h
    simp only [bind_ok, unwrap_ok] at h1
    obtain ⟨a, _, m, hm, h1⟩ := h1
    obtain ⟨ed, ec, rfl⟩ := updateReserveEmisConfig_other h1
    obtain ⟨g, g1, g2⟩ := ih h2
    have hmm : SCALAR_7 * m ≤ (kv.2 : Int) * n := by
      unfold fixedMulFloor at hm
      have := (isFloor_of_mulDiv hm (by norm_num [SCALAR_7])).1
      linarith
    refine ⟨fun id => g id + if id = kv.1 then m else 0, fun id => ?_, fun F hF => ?_⟩
    · rw [g1]
      simp only [upd_apply]
      split
      · rename_i e; subst e; ring
      · ring
    · rw [List.map_cons, List.toFinset_cons] at hF
      rw [Finset.sum_add_distrib, Finset.sum_ite_eq' F kv.1, if_pos (hF (Finset.mem_insert_self _ _)), List.map_cons, List.sum_cons]
      have := g2 F ((Finset.subset_insert _ _).trans hF)
      rw [mul_add, add_mul]
      linarith

theorem micros_claimed {now : Nat} {U : Address → Prop} {S S' : VS} (cfg : CfgOk S.ps) (inv : EInv now S) (h : PMicros now U S S')
    (id : Nat) : S.ps.claimed id ≤ S'.ps.claimed id := by
  have : (∀ id, S.ps.claimed id ≤ S'.ps.claimed id) ∧ CfgOk S'.ps ∧ EInv now S' := by
    induction h with
    | refl => exact ⟨fun _ => le_refl _, cfg, inv⟩
    | tail _ h ih =>
      obtain ⟨h1, h2, h3⟩ := ih
      exact ⟨fun id => (h1 id).trans (micro_claimed h2 h3 h id), (micro_cfg h h2).1, micro_emis h2 h h3⟩
  exact this.1 id

/-! ### the invariant -/

/-- what the reserve tokens of pool `p` were allotted and have not paid is covered by the pool's allowance for token `t` -/
def Covered (w : World) (p t : Address) : Prop :=
  ∃ S : Finset Nat, ∀ F : Finset Nat, S ⊆ F → ∑ id ∈ F, ((w.pools p).received id - (w.pools p).claimed id) ≤
    ((w.tok t).allow w.backstopAddr p).1

def PoolFund (w : World) (p : Address) : Prop :=
  ∀ t, (∀ i, (w.pools p).inst = some i → i.backstop = w.backstopAddr ∧ i.blnd = t) →
    (∀ bi, w.backstop.inst = some bi → bi.blnd = t) → Covered w p t

theorem PoolFund.genesis {w : World} (h : Genesis w) (p : Address) : PoolFund w p := by
  intro t _ _
  refine ⟨∅, fun F _ => ?_⟩
  rw [h.allowances t _ p (.inr (.inl rfl)), h.pools]
  simp

theorem PoolFund.step {w w' : World} {op : Op} {p : Address} (hr : Reachable w) (hp : w.poolAddr p = true) (k : PoolFund w p)
    (h : Blend.step w op = .ok w')
    (hl : ∀ auth bi, op = .pool p auth .gulpEmissions → w.backstop.inst = some bi →
      ((w.tok bi.blnd).allow w.backstopAddr p).1 ≤ w.allowance bi.blnd w.backstopAddr p) : PoolFund w' p := by
  intro t hi hbi
  have r := step_res hr.base h
  have mic := r.micros p hp
  have ext := (micros_index (hr.base.cfg p) (hr.einv hp) (mic.mono (U' := fun _ => True) fun _ _ => trivial)).1.ext
  have hi0 : ∀ i, (w.pools p).inst = some i → i.backstop = w.backstopAddr ∧ i.blnd = t := by
    intro i h0
    obtain ⟨i', e1, e2, e3⟩ := ext.inst i h0
    obtain ⟨a1, a2⟩ := hi i' e1
    rw [r.backstopAddr] at a1
    exact ⟨e2 ▸ a1, e3 ▸ a2⟩
  have hb0 : ∀ bi, w.backstop.inst = some bi → bi.blnd = t := fun bi h0 =>
    hbi bi (Backstop.inst_keep hr (.tail (.refl _) ⟨op, h⟩) h0)
  obtain ⟨S, hS⟩ := k t hi0 hb0
  by_cases hg : ∃ auth, op = .pool p auth .gulpEmissions
  · obtain ⟨auth, rfl⟩ := hg
    simp only [Blend.step, bind_ok, require_ok] at h
    obtain ⟨_, _, _, hau, h⟩ := h
    simp only [call, gulpEmissions, doGulp, PoolState.getInst, bind_ok, unwrap_ok, require_ok, Prod.exists, pure_ok,
      Prod.mk.injEq] at h
    obtain ⟨n, w2, ⟨i, hin, _, _, n1, w1, hg, ps, ⟨_, hn, hf⟩, rfl, rfl⟩, rfl⟩ := h
    obtain ⟨_, hn1, _, bi, hbin, rfl⟩ := gulpPoolAuth_frame hg
    obtain ⟨g, g1, g2⟩ := gulpFold_received hf
    obtain rfl := hb0 bi hbin
    obtain ⟨_, _, hal, _⟩ := setAllowance_res w bi.blnd w.backstopAddr p (w.allowance bi.blnd w.backstopAddr p + n1)
      (w.seq + Backstop.LEDGER_BUMP_USER)
    have hlap := hl auth bi rfl hbin
    have hsh := hr.shares hp
    have hcl : ps.claimed = (w.pools p).claimed := by
      refine foldlM_inv (fun q : PoolState => q.claimed = (w.pools p).claimed) (fun b d kv _ hb hs => ?_) rfl hf
      simp only [bind_ok, unwrap_ok] at hs
      obtain ⟨a, _, m, _, hs⟩ := hs
      obtain ⟨ed, ec, rfl⟩ := updateReserveEmisConfig_other hs
      exact hb
    refine ⟨S ∪ ((w.pools p).poolEmis.toList.map (·.1)).toFinset, fun F hF => ?_⟩
    have a1 := hS F (Finset.subset_union_left.trans hF)
    have a2 := g2 F (Finset.subset_union_right.trans hF)
    have a3 : ∑ id ∈ F, g id ≤ n1 := by
      have hn0 : 0 ≤ n1 := by unfold SCALAR_7 at hn; omega
      have h1 : (((w.pools p).poolEmis.toList.map fun kv => (kv.2 : Int)).sum) * n1 ≤ 10000000 * n1 :=
        mul_le_mul_of_nonneg_right hsh hn0
      have h2 : SCALAR_7 * ∑ id ∈ F, g id ≤ SCALAR_7 * n1 := le_trans a2 (by unfold SCALAR_7; exact h1)
      exact le_of_mul_le_mul_left h2 (by norm_num [SCALAR_7])
    rw [pools_setPool]
    show ∑ id ∈ F, (ps.received id - ps.claimed id) ≤ (((w.setAllowance _ _ _ _ _).tok bi.blnd).allow w.backstopAddr p).1
    rw [hal, if_pos ⟨rfl, rfl, rfl⟩]
    have a4 : ∑ id ∈ F, (ps.received id - ps.claimed id) = ∑ id ∈ F, ((w.pools p).received id - (w.pools p).claimed id) + ∑ id ∈ F, g id := by
      rw [← Finset.sum_add_distrib]
      refine Finset.sum_congr rfl fun id _ => ?_
      rw [g1, hcl]
      show (w.pools p).received id + g id - _ = _
      ring
    rw [a4]
    show _ ≤ w.allowance bi.blnd w.backstopAddr p + n1
    linarith
  · push Not at hg
    have hrec := step_received hr h hg
    by_cases hc : ∃ auth s l d, op = .pool p auth (.claim s l d)
    · obtain ⟨auth, u, ids, dst, rfl⟩ := hc
      have hmono := fun id => micros_claimed (hr.base.cfg p) (hr.einv hp) mic id
      simp only [Blend.step, bind_ok, require_ok] at h
      obtain ⟨_, _, _, hauth, h⟩ := h
      simp only [call, executeClaim, bind_ok, requireAuth_ok, Prod.exists, pure_ok] at h
      obtain ⟨_, _, n1, w1, ⟨n, ps', hloop, h⟩, rfl⟩ := h
      have L := claimLoop_exact _ _ _ _ _ hloop
      have htot := L.total
      have hpools : w1.pools p = ps' := by
        simp only [ite_ok, bind_ok, pure_ok, Prod.mk.injEq] at h
        rcases h with ⟨_, j, hj, w2, ht, rfl, rfl⟩ | ⟨_, rfl, rfl⟩
        · rw [(transferFrom_res ht).frame, pools_setPool]
        · rw [pools_setPool]
      have hmono' : ∀ id, (w.pools p).claimed id ≤ ps'.claimed id := fun id => by
        have := hmono id
        change (w.pools p).claimed id ≤ (w1.pools p).claimed id at this
        rwa [hpools] at this
      have hsum : ∀ F : Finset Nat, ids.toFinset ⊆ F → ∑ id ∈ F, (ps'.claimed id - (w.pools p).claimed id) = n := by
        intro F hF
        rw [← Finset.sum_subset hF fun id _ hid => ?_]
        · omega
        · rw [(L.other id (.inl (by simpa using hid))).2.2]; ring
      have key : ∀ F : Finset Nat, S ∪ ids.toFinset ⊆ F →
          ∑ id ∈ F, ((w1.pools p).received id - (w1.pools p).claimed id) ≤ ((w.tok t).allow w.backstopAddr p).1 - n := by
        intro F hF
        have a1 := hS F (Finset.subset_union_left.trans hF)
        have a2 := hsum F (Finset.subset_union_right.trans hF)
        have : ∑ id ∈ F, ((w1.pools p).received id - (w1.pools p).claimed id) =
            ∑ id ∈ F, ((w.pools p).received id - (w.pools p).claimed id) - ∑ id ∈ F, (ps'.claimed id - (w.pools p).claimed id) := by
          rw [← Finset.sum_sub_distrib]
          refine Finset.sum_congr rfl fun id _ => ?_
          rw [hrec, hpools]; ring
        rw [this, a2]
        omega
      refine ⟨S ∪ ids.toFinset, fun F hF => le_trans (key F hF) ?_⟩
      have hn0 : 0 ≤ n := by
        rw [← hsum _ (le_refl _)]
        exact Finset.sum_nonneg fun id _ => by have := hmono' id; omega
      simp only [ite_ok, bind_ok, pure_ok, Prod.mk.injEq, PoolState.getInst, unwrap_ok] at h
      rcases h with ⟨hpos, j, hj, w2, ht, rfl, rfl⟩ | ⟨_, rfl, rfl⟩
      · have hj' : (w.pools p).inst = some j := by rw [← L.config.inst]; exact hj
        obtain ⟨j1, j2⟩ := hi0 j hj'
        have rt := transferFrom_res ht
        have hsame : (w.setPool p ps').allowance j.blnd j.backstop p = w.allowance j.blnd j.backstop p := rfl
        have hal := rt.allowed
        rw [hsame] at hal
        have hb : w2.backstopAddr = w.backstopAddr := by rw [rt.frame]; rfl
        rw [hb, rt.allow, if_pos ⟨j2.symm, j1.symm, rfl⟩, hsame]
        show _ ≤ w.allowance j.blnd j.backstop p - n
        rw [← j2, ← j1]
        unfold World.allowance at hal ⊢
        simp only at hal ⊢
        split
        · rename_i hlt; rw [if_pos hlt] at hal; omega
        · exact le_refl _
      · show _ ≤ ((w.tok t).allow w.backstopAddr p).1
        omega
    · push Not at hc
      have hcl := step_claimed hr h hc
      have hal := step_allow hr h hp hg hc t
      refine ⟨S, fun F hF => ?_⟩
      rw [hrec, hcl, r.backstopAddr, hal]
      exact hS F hF

end Pool
end Blend
