import Verif.Spec.WriteOff
import Verif.Lemmas.FullSubmit
import Verif.Lemmas.AuctionStep
import Verif.Lemmas.Solvency
/-
  When the total of the debt written off changes, and by how much.
-/

namespace Blend
namespace Pool
open Spec

theorem apply_wo {f : ShareOp} {k : Kind} {add : Bool} (hf : IsShareOp f k add) {now : Nat} {c c' : UCtx} {a : Address}
    {amt : Int} (h : c.apply now f a amt = .ok c') : c'.ps.writtenOff = c.ps.writtenOff := by
  unfold UCtx.apply at h
  simp only [bind_ok, Prod.exists, pure_ok] at h
  obtain ⟨r, cache, _, ps', u', r', hs, rfl⟩ := h
  obtain ⟨_, ⟨x, he⟩, _⟩ := hf hs
  exact (updateEmissions_other he).2.2.2.2.2.1

theorem share_wo {f : ShareOp} {k : Kind} {add : Bool} (hf : IsShareOp f k add) {ps ps' : PoolState} {now : Nat}
    {u u' : User} {r r' : Reserve} {amt : Int} (h : f ps now u r amt = .ok (ps', u', r')) : ps'.writtenOff = ps.writtenOff := by
  obtain ⟨_, ⟨x, he⟩, _⟩ := hf h
  exact (updateEmissions_other he).2.2.2.2.2.1

theorem applies_wo {f : ShareOp} {k : Kind} {add : Bool} (hf : IsShareOp f k add) {now : Nat} {c c' : UCtx}
    {l : List (Nat × Int)} (h : l.foldlM (fun c kv => c.apply now f kv.1 kv.2) c = .ok c') :
    c'.ps.writtenOff = c.ps.writtenOff :=
  foldlM_inv (fun d : UCtx => d.ps.writtenOff = c.ps.writtenOff) (fun _ _ _ _ hb hs => (apply_wo hf hs).trans hb) rfl h

theorem rmPositions_wo {now : Nat} {c c' : UCtx} {m l : SMap Int} (h : rmPositions now c m l = .ok c') :
    c'.ps.writtenOff = c.ps.writtenOff := by
  unfold rmPositions at h
  simp only [bind_ok] at h
  obtain ⟨c1, h1, h2⟩ := h
  exact (applies_wo isRemoveLiab h2).trans (applies_wo isRemoveColl h1)

theorem addPositions_wo {now : Nat} {c c' : UCtx} {m l : SMap Int} (h : addPositions now c m l = .ok c') :
    c'.ps.writtenOff = c.ps.writtenOff := by
  unfold addPositions at h
  simp only [bind_ok] at h
  obtain ⟨c1, h1, h2⟩ := h
  exact (applies_wo isAddLiab h2).trans (applies_wo isAddColl h1)

theorem badDebtLoop_wo {now : Nat} : ∀ (l : List (Nat × Int)) (ps ps' : PoolState) (c c' : Cache) (b b' u u' : User),
    badDebtTransferLoop now l (ps, c, b, u) = .ok (ps', c', b', u') → ps'.writtenOff = ps.writtenOff := by
  intro l
  induction l with
  | nil =>
    intro ps ps' c c' b b' u u' h
    simp only [badDebtTransferLoop, pure_ok, Prod.mk.injEq] at h
    rw [h.1]
  | cons kv l ih =>
    intro ps ps' c c' b b' u u' h
    obtain ⟨i, bal⟩ := kv
    simp only [badDebtTransferLoop, bind_ok, unwrap_ok, Prod.exists] at h
    obtain ⟨a, _, r, c1, _, ps1, b1, r1, h1, ps2, u1, r2, h2, h⟩ := h
    exact (ih _ _ _ _ _ _ _ _ h).trans ((share_wo isRemoveLiab h2).trans (share_wo isAddLiab h1))

theorem claimLoop_wo {now : Nat} {sender : Address} {pos : Positions} : ∀ {l : List Nat} {n n' : Int} {ps ps' : PoolState},
    claimLoop now sender pos l (n, ps) = .ok (n', ps') → ps'.writtenOff = ps.writtenOff := by
  intro l
  induction l with
  | nil =>
    intro n n' ps ps' h
    simp only [claimLoop, pure_ok, Prod.mk.injEq] at h
    rw [h.2]
  | cons id l ih =>
    intro n n' ps ps' h
    simp only [claimLoop] at h
    split at h
    · simp at h
    · simp only [bind_ok, unwrap_ok, Prod.exists, ite_ok, chk_ok] at h
      obtain ⟨c, _, d, _, h⟩ := h
      have key : ∀ {supply scalar bal amt : Int} {ps1 : PoolState} {n1 : Int},
          updateEmissions ps now id supply scalar sender bal true = .ok (amt, ps1) →
          claimLoop now sender pos l (n1, { ps1 with claimed := upd ps1.claimed id (ps1.claimed id + amt) }) = .ok (n', ps') →
          ps'.writtenOff = ps.writtenOff := by
        intro supply scalar bal amt ps1 n1 hu hrest
        exact (ih hrest).trans (updateEmissions_other hu).2.2.2.2.2.1
      rcases h with ⟨_, _, _, _, _, a, ps1, hu, x, _, h⟩ | ⟨_, _, _, _, _, a, ps1, hu, x, _, h⟩
      · exact key hu h
      · exact key hu h

theorem call_wo {w w' : World} {p : Address} {auth : List Address} {c : Call}
    (hc : ∀ s s' d r, c ≠ .submit s s' d r)
    (h : call w p auth c = .ok w') : (w'.pools p).writtenOff = (w.pools p).writtenOff := by
  cases c with
  | submit s s' d r => exact absurd rfl (hc s s' d r)
  | badDebt v =>
    simp only [call, transferBadDebt, PoolState.getInst, bind_ok, unwrap_ok, require_ok, Prod.exists, pure_ok] at h
    obtain ⟨i, hi, _, hne, _, hc, cache, hcl, ps1, cache', bs', u', hl, ps2, hst, rfl⟩ := h
    have a3 := badDebtLoop_wo _ _ _ _ _ _ _ _ _ hl
    have hd := storeAll_data hst
    rw [pools_setPool, hd]
    exact a3
  | «initialize» a o r m b l =>
    simp only [call, executeInit, bind_ok, pure_ok] at h
    obtain ⟨_, _, _, ⟨_, _, _, _, _, _, rfl⟩, rfl⟩ := h
    rw [pools_setPool]
  | setAdmin a =>
    simp only [call, bind_ok, pure_ok] at h
    obtain ⟨_, _, _, _, _, _, rfl⟩ := h
    rw [pools_setPool]
  | updatePool r m =>
    simp only [call, executeUpdatePool, bind_ok, pure_ok] at h
    obtain ⟨_, _, _, ⟨_, _, _, _, rfl⟩, rfl⟩ := h
    rw [pools_setPool]
  | queueSetReserve a c =>
    simp only [call, queueSetReserve, bind_ok, pure_ok] at h
    obtain ⟨_, _, _, ⟨_, _, _, _, _, _, rfl⟩, rfl⟩ := h
    rw [pools_setPool]
  | cancelSetReserve a =>
    simp only [call, cancelSetReserve, bind_ok, pure_ok] at h
    obtain ⟨_, _, rfl⟩ := h
    rw [pools_setPool]
  | setReserve a =>
    simp only [call, bind_ok, pure_ok] at h
    obtain ⟨ps, hs, rfl⟩ := h
    rw [pools_setPool]
    obtain ⟨q, _, _, h | h⟩ := setReserve_ok hs
    · obtain ⟨_, _, _, _, _, _, _, _, _, rfl⟩ := h; rfl
    · obtain ⟨_, _, rfl⟩ := h; rfl
  | updateStatus =>
    simp only [call, updateStatus, bind_ok, pure_ok] at h
    obtain ⟨_, _, _, _, _, _, rfl⟩ := h
    rw [pools_setPool]
  | setStatus s =>
    simp only [call, setStatus, bind_ok, pure_ok] at h
    obtain ⟨_, _, _, _, _, _, _, _, rfl⟩ := h
    rw [pools_setPool]
  | gulpEmissions =>
    simp only [call, gulpEmissions, doGulp, PoolState.getInst, bind_ok, unwrap_ok, require_ok, Prod.exists, pure_ok,
      Prod.mk.injEq] at h
    obtain ⟨n, w2, ⟨i, hi, _, _, n1, w1, hg, ps, ⟨_, hn, hl⟩, rfl, rfl⟩, rfl⟩ := h
    obtain ⟨_, _, _, bi, _, rfl⟩ := gulpPoolAuth_frame hg
    rw [pools_setPool]
    refine foldlM_inv (fun q : PoolState => q.writtenOff = (w.pools p).writtenOff) (fun b d kv _ hb hs => ?_) rfl hl
    simp only [bind_ok, unwrap_ok] at hs
    obtain ⟨a, _, m, _, hs⟩ := hs
    obtain ⟨ed, ec, rfl⟩ := updateReserveEmisConfig_other hs
    exact hb
  | setEmissionsConfig l =>
    simp only [call, setPoolEmissions, bind_ok, pure_ok, Prod.exists] at h
    obtain ⟨_, _, _, ⟨_, _, _, _, _, rfl⟩, rfl⟩ := h
    rw [pools_setPool]
  | claim sender ids dst =>
    simp only [call, executeClaim, PoolState.getInst, bind_ok, Prod.exists, ite_ok, unwrap_ok, pure_ok, Prod.mk.injEq] at h
    obtain ⟨_, _, _, _, ⟨n1, ps1, hl, h⟩, rfl⟩ := h
    have hp := claimLoop_wo hl
    rcases h with ⟨hpos, i, hi, w2, ht, _, rfl⟩ | ⟨_, _, rfl⟩
    · rw [(transferFrom_res ht).frame]
      show ((w.setPool p ps1).pools p).writtenOff = _
      rw [pools_setPool]; exact hp
    · rw [pools_setPool]; exact hp
  | newLiquidation u n =>
    simp only [call, createLiquidation, createUserLiq, bind_ok, require_ok, Prod.exists, pure_ok, ite_ok, Prod.mk.injEq] at h
    obtain ⟨i, hi, _, _, a, ps, h, rfl⟩ := h
    rw [pools_setPool]
    show ps.writtenOff = _
    obtain ⟨_, _, _, _, blk, _, cache, hc, pd, cache1, hpd, _, _, pct, wd, sh, _, lot, _, bid, _,
      ⟨_, _, _, rfl, rfl⟩ | ⟨_, c, hrm, nd, _, _, _, _, _, _, _, _, _, _, rfl, rfl⟩⟩ := h
    · rfl
    · exact rmPositions_wo hrm
  | newBadDebt =>
    simp only [call, createBadDebt, bind_ok, pure_ok] at h
    obtain ⟨i, hi, a, _, rfl⟩ := h
    rw [pools_setPool]; rfl
  | newInterest l =>
    simp only [call, createInterest, bind_ok, pure_ok] at h
    obtain ⟨i, hi, a, _, rfl⟩ := h
    rw [pools_setPool]; rfl

/-- operations that are not calls of pool `p` -/
theorem other_wo {w w' : World} {op : Op} (hb : Base w) (h : step w op = .ok w') (p : Address)
    (hop : ∀ auth c, op ≠ .pool p auth c) : (w'.pools p).writtenOff = (w.pools p).writtenOff := by
  cases op with
  | factory auth c =>
    simp only [step, bind_ok] at h
    obtain ⟨_, _, h⟩ := h
    rcases factoryCall_ok h with ⟨m, rfl, _, rfl⟩ | ⟨x, s, o, r, n, m, rfl, _, _, _, _, _, _, rfl⟩
    · rfl
    · by_cases hp : p = w.deployAddr x s
      · subst hp
        show ((w.setPool _ _).pools _).writtenOff = _
        rw [pools_setPool]
      · show ((w.setPool _ _).pools _).writtenOff = _
        rw [pools_setPool_ne _ _ _ _ hp]
  | expireAuction q t u =>
    cases h
    by_cases hp : p = q
    · subst hp; rw [pools_setPool]; rfl
    · rw [pools_setPool_ne _ _ _ _ hp]
  | expireQueued q a =>
    cases h
    by_cases hp : p = q
    · subst hp; rw [pools_setPool]
    · rw [pools_setPool_ne _ _ _ _ hp]
  | _ =>
    have fr := (step_frame hb h).pools p
    simp only [ne_eq, reduceCtorEq, not_false_eq_true, implies_true, forall_const] at fr
    first
      | rw [fr hop]
      | rw [fr]

/-- requests that do not fill a bad debt auction write nothing off -/
theorem request_wo {p : Address} {auth : List Address} {s s' : SubmitState} {q : Request} (hq : q.type ≠ 7)
    (h : processRequest p auth s q = .ok s') : (s'.fl.w.pools p).writtenOff = (s.fl.w.pools p).writtenOff := by
  obtain ⟨_, _, h⟩ := processRequest_ok h
  have other : ∀ {t : Nat} {fl fl' : Flight} {user : Address} {n : Nat}, t ≠ 1 → fill fl p auth t user n = .ok fl' →
      (fl'.w.pools p).writtenOff = (fl.w.pools p).writtenOff := by
    intro t fl fl' user n ht hf
    obtain ⟨hne, a, f, rem, fl1, ha, hs, hk, rfl⟩ := fill_ok hf
    clear hf
    show ((fl1.w.setPool p _).pools p).writtenOff = _
    rw [pools_setPool]
    show (fl1.w.pools p).writtenOff = _
    rcases hk with ⟨_, hf⟩ | ⟨h1, _⟩ | ⟨_, _, hf⟩
    · simp only [fillUserLiq, bind_ok, pure_ok] at hf
      obtain ⟨c1, h1, c2, h2, rfl⟩ := hf
      rw [pools_setPool]
      exact (addPositions_wo h2).trans (rmPositions_wo h1)
    · exact absurd h1 ht
    · simp only [fillInterest, bind_ok, pure_ok, unwrap_ok, require_ok, Prod.exists] at hf
      obtain ⟨i, _, _, _, tk, _, bid, _, w1, hd, w2, c2, hl, rfl⟩ := hf
      obtain ⟨_, d1, _⟩ := donate_pools hd
      rw [interestLoop_pools hl, d1]
  rcases h with ⟨ht, h⟩ | ⟨ht, h⟩ | ⟨ht, h⟩ | ⟨ht, h⟩ | ⟨ht, h⟩ | ⟨ht, h⟩ | ⟨ht, h⟩ | ⟨ht, h⟩ | ⟨ht, h⟩ | ⟨ht, h⟩
  · simp only [reqSupply, bind_ok, Prod.exists, pure_ok] at h
    obtain ⟨r, c, _, m, _, ps', u, r', hs, acts, _, rfl⟩ := h
    simp only [pools_setPool]; exact share_wo isAddSupp hs
  · simp only [reqWithdraw, bind_ok, Prod.exists, pure_ok] at h
    obtain ⟨r, c, _, m, _, _, ps', u, r', hs, acts, _, rfl⟩ := h
    simp only [pools_setPool]; exact share_wo isRemoveSupp hs
  · simp only [reqSupply, bind_ok, Prod.exists, pure_ok] at h
    obtain ⟨r, c, _, m, _, ps', u, r', hs, acts, _, rfl⟩ := h
    simp only [pools_setPool]; exact share_wo isAddColl hs
  · simp only [reqWithdrawColl, bind_ok, Prod.exists, pure_ok] at h
    obtain ⟨r, c, _, m, _, _, ps', u, r', hs, acts, _, rfl⟩ := h
    simp only [pools_setPool]; exact share_wo isRemoveColl hs
  · simp only [reqBorrow, bind_ok, Prod.exists, pure_ok] at h
    obtain ⟨r, c, _, m, _, ps', u, r', hs, _, _, acts, _, rfl⟩ := h
    simp only [pools_setPool]; exact share_wo isAddLiab hs
  · simp only [reqRepay, bind_ok, Prod.exists, pure_ok, ite_ok] at h
    obtain ⟨r, c, _, m, _, acts, _, ⟨_, _, _, _, _, _, _, ps', u, r', hs, _, _, rfl⟩ | ⟨_, ps', u, r', hs, rfl⟩⟩ := h
    · simp only [pools_setPool]; exact share_wo isRemoveLiab hs
    · simp only [pools_setPool]; exact share_wo isRemoveLiab hs
  · obtain ⟨fl, hf, rfl⟩ := reqFill_ok h
    exact other (by omega) hf
  · exact absurd ht hq
  · obtain ⟨fl, hf, rfl⟩ := reqFill_ok h
    exact other (by omega) hf
  · unfold reqDelete deleteLiquidation at h
    simp only [bind_ok, pure_ok, require_ok] at h
    obtain ⟨ps', ⟨_, _, rfl⟩, rfl⟩ := h
    simp only [pools_setPool]; rfl

/-- filling a bad debt auction: the total written off grows by the value of the debt that nobody takes over -/
theorem fillBadDebt_wo {w : World} {p sender : Address} {s : SubmitState} {fl' : Flight} {a : AuctionData}
    (cfg : CfgOk (w.pools p)) (f : FlightOk w p sender s) (t : Track w p s.fl) (hb : AllPos a.bid) (h : fillBadDebt s.fl p a = .ok fl') :
    (fl'.w.pools p).writtenOff = (s.fl.w.pools p).writtenOff ∨
    ∃ inst, (w.pools p).inst = some inst ∧ (∀ i, (accountOf (fl'.w.pools p) inst.backstop).debt i = 0) ∧
      ∀ b, ((fl'.w.pools p).writtenOff b = (s.fl.w.pools p).writtenOff b ∧ ∀ c, (w.pools p).resConfig b = some c →
            ((s.books w p).acct inst.backstop).debt c.index = amountAt (w.pools p) a.bid c.index) ∨
        ∃ c d, (w.pools p).resConfig b = some c ∧ Current (w.pools p) w.time b d ∧
          0 ≤ ((s.books w p).acct inst.backstop).debt c.index - amountAt (w.pools p) a.bid c.index ∧
          (fl'.w.pools p).writtenOff b = (s.fl.w.pools p).writtenOff b +
            ceil9 (((s.books w p).acct inst.backstop).debt c.index - amountAt (w.pools p) a.bid c.index) d.dRate := by
  have hua := f.addr
  unfold fillBadDebt PoolState.getInst backstopToken at h
  simp only [bind_ok, pure_ok, require_ok, unwrap_ok, ite_ok, PoolState.getInst, Backstop.inst] at h
  obtain ⟨inst, hinst, _, hne, c1, h1, c2, h2, tok, ⟨inst', hinst', _, hba, bi, hbi, rfl⟩, lot, hlot, w2, hd, h⟩ := h
  have hne0 := hne
  rw [f.time] at h1 h2
  obtain ⟨-, k2, -⟩ := ctx_move (vb := fun _ => 0) (U := fun _ => True) (l := User.load (s.fl.w.pools p) inst.backstop) f.cacheOk
    trivial trivial hne0 AllPos.empty hb h1 h2
  rw [hua] at hd hne
  obtain ⟨m1, n1⟩ := rmPositions_moved cfg t.cur h1
  have m2 := addPositions_moved cfg (c := ⟨c1.ps, c1.cache, s.fl.user⟩) m1.cur h2
  have nn := n1 (fun k i => f.other_nonneg (Ne.symm hne) k i)
  have a1 : c1.user.addr = inst.backstop := m1.addr
  have hp2 : w2.pools p = c2.ps := by rw [(draw_pools hd).1]; simp
  have e2 : c2.ps.writtenOff = (s.fl.w.pools p).writtenOff := (addPositions_wo h2).trans (rmPositions_wo h1)
  have hinstw : (w.pools p).inst = some inst := by rw [← f.same.inst]; exact hinst
  have hbk : (s.books w p).acct inst.backstop = accountOf (s.fl.w.pools p) inst.backstop := by
    simp only [SubmitState.books, hua]; rw [if_neg (Ne.symm hne)]
  have hdebt : ∀ i, c1.user.pos.liabilities.bal i = ((s.books w p).acct inst.backstop).debt i - amountAt (w.pools p) a.bid i := by
    intro i
    have := m1.bal .liab i
    simp only [Kind.map, User.load] at this
    rw [hbk, this]; simp only [accountOf, amountAt_listed]; omega
  rcases h with ⟨hemp, rfl⟩ | ⟨hemp, d, hd, ⟨hthr, rm, hrm, c3, h3, rfl⟩ | ⟨hthr, rfl⟩⟩
  · left; simp only [pools_setPool]; show (w2.pools p).writtenOff = _; rw [hp2, e2]
  · right
    rw [f.time, hp2] at h3
    rw [hp2] at hrm
    obtain ⟨m3, n3⟩ := rmPositions_moved cfg (c := ⟨c2.ps, c2.cache, c1.user⟩) m2.cur h3
    have hrl : c2.ps.resList = (w.pools p).resList := by rw [← m2.cur.resList]
    rw [hrl] at hrm
    have hcl := collect_listed cfg.nodup hrm
    have a3 : c3.user.addr = inst.backstop := m3.addr.trans a1
    have hc3 : ∀ b x, rm.get b = some x → (c3.cache.reserves.get b).isSome := by
      intro b x hbx
      have h3' := h3
      unfold rmPositions at h3'
      simp only [bind_ok, SMap.empty, foldlM_nil] at h3'
      obtain ⟨c, hcc, h3'⟩ := h3'
      subst hcc
      exact (fold_cached isRemoveLiab rm.toList ⟨c2.ps, c2.cache, c1.user⟩ _ k2 (by simp) h3').2 (b, x)
        (SMap.mem_toList.2 hbx)
    have e3 : c3.ps.writtenOff = (s.fl.w.pools p).writtenOff := (rmPositions_wo h3).trans e2
    refine ⟨inst, hinstw, fun i => ?_, fun b => ?_⟩
    · simp only [pools_setPool]
      rw [accountOf_congr (ps' := recordWriteOff _ _ _) (ps := c3.user.store c3.ps) rfl, accountOf_store, a3, if_pos rfl]
      have h3 := m3.bal .liab i
      simp only [Kind.map] at h3
      show c3.user.pos.liabilities.bal i = 0
      rw [h3, hcl i]; omega
    · simp only [pools_setPool, recordWriteOff]
      show (c3.ps.writtenOff b + _ = _ ∧ _) ∨ _
      rw [e3]
      cases hbx : rm.get b with
      | none =>
        left
        refine ⟨by simp, fun c hc => ?_⟩
        have := hcl c.index
        unfold listed at this
        rw [cfg.idx b c hc] at this
        simp only [SMap.bal, hbx] at this
        have h4 := hdebt c.index
        simp only [SMap.bal] at h4
        simp at this h4
        omega
      | some x =>
        right
        have hs := hc3 b x hbx
        rw [Option.isSome_iff_exists] at hs
        obtain ⟨r, hr⟩ := hs
        obtain ⟨hm, d', hcurd, _, hdr, _⟩ := m3.cur.cached b r hr
        obtain ⟨c, hc, _⟩ := hm.cfg
        have hcw : (w.pools p).resConfig b = some c := by rw [m3.cur.resConfig]; exact hc
        have hx : x = ((s.books w p).acct inst.backstop).debt c.index - amountAt (w.pools p) a.bid c.index := by
          have := hcl c.index
          unfold listed at this
          rw [cfg.idx b c hcw] at this
          simp only [SMap.bal, hbx] at this
          rw [← hdebt]; exact this
        refine ⟨c, d', hcw, hcurd, ?_, ?_⟩
        · rw [← hdebt]; exact nn .liab _
        · rw [← hx, hr]
          show _ + -(Int.fdiv (-(x * r.data.dRate)) SCALAR_9) = _
          rw [hdr]
          show c3.ps.writtenOff b + _ = _
          rw [e3]; rfl
  · left; simp only [pools_setPool]; show (w2.pools p).writtenOff = _; rw [hp2, e2]

theorem amountAt_nonneg {V : PoolState} {m : SMap Int} (h : ∀ x v, m.get x = some v → 0 < v) (i : Nat) : 0 ≤ amountAt V m i := by
  unfold amountAt
  split
  · rename_i b _
    unfold SMap.bal
    cases hb : m.get b with
    | none => exact le_refl _
    | some v => exact le_of_lt (h _ _ hb)
  · exact le_refl _

theorem ceil9_zero (r : Int) : ceil9 0 r = 0 := by
  have := ceil9_spec 0 r
  omega

/-- filling a bad debt auction -/
theorem step_wo {w : World} (hr : Reachable w) {p sender : Address} {auth : List Address} {s s' : SubmitState} {q : Request}
    (f : FlightOk w p sender s) (t : Track w p s.fl) (hq : q.type = 7) (h : processRequest p auth s q = .ok s') :
    (s'.fl.w.pools p).writtenOff = (s.fl.w.pools p).writtenOff ∨
    ∃ inst, (w.pools p).inst = some inst ∧ sender ≠ inst.backstop ∧ BackstopLow w (s'.books w p).lp ∧
      (∀ i, ((s'.books w p).acct inst.backstop).debt i = 0) ∧
      ∀ b, ((s'.fl.w.pools p).writtenOff b = (s.fl.w.pools p).writtenOff b ∧ ∀ c, (w.pools p).resConfig b = some c →
            lost (s.books w p) (s'.books w p) inst.backstop sender c.index = 0) ∨
        ∃ c d, (w.pools p).resConfig b = some c ∧ Current (w.pools p) w.time b d ∧
          0 ≤ lost (s.books w p) (s'.books w p) inst.backstop sender c.index ∧
          lost (s.books w p) (s'.books w p) inst.backstop sender c.index ≤ ((s.books w p).acct inst.backstop).debt c.index ∧
          (s'.fl.w.pools p).writtenOff b = (s.fl.w.pools p).writtenOff b +
            ceil9 (lost (s.books w p) (s'.books w p) inst.backstop sender c.index) d.dRate := by
  have cfg := hr.base.cfg p
  have hua := f.addr
  obtain ⟨hn, _, h1⟩ := processRequest_ok h
  clear h
  obtain ⟨ty, x, n⟩ := q
  dsimp only at hn h1 hq
  subst hq
  rcases h1 with ⟨ht, h⟩ | ⟨ht, h⟩ | ⟨ht, h⟩ | ⟨ht, h⟩ | ⟨ht, h⟩ | ⟨ht, h⟩ | ⟨ht, h⟩ | ⟨ht, h⟩ | ⟨ht, h⟩ | ⟨ht, h⟩
  iterate 7 exact absurd ht (by omega)
  · obtain ⟨fl', hf, rfl⟩ := reqFill_ok h
    obtain ⟨hne, a, tk, rest, fl1, ha, hs, hk, rfl⟩ := fill_ok hf
    rcases hk with ⟨h0, _⟩ | ⟨_, hk⟩ | ⟨_, h0, _⟩
    · simp at h0
    · obtain ⟨pb, pl, _⟩ := scaleAuction_pos hs
      obtain ⟨k1, k2, inst, bi, gone, g1, g2, g3, g4, g5, g6, g7, g12, g8, g10, g11, g9⟩ :=
        full_badDebt (c := true) hr.lpOk.val pl cfg f t hk
      rw [if_neg (by decide)]
      have hB := books_setAuction (w := w) (p := p) (fl := fl1) (acts := s.actions) (c := true) (t := 1) (u := x) (r := rest)
      rw [g9] at hB
      generalize SubmitState.books w p ⟨{ fl1 with w := fl1.w.setPool p (setAuction (fl1.w.pools p) 1 x rest) }, s.actions, true⟩ = B' at hB ⊢
      have wo := fillBadDebt_wo cfg f t pb hk
      simp only [pools_setPool]
      show (fl1.w.pools p).writtenOff = _ ∨ _
      rcases wo with wo | ⟨inst', hi', hz, wo⟩
      · exact .inl wo
      rw [g1] at hi'
      cases hi'
      have hbid := fun i => amountAt_nonneg (V := w.pools p) pb i
      -- the debts of the backstop after the fill
      have hz' : ∀ i, ((s.books w p).acct inst.backstop).debt i - amountAt (w.pools p) tk.bid i - gone i = 0 := by
        intro i
        have e := congrArg (fun B : Books => (B.acct inst.backstop).debt i) g9
        simp only [upd, Ne.symm g2, if_false, if_true] at e
        rw [← e]
        have ua : fl1.user.addr = sender := by
          obtain ⟨_, _, _, _, _, _, _, h4⟩ := fill_auctions hf
          exact h4.trans hua
        simp only [SubmitState.books, ua, Ne.symm g2, if_false]
        exact hz i
      have hl : ∀ i, ((s.books w p).acct inst.backstop).debt i - amountAt (w.pools p) tk.bid i = gone i := fun i => by
        have := hz' i; omega
      have b1 : ∀ i, (B'.acct inst.backstop).debt i = 0 := fun i => by
        rw [hB]; simp only [upd, Ne.symm g2, if_false, if_true]; exact hz' i
      have b2 : ∀ i, (B'.acct sender).debt i = ((s.books w p).acct sender).debt i + amountAt (w.pools p) tk.bid i := fun i => by
        rw [hB]; simp only [upd, if_true, take, one_mul]
      have b3 : B'.lp = (s.books w p).lp - tk.lot.bal bi.backstopToken := by rw [hB]
      have hlost : ∀ i, lost (s.books w p) B' inst.backstop sender i = gone i := fun i => by
        have := hz' i
        have := b1 i
        have := b2 i
        simp only [lost]; omega
      have hwo : ∀ b, ((fl1.w.pools p).writtenOff b = (s.fl.w.pools p).writtenOff b ∧ ∀ c, (w.pools p).resConfig b = some c → gone c.index = 0) ∨
          ∃ c d, (w.pools p).resConfig b = some c ∧ Current (w.pools p) w.time b d ∧ 0 ≤ gone c.index ∧
            (fl1.w.pools p).writtenOff b = (s.fl.w.pools p).writtenOff b + ceil9 (gone c.index) d.dRate := by
        intro b
        rcases wo b with ⟨e1, e2⟩ | ⟨c, d, e1, e2, e3, e4⟩
        · exact .inl ⟨e1, fun c hc => by have := e2 c hc; have := hz' c.index; omega⟩
        · rw [hl] at e3 e4
          exact .inr ⟨c, d, e1, e2, e3, e4⟩
      rcases g8 with ⟨hg, _⟩ | ⟨_, low⟩
      · left
        funext b
        rcases hwo b with ⟨e1, _⟩ | ⟨c, d, _, _, _, e4⟩
        · exact e1
        · rw [e4, hg, ceil9_zero]; omega
      · right
        refine ⟨inst, g1, g2, by rw [b3]; exact low, b1, fun b => ?_⟩
        simp only [hlost]
        rcases hwo b with e | ⟨c, d, e1, e2, e3, e4⟩
        · exact .inl e
        · exact .inr ⟨c, d, e1, e2, e3, by have := hl c.index; have := hbid c.index; omega, e4⟩
    · simp at h0
  iterate 2 exact absurd ht (by omega)

/-- an account without debts that is not the sender's gets none -/
theorem step_debtless {w : World} {p sender : Address} {bs : Address} (hne : sender ≠ bs) {B B' : Books} {q : Request}
    (hz : ∀ i, (B.acct bs).debt i = 0)
    (h : (q.type ≤ 5 ∧ ∃ c d A, (w.pools p).resConfig q.address = some c ∧ Current (w.pools p) w.time q.address d ∧
        Effect d.bRate d.dRate c.index (B.acct sender) q A ∧ B' = { B with acct := upd B.acct sender A }) ∨
      AuctionEffect w p sender B q B') : ∀ i, (B'.acct bs).debt i = 0 := by
  intro i
  rcases h with ⟨_, c, d, A, _, _, _, rfl⟩ | h
  · simp only [upd, Ne.symm hne, if_false]; exact hz i
  · cases h with
    | liquidation hf h1 _ _ =>
      rename_i u n a taken rest
      simp only [upd, Ne.symm hne, if_false]
      split
      · rename_i e
        subst e
        have h2 := (h1 i).2
        have h3 := amountAt_nonneg (V := w.pools p) hf.2.2.2.2.positive.1 i
        have := hz i
        simp only [take]; omega
      · exact hz i
    | badDebt hf g1 g2 g3 g4 g5 g6 g7 g12 g8 g10 g11 =>
      rename_i u n a taken rest inst bi gone
      simp only [upd, Ne.symm hne, if_false]
      split
      · rename_i e
        have h2 := g5 i
        rw [← e] at h2 g8 ⊢
        have h3 := amountAt_nonneg (V := w.pools p) hf.2.2.2.2.positive.1 i
        have := hz i
        have hg : gone i = 0 ∨ gone i = (B.acct bs).debt i - amountAt (w.pools p) taken.bid i := by
          rcases g8 with ⟨h, _⟩ | ⟨h, _⟩
          · exact .inl (h i)
          · exact .inr (h i)
        simp only; omega
      · exact hz i
    | interest => exact hz i
    | delete => exact hz i

/-- what has been written off after the first requests of a submit -/
def WroteOff (w : World) (p sender : Address) (l : List Request) (W W' : Address → Int) (D : Address → Nat → Int) : Prop :=
  ∃ before q after B B' inst, l = before ++ q :: after ∧ q.type = 7 ∧ FullRun w p sender before (booksOf w p) B ∧
    AuctionEffect w p sender B q B' ∧ (w.pools p).inst = some inst ∧ sender ≠ inst.backstop ∧ BackstopLow w B'.lp ∧
    (∀ i, (B'.acct inst.backstop).debt i = 0) ∧ (∀ i, D inst.backstop i = 0) ∧
    ∀ a, (W' a = W a ∧ ∀ c, (w.pools p).resConfig a = some c → lost B B' inst.backstop sender c.index = 0) ∨
      ∃ c d, (w.pools p).resConfig a = some c ∧ Current (w.pools p) w.time a d ∧ 0 ≤ lost B B' inst.backstop sender c.index ∧
        IsCeil (W' a - W a) (lost B B' inst.backstop sender c.index * d.dRate) ONE9

theorem _root_.Blend.Spec.FullRun.snoc {w : World} {p sender : Address} {l : List Request} {B B1 B2 : Books} {q : Request} (h : FullRun w p sender l B B1)
    (hq : (q.type ≤ 5 ∧ ∃ c d A, (w.pools p).resConfig q.address = some c ∧ Current (w.pools p) w.time q.address d ∧
        Effect d.bRate d.dRate c.index (B1.acct sender) q A ∧ B2 = { B1 with acct := upd B1.acct sender A }) ∨
      AuctionEffect w p sender B1 q B2) : FullRun w p sender (l ++ [q]) B B2 := by
  induction h with
  | nil B =>
    rcases hq with ⟨hq, c, d, A, e1, e2, e3, rfl⟩ | h
    · exact .plain hq e1 e2 e3 (.nil _)
    · exact .auction h (.nil _)
  | plain h1 h2 h3 h4 _ ih => exact .plain h1 h2 h3 h4 (ih hq)
  | auction h1 _ ih => exact .auction h1 (ih hq)

theorem run_wo {w : World} (hr : Reachable w) {p : Address} (hp : w.poolAddr p = true) {cache : Cache} {sender : Address}
    (hsp : sender ≠ p) (hc : Cache.load (w.pools p) = .ok cache) {auth : List Address} {W : Address → Int} :
    ∀ (l l1 : List Request) (s s' : SubmitState),
      l1.foldlM (processRequest p auth) (startState w p cache sender) = .ok s → Track w p s.fl →
      FullRun w p sender l1 (booksOf w p) (s.books w p) →
      ((s.fl.w.pools p).writtenOff = W ∨ WroteOff w p sender l1 W (s.fl.w.pools p).writtenOff fun x => ((s.books w p).acct x).debt) →
      l.foldlM (processRequest p auth) s = .ok s' →
      ((s'.fl.w.pools p).writtenOff = W ∨ WroteOff w p sender (l1 ++ l) W (s'.fl.w.pools p).writtenOff fun x => ((s'.books w p).acct x).debt) := by
  intro l
  induction l with
  | nil =>
    intro l1 s s' _ t _ hw h
    rw [foldlM_nil] at h
    subst h
    rw [List.append_nil]
    exact hw
  | cons q l ih =>
    intro l1 s s' h1 t run hw h
    rw [foldlM_cons] at h
    obtain ⟨s1, hs1, h⟩ := h
    have h1' : (l1 ++ [q]).foldlM (processRequest p auth) (startState w p cache sender) = .ok s1 := by
      rw [List.foldlM_append, bind_ok]
      exact ⟨s, h1, by rw [foldlM_cons]; exact ⟨s1, hs1, rfl⟩⟩
    have f := flight_of hr hp hsp hc h1
    obtain ⟨t1, k⟩ := full_step hr (hr.base.pool_ne hp) hsp f (flight_of hr hp hsp hc h1') t hs1
    have := ih (l1 ++ [q]) s1 s' h1' t1 (run.snoc k) ?_ h
    · rwa [List.append_assoc, List.singleton_append] at this
    -- one request
    rcases hw with hw | ⟨before, q0, after, B, B', inst, e1, e2, e3, e4, e5, e6, e7, e8, e9, e10⟩
    · by_cases hq : q.type = 7
      · rcases step_wo hr f t hq hs1 with e | ⟨inst, g1, g2, g3, g4, g5⟩
        · exact .inl (e.trans hw)
        · right
          refine ⟨l1, q, [], _, _, inst, rfl, hq, run, ?_, g1, g2, g3, g4, g4, fun a => ?_⟩
          · rcases k with ⟨hk, _⟩ | k
            · omega
            · exact k
          · rw [hw] at g5
            rcases g5 a with e | ⟨c, d, m1, m2, m3, m4, m5⟩
            · exact .inl e
            · refine .inr ⟨c, d, m1, m2, m3, ?_⟩
              rw [m5]
              have := ceil9_spec (lost (s.books w p) (s1.books w p) inst.backstop sender c.index) d.dRate
              unfold IsCeil ONE9
              constructor
              · have h := this.2
                have e : ∀ x y : Int, x + y - x = y := by intros; omega
                rw [e]; exact h
              · have e : ∀ x y : Int, x + y - x = y := by intros; omega
                rw [e]; exact this.1
      · exact .inl ((request_wo hq hs1).trans hw)
    · right
      have hz := step_debtless e6 e9 k
      have hsame : (s1.fl.w.pools p).writtenOff = (s.fl.w.pools p).writtenOff := by
        by_cases hq : q.type = 7
        · rcases step_wo hr f t hq hs1 with e | ⟨inst', g1, g2, g3, g4, g5⟩
          · exact e
          · rw [e5] at g1
            cases g1
            funext b
            rcases g5 b with ⟨e, _⟩ | ⟨c, d, m1, m2, m3, m4, m5⟩
            · exact e
            · have z : lost (s.books w p) (s1.books w p) inst.backstop sender c.index = 0 := by
                have : ((s.books w p).acct inst.backstop).debt c.index = 0 := e9 c.index
                omega
              rw [m5, z, ceil9_zero]; omega
        · exact request_wo hq hs1
      rw [hsame]
      exact ⟨before, q0, after ++ [q], B, B', inst, by rw [e1]; simp, e2, e3, e4, e5, e6, e7, e8, hz, e10⟩

/-- an operation changes the totals written off only by the specification -/
theorem writtenOff_step {w w' : World} (hr : Reachable w) {op : Op} (h : step w op = .ok w') (p : Address) :
    (w'.pools p).writtenOff = (w.pools p).writtenOff ∨
    ∃ auth sender spender dst reqs, op = .pool p auth (.submit sender spender dst reqs) ∧ WritesOff w p sender reqs w' := by
  by_cases hop : ∃ auth c, op = .pool p auth c
  · obtain ⟨auth, c, rfl⟩ := hop
    by_cases hc : ∃ s s' d r, c = .submit s s' d r
    · obtain ⟨sender, spender, dst, reqs, rfl⟩ := hc
      obtain ⟨hp, cache, s, v⟩ := submit_view hr h
      obtain ⟨t0, e0⟩ := track_start (sender := sender) hr v.load
      have hua := v.flight.addr
      have key := run_wo hr hp v.sender_ne v.load (W := (w.pools p).writtenOff) reqs [] _ _ (by rw [foldlM_nil]) t0
        (by rw [e0]; exact .nil _) (.inl rfl) v.fold
      have e1 : (w'.pools p).writtenOff = (s.fl.w.pools p).writtenOff := by rw [v.pools]; rfl
      rcases key with key | ⟨before, q0, after, B, B', inst, e2, e3, e4, e5, e6, e7, e8, e9, e10, e11⟩
      · exact .inl (e1.trans key)
      · refine .inr ⟨auth, sender, spender, dst, reqs, rfl, before, q0, after, B, B', inst, by simpa using e2, e3, e4, e5, e6, e7, e8, e9, fun i => ?_, ?_⟩
        · have := e10 i
          simp only [SubmitState.books, hua, Ne.symm e7, if_false] at this
          rw [← this, v.pools]
          simp only [accountOf]
          rw [getPositions_overlay_ne _ _ _ _ (by rw [hua]; exact Ne.symm e7)]
        · rw [e1]; exact e11
    · push Not at hc
      simp only [step, bind_ok, require_ok] at h
      obtain ⟨_, _, _, _, h⟩ := h
      exact .inl (call_wo hc h)
  · push Not at hop
    exact .inl (other_wo hr.base h p hop)

end Pool
end Blend
