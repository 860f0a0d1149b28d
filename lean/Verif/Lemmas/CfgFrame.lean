import Verif.Lemmas.Reach
/-
  Which calls of a pool can change its instance storage, its reserve list and configuration, its
  queued reserves and its emission split.
-/

namespace Blend
namespace Pool

/-- the administrative part of the storage is the same -/
structure SameAdmin (ps ps' : PoolState) : Prop where
  inst : ps'.inst = ps.inst
  resConfig : ps'.resConfig = ps.resConfig
  resInit : ps'.resInit = ps.resInit
  resList : ps'.resList = ps.resList
  poolEmis : ps'.poolEmis = ps.poolEmis

theorem SameAdmin.refl (ps : PoolState) : SameAdmin ps ps := ⟨rfl, rfl, rfl, rfl, rfl⟩
theorem SameAdmin.trans {a b c : PoolState} (h : SameAdmin a b) (h' : SameAdmin b c) : SameAdmin a c :=
  ⟨h'.inst.trans h.inst, h'.resConfig.trans h.resConfig, h'.resInit.trans h.resInit,
   h'.resList.trans h.resList, h'.poolEmis.trans h.poolEmis⟩
theorem SameCfg.admin {a b : PoolState} (h : SameCfg a b) : SameAdmin a b :=
  ⟨h.inst, h.resConfig, h.resInit, h.resList, h.poolEmis⟩

theorem SameConfig.admin {a b : PoolState} (h : SameConfig a b) : SameAdmin a b := h.cfg.admin

/-- calls that are not administrative -/
def Call.isUser : Call → Bool
  | .submit .. | .badDebt .. | .gulpEmissions | .claim .. | .newLiquidation .. | .newBadDebt | .newInterest .. => true
  | _ => false

theorem share_same {f : ShareOp} {k : Kind} {add : Bool} (hf : IsShareOp f k add) {ps ps' : PoolState} {now : Nat}
    {u u' : User} {r r' : Reserve} {amt : Int} (h : f ps now u r amt = .ok (ps', u', r')) :
    SameConfig ps ps' ∧ ps'.positions = ps.positions ∧ ps'.auctions = ps.auctions := by
  obtain ⟨_, ⟨x, he⟩, _⟩ := hf h
  obtain ⟨h1, h2, h3, _⟩ := updateEmissions_other he
  exact ⟨h1, h2, h3⟩

theorem apply_same {f : ShareOp} {k : Kind} {add : Bool} (hf : IsShareOp f k add) {now : Nat} {c c' : UCtx} {a : Address}
    {amt : Int} (h : c.apply now f a amt = .ok c') :
    SameConfig c.ps c'.ps ∧ c'.ps.positions = c.ps.positions ∧ c'.ps.auctions = c.ps.auctions ∧ c'.user.addr = c.user.addr := by
  unfold UCtx.apply at h
  simp only [bind_ok, Prod.exists, pure_ok] at h
  obtain ⟨r, cache, _, ps', u', r', hs, rfl⟩ := h
  obtain ⟨h1, h2, h3⟩ := share_same hf hs
  exact ⟨h1, h2, h3, (hf hs).2.2.1⟩

theorem applies_same {f : ShareOp} {k : Kind} {add : Bool} (hf : IsShareOp f k add) {now : Nat} {c c' : UCtx}
    {l : List (Nat × Int)} (h : l.foldlM (fun c kv => c.apply now f kv.1 kv.2) c = .ok c') :
    SameConfig c.ps c'.ps ∧ c'.ps.positions = c.ps.positions ∧ c'.ps.auctions = c.ps.auctions ∧ c'.user.addr = c.user.addr := by
  refine foldlM_inv (fun d : UCtx => SameConfig c.ps d.ps ∧ d.ps.positions = c.ps.positions ∧
    d.ps.auctions = c.ps.auctions ∧ d.user.addr = c.user.addr) (fun b d kv _ hb hs => ?_) ⟨.refl _, rfl, rfl, rfl⟩ h
  obtain ⟨a1, a2, a3, a4⟩ := apply_same hf hs
  obtain ⟨b1, b2, b3, b4⟩ := hb
  exact ⟨b1.trans a1, a2.trans b2, a3.trans b3, a4.trans b4⟩

theorem rmPositions_same {now : Nat} {c c' : UCtx} {m l : SMap Int} (h : rmPositions now c m l = .ok c') :
    SameConfig c.ps c'.ps ∧ c'.ps.positions = c.ps.positions ∧ c'.ps.auctions = c.ps.auctions ∧ c'.user.addr = c.user.addr := by
  unfold rmPositions at h
  simp only [bind_ok] at h
  obtain ⟨c1, h1, h2⟩ := h
  obtain ⟨a1, a2, a3, a4⟩ := applies_same isRemoveColl h1
  obtain ⟨b1, b2, b3, b4⟩ := applies_same isRemoveLiab h2
  exact ⟨a1.trans b1, b2.trans a2, b3.trans a3, b4.trans a4⟩

theorem addPositions_same {now : Nat} {c c' : UCtx} {m l : SMap Int} (h : addPositions now c m l = .ok c') :
    SameConfig c.ps c'.ps ∧ c'.ps.positions = c.ps.positions ∧ c'.ps.auctions = c.ps.auctions ∧ c'.user.addr = c.user.addr := by
  unfold addPositions at h
  simp only [bind_ok] at h
  obtain ⟨c1, h1, h2⟩ := h
  obtain ⟨a1, a2, a3, a4⟩ := applies_same isAddColl h1
  obtain ⟨b1, b2, b3, b4⟩ := applies_same isAddLiab h2
  exact ⟨a1.trans b1, b2.trans a2, b3.trans a3, b4.trans a4⟩

/-- storing the cache changes reserve data only -/
theorem storeAll_data {cache : Cache} {ps ps' : PoolState} (h : cache.storeAll ps = .ok ps') :
    ps' = { ps with resData := ps'.resData } := by
  unfold Cache.storeAll at h
  refine foldlM_inv (fun q : PoolState => q = { ps with resData := q.resData }) (fun b d a _ hb hs => ?_) rfl h
  cases hr : cache.reserves.get a with
  | none => simp [hr] at hs
  | some r =>
    simp only [hr, pure_ok] at hs
    subst hs
    rw [hb]; rfl

theorem badDebtLoop_same {now : Nat} : ∀ (l : List (Nat × Int)) (ps ps' : PoolState) (c c' : Cache) (b b' u u' : User),
    badDebtTransferLoop now l (ps, c, b, u) = .ok (ps', c', b', u') →
    SameConfig ps ps' ∧ ps'.positions = ps.positions ∧ ps'.auctions = ps.auctions ∧ b'.addr = b.addr ∧ u'.addr = u.addr := by
  intro l
  induction l with
  | nil =>
    intro ps ps' c c' b b' u u' h
    simp only [badDebtTransferLoop, pure_ok, Prod.mk.injEq] at h
    obtain ⟨rfl, rfl, rfl, rfl⟩ := h
    exact ⟨.refl _, rfl, rfl, rfl, rfl⟩
  | cons kv l ih =>
    intro ps ps' c c' b b' u u' h
    obtain ⟨i, bal⟩ := kv
    simp only [badDebtTransferLoop, bind_ok, unwrap_ok, Prod.exists] at h
    obtain ⟨a, _, r, c1, _, ps1, b1, r1, h1, ps2, u1, r2, h2, h⟩ := h
    obtain ⟨a1, a2, a3⟩ := share_same isAddLiab h1
    obtain ⟨d1, d2, d3⟩ := share_same isRemoveLiab h2
    obtain ⟨e1, e2, e3, e4, e5⟩ := ih _ _ _ _ _ _ _ _ h
    exact ⟨(a1.trans d1).trans e1, e2.trans (d2.trans a2), e3.trans (d3.trans a3),
      e4.trans (isAddLiab h1).2.2.1, e5.trans (isRemoveLiab h2).2.2.1⟩

theorem submit_flight {w w' : World} {p : Address} {auth : List Address} {sender spender dst : Address}
    {reqs : List Request} {pos : Positions} (hpb : p ≠ w.backstopAddr)
    (h : executeSubmit w p auth sender spender dst reqs = .ok (pos, w')) :
    ∃ s : SubmitState, ∃ d, reqs.foldlM (processRequest p auth)
        ⟨⟨w, ⟨s.fl.cache.config, .empty, []⟩, User.load (w.pools p) sender⟩, ⟨.empty, .empty⟩, false⟩ = .ok s ∧
      SameConfig (w.pools p) (s.fl.w.pools p) ∧ s.fl.user.addr = sender ∧ pos = s.fl.user.pos ∧
      w'.pools p = s.fl.user.store { (s.fl.w.pools p) with resData := d } := by
  obtain ⟨⟨n1, n2, n3⟩, cache, s, cache', w1, ps1, hc, hs, _, hh, ht, hst, hp, hpos⟩ := executeSubmit_ok h
  obtain ⟨ok0, hr0, hs0, _⟩ := load_ok (now := w.time) hc
  have k := step_requests (U := fun _ => True) reqs _ _ ok0 trivial
    (fun q hq ht => trivial) (fun hq i hi => trivial) hpb (Ne.symm n1) hs
  obtain ⟨f1, _, f3, _⟩ := transfers_fold _ _ _ ht
  obtain ⟨g1, _, g3, _⟩ := transfers_fold _ _ _ hp
  have hp1 : w1.pools = s.fl.w.pools := by rw [f1]
  rw [hp1] at hst
  have hcc : cache = ⟨s.fl.cache.config, .empty, []⟩ := by
    obtain ⟨i, hi, he⟩ := k.cacheOk.config
    obtain ⟨i', hi', he'⟩ := ok0.config
    have : i = i' := by
      have := k.same.inst
      rw [hi] at this
      simp only at this hi'
      rw [hi'] at this
      exact Option.some.inj this
    subst this
    have e : cache.config = s.fl.cache.config := he'.symm.trans he
    obtain ⟨a, b, c⟩ := cache
    simp only at hr0 hs0 e ⊢
    rw [hr0, hs0, e]
  refine ⟨s, ps1.resData, by rw [← hcc]; exact hs, k.same, k.addr, hpos, ?_⟩
  have hd := storeAll_data hst
  rw [g1]
  show (w1.setPool p (s.fl.user.store ps1)).pools p = _
  rw [pools_setPool, hd]

theorem call_admin {w w' : World} {p : Address} {auth : List Address} {c : Call} (hpb : p ≠ w.backstopAddr)
    (hu : c.isUser = true) (h : call w p auth c = .ok w') : SameAdmin (w.pools p) (w'.pools p) := by
  cases c with
  | «initialize» a o r m b l => simp [Call.isUser] at hu
  | setAdmin a => simp [Call.isUser] at hu
  | updatePool r m => simp [Call.isUser] at hu
  | queueSetReserve a c => simp [Call.isUser] at hu
  | cancelSetReserve a => simp [Call.isUser] at hu
  | setReserve a => simp [Call.isUser] at hu
  | updateStatus => simp [Call.isUser] at hu
  | setStatus s => simp [Call.isUser] at hu
  | setEmissionsConfig l => simp [Call.isUser] at hu
  | submit sender spender dst reqs =>
    have key : ∀ {pos}, executeSubmit w p auth sender spender dst reqs = .ok (pos, w') →
        SameAdmin (w.pools p) (w'.pools p) := by
      intro pos h
      obtain ⟨s, d, _, hs, _, _, e⟩ := submit_flight hpb h
      rw [e]
      exact hs.admin.trans ⟨rfl, rfl, rfl, rfl, rfl⟩
    simp only [call, bind_ok, pure_ok, requireAuth_ok, ite_ok, Prod.exists] at h
    obtain ⟨_, hs, ⟨_, _, _, pos, w1, h, rfl⟩ | ⟨_, pos, w1, h, rfl⟩⟩ := h
    · exact key h
    · exact key h
  | badDebt u =>
    simp only [call, transferBadDebt, PoolState.getInst, bind_ok, unwrap_ok, require_ok, Prod.exists, pure_ok] at h
    obtain ⟨i, hi, _, hne, _, hc, cache, hcl, ps1, cache', bs', u', hl, ps2, hst, rfl⟩ := h
    obtain ⟨a1, _⟩ := badDebtLoop_same _ _ _ _ _ _ _ _ _ hl
    have hd := storeAll_data hst
    rw [pools_setPool, hd]
    exact a1.admin.trans ⟨rfl, rfl, rfl, rfl, rfl⟩
  | gulpEmissions =>
    simp only [call, gulpEmissions, doGulp, PoolState.getInst, bind_ok, unwrap_ok, require_ok, Prod.exists, pure_ok,
      Prod.mk.injEq] at h
    obtain ⟨n, w2, ⟨i, hi, _, _, n1, w1, hg, ps, ⟨_, hn, hl⟩, rfl, rfl⟩, rfl⟩ := h
    obtain ⟨_, _, _, bi, _, rfl⟩ := gulpPoolAuth_frame hg
    rw [pools_setPool]
    refine foldlM_inv (fun q : PoolState => SameAdmin (w.pools p) q) (fun b d kv _ hb hs => hb.trans ?_) (SameAdmin.refl _) hl
    simp only [bind_ok, unwrap_ok] at hs
    obtain ⟨a, _, m, _, hs⟩ := hs
    obtain ⟨ed, ec, rfl⟩ := updateReserveEmisConfig_other hs
    exact ⟨rfl, rfl, rfl, rfl, rfl⟩
  | claim sender ids dst =>
    simp only [call, executeClaim, PoolState.getInst, bind_ok, Prod.exists, ite_ok, unwrap_ok, pure_ok, Prod.mk.injEq] at h
    obtain ⟨_, _, _, _, ⟨n1, ps1, hl, h⟩, rfl⟩ := h
    obtain ⟨m, sc⟩ := claim_loop (U := fun x => x = sender) (vb := fun a => w.balance a p)
      (pb := fun _ => 0) (pd := fun _ => 0) rfl _ _ _ _ _ hl
    rcases h with ⟨hpos, i, hi, w2, ht, _, rfl⟩ | ⟨_, _, rfl⟩
    · rw [(transferFrom_res ht).frame]
      show SameAdmin (w.pools p) ((w.setPool p ps1).pools p)
      rw [pools_setPool]; exact sc.admin
    · rw [pools_setPool]; exact sc.admin
  | newLiquidation u n =>
    simp only [call, createLiquidation, createUserLiq, bind_ok, require_ok, Prod.exists, pure_ok, ite_ok, Prod.mk.injEq] at h
    obtain ⟨i, hi, _, _, a, ps, h, rfl⟩ := h
    rw [pools_setPool]
    refine SameAdmin.trans ?_ (⟨rfl, rfl, rfl, rfl, rfl⟩ : SameAdmin ps (setAuction ps 0 u (some a)))
    obtain ⟨_, _, _, _, blk, _, cache, hc, pd, cache1, hpd, _, _, pct, wd, sh, _, lot, _, bid, _,
      ⟨_, _, _, rfl, rfl⟩ | ⟨_, c, hrm, nd, _, _, _, _, _, _, _, _, _, _, rfl, rfl⟩⟩ := h
    · exact .refl _
    · exact (rmPositions_same hrm).1.admin
  | newBadDebt =>
    simp only [call, createBadDebt, bind_ok, pure_ok] at h
    obtain ⟨i, hi, a, _, rfl⟩ := h
    rw [pools_setPool]; exact ⟨rfl, rfl, rfl, rfl, rfl⟩
  | newInterest l =>
    simp only [call, createInterest, bind_ok, pure_ok] at h
    obtain ⟨i, hi, a, _, rfl⟩ := h
    rw [pools_setPool]; exact ⟨rfl, rfl, rfl, rfl, rfl⟩

end Pool
end Blend
