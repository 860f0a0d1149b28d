import Verif.Lemmas.Follow
import Verif.Lemmas.Exec
import Verif.Lemmas.InstChange
import Verif.Lemmas.Solvency
import Verif.Lemmas.CfgFrame
/-
  Every successful operation has a log, and the observer of a pool can follow it (C75).
-/

namespace Blend
open Spec Pool

theorem gulpLog_total {p : Address} {now : Nat} {n : Int} : ∀ {l : List (Nat × Nat)} {ps ps' : PoolState},
    l.foldlM (fun ps kv => do
      let asset ← unwrap (ps.resList[kv.1 / 2]?)
      let n ← fixedMulFloor (kv.2 : Int) n SCALAR_7
      updateReserveEmisConfig ps now asset kv.1 n) ps = .ok ps' → ∃ ev, gulpLog p now n l ps = .ok ev := by
  intro l
  induction l with
  | nil => intro ps ps' _; exact ⟨[], rfl⟩
  | cons kv t ih =>
    intro ps ps' h
    rw [foldlM_cons] at h
    obtain ⟨ps1, h1, h⟩ := h
    obtain ⟨ev, hev⟩ := ih h
    simp only [bind_ok] at h1
    obtain ⟨a, ha, x, hx, h1⟩ := h1
    have hc : ∃ c, ps1.emisConfig kv.1 = some c := by
      unfold updateReserveEmisConfig at h1
      split at h1
      · simp only [bind_ok, ite_ok, pure_ok] at h1
        obtain ⟨_, _, _, _, _, _, _, _, ⟨_, _, _, _, _, _, rfl, _, _, rfl⟩ | ⟨_, _, rfl, _, _, rfl⟩⟩ := h1
        · exact ⟨_, upd_same ..⟩
        · exact ⟨_, upd_same ..⟩
      · simp only [bind_ok, pure_ok] at h1
        obtain ⟨_, rfl, _, _, rfl⟩ := h1
        exact ⟨_, upd_same ..⟩
    obtain ⟨c, hc⟩ := hc
    refine ⟨.reserveEmission p kv.1 c.eps c.expiration :: ev, ?_⟩
    simp only [gulpLog, bind_ok, pure_ok, unwrap_ok]
    exact ⟨a, unwrap_ok.1 ha, x, hx, ps1, h1, c, hc, ev, hev, rfl⟩

theorem claimDepositLog_total {lp n : Int} {claims : SMap Int} {d : Address} : ∀ {ps : List Address} {b b' : BackstopState},
    Backstop.claimDepositLoop lp n claims d ps b = .ok b' → ∃ ev, Backstop.claimDepositLog lp n claims d ps b = .ok ev := by
  intro ps
  induction ps with
  | nil => intro b b' _; exact ⟨[], rfl⟩
  | cons p t ih =>
    intro b b' h
    simp only [Backstop.claimDepositLoop, bind_ok] at h
    obtain ⟨a, ha, dep, hd, m, hm, pb, hpb, ub, hub, h⟩ := h
    obtain ⟨ev, hev⟩ := ih h
    exact ⟨_, by simp only [Backstop.claimDepositLog, bind_ok, pure_ok]; exact ⟨a, ha, dep, hd, m, hm, pb, hpb, ub, hub, ev, hev, rfl⟩⟩

/-- every successful operation has a log -/
theorem log_total {w w' : World} (hr : Reachable w) {op : Op} (h : step w op = .ok w') : ∃ l, logOf w op = .ok l := by
  obtain ⟨r, hx⟩ := step_exec h
  cases op with
  | pool p auth c =>
    cases c with
    | submit sender spender dst reqs =>
      obtain ⟨hp, cache, s, v⟩ := submit_view hr h
      obtain ⟨i, hi, _⟩ := (load_ok (now := w.time) v.load).1.config
      obtain ⟨ev, h1, _⟩ := submit_log (E := True) hr (b := i.backstop) (fun j hj => by rw [hi] at hj; cases hj; rfl) h
      exact ⟨ev, h1⟩
    | badDebt u =>
      obtain ⟨i, hi⟩ : ∃ i, (w.pools p).inst = some i := by
        simp only [step, bind_ok, require_ok, call, transferBadDebt, PoolState.getInst, unwrap_ok] at h
        obtain ⟨_, _, _, _, i, hi, _⟩ := h
        exact ⟨i, hi⟩
      obtain ⟨ev, h1, _⟩ := transfer_log (E := True) hr (b := i.backstop) (fun j hj => by rw [hi] at hj; cases hj; rfl) h
      exact ⟨ev, h1⟩
    | setReserve a =>
      simp only [exec, bind_ok, require_ok, callRet, Prod.exists] at hx
      obtain ⟨_, _, _, _, i, ps, hx, _⟩ := hx
      exact ⟨_, by simp only [logOf, callLog, bind_ok, Prod.exists, pure_ok]; exact ⟨i, ps, hx, rfl⟩⟩
    | gulpEmissions =>
      simp only [step, bind_ok, require_ok, call, gulpEmissions, Prod.exists, pure_ok, doGulp] at h
      obtain ⟨_, _, _, _, n, w1, ⟨i, _, _, _, n1, w2, h1, ps, ⟨_, _, h2⟩, _⟩, _⟩ := h
      obtain ⟨ev, hev⟩ := gulpLog_total (p := p) h2
      exact ⟨_, by simp only [logOf, callLog, bind_ok, Prod.exists, pure_ok]; exact ⟨n1, w2, h1, ev, hev, rfl⟩⟩
    | updateStatus =>
      simp only [step, bind_ok, require_ok, call, updateStatus] at h
      obtain ⟨_, _, _, _, i, hi, d, hd, s, hs, _⟩ := h
      exact ⟨_, by simp only [logOf, callLog, bind_ok, pure_ok]; exact ⟨i, hi, d, hd, s, hs, rfl⟩⟩
    | claim sender ids dst =>
      simp only [step, bind_ok, require_ok, call, Prod.exists] at h
      obtain ⟨_, _, _, _, _, _, n, w1, h, _⟩ := h
      exact ⟨_, by simp only [logOf, callLog, bind_ok, Prod.exists, pure_ok]; exact ⟨n, w1, h, rfl⟩⟩
    | newLiquidation u n =>
      simp only [step, bind_ok, require_ok, call, createLiquidation, Prod.exists] at h
      obtain ⟨_, _, _, _, i, hi, _, _, a, ps, h, _⟩ := h
      exact ⟨_, by simp only [logOf, callLog, bind_ok, Prod.exists, pure_ok]; exact ⟨a, ps, h, rfl⟩⟩
    | newBadDebt =>
      simp only [step, bind_ok, require_ok, call, createBadDebt] at h
      obtain ⟨_, _, _, _, i, hi, a, h, _⟩ := h
      exact ⟨_, by simp only [logOf, callLog, bind_ok, pure_ok]; exact ⟨i, hi, a, h, rfl⟩⟩
    | newInterest l =>
      simp only [step, bind_ok, require_ok, call, createInterest] at h
      obtain ⟨_, _, _, _, i, hi, a, h, _⟩ := h
      exact ⟨_, by simp only [logOf, callLog, bind_ok, pure_ok]; exact ⟨i, hi, a, h, rfl⟩⟩
    | «initialize» => exact ⟨_, rfl⟩
    | setEmissionsConfig => exact ⟨_, rfl⟩
    | setAdmin a =>
      simp only [step, bind_ok, require_ok, call] at h
      obtain ⟨_, _, _, _, i, hi, _⟩ := h
      exact ⟨_, by simp only [logOf, callLog, bind_ok, pure_ok]; exact ⟨i, hi, rfl⟩⟩
    | _ =>
      simp only [step, bind_ok, require_ok, call, requireAdmin] at h
      obtain ⟨_, _, _, _, _, ⟨i, hi, _⟩, _⟩ := h
      exact ⟨_, by simp only [logOf, callLog, bind_ok, pure_ok]; exact ⟨i, hi, rfl⟩⟩
  | backstop auth c =>
    cases c with
    | deposit s p a =>
      simp only [step, bind_ok, backstopCall, Prod.exists] at h
      obtain ⟨_, _, n, w1, h, _⟩ := h
      exact ⟨_, by simp only [logOf, backstopLog, bind_ok, Prod.exists, pure_ok]; exact ⟨n, w1, h, rfl⟩⟩
    | withdraw s p a =>
      simp only [step, bind_ok, backstopCall, Prod.exists] at h
      obtain ⟨_, _, n, w1, h, _⟩ := h
      exact ⟨_, by simp only [logOf, backstopLog, bind_ok, Prod.exists, pure_ok]; exact ⟨n, w1, h, rfl⟩⟩
    | gulpEmissions =>
      simp only [step, bind_ok, backstopCall, Prod.exists] at h
      obtain ⟨_, _, n, w1, h, _⟩ := h
      exact ⟨_, by simp only [logOf, backstopLog, bind_ok, Prod.exists, pure_ok]; exact ⟨n, w1, h, rfl⟩⟩
    | queueWithdrawal s p a =>
      simp only [exec, bind_ok, backstopRet, Prod.exists] at hx
      obtain ⟨_, _, _, _, q, w1, h, _⟩ := hx
      exact ⟨_, by simp only [logOf, backstopLog, bind_ok, Prod.exists, pure_ok]; exact ⟨q, w1, h, rfl⟩⟩
    | drop =>
      simp only [step, bind_ok, backstopCall, Backstop.drop] at h
      obtain ⟨_, _, i, _, _, _, l, h, _⟩ := h
      exact ⟨_, by simp only [logOf, backstopLog, bind_ok, pure_ok]; exact ⟨l, h, rfl⟩⟩
    | claim s ps d =>
      simp only [step, bind_ok, backstopCall, Prod.exists, Backstop.claim, Backstop.executeClaim, ite_ok, pure_ok] at h
      obtain ⟨_, _, n, w1, ⟨_, _, _, _, n1, cl, b1, h1, h⟩, _⟩ := h
      rcases h with ⟨hpos, i, hi, lp, w2, h2, b2, h3, _⟩ | ⟨hpos, _⟩
      · obtain ⟨ev, hev⟩ := claimDepositLog_total h3
        exact ⟨_, by
          simp only [logOf, backstopLog, Backstop.claimLog, bind_ok, pure_ok, Prod.exists, ite_ok]
          exact ⟨n1, cl, b1, h1, .inl ⟨hpos, i, hi, lp, w2, h2, ev, hev, rfl⟩⟩⟩
      · exact ⟨_, by
          simp only [logOf, backstopLog, Backstop.claimLog, bind_ok, pure_ok, Prod.exists, ite_ok]
          exact ⟨n1, cl, b1, h1, .inr ⟨hpos, rfl⟩⟩⟩
    | _ => exact ⟨_, rfl⟩
  | emitter auth c =>
    cases c with
    | distribute =>
      simp only [step, bind_ok, emitterCall, Prod.exists] at h
      obtain ⟨_, _, n, w1, h, _⟩ := h
      have h' := h
      simp only [Emitter.distribute, bind_ok] at h
      obtain ⟨i, hi, _⟩ := h
      exact ⟨_, by simp only [logOf, emitterLog, bind_ok, Prod.exists, pure_ok]; exact ⟨i, hi, n, w1, h', rfl⟩⟩
    | queueSwap b t =>
      simp only [step, bind_ok, emitterCall] at h
      obtain ⟨_, _, h⟩ := h
      have h' := h
      simp only [Emitter.queueSwap, bind_ok, pure_ok] at h
      obtain ⟨_, _, i, _, _, _, rfl⟩ := h
      exact ⟨_, by simp only [logOf, emitterLog, bind_ok, pure_ok]; exact ⟨_, h', _, rfl, rfl⟩⟩
    | cancelSwap =>
      simp only [step, bind_ok, emitterCall, Emitter.cancelSwap] at h
      obtain ⟨_, _, s, h, _⟩ := h
      exact ⟨_, by simp only [logOf, emitterLog, bind_ok, pure_ok]; exact ⟨s, h, rfl⟩⟩
    | swapBackstop =>
      simp only [step, bind_ok, emitterCall, Emitter.swapBackstop] at h
      obtain ⟨_, _, s, h, _⟩ := h
      exact ⟨_, by simp only [logOf, emitterLog, bind_ok, pure_ok]; exact ⟨s, h, rfl⟩⟩
    | _ => exact ⟨_, rfl⟩
  | factory auth c =>
    cases c with
    | deploy a s o r m =>
      simp only [step, bind_ok, factoryCall, Prod.exists] at h
      obtain ⟨_, _, x, w1, h, _⟩ := h
      exact ⟨_, by simp only [logOf, factoryLog, bind_ok, Prod.exists, pure_ok]; exact ⟨x, w1, h, rfl⟩⟩
    | «initialize» => exact ⟨_, rfl⟩
  | _ => exact ⟨_, rfl⟩

namespace Pool

/-- the list of reserves only grows: what is noted stays right -/
theorem Match.grow {w w' : World} (hr : Reachable w) (hs : Steps w w') {p : Address} (hp : w.poolAddr p = true) {F : PoolNotes}
    (hpos : (w'.pools p).positions = (w.pools p).positions ∨ (w'.pools p).resConfig = (w.pools p).resConfig)
    {au : Nat → Address → Option AuctionData} (m : Match E (w.pools p) (accountOf (w'.pools p)) au F) :
    Match E (w'.pools p) (accountOf (w'.pools p)) au F := by
  rcases hpos with hpos | hcfg
  · obtain ⟨e1, more, e2⟩ : (∀ asset c, (w.pools p).resConfig asset = some c →
      ∃ c', (w'.pools p).resConfig asset = some c' ∧ c'.index = c.index ∧ c'.decimals = c.decimals) ∧
      ∃ more, (w'.pools p).resList = (w.pools p).resList ++ more := ⟨(hr.cfgExt hs hp).cfg, (hr.cfgExt hs hp).list⟩
    have cfg' := (hr.steps hs).base.cfg p
    refine ⟨fun u a c hc => ?_, fun u a ha => ?_, m.auc⟩
    · cases h0 : (w.pools p).resConfig a with
      | some c0 =>
        obtain ⟨c1, h1, h2, _⟩ := e1 a c0 h0
        rw [hc] at h1; cases h1
        rw [h2]
        exact m.pos u a c0 h0
      | none =>
        obtain ⟨f1, f2, f3⟩ := m.fresh u a h0
        rw [f1, f2, f3]
        -- the reserve is new, nobody has a position in it
        have hidx : (w.pools p).resList.length ≤ c.index := by
          by_contra hlt
          push Not at hlt
          have h1 := cfg'.idx a c hc
          rw [e2, List.getElem?_append_left hlt] at h1
          obtain ⟨c0, _, h2, _⟩ := (hr.base.cfg p).list a (List.mem_of_getElem? h1)
          rw [h0] at h2; cases h2
        have hz : ∀ k : Kind, (k.map (getPositions (w'.pools p) u)).bal c.index = 0 := by
          intro k
          have hg : getPositions (w'.pools p) u = getPositions (w.pools p) u := by unfold getPositions; rw [hpos]
          rw [hg]
          unfold getPositions
          cases hu : (w.pools p).positions.get u with
          | none => cases k <;> rfl
          | some pos =>
            cases hv : (k.map pos).get c.index with
            | none => simp [SMap.bal, hv]
            | some v =>
              have := ((hr.pinv hp).bals u pos k c.index v hu hv).2
              change c.index < (w.pools p).resList.length at this
              omega
        exact ⟨(hz .supp).symm, (hz .coll).symm, (hz .liab).symm⟩
    · have h0 : (w.pools p).resConfig a = none := by
        cases h0 : (w.pools p).resConfig a with
        | none => rfl
        | some c0 => obtain ⟨c1, h1, _⟩ := e1 a c0 h0; rw [ha] at h1; cases h1
      exact m.fresh u a h0
  · exact ⟨fun u a c hc => m.pos u a c (by rw [← hcfg]; exact hc), fun u a ha => m.fresh u a (by rw [← hcfg]; exact ha), m.auc⟩

theorem Match.weaken {E E' : Prop} (hE : E' → E) {ps acct au F} (m : Match E ps acct au F) : Match E' ps acct au F :=
  ⟨m.pos, m.fresh, fun t u => ⟨(m.auc t u).1, fun e => (m.auc t u).2.1 (hE e), (m.auc t u).2.2⟩⟩

/-- no auction expires -/
def NoExpiry (op : Op) : Prop := ∀ p t u, op ≠ .expireAuction p t u

/-- **the observer follows one operation** -/
theorem follow_step {w w' : World} (hr : Reachable w) {op : Op} (h : step w op = .ok w') {p b : Address} (hp : w.poolAddr p = true)
    (hb : ∀ i, (w.pools p).inst = some i → i.backstop = b) {l : List Event} (hl : logOf w op = .ok l) {F : PoolNotes}
    (m : Match E (w.pools p) (accountOf (w.pools p)) (w.pools p).auctions F) :
    Match (E ∧ NoExpiry op) (w'.pools p) (accountOf (w'.pools p)) (w'.pools p).auctions (seeAll p b w.seq F l) := by
  have st : Steps w w' := .tail (.refl _) ⟨op, h⟩
  by_cases hs : Silent p op
  · rw [seeAll_other (silent_log hs hl)]
    have hpos := positions_step hr.base h p fun auth c e => by
      have := hs auth c e
      cases c <;> simp_all [Call.publishes, Call.keepsPositions]
    refine Match.grow hr st hp (.inl hpos) ⟨fun u a c hc => ?_, m.fresh, fun t u => ?_⟩
    · rw [accountOf_congr hpos]; exact m.pos u a c hc
    · rcases auction_step hr.base h p t u with e | ch
      · rw [e]; exact (m.weaken And.left).auc t u
      · generalize (w'.pools p).auctions t u = o2 at ch
        cases ch with
        | expire => exact ⟨by simp, fun he => absurd rfl (he.2 p t u), by simp⟩
        | liquidation => simp [Call.publishes, Silent] at hs
        | badDebt => simp [Call.publishes, Silent] at hs
        | interest => simp [Call.publishes, Silent] at hs
        | submit => simp [Call.publishes, Silent] at hs
  · refine Match.weaken (E := E) And.left ?_
    unfold Silent at hs
    push Not at hs
    obtain ⟨auth, c, rfl, hc⟩ := hs
    have create : ∀ {t : Nat} {u : Address} {x : AuctionData} {ps : PoolState} {w1 : World}, w1 = w.setPool p (setAuction ps t u (some x)) →
        ps.auctions = (w.pools p).auctions → c.keepsPositions = true → step w (.pool p auth c) = .ok w1 →
        Match E (w1.pools p) (accountOf (w1.pools p)) (w1.pools p).auctions (F.setAuction t u x) := by
      intro t u x ps w1 e1 e2 e4 hst
      have hpp : (w1.pools p).positions = (w.pools p).positions := 
        positions_step hr.base hst p fun auth' c' e => by cases e; exact e4
      have hpa : (w1.pools p).auctions = upd (w.pools p).auctions t (upd ((w.pools p).auctions t) u (some x)) := by
        rw [e1, pools_setPool, ← e2]; rfl
      refine Match.grow hr (.tail (.refl _) ⟨_, hst⟩) hp (.inl hpp) ⟨fun v a cf hcf => ?_, m.fresh, ?_⟩
      · rw [accountOf_congr hpp]; exact m.pos v a cf hcf
      · rw [hpa]
        intro t' u'
        simp only [PoolNotes.setAuction]
        by_cases ht : t' = t
        · subst ht
          simp only [upd_same]
          by_cases hu : u' = u
          · subst hu
            simp only [upd_same, Option.some.injEq, Option.isSome_some, imp_self, implies_true, true_and]
            intro y hy
            subst hy
            exact ⟨fun _ => rfl, fun _ => rfl, rfl⟩
          · rw [upd_ne hu, upd_ne hu, upd_ne hu, upd_ne hu, upd_ne hu]
            exact m.auc _ _
        · rw [upd_ne ht, upd_ne ht, upd_ne ht, upd_ne ht, upd_ne ht]
          exact m.auc _ _
    have h0 := h
    cases c with
    | submit sender spender dst reqs =>
      obtain ⟨ev, h1, h2⟩ := submit_log hr hb h
      have : ev = l := by
        simp only [logOf] at hl
        rw [h1] at hl; exact Except.ok.inj hl
      subst this
      refine Match.grow hr st hp (.inr ?_) (h2 F m)
      obtain ⟨_, cache, s, v⟩ := submit_view hr h
      rw [v.pools]
      exact v.flight.same.resConfig
    | badDebt u =>
      obtain ⟨ev, h1, h2⟩ := transfer_log hr hb h
      have : ev = l := by
        simp only [logOf] at hl
        rw [h1] at hl; exact Except.ok.inj hl
      subst this
      refine Match.grow hr st hp (.inr ?_) (h2 F m)
      simp only [step, bind_ok, require_ok] at h
      obtain ⟨_, _, _, _, h⟩ := h
      exact (call_admin (hr.base.pool_ne hp) rfl h).resConfig
    | newLiquidation u n =>
      simp only [step, bind_ok, require_ok, call, createLiquidation, Prod.exists, pure_ok] at h
      obtain ⟨_, _, _, _, i, hi, _, _, a, ps, hc2, rfl⟩ := h
      simp only [logOf, callLog, bind_ok, Prod.exists, pure_ok] at hl
      obtain ⟨a', ps', hc', rfl⟩ := hl
      rw [hc2] at hc'
      cases hc'
      have := create (t := 0) (u := u) (x := a) (ps := ps) rfl (createUserLiq_auctions hc2) rfl h0
      simpa [seeAll, PoolNotes.see] using this
    | newBadDebt =>
      simp only [step, bind_ok, require_ok, call, createBadDebt, pure_ok] at h
      obtain ⟨_, _, _, _, i, hi, a, hc2, rfl⟩ := h
      simp only [logOf, callLog, bind_ok, pure_ok] at hl
      obtain ⟨i', hi', a', hc', rfl⟩ := hl
      rw [hi] at hi'; cases hi'
      rw [hc2] at hc'; cases hc'
      have := create (t := 1) (u := i.backstop) (x := a) (ps := w.pools p) rfl rfl rfl h0
      simp only [PoolState.getInst, unwrap_ok] at hi
      rw [hb i hi] at this
      simpa [seeAll, PoolNotes.see, hb i hi] using this
    | newInterest assets =>
      simp only [step, bind_ok, require_ok, call, createInterest, pure_ok] at h
      obtain ⟨_, _, _, _, i, hi, a, hc2, rfl⟩ := h
      simp only [logOf, callLog, bind_ok, pure_ok] at hl
      obtain ⟨i', hi', a', hc', rfl⟩ := hl
      rw [hi] at hi'; cases hi'
      rw [hc2] at hc'; cases hc'
      have := create (t := 2) (u := i.backstop) (x := a) (ps := w.pools p) rfl rfl rfl h0
      simp only [PoolState.getInst, unwrap_ok] at hi
      rw [hb i hi] at this
      simpa [seeAll, PoolNotes.see, hb i hi] using this
    | _ => simp [Call.publishes] at hc

end Pool
end Blend
