import Verif.Lemmas.MicroCtx
import Verif.Lemmas.World
/-
  The requests of a submit as small steps.
-/

namespace Blend
namespace Pool

/-- the virtual state of a submit in progress -/
def SubmitState.vs (p : Address) (s : SubmitState) : VS :=
  ⟨overlay (s.fl.w.pools p) s.fl.cache [s.fl.user],
   fun a => s.fl.w.balance a p + s.actions.spender.bal a - s.actions.pool.bal a,
   fun _ => 0, fun _ => 0⟩

/-- one request takes the submit from `s` to `s'` -/
structure ReqStep (U : Address → Prop) (p : Address) (s s' : SubmitState) : Prop where
  micros : PMicros s.fl.w.time U (s.vs p) (s'.vs p)
  cacheOk : CacheOk (s'.fl.w.pools p) s.fl.w.time s'.fl.cache
  same : SameConfig (s.fl.w.pools p) (s'.fl.w.pools p)
  addr : s'.fl.user.addr = s.fl.user.addr
  time : s'.fl.w.time = s.fl.w.time
  backstop : s'.fl.w.backstopAddr = s.fl.w.backstopAddr

theorem ReqStep.refl {U : Address → Prop} {p : Address} {s : SubmitState}
    (h : CacheOk (s.fl.w.pools p) s.fl.w.time s.fl.cache) : ReqStep U p s s :=
  ⟨.refl _, h, .refl _, rfl, rfl, rfl⟩

theorem ReqStep.trans {U : Address → Prop} {p : Address} {s s' s'' : SubmitState}
    (h : ReqStep U p s s') (h' : ReqStep U p s' s'') : ReqStep U p s s'' :=
  ⟨h.micros.trans (h.time ▸ h'.micros), h.time ▸ h'.cacheOk, h.same.trans h'.same,
   h'.addr.trans h.addr, h'.time.trans h.time, h'.backstop.trans h.backstop⟩

/-- A share operation paid by tokens: `y` is what the pool gains. -/
theorem req_paid {U : Address → Prop} {p : Address} {s : SubmitState} {a : Address} {r r' : Reserve}
    {cache : Cache} {ps' : PoolState} {u' : User} {acts : Actions} {chk' : Bool} {k : Kind} {add : Bool}
    {amt y : Int}
    (ok : CacheOk (s.fl.w.pools p) s.fl.w.time s.fl.cache) (hU : U s.fl.user.addr)
    (hl : s.fl.cache.loadReserve (s.fl.w.pools p) s.fl.w.time a true = .ok (r, cache))
    (hs : ShareRes k add (s.fl.w.pools p) s.fl.w.time s.fl.user r amt ps' u' r')
    (hamt : 0 < r.data.bRate → 0 < r.data.dRate → add = true → 0 ≤ amt)
    (hpay : (0 < r.data.bRate → 0 < r.data.dRate →
      0 ≤ (k.map s.fl.user.pos).bal r.index → PaidOk k r.data (if add then amt else -amt) y))
    (hact : ∀ b, acts.spender.bal b - acts.pool.bal b =
      s.actions.spender.bal b - s.actions.pool.bal b + if b = r.asset then y else 0) :
    ReqStep U p s ⟨⟨s.fl.w.setPool p ps', cache.put r', u'⟩, acts, chk'⟩ := by
  have hld := loadReserve_true ok hl
  have hV : (overlay (s.fl.w.pools p) (cache.put r) ([] ++ [s.fl.user])).resData a = some r.data := by
    show overlayData _ (cache.put r) a = _
    rw [overlayData_put hld.reserves, hld.rm.asset]; simp
  have hc : Coupled k a r.data (if add then amt else -amt)
      ⟨overlay (s.fl.w.pools p) (cache.put r) ([] ++ [s.fl.user]), (s.vs p).vb, fun _ => 0, fun _ => 0⟩
      (fun b => s.fl.w.balance b p + acts.spender.bal b - acts.pool.bal b) (fun _ => 0) (fun _ => 0) := by
    have e : (fun b => s.fl.w.balance b p + acts.spender.bal b - acts.pool.bal b) =
        upd (s.vs p).vb a ((s.vs p).vb a + y) := by
      funext b
      have := hact b
      rw [hld.rm.asset] at this
      rw [upd_apply]
      simp only [SubmitState.vs]
      by_cases hb : b = a
      · subst hb; simp at this ⊢; omega
      · simp [hb] at this ⊢; omega
    rw [e]
    refine .paid y (fun hp => ?_)
    obtain ⟨h1, h2⟩ := hp.rates a _ hV
    refine hpay h2 h1 ?_
    cases hb : (k.map s.fl.user.pos).get r.index with
    | none => simp [SMap.bal, hb]
    | some v =>
      have := hp.bals s.fl.user.addr s.fl.user.pos k r.index v
        (by show ((overlay _ _ ([] ++ [s.fl.user])).positions).get _ = _
            rw [overlay_positions_append, SMap.get_set]; simp) hb
      simp [SMap.bal, hb]; omega
  obtain ⟨h1, h2, h3, h4, h5, h6⟩ := micro_share (U := U) (us := []) ok hld hU hs
    (fun hp ha => by
      obtain ⟨h1, h2⟩ := hp.rates a _ hV
      exact hamt h2 h1 ha) hc
  refine ⟨?_, ?_, ?_, h6, rfl, rfl⟩
  · simpa [SubmitState.vs, balance_setPool] using h1
  · simpa using h2
  · simpa using h3

theorem addSpender_ok {a a' : Actions} {t : Address} {x : Int} (h : a.addSpender t x = .ok a') :
    ∀ b, a'.spender.bal b - a'.pool.bal b = a.spender.bal b - a.pool.bal b + if b = t then x else 0 := by
  unfold Actions.addSpender at h
  simp only [bind_ok, chk_ok, pure_ok] at h
  obtain ⟨v, ⟨_, rfl⟩, rfl⟩ := h
  intro b
  simp only [SMap.bal_set]
  by_cases hb : b = t
  · subst hb; simp; omega
  · simp [hb]

theorem addPool_ok {a a' : Actions} {t : Address} {x : Int} (h : a.addPool t x = .ok a') :
    ∀ b, a'.spender.bal b - a'.pool.bal b = a.spender.bal b - a.pool.bal b + if b = t then -x else 0 := by
  unfold Actions.addPool at h
  simp only [bind_ok, chk_ok, pure_ok] at h
  obtain ⟨v, ⟨_, rfl⟩, rfl⟩ := h
  intro b
  simp only [SMap.bal_set]
  by_cases hb : b = t
  · subst hb; simp; omega
  · simp [hb]

theorem step_supply {U : Address → Prop} {p : Address} {s s' : SubmitState} {coll : Bool} {a : Address}
    {amt : Int} (ok : CacheOk (s.fl.w.pools p) s.fl.w.time s.fl.cache) (hU : U s.fl.user.addr)
    (h0 : 0 ≤ amt) (h : reqSupply p coll s a amt = .ok s') : ReqStep U p s s' := by
  unfold reqSupply at h
  simp only [bind_ok, Prod.exists, pure_ok] at h
  obtain ⟨r, cache, hl, m, hm, ps', u', r', hf, acts, ha, rfl⟩ := h
  have hm0 : 0 < r.data.bRate → 0 ≤ m := fun hb =>
    mulDivFloor_nonneg hm hb (Int.mul_nonneg h0 (by decide))
  have hmv : 0 < r.data.bRate → m * r.data.bRate ≤ amt * SCALAR_9 := fun hb =>
    (mulDivFloor_spec hm hb).1
  cases coll with
  | true =>
    simp only [if_true] at hf
    exact req_paid (k := .coll) (add := true) ok hU hl (isAddColl hf) (fun hb _ _ => hm0 hb)
      (fun hb _ _ => by simpa [PaidOk] using hmv hb) (addSpender_ok ha)
  | false =>
    simp only [Bool.false_eq_true, if_false] at hf
    exact req_paid (k := .supp) (add := true) ok hU hl (isAddSupp hf) (fun hb _ _ => hm0 hb)
      (fun hb _ _ => by simpa [PaidOk] using hmv hb) (addSpender_ok ha)

theorem withdrawAmounts_ok {d : ReserveData} {cur amt burn out : Int} (hb : 0 < d.bRate)
    (h : withdrawAmounts d cur amt = .ok (burn, out)) : out * SCALAR_9 ≤ burn * d.bRate := by
  unfold withdrawAmounts at h
  simp only [bind_ok, ite_ok, pure_ok, Prod.mk.injEq] at h
  obtain ⟨b, hb1, ⟨_, o, ho, rfl, rfl⟩ | ⟨_, rfl, rfl⟩⟩ := h
  · exact (mulDivFloor_spec ho S9_pos).1
  · exact (mulDivCeil_spec hb1 hb).1

theorem step_withdraw {U : Address → Prop} {p : Address} {s s' : SubmitState} {a : Address}
    {amt : Int} (ok : CacheOk (s.fl.w.pools p) s.fl.w.time s.fl.cache) (hU : U s.fl.user.addr)
    (h : reqWithdraw p s a amt = .ok s') : ReqStep U p s s' := by
  unfold reqWithdraw at h
  simp only [bind_ok, Prod.exists, pure_ok] at h
  obtain ⟨r, cache, hl, burn, out, hw, ps', u', r', hf, acts, ha, rfl⟩ := h
  refine req_paid (k := .supp) (add := false) (y := -out) ok hU hl (isRemoveSupp hf) (by simp)
      (fun hb _ _ => ?_) (addPool_ok ha)
  have := withdrawAmounts_ok hb hw
  simp only [PaidOk, Bool.false_eq_true, if_false]; linarith

theorem step_withdrawColl {U : Address → Prop} {p : Address} {s s' : SubmitState} {a : Address}
    {amt : Int} (ok : CacheOk (s.fl.w.pools p) s.fl.w.time s.fl.cache) (hU : U s.fl.user.addr)
    (h : reqWithdrawColl p s a amt = .ok s') : ReqStep U p s s' := by
  unfold reqWithdrawColl at h
  simp only [bind_ok, Prod.exists, pure_ok] at h
  obtain ⟨r, cache, hl, burn, out, hw, ps', u', r', hf, acts, ha, rfl⟩ := h
  refine req_paid (k := .coll) (add := false) (y := -out) ok hU hl (isRemoveColl hf) (by simp)
      (fun hb _ _ => ?_) (addPool_ok ha)
  have := withdrawAmounts_ok hb hw
  simp only [PaidOk, Bool.false_eq_true, if_false]; linarith

theorem step_borrow {U : Address → Prop} {p : Address} {s s' : SubmitState} {a : Address}
    {amt : Int} (ok : CacheOk (s.fl.w.pools p) s.fl.w.time s.fl.cache) (hU : U s.fl.user.addr)
    (h0 : 0 ≤ amt) (h : reqBorrow p s a amt = .ok s') : ReqStep U p s s' := by
  unfold reqBorrow at h
  simp only [bind_ok, Prod.exists, pure_ok] at h
  obtain ⟨r, cache, hl, m, hm, ps', u', r', hf, _, _, acts, ha, rfl⟩ := h
  refine req_paid (k := .liab) (add := true) (y := -amt) ok hU hl (isAddLiab hf)
      (fun _ hd _ => mulDivCeil_nonneg hm hd (Int.mul_nonneg h0 (by decide)))
      (fun _ hd _ => ?_) (addPool_ok ha)
  have := (mulDivCeil_spec hm hd).1
  simp only [PaidOk, if_true]; linarith

theorem step_repay {U : Address → Prop} {p : Address} {s s' : SubmitState} {a : Address}
    {amt : Int} (ok : CacheOk (s.fl.w.pools p) s.fl.w.time s.fl.cache) (hU : U s.fl.user.addr)
    (h : reqRepay p s a amt = .ok s') : ReqStep U p s s' := by
  unfold reqRepay at h
  simp only [bind_ok, Prod.exists, pure_ok, ite_ok] at h
  obtain ⟨r, cache, hl, burnt, hburn, acts, ha, h⟩ := h
  rcases h with ⟨hc, owed, ho, rf, hrf, _, _, ps', u', r', hf, acts', ha', rfl⟩ |
    ⟨hc, ps', u', r', hf, rfl⟩
  · rw [chk_ok] at hrf
    obtain ⟨_, rfl⟩ := hrf
    refine req_paid (k := .liab) (add := false) (y := owed) ok hU hl (isRemoveLiab hf) (by simp)
      (fun _ hd _ => ?_) (fun b => ?_)
    · have := (mulDivCeil_spec ho S9_pos).1
      simp only [PaidOk, Bool.false_eq_true, if_false]; linarith
    · rw [addPool_ok ha' b, addSpender_ok ha b]
      split <;> omega
  · refine req_paid (k := .liab) (add := false) (y := amt) ok hU hl (isRemoveLiab hf) (by simp)
      (fun _ hd _ => ?_) (addSpender_ok ha)
    have := (mulDivFloor_spec hburn hd).1
    simp only [PaidOk, Bool.false_eq_true, if_false]; linarith

theorem step_delete {U : Address → Prop} {p : Address} {s s' : SubmitState}
    (ok : CacheOk (s.fl.w.pools p) s.fl.w.time s.fl.cache)
    (h : reqDelete p s = .ok s') : ReqStep U p s s' := by
  unfold reqDelete deleteLiquidation at h
  simp only [bind_ok, pure_ok, require_ok] at h
  obtain ⟨ps', ⟨_, _, rfl⟩, rfl⟩ := h
  have hs : SameConfig (s.fl.w.pools p)
      (setAuction (s.fl.w.pools p) 0 s.fl.user.addr none) := ⟨rfl, rfl, rfl, rfl, rfl, rfl, rfl, rfl, rfl⟩
  refine ⟨?_, ?_, ?_, rfl, rfl, rfl⟩
  · have := PMicro.auction (now := s.fl.w.time) (U := U) (s.vs p) 0 s.fl.user.addr none
    refine .one ?_
    simp only [SubmitState.vs, balance_setPool, pools_setPool]
    exact this
  · simpa using ok.same hs
  · simpa using hs

end Pool
end Blend
