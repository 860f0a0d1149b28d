import Verif.Lemmas.LiveFill
import Verif.Lemmas.LiveOrder
/-
  A submit of any requests goes through exactly when it is in order (C62).
-/

namespace Blend
namespace Pool
open Spec

variable {E : Err → Bool} {w : World} {p sender : Address} {i : PoolInst}

theorem positive_nonneg {m : SMap Int} (h : Positive m) (x : Address) : 0 ≤ m.bal x := by
  unfold SMap.bal
  cases hg : m.get x with
  | none => simp
  | some v => exact (h x v hg).le

theorem take_pays (ps : PoolState) (s : Int) (lot bid : SMap Int) (A : Account) :
    (take ps s lot bid A).pays = A.pays ∧ (take ps s lot bid A).gets = A.gets := ⟨rfl, rfl⟩

/-- a request that fills or deletes an auction leaves what the sender has to pay and to get -/
theorem _root_.Blend.Spec.AuctionEffect.pays {B B1 : Books} {q : Request} (h : AuctionEffect w p sender B q B1) :
    (B1.acct sender).pays = (B.acct sender).pays ∧ (B1.acct sender).gets = (B.acct sender).gets := by
  cases h with
  | liquidation => simp only [upd_same]; exact take_pays ..
  | badDebt => simp only [upd_same]; exact take_pays ..
  | interest => exact ⟨rfl, rfl⟩
  | delete => exact ⟨rfl, rfl⟩

theorem _root_.Blend.Spec.AuctionEffect.wallet {B B1 : Books} {q : Request} (hsp : sender ≠ p) (h : AuctionEffect w p sender B q B1)
    (h0 : ∀ t x, 0 ≤ B.wallet t x) : ∀ t x, 0 ≤ B1.wallet t x := by
  intro t x
  have hb := h0 t x
  cases h with
  | liquidation => exact hb
  | delete => exact hb
  | badDebt k1 k2 k3 k4 k5 k6 k7 k8 k9 =>
    show 0 ≤ paid _ _ _ _ _ t x
    unfold paid
    split <;> split <;> rename_i e1 e2
    · omega
    · omega
    · obtain ⟨rfl, rfl⟩ := e2; omega
    · omega
  | @interest u n a taken rest inst bi k1 k2 k3 k4 k5 k6 k7 k8 k9 =>
    have hl := positive_nonneg k1.2.2.2.2.positive.2 t
    have hl2 : x = p → taken.lot.bal t ≤ B.wallet t x := by
      rintro rfl
      unfold SMap.bal
      cases hg : taken.lot.get t with
      | none => exact hb
      | some v => exact k9 t v hg
    show 0 ≤ paid B.wallet bi.backstopToken sender inst.backstop (taken.bid.bal bi.backstopToken) t x
          + (if x = sender then taken.lot.bal t else 0) - (if x = p then taken.lot.bal t else 0)
    unfold paid
    by_cases e1 : x = p
    · subst e1
      have := hl2 rfl
      rw [if_pos rfl, if_neg (Ne.symm hsp), if_neg (c := t = bi.backstopToken ∧ x = sender) (fun h => hsp h.2.symm)]
      split <;> omega
    · rw [if_neg e1]
      split <;> split <;> split <;> rename_i e1 e2 e3 <;> first
        | omega
        | (obtain ⟨rfl, rfl⟩ := e2; omega)

theorem _root_.Blend.Spec.FullPlan.nonneg (hrt : RatesPos (w.pools p) w.time) (hsp : sender ≠ p) {l : List Request} {B B' : Books}
    (h : FullPlan w p sender l B B') : (∀ t, 0 ≤ (B.acct sender).pays t) → (∀ t, 0 ≤ (B.acct sender).gets t) → (∀ t x, 0 ≤ B.wallet t x) →
      (∀ t, 0 ≤ (B'.acct sender).pays t) ∧ (∀ t, 0 ≤ (B'.acct sender).gets t) ∧ ∀ t x, 0 ≤ B'.wallet t x := by
  induction h with
  | nil B => exact fun h1 h2 h3 => ⟨h1, h2, h3⟩
  | plain _ _ hcur he _ _ ih =>
    intro h1 h2 h3
    obtain ⟨k1, k2⟩ := he.nonneg (hrt _ _ hcur).1.le h1 h2
    refine ih ?_ ?_ h3
    · simp only [upd_same]; exact k1
    · simp only [upd_same]; exact k2
  | auction he _ ih =>
    intro h1 h2 h3
    refine ih ?_ ?_ (he.wallet hsp h3)
    · rw [he.pays.1]; exact h1
    · rw [he.pays.2]; exact h2

theorem start_middle (hr : Reachable w) {cache : Cache} (hc : Cache.load (w.pools p) = .ok cache) :
    Middle w p (startState w p cache sender) :=
  ⟨(track_start hr hc).1, rfl⟩

theorem risky_iff {q : Request} : risky q = true ↔ q.type = 3 ∨ q.type = 4 ∨ q.type = 6 ∨ q.type = 7 ∨ q.type = 9 := by
  simp only [risky, decide_eq_true_eq]

theorem inOrder_live (hr : Reachable w) (hp : w.poolAddr p = true) {auth : List Address} {spender dst : Address} {reqs : List Request}
    (hov : E .overflow = false) (hcall : Caller w p auth sender spender dst) (hi : (w.pools p).inst = some i)
    (hpr : (∃ q ∈ reqs, q.type = 3 ∨ q.type = 4 ∨ q.type = 6 ∨ q.type = 7 ∨ q.type = 9) → PricesOk w (w.pools p)) {B : Books}
    (h : InOrder w p i sender reqs B)
    (hpay : E .token = true → ∀ t, (B.acct sender).pays t ≤ B.wallet t spender)
    (hget : E .token = true → ∀ t, (B.acct sender).gets t ≤ B.wallet t p + (B.acct sender).pays t) :
    NoErr E (step w (.pool p auth (.submit sender spender dst reqs))) := by
  obtain ⟨hauth, ha1, ha2, hs, hsp, hd⟩ := hcall
  have hexec : NoErr E (executeSubmit w p auth sender spender dst reqs) := by
    unfold executeSubmit buildActions
    refine NoErr.bind (NoErr.req (by simp [hs, hsp, hd])) fun _ _ => ?_
    refine NoErr.bind ?_ fun cache hc => ?_
    · unfold Cache.load PoolState.getInst
      exact NoErr.bind (NoErr.unwrap hi) fun _ _ => NoErr.pure
    have e0 := (track_start (sender := sender) hr hc).2
    have hlive := fullPlan_live (E := E) (auth := auth) hr hp hs ha1 hov hc hi reqs [] (startState w p cache sender) B
      h.permitted (by rw [foldlM_nil]) (start_middle hr hc) (by rw [e0]; exact h.plan)
    have hconf : cache.config = i.config := by
      obtain ⟨_, _, _, i', hi', e3⟩ := load_ok (now := w.time) hc
      rw [hi] at hi'; cases hi'
      exact e3
    refine NoErr.bind ?_ fun s hs' => ?_
    · refine NoErr.bind hlive.1 fun s hs' => NoErr.bind ?_ fun _ _ => NoErr.pure
      have f := flight_of hr hp hs hc hs'
      unfold requireUnderMax
      refine NoErr.req ?_
      rw [f.count, ← books_sender f, hlive.2 s hs']
      show ¬ (_ > (getPositions (w.pools p) sender).effectiveCount ∧ _)
      rw [start_count hr hp hs hc, (requests_config hs').1]
      show ¬ (_ ∧ cache.config.maxPositions < _)
      rw [hconf]
      have := h.count
      omega
    simp only [bind_ok, pure_ok] at hs'
    obtain ⟨s', hs', _, _, rfl⟩ := hs'
    have hs'' : reqs.foldlM (processRequest p auth) (startState w p cache sender) = .ok s' := hs'
    have f := flight_of hr hp hs hc hs''
    have hB := hlive.2 s' hs'
    have hA : s'.acct = B.acct sender := by rw [← books_sender f, hB]
    have hW : ∀ t x, s'.fl.w.balance t x = B.wallet t x := by rw [← hB]; exact fun _ _ => rfl
    obtain ⟨bt, _⟩ := full_plans hr hp hs hc reqs [] _ s' (by rw [foldlM_nil]) (start_middle hr hc) hs''
    refine NoErr.bind (health_flight hr hp hov f bt.track fun hck hde => ?_) fun cache' hc' => ?_
    · have hrisk : ∃ q ∈ reqs, q.type = 3 ∨ q.type = 4 ∨ q.type = 6 ∨ q.type = 7 ∨ q.type = 9 := by
        rw [requests_check hs''] at hck
        simp only [startState, Bool.false_or, List.any_eq_true] at hck
        obtain ⟨q, hq, hrq⟩ := hck
        exact ⟨q, hq, risky_iff.1 hrq⟩
      refine ⟨hpr hrisk, ?_⟩
      obtain ⟨pos, hpos, hh⟩ := h.health hrisk (by rw [← hA]; exact f.noDebt.1 hde)
      refine healthy_congr (fun k => ?_) (fun k => ?_) hh
      · rw [(hpos k).2.1, ← hA]; rfl
      · rw [(hpos k).2.2, ← hA]; rfl
    have ext := healthCheck_ext (fun a r har => by rw [f.time]; exact f.cacheOk.res a r har) hc'
    obtain ⟨n1, n2, _⟩ := h.plan.nonneg (hr.ratesPos hp) hs (fun t => le_refl 0) (fun t => le_refl 0) hr.base.balances
    have hkv1 : ∀ kv ∈ s'.actions.spender.toList, kv.2 = (B.acct sender).pays kv.1 := by
      intro kv hkv
      rw [← hA]
      show _ = s'.actions.spender.bal kv.1
      unfold SMap.bal
      rw [SMap.mem_toList.1 hkv]; rfl
    have hkv2 : ∀ kv ∈ s'.actions.pool.toList, kv.2 = (B.acct sender).gets kv.1 := by
      intro kv hkv
      rw [← hA]
      show _ = s'.actions.pool.bal kv.1
      unfold SMap.bal
      rw [SMap.mem_toList.1 hkv]; rfl
    refine NoErr.bind (transfers_live hov (Ne.symm hsp) _ _ s'.actions.spender.sorted (fun kv hkv => ?_) fun hE kv hkv => ?_) fun w1 hw1 => ?_
    · rw [hkv1 kv hkv]; exact n1 _
    · rw [hkv1 kv hkv, hW]; exact hpay hE _
    refine NoErr.bind (storeAll_live (fun a ha => ?_) _) fun ps1 _ => ?_
    · rw [ext.toStore, f.cacheOk.store] at ha
      obtain ⟨r, hr'⟩ := Option.isSome_iff_exists.1 ha
      exact ⟨r, ext.old a r hr'⟩
    refine NoErr.bind (transfers_live hov hd _ _ s'.actions.pool.sorted (fun kv hkv => ?_) fun hE kv hkv => ?_) fun _ _ => NoErr.pure
    · rw [hkv2 kv hkv]; exact n2 _
    · rw [hkv2 kv hkv]
      show _ ≤ w1.balance _ _
      obtain ⟨_, _, hb, _⟩ := transfers_fold _ _ _ hw1
      rw [hb, lsum_toList, hW, if_pos rfl, if_neg (Ne.symm hsp)]
      have := hget hE kv.1
      have hA' : s'.actions.spender.bal kv.1 = (B.acct sender).pays kv.1 := by rw [← hA]; rfl
      rw [hA']
      omega
  unfold step call
  refine NoErr.bind (NoErr.req hp) fun _ _ => NoErr.bind (NoErr.req hauth) fun _ _ => ?_
  refine NoErr.bind (NoErr.req ha2) fun _ _ => ?_
  dsimp only
  split
  · exact NoErr.bind (NoErr.req ha1) fun _ _ => NoErr.bind hexec fun _ _ => NoErr.pure
  · exact NoErr.bind hexec fun _ _ => NoErr.pure

/-- the books at the end of the requests are what the world shows -/
theorem settled_of {w' : World} (hr : Reachable w) {auth : List Address} {spender dst : Address} {reqs : List Request} {cache : Cache} {s : SubmitState}
    (hp : w.poolAddr p = true) (v : SubmitView w p auth sender spender dst reqs w' cache s) (t : Track w p s.fl) :
    Outcome w' p sender spender dst (s.books w p) := by
  have hua := v.flight.addr
  have hacc := books_sender v.flight
  refine ⟨fun x i => ?_, ?_, ?_, fun a => ?_, fun t' x => ?_⟩
  · rw [v.pools]
    by_cases hx : x = sender
    · subst hx
      have : getPositions (overlay (s.fl.w.pools p) s.fl.cache [s.fl.user]) s.fl.user.addr = s.fl.user.pos := by
        have := getPositions_overlay_last (s.fl.w.pools p) s.fl.cache [] s.fl.user
        simpa using this
      rw [hua] at this
      rw [this, hacc]
      exact ⟨rfl, rfl, rfl⟩
    · rw [getPositions_overlay_ne _ _ _ _ (by rw [hua]; exact hx)]
      simp only [SubmitState.books, hua, if_neg hx]
      exact ⟨rfl, rfl, rfl⟩
  · rw [v.pools]; rfl
  · rw [v.backstop']; rfl
  · rw [v.pools, v.time']
    show _ = credAt _ _ _ _
    unfold credAt
    cases hg : s.fl.cache.reserves.get a with
    | some r =>
      obtain ⟨hm, _⟩ := t.cur.cached a r hg
      obtain ⟨c, hc, _⟩ := hm.cfg
      obtain ⟨i, hi, _⟩ := t.cur.config
      have e1 : (overlay (s.fl.w.pools p) s.fl.cache [s.fl.user]).resData a = some r.data := by
        show overlayData _ _ _ = _; simp [overlayData, hg]
      have e2 : (overlay (s.fl.w.pools p) s.fl.cache [s.fl.user]).resConfig a = some c := hc
      have e3 : (overlay (s.fl.w.pools p) s.fl.cache [s.fl.user]).inst = some i := hi
      simp only [creditOf, e1, e2, e3, accrue_idem hm.time]
    | none =>
      have e1 : (overlay (s.fl.w.pools p) s.fl.cache [s.fl.user]).resData a = (w.pools p).resData a := by
        show overlayData _ _ _ = _; simp [overlayData, hg, t.cur.rest a hg]
      have e2 : (overlay (s.fl.w.pools p) s.fl.cache [s.fl.user]).resConfig = (w.pools p).resConfig := t.cur.resConfig.symm
      have e3 : (overlay (s.fl.w.pools p) s.fl.cache [s.fl.user]).inst = (w.pools p).inst := t.cur.inst.symm
      simp only [creditOf, e1, e2, e3]
  · rw [v.bal, hacc]; rfl

/-- a submit that went through was in order -/
theorem inOrder_of_ok {w' : World} (hr : Reachable w) {auth : List Address} {spender dst : Address} {reqs : List Request}
    (hs : step w (.pool p auth (.submit sender spender dst reqs)) = .ok w') (hi : (w.pools p).inst = some i)
    (hpr : PricesOk w (w.pools p)) : ∃ B, InOrder w p i sender reqs B ∧ FullyCovered p sender spender B ∧ Outcome w' p sender spender dst B := by
  obtain ⟨hp, cache, s, v⟩ := submit_view hr hs
  have f := v.flight
  obtain ⟨bt, plan⟩ := full_plans hr hp v.sender_ne v.load reqs [] _ s (by rw [foldlM_nil]) (start_middle hr v.load) v.fold
  rw [(track_start hr v.load).2] at plan
  have hconf : s.fl.cache.config = i.config := by
    obtain ⟨_, _, _, i', hi', e3⟩ := load_ok (now := w.time) v.load
    rw [hi] at hi'; cases hi'
    exact (requests_config v.fold).1.trans e3
  have hacc := books_sender f
  refine ⟨s.books w p, ⟨plan, fun q hq => ?_, ?_, fun hrisk hdebt => ⟨s.fl.user.pos, ?_, ?_⟩⟩, ⟨fun t => ?_, fun t => ?_⟩,
    settled_of hr hp v bt.track⟩
  · obtain ⟨l1, l2, s1, s2, _, h1, h2, _⟩ := foldlM_split v.fold hq
    obtain ⟨_, ha, _⟩ := processRequest_ok h2
    obtain ⟨_, _, _, i', hi', e3⟩ := load_ok (now := w.time) v.load
    rw [hi] at hi'; cases hi'
    rw [(requests_config h1).1] at ha
    unfold requireActionAllowed at ha
    rw [require_ok] at ha
    have e : (startState w p cache sender).fl.cache.config = i.config := e3
    rw [e] at ha
    unfold Permitted
    omega
  · have := v.max
    unfold requireUnderMax at this
    rw [require_ok, f.count, start_count hr hp v.sender_ne v.load, hconf] at this
    rw [hacc]
    omega
  · rw [hacc]; exact fun k => ⟨rfl, rfl, rfl⟩
  · rw [hacc] at hdebt
    have hc : s.check = true := by
      rw [requests_check v.fold]
      have : reqs.any risky = true := by
        obtain ⟨q, hm, ht⟩ := hrisk
        exact List.any_eq_true.2 ⟨q, hm, risky_iff.2 ht⟩
      rw [this]; simp
    obtain ⟨cache', hh⟩ := v.health
    unfold healthCheck at hh
    rw [if_pos ⟨hc, f.noDebt.2 hdebt⟩] at hh
    simp only [bind_ok, Prod.exists, require_ok, pure_ok] at hh
    obtain ⟨pd, c1, hcalc, under, hunder, _, hn, _⟩ := hh
    have hcur : CacheCur (w.pools p) (s.fl.w.pools p) s.fl.w.time s.fl.cache := by rw [f.time]; exact bt.track.cur
    obtain ⟨_, va⟩ := calcPositionData_ok hcur (f.bal_nonneg .coll) (f.bal_nonneg .liab) hcalc
    have hC := collValue_congr (w' := w) f.oracle.symm f.time.symm va.coll
    have hL := liabValue_congr (w' := w) f.oracle.symm f.time.symm va.liab
    have hC0 := collValue_nonneg hC hpr (hr.ratesPos hp) (f.bal_nonneg .coll)
    have hL0 := liabValue_nonneg hL hpr (hr.ratesPos hp) (f.bal_nonneg .liab)
    obtain ⟨n, ⟨j, hj, hdec⟩, hsc⟩ := va.scalar
    have hund : pd.isHfUnder 10000100 = .ok false := by
      rw [hunder]; simp only [Bool.not_eq_true] at hn; rw [hn]
    refine ⟨_, _, n, hC, hL, ⟨j, hj, by rw [← f.oracle]; exact hdec⟩, ?_⟩
    obtain ⟨k, ⟨h1, h2⟩ | h0⟩ := isHfUnder_false hsc hC0 hL0 hund
    · exact hf_healthy h1 hL0 h2
    · rw [h0]; exact ⟨hC0, fun _ => by omega⟩
  · have hexec : ∃ pos w1, executeSubmit w p auth sender spender dst reqs = .ok (pos, w1) := by
      simp only [step, bind_ok, require_ok, call, requireAuth_ok, ite_ok, pure_ok, Prod.exists] at hs
      obtain ⟨_, _, _, _, _, _, hs⟩ := hs
      rcases hs with ⟨_, _, _, pos, w1, h1, _⟩ | ⟨_, pos, w1, h1, _⟩
      · exact ⟨pos, w1, h1⟩
      · exact ⟨pos, w1, h1⟩
    obtain ⟨pos, w1, hsub⟩ := hexec
    obtain ⟨_, cache2, s2, _, w2, _, hc2, hs2, _, _, ht, _⟩ := executeSubmit_ok hsub
    rw [v.load] at hc2; cases hc2
    have : Except.ok s = Except.ok s2 := v.fold.symm.trans hs2
    cases this
    rw [hacc]
    show s.actions.spender.bal t ≤ _
    cases hg : s.actions.spender.get t with
    | none =>
      unfold SMap.bal; rw [hg]
      exact (plan.nonneg (hr.ratesPos hp) v.sender_ne (fun t => le_refl 0) (fun t => le_refl 0) hr.base.balances).2.2 t spender
    | some x =>
      have := transfers_enough _ _ _ s.actions.spender.sorted ht (t, x) (SMap.mem_toList.2 hg)
      unfold SMap.bal; rw [hg]
      exact this
  · have h1 := v.bal t p
    have h2 := (hr.step hs).base.balances t p
    rw [if_pos rfl, if_neg (Ne.symm v.spender_ne), if_neg (Ne.symm v.dst_ne)] at h1
    rw [hacc]
    show s.actions.pool.bal t ≤ s.fl.w.balance t p + s.actions.spender.bal t
    omega

/-- the plan of a submit leads to one set of books only -/
theorem _root_.Blend.Spec.FullPlan.unique (hrt : RatesPos (w.pools p) w.time) {l : List Request} {B B1 : Books}
    (h : FullPlan w p sender l B B1) : ∀ {B2}, FullPlan w p sender l B B2 → B1 = B2 := by
  induction h with
  | nil B => intro B2 h; cases h; rfl
  | plain c0 c1 c2 c3 _ _ ih =>
    intro B2 h
    cases h with
    | plain d0 d1 d2 d3 _ d5 =>
      rw [c1] at d1; cases d1
      have := Current.unique c2 d2
      subst this
      have hr := hrt _ _ c2
      have := Effect.unique hr.1 hr.2 c3 d3
      subst this
      exact ih d5
    | auction d1 _ =>
      have := d1.type_ge
      omega
  | auction c1 _ ih =>
    intro B2 h
    cases h with
    | plain d0 =>
      have := c1.type_ge
      omega
    | auction d1 d2 =>
      have := c1.unique d1
      subst this
      exact ih d2

end Pool
end Blend
