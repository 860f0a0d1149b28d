import Verif.Lemmas.LivePlain
/-
  A submit of plain requests goes through exactly when it is in order (C59).
-/

namespace Blend
namespace Pool
open Spec

variable {E : Err → Bool} {w : World} {p : Address} {i : PoolInst}

theorem bump_nonneg {f : Nat → Int} {t : Nat} {x : Int} (hf : ∀ k, 0 ≤ f k) (hx : 0 ≤ x) : ∀ k, 0 ≤ bump f t x k := by
  intro k
  have := hf k
  unfold bump
  split <;> omega

theorem _root_.Blend.Spec.Effect.nonneg {b d : Int} {i : Nat} {A A1 : Account} {q : Request} (hb : 0 ≤ b)
    (h : Effect b d i A q A1) (h1 : ∀ t, 0 ≤ A.pays t) (h2 : ∀ t, 0 ≤ A.gets t) : (∀ t, 0 ≤ A1.pays t) ∧ ∀ t, 0 ≤ A1.gets t := by
  have o9 : (0 : Int) < ONE9 := by decide
  have key : ∀ {v s : Int}, 0 < s → IsFloor v (s * b) ONE9 → 0 ≤ v := by
    intro v s hs hv
    have h3 := hv.2
    have h4 : 0 ≤ s * b := mul_nonneg hs.le hb
    by_contra hneg
    have : v + 1 ≤ 0 := by omega
    nlinarith
  cases h with
  | supply a1 _ _ => exact ⟨bump_nonneg h1 a1, h2⟩
  | withdraw a1 _ _ _ => exact ⟨h1, bump_nonneg h2 a1⟩
  | withdrawAll _ _ _ a1 a2 => exact ⟨h1, bump_nonneg h2 (key a1 a2)⟩
  | supplyCollateral a1 _ _ => exact ⟨bump_nonneg h1 a1, h2⟩
  | withdrawCollateral a1 _ _ _ => exact ⟨h1, bump_nonneg h2 a1⟩
  | withdrawCollateralAll _ _ _ a1 a2 => exact ⟨h1, bump_nonneg h2 (key a1 a2)⟩
  | borrow a1 _ _ => exact ⟨h1, bump_nonneg h2 a1⟩
  | repay a1 _ _ _ => exact ⟨bump_nonneg h1 a1, h2⟩
  | repayAll a1 _ _ _ _ a2 => exact ⟨bump_nonneg h1 a1, bump_nonneg h2 (by omega)⟩

theorem _root_.Blend.Spec.Plan.nonneg {ps : PoolState} {now : Nat} (hrt : RatesPos ps now) {A0 : Account} {l : List Request} {A A' : Account}
    (h : Plan ps now A0 l A A') : (∀ t, 0 ≤ A.pays t) → (∀ t, 0 ≤ A.gets t) → (∀ t, 0 ≤ A'.pays t) ∧ ∀ t, 0 ≤ A'.gets t := by
  induction h with
  | nil A => exact fun h1 h2 => ⟨h1, h2⟩
  | cons _ hcur he _ _ ih =>
    intro h1 h2
    obtain ⟨k1, k2⟩ := he.nonneg (hrt _ _ hcur).1.le h1 h2
    exact ih k1 k2

theorem storeAll_live {cache : Cache} (h : ∀ a ∈ cache.toStore, ∃ r, cache.reserves.get a = some r) (x : PoolState) :
    NoErr E (cache.storeAll x) := by
  unfold Cache.storeAll
  have : ∀ (l : List Address) (x : PoolState), (∀ a ∈ l, ∃ r, cache.reserves.get a = some r) →
      NoErr E (l.foldlM (fun ps a => match cache.reserves.get a with
        | some r => Pure.pure (r.store ps)
        | none => .error (.pool .internalReserveNotFound)) x) := by
    intro l
    induction l with
    | nil => intro x _; exact NoErr.pure
    | cons b l ih =>
      intro x hl
      rw [List.foldlM_cons]
      obtain ⟨r, hr⟩ := hl b (List.mem_cons_self ..)
      refine NoErr.bind ?_ fun y _ => ih y fun z hz => hl z (List.mem_cons_of_mem _ hz)
      rw [hr]; exact NoErr.pure
  exact this _ _ h

theorem start_between (hr : Reachable w) {cache : Cache} {sender : Address} (hc : Cache.load (w.pools p) = .ok cache) :
    Between w p (startState w p cache sender) :=
  ⟨(track_start hr hc).1, rfl, fun _ _ => rfl⟩

theorem start_acct {cache : Cache} {sender : Address} : (startState w p cache sender).acct = accountOf (w.pools p) sender := by
  unfold SubmitState.acct accountOf startState User.load
  simp [SMap.bal]

theorem start_count (hr : Reachable w) (hp : w.poolAddr p = true) {sender : Address} (hs : sender ≠ p) {cache : Cache}
    (hc : Cache.load (w.pools p) = .ok cache) :
    (getPositions (w.pools p) sender).effectiveCount = openPositions (w.pools p).resList.length (accountOf (w.pools p) sender) := by
  have f := flight_of (auth := []) (l := []) hr hp hs hc (by rw [foldlM_nil])
  have := f.count
  rw [start_acct] at this
  exact this

theorem orderly_live (hr : Reachable w) (hp : w.poolAddr p = true) {auth : List Address} {sender spender dst : Address} {reqs : List Request}
    (hov : E .overflow = false) (hcall : Caller w p auth sender spender dst) (hi : (w.pools p).inst = some i) (hpl : ∀ q ∈ reqs, Plain q)
    (hpr : (∃ q ∈ reqs, q.type = 3 ∨ q.type = 4) → PricesOk w (w.pools p)) {A : Account} (h : Orderly w p i sender reqs A)
    (hpay : E .token = true → ∀ t, A.pays t ≤ w.balance t spender)
    (hget : E .token = true → ∀ t, A.gets t ≤ w.balance t p + A.pays t) :
    NoErr E (step w (.pool p auth (.submit sender spender dst reqs))) := by
  obtain ⟨hauth, ha1, ha2, hs, hsp, hd⟩ := hcall
  have hexec : NoErr E (executeSubmit w p auth sender spender dst reqs) := by
    unfold executeSubmit buildActions
    refine NoErr.bind (NoErr.req (by simp [hs, hsp, hd])) fun _ _ => ?_
    refine NoErr.bind ?_ fun cache hc => ?_
    · unfold Cache.load PoolState.getInst
      exact NoErr.bind (NoErr.unwrap hi) fun _ _ => NoErr.pure
    have hlive := plan_live (E := E) (auth := auth) hr hp hs hov hc hi reqs [] (startState w p cache sender) A
      (fun q hq => ⟨hpl q hq, h.permitted q hq⟩) (by rw [foldlM_nil]) (start_between hr hc) (by rw [start_acct]; exact h.plan)
    have hconf : cache.config = i.config := by
      obtain ⟨_, _, _, i', hi', e3⟩ := load_ok (now := w.time) hc
      rw [hi] at hi'; cases hi'
      exact e3
    refine NoErr.bind ?_ fun s hs' => ?_
    · refine NoErr.bind hlive.1 fun s hs' => NoErr.bind ?_ fun _ _ => NoErr.pure
      have f := flight_of hr hp hs hc hs'
      unfold requireUnderMax
      refine NoErr.req ?_
      rw [f.count, hlive.2 s hs']
      show ¬ (_ > (getPositions (w.pools p) sender).effectiveCount ∧ _)
      rw [start_count hr hp hs hc, (requests_config hs').1]
      show ¬ (_ ∧ cache.config.maxPositions < _)
      rw [hconf]
      have := h.count
      omega
    simp only [bind_ok, pure_ok] at hs'
    obtain ⟨s', hs', _, _, rfl⟩ := hs'
    have hs'' : reqs.foldlM (processRequest p auth) (startState w p cache sender) = .ok s' := hs'
    have f := flight_of hr hp hs hc hs''
    have hA := hlive.2 s' hs'
    obtain ⟨bt, _⟩ := plans hr hp hs hc reqs [] _ s' hpl (by rw [foldlM_nil]) (start_between hr hc) hs''
    refine NoErr.bind (health_flight hr hp hov f bt.track fun hck hde => ?_) fun cache' hc' => ?_
    · have hrisk : ∃ q ∈ reqs, q.type = 3 ∨ q.type = 4 := by
        rw [requests_check hs''] at hck
        simp only [startState, Bool.false_or, List.any_eq_true] at hck
        obtain ⟨q, hq, hrq⟩ := hck
        have hp1 := hpl q hq
        unfold Plain at hp1
        simp only [risky, decide_eq_true_eq] at hrq
        exact ⟨q, hq, by omega⟩
      refine ⟨hpr hrisk, ?_⟩
      obtain ⟨pos, hpos, hh⟩ := h.health hrisk (by rw [← hA]; exact f.noDebt.1 hde)
      refine healthy_congr (fun k => ?_) (fun k => ?_) hh
      · rw [(hpos k).2.1, ← hA]; rfl
      · rw [(hpos k).2.2, ← hA]; rfl
    have ext := healthCheck_ext (fun a r har => by rw [f.time]; exact f.cacheOk.res a r har) hc'
    obtain ⟨n1, n2⟩ := h.plan.nonneg (hr.ratesPos hp) (fun t => le_refl 0) (fun t => le_refl 0)
    have hkv1 : ∀ kv ∈ s'.actions.spender.toList, kv.2 = A.pays kv.1 := by
      intro kv hkv
      rw [← hA]
      show _ = s'.actions.spender.bal kv.1
      unfold SMap.bal
      rw [SMap.mem_toList.1 hkv]; rfl
    have hkv2 : ∀ kv ∈ s'.actions.pool.toList, kv.2 = A.gets kv.1 := by
      intro kv hkv
      rw [← hA]
      show _ = s'.actions.pool.bal kv.1
      unfold SMap.bal
      rw [SMap.mem_toList.1 hkv]; rfl
    refine NoErr.bind (transfers_live hov (Ne.symm hsp) _ _ s'.actions.spender.sorted (fun kv hkv => ?_) fun hE kv hkv => ?_) fun w1 hw1 => ?_
    · rw [hkv1 kv hkv]; exact n1 _
    · rw [hkv1 kv hkv, bt.bal]; exact hpay hE _
    refine NoErr.bind (storeAll_live (fun a ha => ?_) _) fun ps1 _ => ?_
    · rw [ext.toStore, f.cacheOk.store] at ha
      obtain ⟨r, hr'⟩ := Option.isSome_iff_exists.1 ha
      exact ⟨r, ext.old a r hr'⟩
    refine NoErr.bind (transfers_live hov hd _ _ s'.actions.pool.sorted (fun kv hkv => ?_) fun hE kv hkv => ?_) fun _ _ => NoErr.pure
    · rw [hkv2 kv hkv]; exact n2 _
    · rw [hkv2 kv hkv]
      show _ ≤ w1.balance _ _
      obtain ⟨_, _, hb, _⟩ := transfers_fold _ _ _ hw1
      rw [hb, lsum_toList, bt.bal, if_pos rfl, if_neg (Ne.symm hsp)]
      have := hget hE kv.1
      have hA' : s'.actions.spender.bal kv.1 = A.pays kv.1 := by rw [← hA]; rfl
      rw [hA']
      omega
  unfold step call
  refine NoErr.bind (NoErr.req hp) fun _ _ => NoErr.bind (NoErr.req hauth) fun _ _ => ?_
  refine NoErr.bind (NoErr.req ha2) fun _ _ => ?_
  dsimp only
  split
  · exact NoErr.bind (NoErr.req ha1) fun _ _ => NoErr.bind hexec fun _ _ => NoErr.pure
  · exact NoErr.bind hexec fun _ _ => NoErr.pure

/-- a submit that went through was in order -/
theorem orderly_of_ok {w' : World} (hr : Reachable w) {auth : List Address} {sender spender dst : Address} {reqs : List Request}
    (hs : step w (.pool p auth (.submit sender spender dst reqs)) = .ok w') (hi : (w.pools p).inst = some i) (hpl : ∀ q ∈ reqs, Plain q)
    (hpr : PricesOk w (w.pools p)) : ∃ A, Orderly w p i sender reqs A ∧ (∀ t, A.pays t ≤ w.balance t spender) ∧
      (∀ t, A.gets t ≤ w.balance t p + A.pays t) ∧ HasPositions A (getPositions (w'.pools p) sender) ∧
      ∀ t x, w'.balance t x = w.balance t x + (if x = p then A.pays t - A.gets t else 0) - (if x = spender then A.pays t else 0)
        + (if x = dst then A.gets t else 0) := by
  obtain ⟨hp, cache, s, v⟩ := submit_view hr hs
  have f := v.flight
  obtain ⟨bt, plan⟩ := plans hr hp v.sender_ne v.load reqs [] _ s hpl (by rw [foldlM_nil]) (start_between hr v.load) v.fold
  rw [start_acct] at plan
  have hconf : s.fl.cache.config = i.config := by
    obtain ⟨_, _, _, i', hi', e3⟩ := load_ok (now := w.time) v.load
    rw [hi] at hi'; cases hi'
    exact (requests_config v.fold).1.trans e3
  have hpos : getPositions (w'.pools p) sender = s.fl.user.pos := by
    rw [v.pools, ← f.addr]; exact getPositions_overlay_last _ _ [] _
  have hfin : HasPositions s.acct (getPositions (w'.pools p) sender) := by
    rw [hpos]; exact fun k => ⟨rfl, rfl, rfl⟩
  refine ⟨s.acct, ⟨plan, fun q hq => ?_, ?_, fun hrisk hdebt => ⟨s.fl.user.pos, fun k => ⟨rfl, rfl, rfl⟩, ?_⟩⟩, fun t => ?_, fun t => ?_, hfin,
    fun t x => ?_⟩
  · obtain ⟨l1, l2, s1, s2, _, h1, h2, _⟩ := foldlM_split v.fold hq
    obtain ⟨_, ha, _⟩ := processRequest_ok h2
    obtain ⟨_, _, _, i', hi', e3⟩ := load_ok (now := w.time) v.load
    rw [hi] at hi'; cases hi'
    rw [(requests_config h1).1] at ha
    unfold requireActionAllowed at ha
    rw [require_ok] at ha
    have e : (startState w p cache sender).fl.cache.config = i.config := e3
    rw [e] at ha
    unfold Permitted
    omega
  · have := v.max
    unfold requireUnderMax at this
    rw [require_ok, f.count, start_count hr hp v.sender_ne v.load, hconf] at this
    omega
  · have hc : s.check = true := by
      rw [requests_check v.fold]
      have : reqs.any risky = true := by
        obtain ⟨q, hm, ht⟩ := hrisk
        exact List.any_eq_true.2 ⟨q, hm, by simp only [risky, decide_eq_true_eq]; omega⟩
      rw [this]; simp
    obtain ⟨cache', hh⟩ := v.health
    unfold healthCheck at hh
    rw [if_pos ⟨hc, f.noDebt.2 hdebt⟩] at hh
    simp only [bind_ok, Prod.exists, require_ok, pure_ok] at hh
    obtain ⟨pd, c1, hcalc, under, hunder, _, hn, _⟩ := hh
    have hcur : CacheCur (w.pools p) (s.fl.w.pools p) s.fl.w.time s.fl.cache := by rw [f.time]; exact bt.track.cur
    obtain ⟨_, va⟩ := calcPositionData_ok hcur (f.bal_nonneg .coll) (f.bal_nonneg .liab) hcalc
    have hC := collValue_congr (w' := w) f.oracle.symm f.time.symm va.coll
    have hL := liabValue_congr (w' := w) f.oracle.symm f.time.symm va.liab
    have hC0 := collValue_nonneg hC hpr (hr.ratesPos hp) (f.bal_nonneg .coll)
    have hL0 := liabValue_nonneg hL hpr (hr.ratesPos hp) (f.bal_nonneg .liab)
    obtain ⟨n, ⟨j, hj, hdec⟩, hsc⟩ := va.scalar
    have hund : pd.isHfUnder 10000100 = .ok false := by
      rw [hunder]; simp only [Bool.not_eq_true] at hn; rw [hn]
    refine ⟨_, _, n, hC, hL, ⟨j, hj, by rw [← f.oracle]; exact hdec⟩, ?_⟩
    obtain ⟨k, ⟨h1, h2⟩ | h0⟩ := isHfUnder_false hsc hC0 hL0 hund
    · exact hf_healthy h1 hL0 h2
    · rw [h0]; exact ⟨hC0, fun _ => by omega⟩
  · have hexec : ∃ pos w1, executeSubmit w p auth sender spender dst reqs = .ok (pos, w1) := by
      simp only [step, bind_ok, require_ok, call, requireAuth_ok, ite_ok, pure_ok, Prod.exists] at hs
      obtain ⟨_, _, _, _, _, _, hs⟩ := hs
      rcases hs with ⟨_, _, _, pos, w1, h1, _⟩ | ⟨_, pos, w1, h1, _⟩
      · exact ⟨pos, w1, h1⟩
      · exact ⟨pos, w1, h1⟩
    obtain ⟨pos, w1, hsub⟩ := hexec
    obtain ⟨_, cache2, s2, _, w2, _, hc2, hs2, _, _, ht, _⟩ := executeSubmit_ok hsub
    rw [v.load] at hc2; cases hc2
    have : Except.ok s = Except.ok s2 := v.fold.symm.trans hs2
    cases this
    show s.actions.spender.bal t ≤ _
    cases hg : s.actions.spender.get t with
    | none =>
      unfold SMap.bal; rw [hg]
      exact hr.base.balances t spender
    | some x =>
      have := transfers_enough _ _ _ s.actions.spender.sorted ht (t, x) (SMap.mem_toList.2 hg)
      rw [bt.bal] at this
      unfold SMap.bal; rw [hg]
      exact this
  · have h1 := v.bal t p
    have h2 := (hr.step hs).base.balances t p
    rw [if_pos rfl, if_neg (Ne.symm v.spender_ne), if_neg (Ne.symm v.dst_ne), bt.bal] at h1
    show s.actions.pool.bal t ≤ _ + s.actions.spender.bal t
    omega
  · rw [v.bal, bt.bal]; rfl

end Pool
end Blend
