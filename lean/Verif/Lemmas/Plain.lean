import Verif.Spec.Submit
import Verif.Lemmas.SubmitView
/-
  Plain requests (supply, withdraw, borrow, repay): the model's functions against the specification.
-/

namespace Blend
namespace Pool
open Spec

theorem floor_spec {x y z v : Int} (h : mulDivFloor x y z = .ok v) (hz : 0 < z) : IsFloor v (x * y) z := by
  have := mulDivFloor_spec h hz
  exact ⟨this.1, by nlinarith [this.2]⟩

theorem ceil_spec {x y z v : Int} (h : mulDivCeil x y z = .ok v) (hz : 0 < z) : IsCeil v (x * y) z := by
  have := mulDivCeil_spec h hz
  exact ⟨by nlinarith [this.2], this.1⟩

/-- a submit in progress seen from outside -/
def SubmitState.acct (s : SubmitState) : Account where
  supplied i := s.fl.user.pos.supply.bal i
  collateral i := s.fl.user.pos.collateral.bal i
  debt i := s.fl.user.pos.liabilities.bal i
  pays t := s.actions.spender.bal t
  gets t := s.actions.pool.bal t

theorem addSpender_exact {a a' : Actions} {t : Address} {x : Int} (h : a.addSpender t x = .ok a') :
    (fun b => a'.spender.bal b) = bump (fun b => a.spender.bal b) t x ∧ a'.pool = a.pool := by
  unfold Actions.addSpender at h
  simp only [bind_ok, chk_ok, pure_ok] at h
  obtain ⟨v, ⟨_, rfl⟩, rfl⟩ := h
  refine ⟨funext fun b => ?_, rfl⟩
  simp only [SMap.bal_set, bump]
  split
  · subst_vars; omega
  · rfl

theorem addPool_exact {a a' : Actions} {t : Address} {x : Int} (h : a.addPool t x = .ok a') :
    (fun b => a'.pool.bal b) = bump (fun b => a.pool.bal b) t x ∧ a'.spender = a.spender := by
  unfold Actions.addPool at h
  simp only [bind_ok, chk_ok, pure_ok] at h
  obtain ⟨v, ⟨_, rfl⟩, rfl⟩ := h
  refine ⟨funext fun b => ?_, rfl⟩
  simp only [SMap.bal_set, bump]
  split
  · subst_vars; omega
  · rfl

theorem bump_set {m : SMap Int} {i : Nat} {x : Int} : (fun j => (m.set i (m.bal i + x)).bal j) = bump (fun j => m.bal j) i x := by
  funext j; simp only [SMap.bal_set, bump]; split
  · subst_vars; rfl
  · rfl

theorem bump_setBal {m : SMap Int} {i : Nat} {x : Int} : (fun j => (setBal m i (m.bal i - x)).bal j) = bump (fun j => m.bal j) i (-x) := by
  funext j; rw [bal_setBal]; simp only [bump]; split
  · subst_vars; omega
  · rfl

/-- what a plain request does to a submit in progress -/
structure PlainStep (w : World) (p : Address) (s s' : SubmitState) (q : Request) : Prop where
  ex : ∃ r r' cache, Loaded (s.fl.w.pools p) w.time s.fl.cache q.address r cache ∧ LoadedOk w p s q.address r ∧
    s'.fl.cache.reserves = s.fl.cache.reserves.set q.address r' ∧
    r'.data.bRate = r.data.bRate ∧ r'.data.dRate = r.data.dRate ∧
    Effect r.data.bRate r.data.dRate r.index s.acct q s'.acct ∧
    (r'.data.bSupply - r.data.bSupply = s'.acct.supplied r.index + s'.acct.collateral r.index
      - (s.acct.supplied r.index + s.acct.collateral r.index) ∧
     r'.data.dSupply - r.data.dSupply = s'.acct.debt r.index - s.acct.debt r.index) ∧
    (q.type = 4 → r'.requireUtilBelowMax = .ok ()) ∧ r'.data.backstopCredit = r.data.backstopCredit ∧
    r'.data.irMod = r.data.irMod ∧ ResMatch (s.fl.w.pools p) w.time q.address r'
  bal : ∀ t x, s'.fl.w.balance t x = s.fl.w.balance t x
  frame : ∃ ps', s'.fl.w = s.fl.w.setPool p ps' ∧ ps'.positions = (s.fl.w.pools p).positions ∧ ps'.auctions = (s.fl.w.pools p).auctions

/-- the account after a share operation -/
theorem acct_share {s : SubmitState} {k : Kind} {add : Bool} {ps ps' : PoolState} {now : Nat} {r r' : Reserve} {amt : Int} {u' : User}
    {w' : World} {cache : Cache} {acts : Actions} {c : Bool} (hs : ShareRes k add ps now s.fl.user r amt ps' u' r') :
    SubmitState.acct ⟨⟨w', cache, u'⟩, acts, c⟩ =
      { supplied := if k = .supp then bump s.acct.supplied r.index (if add then amt else -amt) else s.acct.supplied
        collateral := if k = .coll then bump s.acct.collateral r.index (if add then amt else -amt) else s.acct.collateral
        debt := if k = .liab then bump s.acct.debt r.index (if add then amt else -amt) else s.acct.debt
        pays := fun t => acts.spender.bal t
        gets := fun t => acts.pool.bal t } := by
  obtain ⟨_, _, _, _, hp⟩ := hs
  cases add <;> cases k <;> simp only [if_true, if_false, Bool.false_eq_true, Kind.map, Kind.put] at hp <;>
    simp [SubmitState.acct, hp, bump_set, bump_setBal]

theorem plain_core {w : World} {p sender : Address} {s : SubmitState} (f : FlightOk w p sender s) {q : Request} {r : Reserve}
    {cache : Cache} (hl : s.fl.cache.loadReserve (s.fl.w.pools p) s.fl.w.time q.address true = .ok (r, cache))
    {k : Kind} {add : Bool} {amt : Int} {ps' : PoolState} {u' : User} {r' : Reserve} {acts : Actions} {c : Bool}
    (hs : ShareRes k add (s.fl.w.pools p) s.fl.w.time s.fl.user r amt ps' u' r')
    (hut : q.type = 4 → r'.requireUtilBelowMax = .ok ())
    (he : LoadedOk w p s q.address r →
      Effect r.data.bRate r.data.dRate r.index s.acct q (SubmitState.acct ⟨⟨s.fl.w.setPool p ps', cache.put r', u'⟩, acts, c⟩)) :
    PlainStep w p s ⟨⟨s.fl.w.setPool p ps', cache.put r', u'⟩, acts, c⟩ q := by
  have hld := loadReserve_true (by rw [f.time]; exact f.cacheOk) hl
  rw [f.time] at hld
  have hlo := f.loadedOk hld
  have hacct := acct_share (w' := s.fl.w.setPool p ps') (cache := cache.put r') (acts := acts) (c := c) hs
  obtain ⟨_, ⟨x, hem⟩, _, hr', _⟩ := hs
  obtain ⟨ed, ue, hps', _⟩ := updateEmissions_frame hem
  refine ⟨⟨r, r', cache, hld, hlo, ?_, ?_, ?_, he hlo, ?_, hut, ?_, ?_, ?_⟩, fun t x => balance_setPool _ _ _ _ _,
    ps', rfl, by subst hps'; rfl, by subst hps'; rfl⟩
  · show (cache.put r').reserves = _
    rw [Cache.put, hld.reserves, hr']
    show s.fl.cache.reserves.set r.asset _ = _
    rw [hld.rm.asset]
  · rw [hr']; cases k <;> rfl
  · rw [hr']; cases k <;> rfl
  · rw [hacct, hr']
    cases k <;> simp [Kind.addSupply, bump] <;> omega
  · rw [hr']; cases k <;> rfl
  · rw [hr']; cases k <;> rfl
  · obtain ⟨m1, m2, m3⟩ := hld.rm
    subst hr'
    exact ⟨m1, by rw [addSupply_lastTime]; exact m2, m3⟩

theorem share_le {k : Kind} {ps ps' : PoolState} {now : Nat} {u u' : User} {r r' : Reserve} {amt : Int}
    (hs : ShareRes k false ps now u r amt ps' u' r') : amt ≠ 0 ∧ amt ≤ (k.map u.pos).bal r.index := by
  obtain ⟨h0, _, _, _, hp⟩ := hs
  simp only [Bool.false_eq_true, if_false] at hp
  exact ⟨h0, by omega⟩

theorem ceil_pos {m n b : Int} (h : IsCeil m (n * ONE9) b) (hb : 0 < b) (hn : 0 ≤ n) (h0 : m ≠ 0) : 0 < m := by
  have := h.2
  by_contra hc
  have hm : m ≤ -1 := by omega
  have : m * b < 0 := by nlinarith
  have : 0 ≤ n * ONE9 := by positivity
  omega

theorem floor_pos {m n b : Int} (h : IsFloor m (n * ONE9) b) (hb : 0 < b) (hn : 0 ≤ n) (h0 : m ≠ 0) : 0 < m := by
  have := h.2
  by_contra hc
  have hm : m ≤ -1 := by omega
  have : (m + 1) * b ≤ 0 := by nlinarith
  have : 0 ≤ n * ONE9 := by positivity
  omega

theorem FlightOk.bal_nonneg {w : World} {p sender : Address} {s : SubmitState} (f : FlightOk w p sender s) (k : Kind) (i : Nat) :
    0 ≤ (k.map s.fl.user.pos).bal i := by
  refine f.pinv.bal_nonneg k s.fl.user.addr s.fl.user.pos i ?_
  show ((overlay _ _ ([] ++ [s.fl.user])).positions).get _ = _
  rw [overlay_positions_append, SMap.get_set]; simp

theorem withdrawAmounts_exact {d : ReserveData} {cur amt burn out : Int} (hb : 0 < d.bRate)
    (h : withdrawAmounts d cur amt = .ok (burn, out)) :
    ∃ m, IsCeil m (amt * ONE9) d.bRate ∧ ((cur < m ∧ burn = cur ∧ IsFloor out (cur * d.bRate) ONE9) ∨ (burn = m ∧ out = amt ∧ m ≤ cur)) := by
  unfold withdrawAmounts at h
  simp only [bind_ok, ite_ok, pure_ok, Prod.mk.injEq] at h
  obtain ⟨b, hb1, ⟨hc, o, ho, rfl, rfl⟩ | ⟨hc, rfl, rfl⟩⟩ := h
  · exact ⟨b, ceil_spec hb1 hb, .inl ⟨hc, rfl, floor_spec ho S9_pos⟩⟩
  · exact ⟨b, ceil_spec hb1 hb, .inr ⟨rfl, rfl, by omega⟩⟩

theorem plain_step {w : World} {p sender : Address} {auth : List Address} {s s' : SubmitState} (f : FlightOk w p sender s)
    {q : Request} (hq : Plain q) (h : processRequest p auth s q = .ok s') : PlainStep w p s s' q := by
  obtain ⟨hn, _, h1⟩ := processRequest_ok h
  clear h
  rename' h1 => h
  obtain ⟨ty, t, n⟩ := q
  simp only [Plain] at hq
  dsimp only at hn h
  rcases h with ⟨ht, h⟩ | ⟨ht, h⟩ | ⟨ht, h⟩ | ⟨ht, h⟩ | ⟨ht, h⟩ | ⟨ht, h⟩ | ⟨ht, h⟩ | ⟨ht, h⟩ | ⟨ht, h⟩ | ⟨ht, h⟩
  · subst ht
    unfold reqSupply at h
    simp only [bind_ok, Prod.exists, pure_ok] at h
    obtain ⟨r, cache, hl, m, hm, ps', u', r', hf, acts, ha, rfl⟩ := h
    have hs := isAddSupp hf
    refine plain_core f hl hs (by simp) fun hlo => ?_
    have hb : 0 < r.data.bRate := by have := hlo.bRate; omega
    obtain ⟨e1, e2⟩ := addSpender_exact ha
    rw [hlo.rm.asset] at e1
    rw [acct_share hs, e1, e2]
    have hfl := floor_spec hm hb
    exact Effect.supply hn hfl (floor_pos hfl hb hn hs.1)
  · subst ht
    unfold reqWithdraw at h
    simp only [bind_ok, Prod.exists, pure_ok] at h
    obtain ⟨r, cache, hl, burn, out, hw, ps', u', r', hf, acts, ha, rfl⟩ := h
    have hs := isRemoveSupp hf
    refine plain_core f hl hs (by simp) fun hlo => ?_
    have hb : 0 < r.data.bRate := by have := hlo.bRate; omega
    obtain ⟨e1, e2⟩ := addPool_exact ha
    rw [hlo.rm.asset] at e1
    rw [acct_share hs, e1, e2]
    have hle := share_le hs
    have h0 := f.bal_nonneg .supp r.index
    obtain ⟨m, hm, ⟨hc, rfl, ho⟩ | ⟨rfl, rfl, hc⟩⟩ := withdrawAmounts_exact hb hw
    · exact Effect.withdrawAll hn hm hc (by simp only [Kind.map] at h0; have := hle.1; simp only [SubmitState.acct]; omega) ho
    · exact Effect.withdraw hn hm (ceil_pos hm hb hn hle.1) hc
  · subst ht
    unfold reqSupply at h
    simp only [bind_ok, Prod.exists, pure_ok] at h
    obtain ⟨r, cache, hl, m, hm, ps', u', r', hf, acts, ha, rfl⟩ := h
    have hs := isAddColl hf
    refine plain_core f hl hs (by simp) fun hlo => ?_
    have hb : 0 < r.data.bRate := by have := hlo.bRate; omega
    obtain ⟨e1, e2⟩ := addSpender_exact ha
    rw [hlo.rm.asset] at e1
    rw [acct_share hs, e1, e2]
    have hfl := floor_spec hm hb
    exact Effect.supplyCollateral hn hfl (floor_pos hfl hb hn hs.1)
  · subst ht
    unfold reqWithdrawColl at h
    simp only [bind_ok, Prod.exists, pure_ok] at h
    obtain ⟨r, cache, hl, burn, out, hw, ps', u', r', hf, acts, ha, rfl⟩ := h
    have hs := isRemoveColl hf
    refine plain_core f hl hs (by simp) fun hlo => ?_
    have hb : 0 < r.data.bRate := by have := hlo.bRate; omega
    obtain ⟨e1, e2⟩ := addPool_exact ha
    rw [hlo.rm.asset] at e1
    rw [acct_share hs, e1, e2]
    have hle := share_le hs
    have h0 := f.bal_nonneg .coll r.index
    obtain ⟨m, hm, ⟨hc, rfl, ho⟩ | ⟨rfl, rfl, hc⟩⟩ := withdrawAmounts_exact hb hw
    · exact Effect.withdrawCollateralAll hn hm hc (by simp only [Kind.map] at h0; have := hle.1; simp only [SubmitState.acct]; omega) ho
    · exact Effect.withdrawCollateral hn hm (ceil_pos hm hb hn hle.1) hc
  · subst ht
    unfold reqBorrow at h
    simp only [bind_ok, Prod.exists, pure_ok] at h
    obtain ⟨r, cache, hl, m, hm, ps', u', r', hf, _, hut, acts, ha, rfl⟩ := h
    have hs := isAddLiab hf
    refine plain_core f hl hs (fun _ => hut) fun hlo => ?_
    have hb : 0 < r.data.dRate := by have := hlo.dRate; omega
    obtain ⟨e1, e2⟩ := addPool_exact ha
    rw [hlo.rm.asset] at e1
    rw [acct_share hs, e1, e2]
    have hfl := ceil_spec hm hb
    exact Effect.borrow hn hfl (ceil_pos hfl hb hn hs.1)
  · subst ht
    unfold reqRepay at h
    simp only [bind_ok, Prod.exists, pure_ok, ite_ok] at h
    obtain ⟨r, cache, hl, burnt, hburn, acts, ha, h⟩ := h
    rcases h with ⟨hc, owed, ho, rf, hrf, _, hnn, ps', u', r', hf, acts', ha', rfl⟩ |
      ⟨hc, ps', u', r', hf, rfl⟩
    · rw [chk_ok] at hrf
      obtain ⟨_, rfl⟩ := hrf
      have hs := isRemoveLiab hf
      refine plain_core f hl hs (by simp) fun hlo => ?_
      have hb : 0 < r.data.dRate := by have := hlo.dRate; omega
      obtain ⟨e1, e2⟩ := addSpender_exact ha
      obtain ⟨e3, e4⟩ := addPool_exact ha'
      rw [hlo.rm.asset] at e1 e3
      rw [acct_share hs, e3, e4, e1, e2]
      have hle := share_le hs
      have h0 := f.bal_nonneg .liab r.index
      unfold requireNonneg at hnn
      rw [require_ok] at hnn
      exact Effect.repayAll hn (floor_spec hburn hb) hc
        (by simp only [Kind.map] at h0; have := hle.1; simp only [SubmitState.acct]; omega) (ceil_spec ho S9_pos) (by omega)
    · have hs := isRemoveLiab hf
      refine plain_core f hl hs (by simp) fun hlo => ?_
      have hb : 0 < r.data.dRate := by have := hlo.dRate; omega
      obtain ⟨e1, e2⟩ := addSpender_exact ha
      rw [hlo.rm.asset] at e1
      rw [acct_share hs, e1, e2]
      have hfl := floor_spec hburn hb
      exact Effect.repay hn hfl (floor_pos hfl hb hn hs.1) (share_le hs).2
  all_goals omega

/-- A list of plain requests, from any intermediate state of a submit: the effects add up at the rates in the cache of
the last state. -/
theorem plain_run {w : World} (hr : Reachable w) {p : Address} (hp : w.poolAddr p = true) {cache : Cache} {sender : Address}
    (hsp : sender ≠ p) (hc : Cache.load (w.pools p) = .ok cache) {auth : List Address} :
    ∀ (l l1 : List Request) (s s' : SubmitState), (∀ q ∈ l, Plain q) →
      l1.foldlM (processRequest p auth) (startState w p cache sender) = .ok s →
      l.foldlM (processRequest p auth) s = .ok s' →
      Run (overlay (s'.fl.w.pools p) s'.fl.cache [s'.fl.user]) l s.acct s'.acct ∧
      (∀ t x, s'.fl.w.balance t x = s.fl.w.balance t x) ∧
      (∀ a r, s.fl.cache.reserves.get a = some r → ∃ r', s'.fl.cache.reserves.get a = some r' ∧
        r'.data.bRate = r.data.bRate ∧ r'.data.dRate = r.data.dRate) := by
  intro l
  induction l with
  | nil =>
    intro l1 s s' _ _ h
    rw [foldlM_nil] at h
    subst h
    exact ⟨.nil _, fun _ _ => rfl, fun a r h => ⟨r, h, rfl, rfl⟩⟩
  | cons q l ih =>
    intro l1 s s' hq h1 h
    rw [foldlM_cons] at h
    obtain ⟨s1, hs1, h⟩ := h
    have fl := flight_of hr hp hsp hc h1
    obtain ⟨⟨r, r', cache', hld, hlo, hres, eb, ed, he, _, _⟩, hbal, _⟩ := plain_step fl (hq q (by simp)) hs1
    have h1' : (l1 ++ [q]).foldlM (processRequest p auth) (startState w p cache sender) = .ok s1 := by
      rw [List.foldlM_append, bind_ok]
      exact ⟨s, h1, by rw [foldlM_cons]; exact ⟨s1, hs1, rfl⟩⟩
    obtain ⟨k1, k2, k3⟩ := ih (l1 ++ [q]) s1 s' (fun x hx => hq x (by simp [hx])) h1' h
    have fl' : FlightOk w p sender s' := flight_of hr hp hsp hc (l := (l1 ++ [q]) ++ l) (auth := auth) (by
      rw [List.foldlM_append, bind_ok]; exact ⟨s1, h1', h⟩)
    obtain ⟨c, hcc, hi, _⟩ := hlo.cfg
    obtain ⟨r2, hr2, e1, e2⟩ := k3 q.address r' (by rw [hres]; simp)
    refine ⟨.cons (c := c) (d := r2.data) ?_ ?_ ?_ k1, fun t x => (k2 t x).trans (hbal t x), fun a ra ha => ?_⟩
    · show (s'.fl.w.pools p).resConfig _ = _
      rw [fl'.same.resConfig]; exact hcc
    · show overlayData _ _ _ = _
      simp [overlayData, hr2]
    · rw [e1, e2, eb, ed, ← hi]; exact he
    · by_cases haq : a = q.address
      · subst haq
        obtain ⟨r3, hr3, e3, e4⟩ := k3 q.address r' (by rw [hres]; simp)
        have hcache : r.data.bRate = ra.data.bRate ∧ r.data.dRate = ra.data.dRate := by
          obtain ⟨c0, d0, i0, _, hd0, _, _, hac⟩ := hld.data
          simp only [overlayData, ha, Option.some.injEq] at hd0
          subst hd0
          rw [accrue_idem (fl.cacheOk.res _ _ ha).time] at hac
          have hac := (Except.ok.inj hac).symm
          rw [hac]; exact ⟨rfl, rfl⟩
        exact ⟨r3, hr3, by rw [e3, eb, hcache.1], by rw [e4, ed, hcache.2]⟩
      · exact k3 a ra (by rw [hres, SMap.get_set_ne haq]; exact ha)

/-- **refinement**: a submit of plain requests does exactly what the specification says -/
theorem submit_plain {w w' : World} (hr : Reachable w) {p : Address} {auth : List Address} {sender spender dst : Address}
    {reqs : List Request} (hq : ∀ q ∈ reqs, Plain q) (h : step w (.pool p auth (.submit sender spender dst reqs)) = .ok w') :
    ∃ A, Run (w'.pools p) reqs (accountOf (w.pools p) sender) A ∧
      (∀ i, (getPositions (w'.pools p) sender).supply.bal i = A.supplied i ∧
        (getPositions (w'.pools p) sender).collateral.bal i = A.collateral i ∧
        (getPositions (w'.pools p) sender).liabilities.bal i = A.debt i) ∧
      ∀ t x, w'.balance t x = w.balance t x + (if x = p then A.pays t - A.gets t else 0)
        - (if x = spender then A.pays t else 0) + (if x = dst then A.gets t else 0) := by
  obtain ⟨hp, cache, s, v⟩ := submit_view hr h
  obtain ⟨k1, k2, k3⟩ := plain_run hr hp v.sender_ne v.load reqs [] _ s hq rfl v.fold
  refine ⟨s.acct, ?_, fun i => ?_, fun t x => ?_⟩
  · rw [v.pools]; exact k1
  · have : getPositions (w'.pools p) sender = s.fl.user.pos := by
      rw [v.pools, ← v.flight.addr]; exact getPositions_overlay_last _ _ [] _
    rw [this]; exact ⟨rfl, rfl, rfl⟩
  · rw [v.bal, k2]; rfl

end Pool
end Blend
