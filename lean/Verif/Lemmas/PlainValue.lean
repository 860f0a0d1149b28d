import Verif.Lemmas.Plain
/-
  Plain requests never create value for the account; utilization after a borrow; number of positions.
-/

namespace Blend
namespace Pool
open Spec

theorem effect_value {b d : Int} {i : Nat} {A A' : Account} {q : Request} (he : Effect b d i A q A') (hb : 0 < b) (hd : 0 < d) :
    b * (A'.supplied i + A'.collateral i - (A.supplied i + A.collateral i)) - d * (A'.debt i - A.debt i) ≤
      ONE9 * (A'.pays q.address - A'.gets q.address - (A.pays q.address - A.gets q.address)) := by
  cases he with
  | supply h0 h1 h2 => simp [bump]; nlinarith [h1.1]
  | withdraw h0 h1 h2 h3 => simp [bump]; nlinarith [h1.2]
  | withdrawAll h0 h1 h2 h3 h4 => simp [bump]; nlinarith [h4.1]
  | supplyCollateral h0 h1 h2 => simp [bump]; nlinarith [h1.1]
  | withdrawCollateral h0 h1 h2 h3 => simp [bump]; nlinarith [h1.2]
  | withdrawCollateralAll h0 h1 h2 h3 h4 => simp [bump]; nlinarith [h4.1]
  | borrow h0 h1 h2 => simp [bump]; nlinarith [h1.2]
  | repay h0 h1 h2 h3 => simp [bump]; nlinarith [h1.1]
  | repayAll h0 h1 h2 h3 h4 h5 => simp [bump]; nlinarith [h4.2]

theorem effect_other {b d : Int} {i : Nat} {A A' : Account} {q : Request} (he : Effect b d i A q A') :
    (∀ j, j ≠ i → A'.supplied j = A.supplied j ∧ A'.collateral j = A.collateral j ∧ A'.debt j = A.debt j) ∧
    (∀ t, t ≠ q.address → A'.pays t = A.pays t ∧ A'.gets t = A.gets t) := by
  cases he <;> exact ⟨fun j hj => by simp [bump, hj], fun t ht => by dsimp only at ht; simp [bump, ht]⟩

theorem run_value {ps : PoolState} (hcfg : CfgOk ps) (hrate : ∀ a d, ps.resData a = some d → 0 < d.bRate ∧ 0 < d.dRate)
    {l : List Request} {A A' : Account} (h : Run ps l A A') {t : Address} {c : ReserveConfig} {d : ReserveData}
    (hc : ps.resConfig t = some c) (hd : ps.resData t = some d) :
    d.bRate * (A'.supplied c.index + A'.collateral c.index - (A.supplied c.index + A.collateral c.index))
      - d.dRate * (A'.debt c.index - A.debt c.index) ≤ ONE9 * (A'.pays t - A'.gets t - (A.pays t - A.gets t)) := by
  induction h with
  | nil => simp
  | @cons q l A A1 A2 c' d' hc' hd' he hr ih =>
    by_cases ht : q.address = t
    · subst ht
      rw [hc] at hc'; rw [hd] at hd'
      cases hc'; cases hd'
      have := effect_value he (hrate _ _ hd).1 (hrate _ _ hd).2
      linarith
    · have hne : c.index ≠ c'.index := fun e => ht (hcfg.index_inj hc hc' e).symm
      have h1 := (effect_other he).1 _ hne
      have h2 := (effect_other he).2 t (Ne.symm ht)
      rw [h1.1, h1.2.1, h1.2.2, h2.1, h2.2] at ih
      exact ih

theorem _root_.Blend.Reachable.rates {w : World} (hr : Reachable w) {p : Address} (hp : w.poolAddr p = true) {a : Address} {d : ReserveData}
    (hd : (w.pools p).resData a = some d) : 0 < d.bRate ∧ 0 < d.dRate := by
  have := (hr.pinv hp).rates a d hd
  omega

theorem submit_value {w w' : World} (hr : Reachable w) {p : Address} {auth : List Address} {sender spender dst : Address}
    {reqs : List Request} (hq : ∀ q ∈ reqs, Plain q) (h : step w (.pool p auth (.submit sender spender dst reqs)) = .ok w')
    {t : Address} {c : ReserveConfig} {d : ReserveData} (hc : (w'.pools p).resConfig t = some c) (hd : (w'.pools p).resData t = some d) :
    d.bRate * ((getPositions (w'.pools p) sender).supply.bal c.index + (getPositions (w'.pools p) sender).collateral.bal c.index
        - ((getPositions (w.pools p) sender).supply.bal c.index + (getPositions (w.pools p) sender).collateral.bal c.index))
      - d.dRate * ((getPositions (w'.pools p) sender).liabilities.bal c.index - (getPositions (w.pools p) sender).liabilities.bal c.index)
      ≤ ONE9 * (w'.balance t p - w.balance t p) := by
  obtain ⟨A, hrun, hpos, hbal⟩ := submit_plain hr hq h
  obtain ⟨hp, cache, s, v⟩ := submit_view hr h
  have hr' : Reachable w' := hr.step h
  have hp' : w'.poolAddr p = true := by rw [(step_res hr.base h).poolAddr]; exact hp
  have := run_value (hr'.base.cfg p) (fun a d hd => hr'.rates hp' hd) hrun hc hd
  rw [hbal t p, (hpos c.index).1, (hpos c.index).2.1, (hpos c.index).2.2]
  rw [if_pos rfl, if_neg (Ne.symm v.spender_ne), if_neg (Ne.symm v.dst_ne)]
  simp only [accountOf] at this
  linarith

/-! ### utilization -/

theorem util_spec {r : Reserve} (h : r.requireUtilBelowMax = .ok ()) (hs : 0 ≤ r.data.bSupply) (hb : 0 < r.data.bRate) :
    UtilAtMost r.data r.maxUtil := by
  unfold Reserve.requireUtilBelowMax ReserveData.utilization ReserveData.totalLiabilities ReserveData.totalSupply
    ReserveData.toAssetFromD ReserveData.toAssetFromB at h
  simp only [bind_ok, require_ok] at h
  obtain ⟨u, ⟨l, hl, s, hs', hu⟩, hle⟩ := h
  have h1 := ceil_spec hl S9_pos
  have h2 := floor_spec hs' S9_pos
  have hs0 : s ≠ 0 := (mulDivCeil_ok.1 hu).2.1
  have hsp : 0 ≤ s := mulDivFloor_nonneg hs' S9_pos (Int.mul_nonneg hs hb.le)
  have h3 := mulDivCeil_spec hu (by omega)
  refine ⟨l, s, h1, h2, ?_⟩
  have : u * s ≤ r.maxUtil * s := Int.mul_le_mul_of_nonneg_right hle hsp
  have h4 := h3.1
  simp only [SCALAR_7] at h4
  exact le_trans h4 this

theorem exists_ceil (x : Int) {y : Int} (hy : 0 < y) : ∃ v, IsCeil v x y :=
  ⟨-(Int.fdiv (-x) y), by
    have := fdiv_spec (a := -x) hy
    constructor <;> nlinarith [this.1, this.2]⟩

theorem exists_floor (x : Int) {y : Int} (hy : 0 < y) : ∃ v, IsFloor v x y :=
  ⟨Int.fdiv x y, by
    have := fdiv_spec (a := x) hy
    constructor <;> nlinarith [this.1, this.2]⟩

theorem ceil_mono {v v' x x' y : Int} (h : IsCeil v x y) (h' : IsCeil v' x' y) (hy : 0 < y) (hx : x ≤ x') : v ≤ v' := by
  by_contra hc
  have : v' + 1 ≤ v := by omega
  nlinarith [h.1, h'.2]

theorem floor_mono {v v' x x' y : Int} (h : IsFloor v x y) (h' : IsFloor v' x' y) (hy : 0 < y) (hx : x ≤ x') : v ≤ v' := by
  by_contra hc
  have : v' + 1 ≤ v := by omega
  nlinarith [h.1, h'.2]

theorem _root_.Blend.Spec.UtilAtMost.mono {d d' : ReserveData} {m : Nat} (h : UtilAtMost d m) (hb : d'.bRate = d.bRate) (hd : d'.dRate = d.dRate)
    (h1 : d.bSupply ≤ d'.bSupply) (h2 : d'.dSupply ≤ d.dSupply) (hb0 : 0 < d.bRate) (hd0 : 0 < d.dRate) : UtilAtMost d' m := by
  obtain ⟨L, S, hL, hS, hle⟩ := h
  obtain ⟨L', hL'⟩ := exists_ceil (d'.dSupply * d'.dRate) (y := ONE9) (by decide)
  obtain ⟨S', hS'⟩ := exists_floor (d'.bSupply * d'.bRate) (y := ONE9) (by decide)
  have e1 := ceil_mono hL' hL (by decide) (by rw [hd]; nlinarith)
  have e2 := floor_mono hS hS' (by decide) (by rw [hb]; nlinarith)
  refine ⟨L', S', hL', hS', ?_⟩
  have : (m : Int) * S ≤ m * S' := Int.mul_le_mul_of_nonneg_left e2 (by omega)
  have : L' * ONE7 ≤ L * ONE7 := Int.mul_le_mul_of_nonneg_right e1 (by decide)
  omega

theorem effect_supplies {b d : Int} {i : Nat} {A A' : Account} {q : Request} (he : Effect b d i A q A') (hq : q.type = 0 ∨ q.type = 2 ∨ q.type = 5) :
    A.supplied i + A.collateral i ≤ A'.supplied i + A'.collateral i ∧ A'.debt i ≤ A.debt i := by
  cases he with
  | supply h0 h1 h2 => simp [bump]; omega
  | supplyCollateral h0 h1 h2 => simp [bump]; omega
  | repay h0 h1 h2 h3 => simp [bump]; omega
  | repayAll h0 h1 h2 h3 h4 h5 => simp [bump]; omega
  | _ => simp at hq

theorem plain_util {w : World} {p sender : Address} {auth : List Address} {s s' : SubmitState} (f : FlightOk w p sender s)
    {q : Request} (hq : Plain q) (h : processRequest p auth s q = .ok s') (f' : FlightOk w p sender s') {t : Address} {c : ReserveConfig}
    (hc : (w.pools p).resConfig t = some c)
    (hu : (q.address = t ∧ q.type = 4) ∨ ((∃ r, s.fl.cache.reserves.get t = some r ∧ UtilAtMost r.data c.maxUtil) ∧
      ¬ (q.address = t ∧ (q.type = 1 ∨ q.type = 3)))) :
    ∃ r, s'.fl.cache.reserves.get t = some r ∧ UtilAtMost r.data c.maxUtil := by
  obtain ⟨⟨r, r', cache', hld, hlo, hres, eb, ed, he, ⟨hsb, hsd⟩, hut, _⟩, _⟩ := plain_step f hq h
  have hr' : s'.fl.cache.reserves.get q.address = some r' := by rw [hres]; simp
  have hp' : 0 < r'.data.bRate ∧ 0 < r'.data.dRate ∧ 0 ≤ r'.data.bSupply := by
    have hd : (s'.vs p).ps.resData q.address = some r'.data := by
      show overlayData _ _ _ = _
      simp [overlayData, hr']
    have h1 := (f'.pinv.rates _ _ hd)
    have h2 := (f'.pinv.dataOk f'.cfg hd).bSupply
    omega
  have hmax : ∀ c0, (w.pools p).resConfig q.address = some c0 → r'.maxUtil = c0.maxUtil := by
    intro c0 hc0
    obtain ⟨c1, hc1, _, _, _, _, hm⟩ := (f'.cacheOk.res _ _ hr').cfg
    rw [f'.same.resConfig, hc0] at hc1
    cases hc1
    exact hm
  rcases hu with ⟨ht, h4⟩ | ⟨⟨r0, hr0, hu0⟩, hn⟩
  · subst ht
    refine ⟨r', hr', ?_⟩
    rw [← hmax c hc]
    exact util_spec (hut h4) hp'.2.2 hp'.1
  · by_cases ht : q.address = t
    · subst ht
      refine ⟨r', hr', ?_⟩
      by_cases h4 : q.type = 4
      · rw [← hmax c hc]
        exact util_spec (hut h4) hp'.2.2 hp'.1
      · have hr0d : r.data = r0.data := by
          obtain ⟨c0, d0, i0, _, hd0, _, _, hac⟩ := hld.data
          simp only [overlayData, hr0, Option.some.injEq] at hd0
          subst hd0
          rw [accrue_idem (f.cacheOk.res _ _ hr0).time] at hac
          exact (Except.ok.inj hac).symm
        unfold Plain at hq
        have hs := effect_supplies he (by simp only [true_and] at hn; omega)
        rw [← hr0d] at hu0
        exact hu0.mono eb ed (by omega) (by omega) (by omega) (by omega)
    · exact ⟨r0, by rw [hres, SMap.get_set_ne (Ne.symm ht)]; exact hr0, hu0⟩

/-! ### number of positions -/

theorem delL_len {l : List (Nat × Int)} {k : Nat} : (SMap.delL l k).length ≤ l.length := by
  induction l with
  | nil => simp [SMap.delL]
  | cons a l ih => obtain ⟨k', v⟩ := a; unfold SMap.delL; split <;> simp; omega

theorem setL_len {l : List (Nat × Int)} {k : Nat} {v : Int} (hs : l.Pairwise (fun a b => a.1 < b.1)) (h : (SMap.getL l k).isSome) :
    (SMap.setL l k v).length = l.length := by
  induction l with
  | nil => simp [SMap.getL] at h
  | cons a l ih =>
    obtain ⟨k', v'⟩ := a
    rw [List.pairwise_cons] at hs
    unfold SMap.setL
    split
    · rename_i hlt
      exfalso
      unfold SMap.getL at h
      rw [if_neg (by omega)] at h
      have : SMap.getL l k = none := SMap.getL_none_of_lt (fun q hq => by have := hs.1 q hq; dsimp only at this; omega)
      rw [this] at h
      simp at h
    · split
      · simp
      · rename_i h1 h2
        unfold SMap.getL at h
        rw [if_neg h2] at h
        simp [ih hs.2 h]

theorem setBal_len {m : SMap Int} {k : Nat} {v : Int} (h : m.bal k ≠ 0) : (setBal m k v).len ≤ m.len := by
  unfold setBal
  split
  · exact delL_len
  · refine le_of_eq (setL_len m.sorted ?_)
    show (m.get k).isSome
    cases hg : m.get k with
    | none => simp [SMap.bal, hg] at h
    | some v => rfl

theorem request_count {w : World} {p sender : Address} {auth : List Address} {s s' : SubmitState} (f : FlightOk w p sender s)
    {q : Request} (hq : OpensNone q) (h : processRequest p auth s q = .ok s') :
    s'.fl.user.pos.effectiveCount ≤ s.fl.user.pos.effectiveCount := by
  obtain ⟨hn, _, h1⟩ := processRequest_ok h
  clear h
  rename' h1 => h
  have lk : ∀ {r cache}, s.fl.cache.loadReserve (s.fl.w.pools p) s.fl.w.time q.address true = .ok (r, cache) → LoadedOk w p s q.address r := by
    intro r cache hl
    have hld := loadReserve_true (by rw [f.time]; exact f.cacheOk) hl
    rw [f.time] at hld
    exact f.loadedOk hld
  unfold OpensNone at hq
  rcases h with ⟨ht, h⟩ | ⟨ht, h⟩ | ⟨ht, h⟩ | ⟨ht, h⟩ | ⟨ht, h⟩ | ⟨ht, h⟩ | ⟨ht, h⟩ | ⟨ht, h⟩ | ⟨ht, h⟩ | ⟨ht, h⟩ <;> try omega
  · unfold reqSupply at h
    simp only [bind_ok, Prod.exists, pure_ok] at h
    obtain ⟨r, cache, hl, m, hm, ps', u', r', hf, acts, ha, rfl⟩ := h
    have hs := isAddSupp hf
    obtain ⟨_, _, _, _, hp⟩ := hs
    simp only [if_true, Kind.put] at hp
    show u'.pos.effectiveCount ≤ _
    rw [hp]; exact le_refl _
  · unfold reqWithdraw at h
    simp only [bind_ok, Prod.exists, pure_ok] at h
    obtain ⟨r, cache, hl, burn, out, hw, ps', u', r', hf, acts, ha, rfl⟩ := h
    obtain ⟨_, _, _, _, hp⟩ := isRemoveSupp hf
    simp only [Bool.false_eq_true, if_false, Kind.put] at hp
    show u'.pos.effectiveCount ≤ _
    rw [hp.2]; exact le_refl _
  · unfold reqWithdrawColl at h
    simp only [bind_ok, Prod.exists, pure_ok] at h
    obtain ⟨r, cache, hl, burn, out, hw, ps', u', r', hf, acts, ha, rfl⟩ := h
    have hs := isRemoveColl hf
    have hle := share_le hs
    have hlo := lk hl
    have hb : 0 < r.data.bRate := by have := hlo.bRate; omega
    have h0 := f.bal_nonneg .coll r.index
    simp only [Kind.map] at h0 hle
    have hne : s.fl.user.pos.collateral.bal r.index ≠ 0 := by
      obtain ⟨m, hm, ⟨hc, rfl, ho⟩ | ⟨rfl, rfl, hc⟩⟩ := withdrawAmounts_exact hb hw
      · exact hle.1
      · have := ceil_pos hm hb hn hle.1; omega
    obtain ⟨_, _, _, _, hp⟩ := hs
    simp only [Bool.false_eq_true, if_false, Kind.put, Kind.map] at hp
    show u'.pos.effectiveCount ≤ _
    rw [hp.2]
    have := setBal_len (v := s.fl.user.pos.collateral.bal r.index - burn) hne
    simp only [Positions.effectiveCount]; omega
  · unfold reqRepay at h
    simp only [bind_ok, Prod.exists, pure_ok, ite_ok] at h
    obtain ⟨r, cache, hl, burnt, hburn, acts, ha, h⟩ := h
    have hlo := lk hl
    have hb : 0 < r.data.dRate := by have := hlo.dRate; omega
    have h0 := f.bal_nonneg .liab r.index
    simp only [Kind.map] at h0
    rcases h with ⟨hc, owed, ho, rf, hrf, _, hnn, ps', u', r', hf, acts', ha', rfl⟩ | ⟨hc, ps', u', r', hf, rfl⟩
    · have hs := isRemoveLiab hf
      have hle := share_le hs
      simp only [Kind.map] at hle
      have hne := hle.1
      obtain ⟨_, _, _, _, hp⟩ := hs
      simp only [Bool.false_eq_true, if_false, Kind.put, Kind.map] at hp
      show u'.pos.effectiveCount ≤ _
      rw [hp.2]
      have := setBal_len (v := s.fl.user.pos.liabilities.bal r.index - s.fl.user.pos.liabilities.bal r.index) hne
      simp only [Positions.effectiveCount]; omega
    · have hs := isRemoveLiab hf
      have hle := share_le hs
      simp only [Kind.map] at hle
      have hne : s.fl.user.pos.liabilities.bal r.index ≠ 0 := by
        have := floor_pos (floor_spec hburn hb) hb hn hle.1; omega
      obtain ⟨_, _, _, _, hp⟩ := hs
      simp only [Bool.false_eq_true, if_false, Kind.put, Kind.map] at hp
      show u'.pos.effectiveCount ≤ _
      rw [hp.2]
      have := setBal_len (v := s.fl.user.pos.liabilities.bal r.index - burnt) hne
      simp only [Positions.effectiveCount]; omega
  · obtain ⟨fl, hf, rfl⟩ := reqFill_ok h
    obtain ⟨hne, a, g, rem, fl1, ha, hs, hf', rfl⟩ := fill_ok hf
    clear hf
    rcases hf' with ⟨e, _⟩ | ⟨e, _⟩ | ⟨_, _, hf⟩ <;> try omega
    simp only [fillInterest, bind_ok, pure_ok, unwrap_ok, require_ok, Prod.exists] at hf
    obtain ⟨i, _, _, _, tk, _, bid, _, w1, hd, w2, c2, hl, rfl⟩ := hf
    exact le_refl _
  · simp only [reqDelete, bind_ok, pure_ok] at h
    obtain ⟨ps', hd, rfl⟩ := h
    exact le_refl _

theorem requests_count {w : World} (hr : Reachable w) {p : Address} (hp : w.poolAddr p = true) {cache : Cache} {sender : Address}
    (hsp : sender ≠ p) (hc : Cache.load (w.pools p) = .ok cache) {auth : List Address} :
    ∀ (l l1 : List Request) (s s' : SubmitState), (∀ q ∈ l, OpensNone q) →
      l1.foldlM (processRequest p auth) (startState w p cache sender) = .ok s →
      l.foldlM (processRequest p auth) s = .ok s' → s'.fl.user.pos.effectiveCount ≤ s.fl.user.pos.effectiveCount := by
  intro l
  induction l with
  | nil => intro l0 x s' _ _ e; rw [foldlM_nil] at e; subst e; exact le_refl _
  | cons q l ih =>
    intro l0 x s' hq h0 e
    rw [foldlM_cons] at e
    obtain ⟨y, hy, e⟩ := e
    have h0' : (l0 ++ [q]).foldlM (processRequest p auth) (startState w p cache sender) = .ok y := by
      rw [List.foldlM_append, bind_ok]
      exact ⟨x, h0, by rw [foldlM_cons]; exact ⟨y, hy, rfl⟩⟩
    exact (ih _ y s' (fun z hz => hq z (by simp [hz])) h0' e).trans
      (request_count (flight_of hr hp hsp hc h0) (hq q (by simp)) hy)

end Pool
end Blend
