import Verif.Spec.Auction
import Verif.Lemmas.PlainValue
/-
  The health computation against its specification.
-/

namespace Blend
namespace Pool
open Spec

/-- `r` has the current rates of the asset `a` in `V` -/
def RatesOf (V : PoolState) (now : Nat) (a : Address) (r : ReserveData) : Prop :=
  ∃ d, Current V now a d ∧ r.bRate = d.bRate ∧ r.dRate = d.dRate ∧ r.irMod = d.irMod

/-- the cache holds the current rates of the (virtual) storage `V`, and what is not cached is as in `V` -/
structure CacheCur (V ps : PoolState) (now : Nat) (cache : Cache) : Prop where
  cached : ∀ a r, cache.reserves.get a = some r → ResMatch ps now a r ∧ RatesOf V now a r.data
  rest : ∀ a, cache.reserves.get a = none → ps.resData a = V.resData a
  config : ∃ i, ps.inst = some i ∧ i.config = cache.config
  inst : V.inst = ps.inst
  resConfig : V.resConfig = ps.resConfig
  resList : V.resList = ps.resList

theorem CacheCur.of {ps : PoolState} {now : Nat} {cache : Cache} (h : CacheOk ps now cache) (us : List User) :
    CacheCur (overlay ps cache us) ps now cache where
  cached a r hr := by
    have hm := h.res a r hr
    obtain ⟨c, hc, _⟩ := hm.cfg
    obtain ⟨i, hi, _⟩ := h.config
    exact ⟨hm, r.data, ⟨c, r.data, i, hc, by show overlayData _ _ _ = _; simp [overlayData, hr], hi, accrue_idem hm.time⟩, rfl, rfl, rfl⟩
  rest a hr := by show _ = overlayData _ _ _; simp [overlayData, hr]
  config := h.config
  inst := rfl
  resConfig := rfl
  resList := rfl

theorem CacheCur.put {V ps : PoolState} {now : Nat} {cache : Cache} (h : CacheCur V ps now cache) {a : Address} {r : Reserve}
    (hm : ResMatch ps now a r) (hr : RatesOf V now a r.data) : CacheCur V ps now (cache.put r) := by
  refine ⟨fun b rb hb => ?_, fun b hb => ?_, h.config, h.inst, h.resConfig, h.resList⟩
  · simp only [Cache.put, hm.asset] at hb
    rw [SMap.get_set] at hb
    split at hb
    · rename_i e
      subst e
      cases hb
      exact ⟨hm, hr⟩
    · exact h.cached b rb hb
  · simp only [Cache.put, hm.asset] at hb
    rw [SMap.get_set] at hb
    split at hb
    · cases hb
    · exact h.rest b hb

theorem loadReserve_reserves {c c' : Cache} {ps : PoolState} {n : Nat} {a : Address} {s : Bool} {r : Reserve}
    (h : c.loadReserve ps n a s = .ok (r, c')) :
    c'.reserves = c.reserves ∧ (c.reserves.get a = some r ∨ (c.reserves.get a = none ∧ Reserve.load ps c.config.bstopRate n a = .ok r)) := by
  unfold Cache.loadReserve at h
  have key : ∀ x : Cache, (if s = true ∧ a ∉ c.toStore then { c with toStore := c.toStore ++ [a] } else c) = x →
      x.reserves = c.reserves ∧ x.config = c.config := by
    rintro x rfl; split <;> exact ⟨rfl, rfl⟩
  generalize (if s = true ∧ a ∉ c.toStore then { c with toStore := c.toStore ++ [a] } else c) = x at h key
  obtain ⟨k1, k2⟩ := key x rfl
  dsimp only at h
  rw [k1, k2] at h
  cases hx : c.reserves.get a with
  | some y =>
    rw [hx] at h
    simp only [pure_ok, Prod.mk.injEq] at h
    obtain ⟨rfl, rfl⟩ := h
    exact ⟨k1, .inl rfl⟩
  | none =>
    rw [hx] at h
    simp only [bind_ok, pure_ok, Prod.mk.injEq] at h
    obtain ⟨r0, hl, rfl, rfl⟩ := h
    exact ⟨k1, .inr ⟨rfl, hl⟩⟩

theorem CacheCur.load {V ps : PoolState} {now : Nat} {cache cache' : Cache} (h : CacheCur V ps now cache) {a : Address} {st : Bool}
    {r : Reserve} (hl : cache.loadReserve ps now a st = .ok (r, cache')) :
    ResMatch ps now a r ∧ RatesOf V now a r.data ∧ cache'.config = cache.config ∧ CacheCur V ps now cache' := by
  have hcfg := loadReserve_config hl
  obtain ⟨k1, k⟩ := loadReserve_reserves hl
  have key : ResMatch ps now a r ∧ RatesOf V now a r.data := by
    rcases k with hr | ⟨hr, hl⟩
    · exact h.cached a r hr
    · obtain ⟨hm, c, d, hc, hd, ha⟩ := load_match hl
      obtain ⟨i, hi, hic⟩ := h.config
      refine ⟨hm, r.data, ⟨c, d, i, by rw [h.resConfig]; exact hc, by rw [← h.rest a hr]; exact hd, by rw [h.inst]; exact hi, ?_⟩, rfl, rfl, rfl⟩
      rw [hic]; exact ha
  refine ⟨key.1, key.2, hcfg, fun b rb hb => ?_, fun b hb => ?_, ?_, h.inst, h.resConfig, h.resList⟩
  · rw [k1] at hb; exact h.cached b rb hb
  · rw [k1] at hb; exact h.rest b hb
  · rw [hcfg]; exact h.config

/-- the backstop's interest in the reserve of `a`, as the cache has it or else as it accrues in `V` -/
def credAt (V : PoolState) (now : Nat) (cache : Cache) (a : Address) : Int :=
  match cache.reserves.get a with
  | some r => r.data.backstopCredit
  | none => creditOf V now a

theorem CacheCur.credit {V ps : PoolState} {now : Nat} {cache cache' : Cache} (h : CacheCur V ps now cache) {a : Address} {st : Bool}
    {r : Reserve} (hl : cache.loadReserve ps now a st = .ok (r, cache')) :
    r.data.backstopCredit = credAt V now cache a ∧ cache'.reserves = cache.reserves := by
  obtain ⟨k1, k⟩ := loadReserve_reserves hl
  refine ⟨?_, k1⟩
  rcases k with hr | ⟨hr, hl⟩
  · simp [credAt, hr]
  · obtain ⟨hm, c, d, hc, hd, ha⟩ := load_match hl
    obtain ⟨i, hi, hic⟩ := h.config
    rw [← hic] at ha
    simp [credAt, hr, creditOf, h.resConfig, hc, ← h.rest a hr, hd, h.inst, hi, ha]

theorem credAt_put {V : PoolState} {now : Nat} {cache : Cache} {r : Reserve} (a : Address) :
    credAt V now (cache.put r) a = if a = r.asset then r.data.backstopCredit else credAt V now cache a := by
  simp only [credAt, Cache.put]
  rw [SMap.get_set]
  by_cases h : a = r.asset
  · simp [h]
  · simp [h]

theorem loadPrice_ok {w : World} {cfg : PoolConfig} {a : Address} {x : Int} (h : loadPrice w cfg a = .ok x) :
    ∃ ts, (w.oracle cfg.oracle).price a = some (x, ts) ∧ w.time ≤ ts + 86400 := by
  unfold loadPrice at h
  simp only [bind_ok, unwrap_ok, Prod.exists, require_ok, pure_ok, chkU64_ok] at h
  obtain ⟨pr, ts, hp, lim, ⟨_, rfl⟩, _, hle, rfl⟩ := h
  exact ⟨ts, hp, by omega⟩

/-- the collateral part of `healthStep` -/
def collPart (r : Reserve) (price b : Int) (pd : PositionData) : R PositionData :=
  if b > 0 then do
    let eff ← r.toEffectiveAssetFromB b
    let x ← fixedMulFloor price eff r.scalar
    let cb ← chk (pd.collateralBase + x)
    let raw ← r.data.toAssetFromB b
    let y ← fixedMulFloor price raw r.scalar
    let cr ← chk (pd.collateralRaw + y)
    pure { pd with collateralBase := cb, collateralRaw := cr }
  else pure pd

/-- the liability part of `healthStep` -/
def liabPart (r : Reserve) (price d : Int) (pd1 : PositionData) : R PositionData :=
  if d > 0 then do
    let eff ← r.toEffectiveAssetFromD d
    let x ← fixedMulCeil price eff r.scalar
    let lb ← chk (pd1.liabilityBase + x)
    let raw ← r.data.toAssetFromD d
    let y ← fixedMulCeil price raw r.scalar
    let lr ← chk (pd1.liabilityRaw + y)
    pure { pd1 with liabilityBase := lb, liabilityRaw := lr }
  else pure pd1

theorem healthStep_parts {w : World} {ps : PoolState} {pos : Positions} {pd : PositionData} {cache : Cache} {i : Nat}
    (h : ¬ (pos.collateral.bal i = 0 ∧ pos.liabilities.bal i = 0)) :
    healthStep w ps pos (pd, cache) i = (do
      let asset ← unwrap (ps.resList[i]?)
      let (r, cache') ← cache.loadReserve ps w.time asset false
      let price ← loadPrice w cache'.config r.asset
      let pd1 ← collPart r price (pos.collateral.bal i) pd
      let pd2 ← liabPart r price (pos.liabilities.bal i) pd1
      pure (pd2, cache'.put r)) := by
  unfold healthStep collPart liabPart
  simp only [if_neg h]
  congr 1; funext asset
  congr 1; funext x
  congr 1; funext price
  by_cases hb : pos.collateral.bal i > 0 <;> by_cases hd : pos.liabilities.bal i > 0 <;> simp [hb, hd]

theorem healthStep_ok {w : World} {V ps : PoolState} {pos : Positions} {pd pd' : PositionData} {cache cache' : Cache} {i : Nat}
    (hc : CacheCur V ps w.time cache) (hb : 0 ≤ pos.collateral.bal i) (hd : 0 ≤ pos.liabilities.bal i)
    (h : healthStep w ps pos (pd, cache) i = .ok (pd', cache')) :
    CacheCur V ps w.time cache' ∧ cache'.config = cache.config ∧ pd'.scalar = pd.scalar ∧
    ∃ a b a' b', CollateralItem w V i (pos.collateral.bal i) a ∧ LiabilityItem w V i (pos.liabilities.bal i) b ∧
      RawCollItem w V i (pos.collateral.bal i) a' ∧ RawLiabItem w V i (pos.liabilities.bal i) b' ∧
      pd'.collateralBase = pd.collateralBase + a ∧ pd'.liabilityBase = pd.liabilityBase + b ∧
      pd'.collateralRaw = pd.collateralRaw + a' ∧ pd'.liabilityRaw = pd.liabilityRaw + b' := by
  by_cases h0 : pos.collateral.bal i = 0 ∧ pos.liabilities.bal i = 0
  · unfold healthStep at h
    simp only [if_pos h0, pure_ok, Prod.mk.injEq] at h
    obtain ⟨rfl, rfl⟩ := h
    exact ⟨hc, rfl, rfl, 0, 0, 0, 0, .inl ⟨h0.1, rfl⟩, .inl ⟨h0.2, rfl⟩, .inl ⟨h0.1, rfl⟩, .inl ⟨h0.2, rfl⟩, by simp⟩
  · rw [healthStep_parts h0] at h
    simp only [bind_ok, unwrap_ok, Prod.exists, pure_ok, Prod.mk.injEq] at h
    obtain ⟨asset, ha, r, c1, hl, price, hp, pd1, h1, pd2, h2, rfl, rfl⟩ := h
    obtain ⟨hm, hrates, hcfg, hc1⟩ := hc.load hl
    have hc' := hc1.put hm hrates
    obtain ⟨dd, hcur, eb, ed⟩ := hrates
    obtain ⟨c, hcc, hidx, hsc, hlf, hcf, _⟩ := hm.cfg
    obtain ⟨ii, hii, hic⟩ := hc.config
    have hfp : FreshPrice w V asset price := by
      rw [hm.asset, hcfg, ← hic] at hp
      obtain ⟨ts, hts, hle⟩ := loadPrice_ok hp
      exact ⟨ii, ts, by rw [hc.inst]; exact hii, hts, hle⟩
    have hav : V.resList[i]? = some asset := by rw [hc.resList]; exact ha
    have hcv : V.resConfig asset = some c := by rw [hc.resConfig]; exact hcc
    have h10 : (0 : Int) < 10 ^ c.decimals := by positivity
    have hcoll : ∃ a a', CollateralItem w V i (pos.collateral.bal i) a ∧ RawCollItem w V i (pos.collateral.bal i) a' ∧
        pd1 = { pd with collateralBase := pd.collateralBase + a, collateralRaw := pd.collateralRaw + a' } := by
      unfold collPart at h1
      split at h1
      · unfold Reserve.toEffectiveAssetFromB ReserveData.toAssetFromB at h1
        simp only [bind_ok, chk_ok, pure_ok] at h1
        obtain ⟨eff, ⟨n, hn, he⟩, x, hx, cb, ⟨_, rfl⟩, raw, hraw, y, hy, cr, ⟨_, rfl⟩, rfl⟩ := h1
        rw [hn] at hraw
        cases hraw
        have e1 := floor_spec hn S9_pos
        have e2 := floor_spec he (by decide)
        have e3 := floor_spec hx (by rw [hsc]; exact h10)
        have e4 := floor_spec hy (by rw [hsc]; exact h10)
        rw [hsc] at e3 e4
        rw [hcf] at e2
        rw [eb] at e1
        exact ⟨x, y, .inr ⟨asset, c, dd, price, n, eff, hav, hcv, hcur, hfp, e1, e2, e3⟩,
          .inr ⟨asset, c, dd, price, n, hav, hcv, hcur, hfp, e1, e4⟩, rfl⟩
      · rw [pure_ok] at h1
        refine ⟨0, 0, .inl ⟨by omega, rfl⟩, .inl ⟨by omega, rfl⟩, ?_⟩
        subst h1; simp
    have hliab : ∃ b b', LiabilityItem w V i (pos.liabilities.bal i) b ∧ RawLiabItem w V i (pos.liabilities.bal i) b' ∧
        pd2 = { pd1 with liabilityBase := pd1.liabilityBase + b, liabilityRaw := pd1.liabilityRaw + b' } := by
      unfold liabPart at h2
      split at h2
      · unfold Reserve.toEffectiveAssetFromD ReserveData.toAssetFromD at h2
        simp only [bind_ok, chk_ok, pure_ok] at h2
        obtain ⟨eff, ⟨n, hn, he⟩, x, hx, cb, ⟨_, rfl⟩, raw, hraw, y, hy, cr, ⟨_, rfl⟩, rfl⟩ := h2
        rw [hn] at hraw
        cases hraw
        have hl0 : (0 : Int) < r.lFactor := by
          have := (mulDivCeil_ok.1 he).2.1
          omega
        have e1 := ceil_spec hn S9_pos
        have e2 := ceil_spec he hl0
        have e3 := ceil_spec hx (by rw [hsc]; exact h10)
        have e4 := ceil_spec hy (by rw [hsc]; exact h10)
        rw [hsc] at e3 e4
        rw [hlf] at e2 hl0
        rw [ed.1] at e1
        exact ⟨x, y, .inr ⟨asset, c, dd, price, n, eff, hav, hcv, hcur, hfp, e1, by omega, e2, e3⟩,
          .inr ⟨asset, c, dd, price, n, hav, hcv, hcur, hfp, e1, e4⟩, rfl⟩
      · rw [pure_ok] at h2
        refine ⟨0, 0, .inl ⟨by omega, rfl⟩, .inl ⟨by omega, rfl⟩, ?_⟩
        subst h2; simp
    obtain ⟨a, a', i1, i2, rfl⟩ := hcoll
    obtain ⟨b, b', i3, i4, rfl⟩ := hliab
    exact ⟨hc', hcfg, rfl, a, b, a', b', i1, i3, i2, i4, rfl, rfl, rfl, rfl⟩

/-- the values computed for the positions `pos` -/
structure ValuedAs (w : World) (V : PoolState) (pos : Positions) (pd : PositionData) : Prop where
  coll : CollateralValue w V pos pd.collateralBase
  liab : LiabilityValue w V pos pd.liabilityBase
  collRaw : RawCollateral w V pos pd.collateralRaw
  liabRaw : RawLiability w V pos pd.liabilityRaw
  scalar : ∃ n, PriceDecimals w V n ∧ pd.scalar = 10 ^ n

theorem calcPositionData_ok {w : World} {V ps : PoolState} {pos : Positions} {pd : PositionData} {cache cache' : Cache}
    (hc : CacheCur V ps w.time cache) (hb : ∀ i, 0 ≤ pos.collateral.bal i) (hd : ∀ i, 0 ≤ pos.liabilities.bal i)
    (h : calcPositionData w ps cache pos = .ok (pd, cache')) :
    CacheCur V ps w.time cache' ∧ ValuedAs w V pos pd := by
  unfold calcPositionData oracleScalar pow10 at h
  simp only [bind_ok, chk_ok] at h
  obtain ⟨sc, ⟨_, rfl⟩, h⟩ := h
  obtain ⟨ii, hii, hic⟩ := hc.config
  have key : ∀ (n : Nat) (pd : PositionData) (cache' : Cache),
      (List.range n).foldlM (healthStep w ps pos) (⟨0, 0, 0, 0, 10 ^ (w.oracle cache.config.oracle).decimals⟩, cache) = .ok (pd, cache') →
      CacheCur V ps w.time cache' ∧ pd.scalar = 10 ^ (w.oracle cache.config.oracle).decimals ∧
      ∃ f g f' g' : Nat → Int, (∀ i, i < n → CollateralItem w V i (pos.collateral.bal i) (f i) ∧ LiabilityItem w V i (pos.liabilities.bal i) (g i) ∧
        RawCollItem w V i (pos.collateral.bal i) (f' i) ∧ RawLiabItem w V i (pos.liabilities.bal i) (g' i)) ∧
        pd.collateralBase = ((List.range n).map f).sum ∧ pd.liabilityBase = ((List.range n).map g).sum ∧
        pd.collateralRaw = ((List.range n).map f').sum ∧ pd.liabilityRaw = ((List.range n).map g').sum := by
    intro n
    induction n with
    | zero =>
      intro pd cache' h
      simp only [List.range_zero, foldlM_nil, Prod.mk.injEq] at h
      obtain ⟨rfl, rfl⟩ := h
      exact ⟨hc, rfl, fun _ => 0, fun _ => 0, fun _ => 0, fun _ => 0, by simp, by simp⟩
    | succ n ih =>
      intro pd cache' h
      rw [List.range_succ, List.foldlM_append, bind_ok] at h
      obtain ⟨⟨pd1, c1⟩, h1, h2⟩ := h
      rw [foldlM_cons] at h2
      obtain ⟨⟨pd2, c2⟩, h2, h3⟩ := h2
      rw [foldlM_nil] at h3
      cases h3
      obtain ⟨k1, k2, f, g, f', g', k3, k4, k5, k6, k7⟩ := ih pd1 c1 h1
      obtain ⟨j1, j2, j3, a, b, a', b', j4, j5, j6, j7, j8, j9, j10, j11⟩ := healthStep_ok k1 (hb n) (hd n) h2
      have ext : ∀ (f : Nat → Int) (x : Int), ((List.range (n + 1)).map (upd f n x)).sum = ((List.range n).map f).sum + x := by
        intro f x
        rw [List.range_succ, List.map_append, List.sum_append]
        have : (List.range n).map (upd f n x) = (List.range n).map f :=
          List.map_congr_left fun i hi => by
            have := List.mem_range.1 hi
            rw [upd_apply, if_neg (by omega)]
        rw [this]; simp [upd_apply]
      refine ⟨j1, j3.trans k2, upd f n a, upd g n b, upd f' n a', upd g' n b', fun i hi => ?_, ?_, ?_, ?_, ?_⟩
      · by_cases hin : i = n
        · subst hin; simp [upd_apply]; exact ⟨j4, j5, j6, j7⟩
        · simp only [upd_apply, if_neg hin]; exact k3 i (by omega)
      · rw [j8, k4, ext]
      · rw [j9, k5, ext]
      · rw [j10, k6, ext]
      · rw [j11, k7, ext]
  obtain ⟨k1, k2, f, g, f', g', k3, k4, k5, k6, k7⟩ := key _ _ _ h
  refine ⟨k1, ⟨f, fun i hi => (k3 i (by rw [← hc.resList]; exact hi)).1, by rw [k4, total, hc.resList]⟩,
    ⟨g, fun i hi => (k3 i (by rw [← hc.resList]; exact hi)).2.1, by rw [k5, total, hc.resList]⟩,
    ⟨f', fun i hi => (k3 i (by rw [← hc.resList]; exact hi)).2.2.1, by rw [k6, total, hc.resList]⟩,
    ⟨g', fun i hi => (k3 i (by rw [← hc.resList]; exact hi)).2.2.2, by rw [k7, total, hc.resList]⟩, ?_⟩
  exact ⟨_, ⟨ii, by rw [hc.inst]; exact hii, rfl⟩, by rw [k2, ← hic]⟩

/-! ### non-negative values -/

theorem IsFloor.nonneg {v x y : Int} (h : IsFloor v x y) (hy : 0 < y) (hx : 0 ≤ x) : 0 ≤ v := by
  have := h.2
  by_contra hc
  have : v + 1 ≤ 0 := by omega
  nlinarith

theorem IsCeil.nonneg {v x y : Int} (h : IsCeil v x y) (hy : 0 < y) (hx : 0 ≤ x) : 0 ≤ v := by
  have := h.2
  by_contra hc
  have : v + 1 ≤ 0 := by omega
  nlinarith

theorem sum_range_nonneg {n : Nat} {f : Nat → Int} (h : ∀ i, i < n → 0 ≤ f i) : 0 ≤ ((List.range n).map f).sum := by
  induction n with
  | zero => simp
  | succ n ih =>
    rw [List.range_succ, List.map_append, List.sum_append]
    have h1 := ih fun i hi => h i (by omega)
    have h2 := h n (by omega)
    simp only [List.map_cons, List.map_nil, List.sum_cons, List.sum_nil]
    omega

/-- rates of accrued reserve data are positive -/
def RatesPos (V : PoolState) (now : Nat) : Prop := ∀ a d, Current V now a d → 0 < d.bRate ∧ 0 < d.dRate

theorem collValue_nonneg {w : World} {V : PoolState} {pos : Positions} {C : Int} (h : CollateralValue w V pos C) (hp : PricesOk w V)
    (hr : RatesPos V w.time) (hb : ∀ i, 0 ≤ pos.collateral.bal i) : 0 ≤ C := by
  obtain ⟨f, hf, rfl⟩ := h
  refine sum_range_nonneg fun i hi => ?_
  rcases hf i hi with ⟨_, e⟩ | ⟨a, c, d, x, n, e, hli, _, hd, ⟨_, ts, hinst, hx, _⟩, h1, h2, h3⟩
  · omega
  · have := hp _ _ _ _ hinst (List.mem_of_getElem? hli) hx
    have hrate := hr a d hd
    have n0 := IsFloor.nonneg h1 (by decide) (Int.mul_nonneg (hb i) hrate.1.le)
    have e0 := IsFloor.nonneg h2 (by decide) (Int.mul_nonneg n0 (by omega))
    exact IsFloor.nonneg h3 (by positivity) (Int.mul_nonneg this e0)

theorem liabValue_nonneg {w : World} {V : PoolState} {pos : Positions} {C : Int} (h : LiabilityValue w V pos C) (hp : PricesOk w V)
    (hr : RatesPos V w.time) (hb : ∀ i, 0 ≤ pos.liabilities.bal i) : 0 ≤ C := by
  obtain ⟨f, hf, rfl⟩ := h
  refine sum_range_nonneg fun i hi => ?_
  rcases hf i hi with ⟨_, e⟩ | ⟨a, c, d, x, n, e, hli, _, hd, ⟨_, ts, hinst, hx, _⟩, h1, hl, h2, h3⟩
  · omega
  · have := hp _ _ _ _ hinst (List.mem_of_getElem? hli) hx
    have hrate := hr a d hd
    have n0 := IsCeil.nonneg h1 (by decide) (Int.mul_nonneg (hb i) hrate.2.le)
    have e0 := IsCeil.nonneg h2 (by omega) (Int.mul_nonneg n0 (by decide))
    exact IsCeil.nonneg h3 (by positivity) (Int.mul_nonneg this e0)

/-- `is_hf_under(min)` is false: the health factor is at least `min` in units of the oracle's precision -/
theorem isHfUnder_false {pd : PositionData} {m : Int} {n : Nat} (hs : pd.scalar = 10 ^ n) (hC : 0 ≤ pd.collateralBase) (hL : 0 ≤ pd.liabilityBase)
    (h : pd.isHfUnder m = .ok false) :
    ∃ k, IsFloor k (10 ^ n * m) ONE7 ∧ k * pd.liabilityBase ≤ pd.collateralBase * 10 ^ n ∨ pd.liabilityBase = 0 := by
  unfold PositionData.isHfUnder PositionData.healthFactor at h
  split at h
  · rename_i h0; exact ⟨0, .inr h0⟩
  · rename_i h0
    simp only [bind_ok, pure_ok, decide_eq_false_iff_not] at h
    obtain ⟨k, hk, hf, hhf, hle⟩ := h
    have e1 := floor_spec hk (by decide)
    have e2 := mulDivFloor_spec hhf (by omega)
    rw [hs] at e1 e2
    refine ⟨k, .inl ⟨e1, le_trans ?_ e2.1⟩⟩
    exact Int.mul_le_mul_of_nonneg_right (by omega) hL

theorem isHfOver_false {pd : PositionData} {m : Int} {n : Nat} (hs : pd.scalar = 10 ^ n) (hL : 0 ≤ pd.liabilityBase)
    (h : pd.isHfOver m = .ok false) :
    ∃ k, IsCeil k (10 ^ n * m) ONE7 ∧ pd.collateralBase * 10 ^ n < (k + 1) * pd.liabilityBase ∧ 0 < pd.liabilityBase := by
  unfold PositionData.isHfOver PositionData.healthFactor at h
  split at h
  · simp [pure_ok] at h
  · rename_i h0
    simp only [bind_ok, pure_ok, decide_eq_false_iff_not] at h
    obtain ⟨k, hk, hf, hhf, hle⟩ := h
    have e1 := ceil_spec hk (by decide)
    have e2 := mulDivFloor_spec hhf (by omega)
    rw [hs] at e1 e2
    have hpos : 0 < pd.liabilityBase := by omega
    refine ⟨k, e1, ?_, hpos⟩
    have : (hf + 1) * pd.liabilityBase ≤ (k + 1) * pd.liabilityBase := Int.mul_le_mul_of_nonneg_right (by omega) hL
    nlinarith [e2.2]

theorem floor_unique {v v' x y : Int} (h : IsFloor v x y) (h' : IsFloor v' x y) (hy : 0 < y) : v = v' :=
  le_antisymm (floor_mono h h' hy le_rfl) (floor_mono h' h hy le_rfl)

theorem hf_healthy {C L k : Int} {n : Nat} (hk : IsFloor k (10 ^ n * 10000100) ONE7) (hL : 0 ≤ L) (h : k * L ≤ C * 10 ^ n) :
    L ≤ C ∧ (5 ≤ n → 100001 * L ≤ 100000 * C) := by
  have h10 : (0 : Int) < 10 ^ n := by positivity
  have hge : 10 ^ n ≤ k := by
    have := hk.2
    by_contra hc
    have h1 : k + 1 ≤ 10 ^ n := by omega
    have h2 : (k + 1) * ONE7 ≤ 10 ^ n * ONE7 := Int.mul_le_mul_of_nonneg_right h1 (by decide)
    nlinarith
  refine ⟨?_, fun h5 => ?_⟩
  · have : (10 : Int) ^ n * L ≤ k * L := Int.mul_le_mul_of_nonneg_right hge hL
    nlinarith
  · obtain ⟨m, rfl⟩ := Nat.exists_eq_add_of_le h5
    have hm : (0 : Int) < 10 ^ m := by positivity
    have e : IsFloor (100001 * 10 ^ m) ((10 : Int) ^ (5 + m) * 10000100) ONE7 := by
      have : (10 : Int) ^ (5 + m) = 100000 * 10 ^ m := by rw [pow_add]; norm_num
      rw [this]
      constructor <;> nlinarith
    have hk' := floor_unique hk e (by decide)
    subst hk'
    have : (10 : Int) ^ (5 + m) = 100000 * 10 ^ m := by rw [pow_add]; norm_num
    rw [this] at h
    nlinarith

/-! ### the check of a submit -/

/-- the requests after which the health of the account is checked -/
def risky (q : Request) : Bool := q.type = 3 ∨ q.type = 4 ∨ q.type = 6 ∨ q.type = 7 ∨ q.type = 9

theorem request_check {p : Address} {auth : List Address} {s s' : SubmitState} {q : Request} (h : processRequest p auth s q = .ok s') :
    s'.check = (s.check || risky q) := by
  obtain ⟨_, _, h1⟩ := processRequest_ok h
  clear h
  rename' h1 => h
  rcases h with ⟨ht, h⟩ | ⟨ht, h⟩ | ⟨ht, h⟩ | ⟨ht, h⟩ | ⟨ht, h⟩ | ⟨ht, h⟩ | ⟨ht, h⟩ | ⟨ht, h⟩ | ⟨ht, h⟩ | ⟨ht, h⟩
  · simp only [reqSupply, bind_ok, Prod.exists, pure_ok] at h
    obtain ⟨r, c, hl, m, _, ps', u, r', hs, acts, _, rfl⟩ := h
    simp [risky, ht]
  · simp only [reqWithdraw, bind_ok, Prod.exists, pure_ok] at h
    obtain ⟨r, c, hl, m, _, _, ps', u, r', hs, acts, _, rfl⟩ := h
    simp [risky, ht]
  · simp only [reqSupply, bind_ok, Prod.exists, pure_ok] at h
    obtain ⟨r, c, hl, m, _, ps', u, r', hs, acts, _, rfl⟩ := h
    simp [risky, ht]
  · simp only [reqWithdrawColl, bind_ok, Prod.exists, pure_ok] at h
    obtain ⟨r, c, hl, m, _, _, ps', u, r', hs, acts, _, rfl⟩ := h
    simp [risky, ht]
  · simp only [reqBorrow, bind_ok, Prod.exists, pure_ok] at h
    obtain ⟨r, c, hl, m, _, ps', u, r', hs, _, _, acts, _, rfl⟩ := h
    simp [risky, ht]
  · simp only [reqRepay, bind_ok, Prod.exists, pure_ok, ite_ok] at h
    obtain ⟨r, c, hl, m, _, acts, _, ⟨_, _, _, _, _, _, _, ps', u, r', hs, _, _, rfl⟩ | ⟨_, ps', u, r', hs, rfl⟩⟩ := h <;>
      simp [risky, ht]
  · simp only [reqFill, bind_ok, pure_ok] at h
    obtain ⟨fl, hf, rfl⟩ := h
    simp [risky, ht]
  · simp only [reqFill, bind_ok, pure_ok] at h
    obtain ⟨fl, hf, rfl⟩ := h
    simp [risky, ht]
  · simp only [reqFill, bind_ok, pure_ok] at h
    obtain ⟨fl, hf, rfl⟩ := h
    simp [risky, ht]
  · simp only [reqDelete, bind_ok, pure_ok] at h
    obtain ⟨ps', hd, rfl⟩ := h
    simp [risky, ht]

theorem requests_check {p : Address} {auth : List Address} : ∀ {l : List Request} {s s' : SubmitState},
    l.foldlM (processRequest p auth) s = .ok s' → s'.check = (s.check || l.any risky) := by
  intro l
  induction l with
  | nil => intro s s' h; rw [foldlM_nil] at h; subst h; simp
  | cons q l ih =>
    intro s s' h
    rw [foldlM_cons] at h
    obtain ⟨s1, h1, h⟩ := h
    rw [ih h, request_check h1, List.any_cons, Bool.or_assoc]

theorem FlightOk.ratesPos {w : World} {p sender : Address} {s : SubmitState} (f : FlightOk w p sender s) :
    RatesPos (overlay (s.fl.w.pools p) s.fl.cache [s.fl.user]) w.time := by
  rintro a d ⟨c, d0, i, hc, hd, hi, hac⟩
  have hdo : DataOk d0 := f.pinv.dataOk f.cfg hd
  have hv := f.cfg.valid a c hc
  have hrate : i.config.bstopRate < 10000000 := f.rate i (by rw [← f.same.inst]; exact hi)
  have hr := accrue_rates hac hdo (f.pinv.rates a d0 hd).2.2.2.2 hv.util hrate
  omega

theorem freshPrice_congr {w w' : World} {ps : PoolState} {a : Address} {x : Int} (ho : w'.oracle = w.oracle) (ht : w'.time = w.time)
    (h : FreshPrice w ps a x) : FreshPrice w' ps a x := by
  obtain ⟨i, ts, h1, h2, h3⟩ := h
  exact ⟨i, ts, h1, by rw [ho]; exact h2, by rw [ht]; exact h3⟩

theorem collValue_congr {w w' : World} {ps : PoolState} {pos : Positions} {C : Int} (ho : w'.oracle = w.oracle) (ht : w'.time = w.time)
    (h : CollateralValue w ps pos C) : CollateralValue w' ps pos C := by
  obtain ⟨f, hf, e⟩ := h
  refine ⟨f, fun i hi => ?_, e⟩
  rcases hf i hi with h0 | ⟨a, c, d, x, n, e, h1, h2, h3, h4, h5⟩
  · exact .inl h0
  · exact .inr ⟨a, c, d, x, n, e, h1, h2, by rw [ht]; exact h3, freshPrice_congr ho ht h4, h5⟩

theorem liabValue_congr {w w' : World} {ps : PoolState} {pos : Positions} {C : Int} (ho : w'.oracle = w.oracle) (ht : w'.time = w.time)
    (h : LiabilityValue w ps pos C) : LiabilityValue w' ps pos C := by
  obtain ⟨f, hf, e⟩ := h
  refine ⟨f, fun i hi => ?_, e⟩
  rcases hf i hi with h0 | ⟨a, c, d, x, n, e, h1, h2, h3, h4, h5⟩
  · exact .inl h0
  · exact .inr ⟨a, c, d, x, n, e, h1, h2, by rw [ht]; exact h3, freshPrice_congr ho ht h4, h5⟩

theorem submit_healthy {w w' : World} (hr : Reachable w) {p : Address} {auth : List Address} {sender spender dst : Address}
    {reqs : List Request} (h : step w (.pool p auth (.submit sender spender dst reqs)) = .ok w') (hprice : PricesOk w (w.pools p))
    (hq : reqs.any risky = true) (hl : (getPositions (w'.pools p) sender).liabilities.toList ≠ []) :
    Healthy w' (w'.pools p) (getPositions (w'.pools p) sender) := by
  obtain ⟨hp, cache, s, v⟩ := submit_view hr h
  have fl := v.flight
  have hpos : getPositions (w'.pools p) sender = s.fl.user.pos := by
    rw [v.pools, ← v.flight.addr]; exact getPositions_overlay_last _ _ [] _
  rw [hpos] at hl ⊢
  have hc : s.check = true := by rw [requests_check v.fold, hq]; simp
  have he : s.fl.user.pos.liabilities.isEmpty = false := by
    rw [← Bool.not_eq_true, SMap.isEmpty_iff]; exact hl
  obtain ⟨cache', hh⟩ := v.health
  unfold healthCheck at hh
  rw [if_pos ⟨hc, he⟩] at hh
  simp only [bind_ok, Prod.exists, require_ok, pure_ok] at hh
  obtain ⟨pd, c1, hcalc, under, hunder, _, hn, _⟩ := hh
  have hcur : CacheCur (overlay (s.fl.w.pools p) s.fl.cache [s.fl.user]) (s.fl.w.pools p) s.fl.w.time s.fl.cache := by
    rw [fl.time]; exact CacheCur.of fl.cacheOk _
  obtain ⟨_, va⟩ := calcPositionData_ok hcur (fl.bal_nonneg .coll) (fl.bal_nonneg .liab) hcalc
  rw [← v.pools] at va
  have ho : w'.oracle = s.fl.w.oracle := v.oracle'.trans fl.oracle.symm
  have ht : w'.time = s.fl.w.time := v.time'.trans fl.time.symm
  have hC := collValue_congr ho ht va.coll
  have hL := liabValue_congr ho ht va.liab
  have hpr : PricesOk w' (w'.pools p) := by
    unfold PricesOk
    rw [v.oracle', v.pools]
    show ∀ i a x ts, (s.fl.w.pools p).inst = some i → a ∈ (s.fl.w.pools p).resList → _
    rw [fl.same.inst, fl.same.resList]
    exact hprice
  have hrp : RatesPos (w'.pools p) w'.time := by rw [v.pools, v.time']; exact fl.ratesPos
  have hC0 := collValue_nonneg hC hpr hrp (fl.bal_nonneg .coll)
  have hL0 := liabValue_nonneg hL hpr hrp (fl.bal_nonneg .liab)
  obtain ⟨n, ⟨i, hi, hdec⟩, hsc⟩ := va.scalar
  have hund : pd.isHfUnder 10000100 = .ok false := by
    rw [hunder]; simp only [Bool.not_eq_true] at hn; rw [hn]
  have key : pd.liabilityBase ≤ pd.collateralBase ∧ (5 ≤ n → 100001 * pd.liabilityBase ≤ 100000 * pd.collateralBase) := by
    obtain ⟨k, ⟨h1, h2⟩ | h0⟩ := isHfUnder_false hsc hC0 hL0 hund
    · exact hf_healthy h1 hL0 h2
    · rw [h0]; exact ⟨hC0, fun _ => by omega⟩
  exact ⟨_, _, n, hC, hL, ⟨i, hi, by rw [ho]; exact hdec⟩, key⟩

end Pool
end Blend
