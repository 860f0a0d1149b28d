import Verif.Lemmas.LiveSubmit
/-
  Which errors the creation of a liquidation auction for all of an account's debt can run into (C58).
-/

namespace Blend
namespace Pool
open Spec

variable {E : Err → Bool} {w : World} {p a : Address} {V ps : PoolState} {i : Nat}

theorem Current.unique {now : Nat} {d d' : ReserveData} (h : Current V now a d) (h' : Current V now a d') : d = d' := by
  obtain ⟨c, d0, i, h1, h2, h3, h4⟩ := h
  obtain ⟨c', d0', i', h1', h2', h3', h4'⟩ := h'
  rw [h1] at h1'; cases h1'
  rw [h2] at h2'; cases h2'
  rw [h3] at h3'; cases h3'
  rw [h4] at h4'; cases h4'; rfl

theorem FreshPrice.unique {x x' : Int} (h : FreshPrice w V a x) (h' : FreshPrice w V a x') : x = x' := by
  obtain ⟨i, ts, h1, h2, h3⟩ := h
  obtain ⟨i', ts', h1', h2', h3'⟩ := h'
  rw [h1] at h1'; cases h1'
  rw [h2] at h2'; cases h2'; rfl

theorem ceil_unique {v v' x y : Int} (h : IsCeil v x y) (h' : IsCeil v' x y) (hy : 0 < y) : v = v' := by
  obtain ⟨h1, h2⟩ := h
  obtain ⟨h1', h2'⟩ := h'
  by_contra hne
  rcases lt_or_gt_of_ne hne with hlt | hlt
  · have : v ≤ v' - 1 := by omega
    nlinarith
  · have : v' ≤ v - 1 := by omega
    nlinarith

theorem floor_zero {v y : Int} (h : IsFloor v 0 y) (hy : 0 < y) : v = 0 :=
  floor_unique h (⟨by omega, by omega⟩ : IsFloor 0 0 y) hy

theorem ceil_zero {v y : Int} (h : IsCeil v 0 y) (hy : 0 < y) : v = 0 :=
  ceil_unique h (⟨by omega, by omega⟩ : IsCeil 0 0 y) hy

theorem CollateralItem.unique {b v v' : Int} (h : CollateralItem w V i b v) (h' : CollateralItem w V i b v') : v = v' := by
  have z : ∀ {v}, b = 0 → CollateralItem w V i b v → v = 0 := by
    rintro v rfl (⟨_, h⟩ | ⟨a, c, d, x, n, e, _, _, _, _, h1, h2, h3⟩)
    · exact h
    · rw [zero_mul] at h1
      obtain rfl := floor_zero h1 (by decide)
      rw [zero_mul] at h2
      obtain rfl := floor_zero h2 (by decide)
      rw [mul_zero] at h3
      exact floor_zero h3 (by positivity)
  by_cases hb : b = 0
  · rw [z hb h, z hb h']
  rcases h with ⟨h, _⟩ | ⟨a, c, d, x, n, e, g1, g2, g3, g4, h1, h2, h3⟩
  · exact absurd h hb
  rcases h' with ⟨h, _⟩ | ⟨a', c', d', x', n', e', g1', g2', g3', g4', h1', h2', h3'⟩
  · exact absurd h hb
  rw [g1] at g1'; cases g1'
  rw [g2] at g2'; cases g2'
  obtain rfl := Current.unique g3 g3'
  obtain rfl := FreshPrice.unique g4 g4'
  obtain rfl := floor_unique h1 h1' (by decide)
  obtain rfl := floor_unique h2 h2' (by decide)
  exact floor_unique h3 h3' (by positivity)

theorem RawCollItem.unique {b v v' : Int} (h : RawCollItem w V i b v) (h' : RawCollItem w V i b v') : v = v' := by
  have z : ∀ {v}, b = 0 → RawCollItem w V i b v → v = 0 := by
    rintro v rfl (⟨_, h⟩ | ⟨a, c, d, x, n, _, _, _, _, h1, h3⟩)
    · exact h
    · rw [zero_mul] at h1
      obtain rfl := floor_zero h1 (by decide)
      rw [mul_zero] at h3
      exact floor_zero h3 (by positivity)
  by_cases hb : b = 0
  · rw [z hb h, z hb h']
  rcases h with ⟨h, _⟩ | ⟨a, c, d, x, n, g1, g2, g3, g4, h1, h3⟩
  · exact absurd h hb
  rcases h' with ⟨h, _⟩ | ⟨a', c', d', x', n', g1', g2', g3', g4', h1', h3'⟩
  · exact absurd h hb
  rw [g1] at g1'; cases g1'
  rw [g2] at g2'; cases g2'
  obtain rfl := Current.unique g3 g3'
  obtain rfl := FreshPrice.unique g4 g4'
  obtain rfl := floor_unique h1 h1' (by decide)
  exact floor_unique h3 h3' (by positivity)

theorem LiabilityItem.unique {b v v' : Int} (h : LiabilityItem w V i b v) (h' : LiabilityItem w V i b v') : v = v' := by
  have z : ∀ {v}, b = 0 → LiabilityItem w V i b v → v = 0 := by
    rintro v rfl (⟨_, h⟩ | ⟨a, c, d, x, n, e, _, _, _, _, h1, hl, h2, h3⟩)
    · exact h
    · rw [zero_mul] at h1
      obtain rfl := ceil_zero h1 (by decide)
      rw [zero_mul] at h2
      obtain rfl := ceil_zero h2 (by omega)
      rw [mul_zero] at h3
      exact ceil_zero h3 (by positivity)
  by_cases hb : b = 0
  · rw [z hb h, z hb h']
  rcases h with ⟨h, _⟩ | ⟨a, c, d, x, n, e, g1, g2, g3, g4, h1, hl, h2, h3⟩
  · exact absurd h hb
  rcases h' with ⟨h, _⟩ | ⟨a', c', d', x', n', e', g1', g2', g3', g4', h1', _, h2', h3'⟩
  · exact absurd h hb
  rw [g1] at g1'; cases g1'
  rw [g2] at g2'; cases g2'
  obtain rfl := Current.unique g3 g3'
  obtain rfl := FreshPrice.unique g4 g4'
  obtain rfl := ceil_unique h1 h1' (by decide)
  obtain rfl := ceil_unique h2 h2' (by omega)
  exact ceil_unique h3 h3' (by positivity)

theorem RawLiabItem.unique {b v v' : Int} (h : RawLiabItem w V i b v) (h' : RawLiabItem w V i b v') : v = v' := by
  have z : ∀ {v}, b = 0 → RawLiabItem w V i b v → v = 0 := by
    rintro v rfl (⟨_, h⟩ | ⟨a, c, d, x, n, _, _, _, _, h1, h3⟩)
    · exact h
    · rw [zero_mul] at h1
      obtain rfl := ceil_zero h1 (by decide)
      rw [mul_zero] at h3
      exact ceil_zero h3 (by positivity)
  by_cases hb : b = 0
  · rw [z hb h, z hb h']
  rcases h with ⟨h, _⟩ | ⟨a, c, d, x, n, g1, g2, g3, g4, h1, h3⟩
  · exact absurd h hb
  rcases h' with ⟨h, _⟩ | ⟨a', c', d', x', n', g1', g2', g3', g4', h1', h3'⟩
  · exact absurd h hb
  rw [g1] at g1'; cases g1'
  rw [g2] at g2'; cases g2'
  obtain rfl := Current.unique g3 g3'
  obtain rfl := FreshPrice.unique g4 g4'
  obtain rfl := ceil_unique h1 h1' (by decide)
  exact ceil_unique h3 h3' (by positivity)

theorem total_congr {f g : Nat → Int} (h : ∀ i, i < V.resList.length → f i = g i) : total V f = total V g := by
  unfold total
  rw [List.map_congr_left fun i hi => h i (List.mem_range.1 hi)]

theorem values_unique {pos : Positions} {C Cr L Lr C' Cr' L' Lr' : Int} (h : Values w V pos C Cr L Lr) (h' : Values w V pos C' Cr' L' Lr') :
    C = C' ∧ Cr = Cr' ∧ L = L' ∧ Lr = Lr' := by
  obtain ⟨⟨f1, a1, rfl⟩, ⟨f2, a2, rfl⟩, ⟨f3, a3, rfl⟩, ⟨f4, a4, rfl⟩⟩ := h
  obtain ⟨⟨g1, b1, rfl⟩, ⟨g2, b2, rfl⟩, ⟨g3, b3, rfl⟩, ⟨g4, b4, rfl⟩⟩ := h'
  exact ⟨total_congr fun i hi => CollateralItem.unique (a1 i hi) (b1 i hi), total_congr fun i hi => RawCollItem.unique (a2 i hi) (b2 i hi),
    total_congr fun i hi => LiabilityItem.unique (a3 i hi) (b3 i hi), total_congr fun i hi => RawLiabItem.unique (a4 i hi) (b4 i hi)⟩

/-- raw and risk adjusted values compare -/
theorem CollateralItem.le_raw {b v v' : Int} (h : CollateralItem w V i b v) (h' : RawCollItem w V i b v') (hb : 0 ≤ b)
    (hp : PricesOk w V) (hr : RatesPos V w.time) (cfg : CfgOk V) : 0 ≤ v ∧ v ≤ v' := by
  by_cases h0 : b = 0
  · subst h0
    rw [CollateralItem.unique h (.inl ⟨rfl, rfl⟩), RawCollItem.unique h' (.inl ⟨rfl, rfl⟩)]; exact ⟨le_refl _, le_refl _⟩
  rcases h with ⟨h, _⟩ | ⟨a, c, d, x, n, e, g1, g2, g3, g4, h1, h2, h3⟩
  · exact absurd h h0
  rcases h' with ⟨h, _⟩ | ⟨a', c', d', x', n', g1', g2', g3', g4', h1', h3'⟩
  · exact absurd h h0
  rw [g1] at g1'; cases g1'
  rw [g2] at g2'; cases g2'
  obtain rfl := Current.unique g3 g3'
  obtain rfl := FreshPrice.unique g4 g4'
  obtain rfl := floor_unique h1 h1' (by decide)
  have hn : 0 ≤ n := IsFloor.nonneg h1 (by decide) (mul_nonneg hb (hr a d g3).1.le)
  have he0 : 0 ≤ e := IsFloor.nonneg h2 (by decide) (mul_nonneg hn (by omega))
  have hcf := (cfg.valid a c g2).cFactor
  have he : e ≤ n := by
    have := h2.1
    have h7 : (ONE7 : Int) = 10000000 := rfl
    rw [h7] at this
    have : n * (c.cFactor : Int) ≤ n * 10000000 := mul_le_mul_of_nonneg_left (by omega) hn
    omega
  obtain ⟨j, ts, hj, hx, _⟩ := g4
  have hx0 := hp j a x ts hj (List.mem_of_getElem? g1) hx
  have h10 : (0 : Int) < 10 ^ c.decimals := by positivity
  refine ⟨IsFloor.nonneg h3 h10 (mul_nonneg hx0 he0), ?_⟩
  have := mul_le_mul_of_nonneg_left he hx0
  have k1 := h3.1
  have k2 := h3'.2
  by_contra hlt
  have : v' + 1 ≤ v := by omega
  nlinarith

theorem LiabilityItem.ge_raw {b v v' : Int} (h : LiabilityItem w V i b v) (h' : RawLiabItem w V i b v') (hb : 0 ≤ b)
    (hp : PricesOk w V) (hr : RatesPos V w.time) (cfg : CfgOk V) : 0 ≤ v' ∧ v' ≤ v := by
  by_cases h0 : b = 0
  · subst h0
    rw [LiabilityItem.unique h (.inl ⟨rfl, rfl⟩), RawLiabItem.unique h' (.inl ⟨rfl, rfl⟩)]; exact ⟨le_refl _, le_refl _⟩
  rcases h with ⟨h, _⟩ | ⟨a, c, d, x, n, e, g1, g2, g3, g4, h1, hl, h2, h3⟩
  · exact absurd h h0
  rcases h' with ⟨h, _⟩ | ⟨a', c', d', x', n', g1', g2', g3', g4', h1', h3'⟩
  · exact absurd h h0
  rw [g1] at g1'; cases g1'
  rw [g2] at g2'; cases g2'
  obtain rfl := Current.unique g3 g3'
  obtain rfl := FreshPrice.unique g4 g4'
  obtain rfl := ceil_unique h1 h1' (by decide)
  have hn : 0 ≤ n := IsCeil.nonneg h1 (by decide) (mul_nonneg hb (hr a d g3).2.le)
  have hlf := (cfg.valid a c g2).lFactor
  have he : n ≤ e := by
    have h7 : (ONE7 : Int) = 10000000 := rfl
    have k := h2.2
    rw [h7] at k
    by_contra hlt
    have e1 : e + 1 ≤ n := by omega
    have hl0 : (0 : Int) < c.lFactor := by exact_mod_cast hl
    have : (n - 1) * (c.lFactor : Int) ≤ (n - 1) * 10000000 := by
      by_cases hn1 : n = 0
      · subst hn1
        have he0 : 0 ≤ e := IsCeil.nonneg h2 hl0 (by decide)
        omega
      · exact mul_le_mul_of_nonneg_left (by omega) (by omega)
    have : e * (c.lFactor : Int) ≤ (n - 1) * c.lFactor := mul_le_mul_of_nonneg_right (by omega) hl0.le
    omega
  obtain ⟨j, ts, hj, hx, _⟩ := g4
  have hx0 := hp j a x ts hj (List.mem_of_getElem? g1) hx
  have h10 : (0 : Int) < 10 ^ c.decimals := by positivity
  refine ⟨IsCeil.nonneg h3' h10 (mul_nonneg hx0 hn), ?_⟩
  have := mul_le_mul_of_nonneg_left he hx0
  have k1 := h3.2
  have k2 := h3'.1
  by_contra hlt
  have : v + 1 ≤ v' := by omega
  nlinarith

theorem sum_le_sum {n : Nat} {f g : Nat → Int} (h : ∀ i, i < n → f i ≤ g i) :
    ((List.range n).map f).sum ≤ ((List.range n).map g).sum := by
  have := sum_range_nonneg (f := fun i => g i - f i) fun i hi => by have := h i hi; omega
  have e : ∀ m, ((List.range m).map fun i => g i - f i).sum = ((List.range m).map g).sum - ((List.range m).map f).sum := by
    intro m
    induction m with
    | zero => simp
    | succ m ih => simp only [List.range_succ, List.map_append, List.sum_append, ih, List.map_cons, List.map_nil, List.sum_cons, List.sum_nil]; omega
  rw [e] at this
  omega

theorem sum_prefix {n m : Nat} {f : Nat → Int} (hm : m ≤ n) (h : ∀ i, i < n → 0 ≤ f i) :
    ((List.range m).map f).sum ≤ ((List.range n).map f).sum := by
  obtain ⟨k, rfl⟩ := Nat.exists_eq_add_of_le hm
  induction k with
  | zero => exact le_refl _
  | succ k ih =>
    have := ih (by omega) fun i hi => h i (by omega)
    have h2 := h (m + k) (by omega)
    rw [show m + (k + 1) = (m + k) + 1 from rfl, List.range_succ, List.map_append, List.sum_append]
    simp only [List.map_cons, List.map_nil, List.sum_cons, List.sum_nil]
    omega

theorem values_order {pos : Positions} {C Cr L Lr : Int} (h : Values w V pos C Cr L Lr) (hp : PricesOk w V) (hr : RatesPos V w.time)
    (cfg : CfgOk V) (hb : ∀ i, 0 ≤ pos.collateral.bal i) (hd : ∀ i, 0 ≤ pos.liabilities.bal i) : 0 ≤ C ∧ C ≤ Cr ∧ 0 ≤ Lr ∧ Lr ≤ L := by
  refine ⟨collValue_nonneg h.coll hp hr hb, ?_, rawLiab_nonneg h.liabRaw hp hr hd, ?_⟩
  · obtain ⟨⟨f1, a1, rfl⟩, ⟨f2, a2, rfl⟩, -, -⟩ := h
    exact sum_le_sum fun i hi => (CollateralItem.le_raw (a1 i hi) (a2 i hi) (hb i) hp hr cfg).2
  · obtain ⟨-, -, ⟨f1, a1, rfl⟩, ⟨f2, a2, rfl⟩⟩ := h
    exact sum_le_sum fun i hi => (LiabilityItem.ge_raw (a1 i hi) (a2 i hi) (hd i) hp hr cfg).2

theorem _root_.Blend.NoErr.chkU64 {x : Nat} (h : E .overflow = true → InU64 x) : NoErr E (Blend.chkU64 x) := by
  unfold Blend.chkU64
  split
  · exact NoErr.ok
  · rename_i hn
    refine NoErr.error ?_
    cases hE : E .overflow with
    | false => rfl
    | true => exact absurd (h hE) hn

theorem CacheCur.load_live {now : Nat} {cache : Cache} {d : ReserveData} {st : Bool} (hc : CacheCur V ps now cache) (cfg : CfgOk V)
    (hd : Current V now a d) : NoErr E (cache.loadReserve ps now a st) := by
  unfold Cache.loadReserve
  dsimp only
  obtain ⟨c, d0, i, h1, h2, h3, h4⟩ := hd
  have key : ∀ x : Cache, (if st = true ∧ a ∉ cache.toStore then { cache with toStore := cache.toStore ++ [a] } else cache) = x →
      x.reserves = cache.reserves ∧ x.config = cache.config := by
    rintro x rfl; split <;> exact ⟨rfl, rfl⟩
  obtain ⟨k1, k2⟩ := key _ rfl
  rw [k1, k2]
  cases hg : cache.reserves.get a with
  | some r => exact NoErr.pure
  | none =>
    refine NoErr.bind ?_ fun _ _ => NoErr.pure
    unfold Reserve.load
    refine NoErr.bind (NoErr.unwrap (by rw [← hc.resConfig]; exact h1)) fun c' hc' => ?_
    rw [unwrap_ok, ← hc.resConfig, h1] at hc'; cases hc'
    refine NoErr.bind (NoErr.unwrap (by rw [hc.rest a hg]; exact h2)) fun d' hd' => ?_
    rw [unwrap_ok, hc.rest a hg, h2] at hd'; cases hd'
    refine NoErr.bind ?_ fun _ _ => NoErr.bind ?_ fun _ _ => NoErr.pure
    · unfold pow10
      have h18 : (10 : Int) ^ c.decimals ≤ 10 ^ 18 := pow_le_pow_right₀ (by decide) (cfg.valid a c h1).decimals
      exact NoErr.chk fun _ => inI (by positivity) (by omega)
    · obtain ⟨j, hj, hjc⟩ := hc.config
      rw [← hc.inst, h3] at hj; cases hj
      rw [← hjc, h4]
      exact NoErr.ok

theorem loadPrice_live {cfg : PoolConfig} {x : Int} {ts : Nat} (h : (w.oracle cfg.oracle).price a = some (x, ts)) (ht : w.time ≤ ts + 86400)
    (hB : E .overflow = true → ts ≤ 1000000000000000000) : NoErr E (loadPrice w cfg a) := by
  unfold loadPrice
  refine NoErr.bind (NoErr.unwrap h) fun v hv => ?_
  rw [unwrap_ok, h] at hv; cases hv
  refine NoErr.bind (NoErr.chkU64 fun hE => ?_) fun l hl => NoErr.bind (NoErr.req ?_) fun _ _ => NoErr.pure
  · have := hB hE
    unfold InU64
    omega
  · rw [chkU64_ok] at hl
    omega

/-- what a step of the valuation needs: the values of the item exist, and the sums stay in range -/
structure StepFits (w : World) (V : PoolState) (pos : Positions) (i : Nat) (pd : PositionData) (f g f' g' : Int) : Prop where
  stamp : ∀ i a x ts, V.inst = some i → a ∈ V.resList → (w.oracle i.config.oracle).price a = some (x, ts) → ts ≤ 1000000000000000000
  price : ∀ a x, a ∈ V.resList → FreshPrice w V a x → x ≤ 10 ^ 18
  amount : ∀ a d, V.resList[i]? = some a → Current V w.time a d →
    pos.collateral.bal i * d.bRate ≤ 10 ^ 27 ∧ pos.liabilities.bal i * d.dRate ≤ 10 ^ 27
  lFactor : ∀ a c, a ∈ V.resList → V.resConfig a = some c → 1000000 ≤ c.lFactor
  sums : 0 ≤ pd.collateralBase + f ∧ pd.collateralBase + f ≤ 10 ^ 23 ∧ 0 ≤ pd.liabilityBase + g ∧ pd.liabilityBase + g ≤ 10 ^ 23 ∧
    0 ≤ pd.collateralRaw + f' ∧ pd.collateralRaw + f' ≤ 10 ^ 23 ∧ 0 ≤ pd.liabilityRaw + g' ∧ pd.liabilityRaw + g' ≤ 10 ^ 23

theorem healthStep_live {pos : Positions} {pd : PositionData} {cache : Cache} {f g f' g' : Int}
    (hc : CacheCur V ps w.time cache) (cfg : CfgOk V) (hpr : PricesOk w V) (hrt : RatesPos V w.time)
    (hb : 0 ≤ pos.collateral.bal i) (hd : 0 ≤ pos.liabilities.bal i)
    (i1 : CollateralItem w V i (pos.collateral.bal i) f) (i2 : LiabilityItem w V i (pos.liabilities.bal i) g)
    (i3 : RawCollItem w V i (pos.collateral.bal i) f') (i4 : RawLiabItem w V i (pos.liabilities.bal i) g')
    (hB : E .overflow = true → StepFits w V pos i pd f g f' g') : NoErr E (healthStep w ps pos (pd, cache) i) := by
  by_cases h0 : pos.collateral.bal i = 0 ∧ pos.liabilities.bal i = 0
  · unfold healthStep
    simp only [if_pos h0]
    exact NoErr.pure
  have hex : ∃ a c d x, V.resList[i]? = some a ∧ V.resConfig a = some c ∧ Current V w.time a d ∧ FreshPrice w V a x ∧
      (pos.liabilities.bal i ≠ 0 → 0 < c.lFactor) := by
    by_cases hk : pos.liabilities.bal i = 0
    · rcases i1 with ⟨h, _⟩ | ⟨a, c, d, x, n, e, g1, g2, g3, g4, _⟩
      · exact absurd ⟨h, hk⟩ h0
      · exact ⟨a, c, d, x, g1, g2, g3, g4, fun h => absurd hk h⟩
    · rcases i2 with ⟨h, _⟩ | ⟨a, c, d, x, n, e, g1, g2, g3, g4, _, hl, _⟩
      · exact absurd h hk
      · exact ⟨a, c, d, x, g1, g2, g3, g4, fun _ => hl⟩
  obtain ⟨a, c, d, x, hli, hcc, hcur, hfp, hlf⟩ := hex
  have hmem := List.mem_of_getElem? hli
  rw [healthStep_parts h0]
  refine NoErr.bind (NoErr.unwrap (by rw [← hc.resList]; exact hli)) fun a' ha' => ?_
  rw [unwrap_ok, ← hc.resList, hli] at ha'; cases ha'
  refine NoErr.bind (hc.load_live cfg hcur) fun rc hrc => ?_
  obtain ⟨r, cache'⟩ := rc
  obtain ⟨hm, ⟨d', hd', eb, ed, _⟩, hcfg, hc1⟩ := hc.load hrc
  obtain rfl := Current.unique hcur hd'
  obtain ⟨c', hc', hidx, hsc, hlF, hcF, _⟩ := hm.cfg
  rw [← hc.resConfig, hcc] at hc'; cases hc'
  obtain ⟨j, ts, hj, hx, hts⟩ := hfp
  obtain ⟨j', hj', hjc⟩ := hc.config
  rw [← hc.inst, hj] at hj'; cases hj'
  have hx0 := hpr j a x ts hj hmem hx
  have h10 : (1 : Int) ≤ 10 ^ c.decimals := one_le_pow₀ (by decide)
  have hrate := hrt a d hcur
  dsimp only
  refine NoErr.bind ?_ fun price hprice => ?_
  · rw [hm.asset, hcfg, ← hjc]
    exact loadPrice_live hx hts fun hE => (hB hE).stamp j a x ts hj hmem hx
  have : price = x := by
    obtain ⟨ts', h, _⟩ := loadPrice_ok hprice
    rw [hm.asset, hcfg, ← hjc, hx] at h
    cases h; rfl
  subst this
  have hfp : FreshPrice w V a price := ⟨j, ts, hj, hx, hts⟩
  have hcoll : NoErr E (collPart r price (pos.collateral.bal i) pd) := by
    unfold collPart
    split
    · rename_i hpos
      unfold Reserve.toEffectiveAssetFromB ReserveData.toAssetFromB fixedMulFloor
      rw [eb, hcF, hsc]
      have hq0 := mul_nonneg hb hrate.1.le
      have hn1 : NoErr E (mulDivFloor (pos.collateral.bal i) d.bRate SCALAR_9) :=
        NoErr.mulDivFloor (by decide) fun hE => inI hq0 (le_trans ((hB hE).amount a d hli hcur).1 (by decide))
      have hcf := (cfg.valid a c hcc).cFactor
      refine NoErr.bind (NoErr.bind hn1 fun n hn => ?_) fun eff he => ?_
      · refine NoErr.mulDivFloor (by decide) fun hE => ?_
        have hn0 : 0 ≤ n := mulDivFloor_nonneg hn (by decide) hq0
        have hn18 : n ≤ 10 ^ 18 := floor_le (by decide) hn (le_trans ((hB hE).amount a d hli hcur).1 (by decide))
        have := prod_le hn0 hn18 (by omega : (0 : Int) ≤ c.cFactor) (by omega : (c.cFactor : Int) ≤ 10000000)
        exact inI this.1 (le_trans this.2 (by decide))
      rw [bind_ok] at he
      obtain ⟨n, hn, he⟩ := he
      have hn0 : 0 ≤ n := mulDivFloor_nonneg hn (by decide) hq0
      have he0 : 0 ≤ eff := mulDivFloor_nonneg he (by decide) (mul_nonneg hn0 (by omega))
      have hen : eff ≤ n := floor_le (by decide) he (mul_le_mul_of_nonneg_left (by unfold SCALAR_7; omega) hn0)
      have hn18 : E .overflow = true → n ≤ 10 ^ 18 := fun hE =>
        floor_le (by decide) hn (le_trans ((hB hE).amount a d hli hcur).1 (by decide))
      refine NoErr.bind (NoErr.mulDivFloor h10 fun hE => ?_) fun v hv => ?_
      · have := prod_le hx0 ((hB hE).price a price hmem hfp) he0 (le_trans hen (hn18 hE))
        exact inI this.1 (le_trans this.2 (by decide))
      have hvf : v = f := CollateralItem.unique (.inr ⟨a, c, d, price, n, eff, hli, hcc, hcur, hfp, floor_spec hn S9_pos,
        floor_spec he (by decide), floor_spec hv (by omega)⟩) i1
      subst hvf
      refine NoErr.bind (NoErr.chk fun hE => ?_) fun _ _ => NoErr.bind hn1 fun n' hn' => ?_
      · have := (hB hE).sums
        exact inI (by omega) (by omega)
      rw [hn] at hn'; cases hn'
      refine NoErr.bind (NoErr.mulDivFloor h10 fun hE => ?_) fun v' hv' => ?_
      · have := prod_le hx0 ((hB hE).price a price hmem hfp) hn0 (hn18 hE)
        exact inI this.1 (le_trans this.2 (by decide))
      have hvf : v' = f' := RawCollItem.unique (.inr ⟨a, c, d, price, n, hli, hcc, hcur, hfp, floor_spec hn S9_pos,
        floor_spec hv' (by omega)⟩) i3
      subst hvf
      refine NoErr.bind (NoErr.chk fun hE => ?_) fun _ _ => NoErr.pure
      have := (hB hE).sums
      exact inI (by omega) (by omega)
    · exact NoErr.pure
  refine NoErr.bind hcoll fun pd1 hpd1 => ?_
  have hpl : pd1.liabilityBase = pd.liabilityBase ∧ pd1.liabilityRaw = pd.liabilityRaw := by
    unfold collPart at hpd1
    split at hpd1
    · simp only [bind_ok, pure_ok] at hpd1
      obtain ⟨_, _, _, _, _, _, _, _, _, _, _, _, rfl⟩ := hpd1
      exact ⟨rfl, rfl⟩
    · rw [pure_ok] at hpd1; subst hpd1; exact ⟨rfl, rfl⟩
  refine NoErr.bind ?_ fun _ _ => NoErr.pure
  unfold liabPart
  split
  · rename_i hpos
    have hlf0 : 0 < c.lFactor := hlf (by omega)
    unfold Reserve.toEffectiveAssetFromD ReserveData.toAssetFromD fixedMulCeil fixedDivCeil
    rw [ed, hlF, hsc]
    have hq0 := mul_nonneg hd hrate.2.le
    have hn1 : NoErr E (mulDivCeil (pos.liabilities.bal i) d.dRate SCALAR_9) :=
      NoErr.mulDivCeil (by decide) fun hE => ⟨by omega, le_trans ((hB hE).amount a d hli hcur).2 (by decide)⟩
    refine NoErr.bind (NoErr.bind hn1 fun n hn => ?_) fun eff he => ?_
    · refine NoErr.mulDivCeil (by omega) fun hE => ?_
      have hn0 : 0 ≤ n := mulDivCeil_nonneg hn (by decide) hq0
      have hn18 : n ≤ 10 ^ 18 := Blend.ceil_le (by decide) hn (le_trans ((hB hE).amount a d hli hcur).2 (by decide))
      unfold SCALAR_7
      omega
    rw [bind_ok] at he
    obtain ⟨n, hn, he⟩ := he
    have hn0 : 0 ≤ n := mulDivCeil_nonneg hn (by decide) hq0
    have he0 : 0 ≤ eff := mulDivCeil_nonneg he (by omega) (mul_nonneg hn0 (by decide))
    have hn18 : E .overflow = true → n ≤ 10 ^ 18 := fun hE =>
      Blend.ceil_le (by decide) hn (le_trans ((hB hE).amount a d hli hcur).2 (by decide))
    have hen : E .overflow = true → eff ≤ 10 ^ 19 := fun hE => by
      have h1 := hn18 hE
      have h2 := (hB hE).lFactor a c hmem hcc
      refine Blend.ceil_le (by omega) he ?_
      unfold SCALAR_7
      have : (10 : Int) ^ 19 * 1000000 ≤ 10 ^ 19 * (c.lFactor : Int) := mul_le_mul_of_nonneg_left (by exact_mod_cast h2) (by decide)
      omega
    refine NoErr.bind (NoErr.mulDivCeil h10 fun hE => ?_) fun v hv => ?_
    · have := prod_le hx0 ((hB hE).price a price hmem hfp) he0 (hen hE)
      exact ⟨by omega, le_trans this.2 (by decide)⟩
    have hvf : v = g := LiabilityItem.unique (.inr ⟨a, c, d, price, n, eff, hli, hcc, hcur, hfp, ceil_spec hn S9_pos,
      hlf0, ceil_spec he (by omega), ceil_spec hv (by omega)⟩) i2
    subst hvf
    refine NoErr.bind (NoErr.chk fun hE => ?_) fun _ _ => NoErr.bind hn1 fun n' hn' => ?_
    · have := (hB hE).sums
      rw [hpl.1]
      exact inI (by omega) (by omega)
    rw [hn] at hn'; cases hn'
    refine NoErr.bind (NoErr.mulDivCeil h10 fun hE => ?_) fun v' hv' => ?_
    · have := prod_le hx0 ((hB hE).price a price hmem hfp) hn0 (hn18 hE)
      exact ⟨by omega, le_trans this.2 (by decide)⟩
    have hvf : v' = g' := RawLiabItem.unique (.inr ⟨a, c, d, price, n, hli, hcc, hcur, hfp, ceil_spec hn S9_pos,
      ceil_spec hv' (by omega)⟩) i4
    subst hvf
    refine NoErr.bind (NoErr.chk fun hE => ?_) fun _ _ => NoErr.pure
    have := (hB hE).sums
    rw [hpl.2]
    exact inI (by omega) (by omega)
  · exact NoErr.pure

theorem calcPositionData_live {pos : Positions} {cache : Cache} {C Cr L Lr : Int} (hc : CacheCur V ps w.time cache) (cfg : CfgOk V)
    (hpr : PricesOk w V) (hrt : RatesPos V w.time) (hb : ∀ i, 0 ≤ pos.collateral.bal i) (hd : ∀ i, 0 ≤ pos.liabilities.bal i)
    (hv : Values w V pos C Cr L Lr) (hB : E .overflow = true → Ordinary w V pos Cr L) : NoErr E (calcPositionData w ps cache pos) := by
  unfold calcPositionData oracleScalar pow10
  obtain ⟨⟨f, hf, rfl⟩, ⟨f', hf', rfl⟩, ⟨g, hg, rfl⟩, ⟨g', hg', rfl⟩⟩ := hv
  refine NoErr.bind (NoErr.chk fun hE => inI (by positivity) ?_) fun sc hsc => ?_
  · obtain ⟨i, hi, hic⟩ := hc.config
    have := (hB hE).decimals _ ⟨i, by rw [hc.inst]; exact hi, by rw [hic]⟩
    have h14 : (10 : Int) ^ (w.oracle cache.config.oracle).decimals ≤ 10 ^ 14 := pow_le_pow_right₀ (by decide) this
    omega
  have key : ∀ n, n ≤ V.resList.length →
      NoErr E ((List.range n).foldlM (healthStep w ps pos) (⟨0, 0, 0, 0, sc⟩, cache)) ∧
      ∀ pd cache', (List.range n).foldlM (healthStep w ps pos) (⟨0, 0, 0, 0, sc⟩, cache) = .ok (pd, cache') →
        CacheCur V ps w.time cache' ∧ pd.collateralBase = ((List.range n).map f).sum ∧ pd.liabilityBase = ((List.range n).map g).sum ∧
        pd.collateralRaw = ((List.range n).map f').sum ∧ pd.liabilityRaw = ((List.range n).map g').sum := by
    intro n
    induction n with
    | zero =>
      intro _
      refine ⟨NoErr.pure, fun pd cache' h => ?_⟩
      simp only [List.range_zero, foldlM_nil, Prod.mk.injEq] at h
      obtain ⟨rfl, rfl⟩ := h
      exact ⟨hc, rfl, rfl, rfl, rfl⟩
    | succ n ih =>
      intro hn
      obtain ⟨ih1, ih2⟩ := ih (by omega)
      rw [List.range_succ, List.foldlM_append]
      have hsum : ∀ h : Nat → Int, ((List.range n ++ [n]).map h).sum = ((List.range n).map h).sum + h n := by
        intro h
        rw [List.map_append, List.sum_append]; simp
      have hf1 := hf n (by omega)
      have hf1' := hf' n (by omega)
      have hg1 := hg n (by omega)
      have hg1' := hg' n (by omega)
      constructor
      · refine NoErr.bind ih1 fun x hx => ?_
        obtain ⟨pd, c1⟩ := x
        obtain ⟨k1, k2, k3, k4, k5⟩ := ih2 pd c1 hx
        rw [List.foldlM_cons]
        refine NoErr.bind (healthStep_live k1 cfg hpr hrt (hb n) (hd n) hf1 hg1 hf1' hg1' fun hE => ?_) fun _ _ => NoErr.pure
        have o := hB hE
        refine ⟨o.stamp, o.price, fun a d => o.amount n a d, o.lFactor, ?_⟩
        rw [k2, k3, k4, k5, ← hsum, ← hsum, ← hsum, ← hsum, ← List.range_succ, Nat.succ_eq_add_one]
        have nn : ∀ i, i < V.resList.length → 0 ≤ f i ∧ f i ≤ f' i ∧ 0 ≤ g' i ∧ g' i ≤ g i := fun i hi => by
          have a1 := CollateralItem.le_raw (hf i hi) (hf' i hi) (hb i) hpr hrt cfg
          have a2 := LiabilityItem.ge_raw (hg i hi) (hg' i hi) (hd i) hpr hrt cfg
          omega
        have p1 := sum_range_nonneg (n := n + 1) (f := f) fun i hi => by have := nn i (by omega); omega
        have p2 := sum_le_sum (n := n + 1) (f := f) (g := f') fun i hi => by have := nn i (by omega); omega
        have p3 := sum_prefix hn (f := f') fun i hi => by have := nn i (by omega); omega
        have p4 := sum_range_nonneg (n := n + 1) (f := g') fun i hi => by have := nn i (by omega); omega
        have p5 := sum_le_sum (n := n + 1) (f := g') (g := g) fun i hi => by have := nn i (by omega); omega
        have p6 := sum_prefix hn (f := g) fun i hi => by have := nn i (by omega); omega
        have o1 := o.value
        unfold total at o1
        exact ⟨p1, by omega, by omega, by omega, by omega, by omega, p4, by omega⟩
      · intro pd cache' h
        rw [bind_ok] at h
        obtain ⟨⟨pd1, c1⟩, h1, h2⟩ := h
        obtain ⟨k1, k2, k3, k4, k5⟩ := ih2 pd1 c1 h1
        rw [foldlM_cons] at h2
        obtain ⟨⟨pd2, c2⟩, h2, h3⟩ := h2
        rw [foldlM_nil] at h3
        cases h3
        obtain ⟨j1, _, _, x, y, x', y', e1, e2, e3, e4, e5, e6, e7, e8⟩ := healthStep_ok k1 (hb n) (hd n) h2
        rw [CollateralItem.unique e1 hf1] at e5
        rw [LiabilityItem.unique e2 hg1] at e6
        rw [RawCollItem.unique e3 hf1'] at e7
        rw [RawLiabItem.unique e4 hg1'] at e8
        refine ⟨j1, ?_, ?_, ?_, ?_⟩
        · rw [hsum, e5, k2]
        · rw [hsum, e6, k3]
        · rw [hsum, e7, k4]
        · rw [hsum, e8, k5]
  have := (key V.resList.length (le_refl _)).1
  rwa [hc.resList] at this

/-- the quote for all of the debt of an account whose debt is not worth less than its collateral -/
theorem liqQuote_live {pd : PositionData} {n : Nat} (hs : pd.scalar = 10 ^ n) (hC : 0 ≤ pd.collateralBase)
    (hCr : pd.collateralBase ≤ pd.collateralRaw) (hCr0 : 0 < pd.collateralRaw) (hLr : pd.liabilityRaw ≤ pd.liabilityBase)
    (hLr0 : 0 < pd.liabilityRaw)
    (hB : E .overflow = true → n ≤ 14 ∧ pd.collateralRaw ≤ 10 ^ 23 ∧ pd.liabilityBase ≤ 10 ^ 23) : NoErr E (liqQuote pd 100) := by
  obtain ⟨C, Cr, L, Lr, S⟩ := pd
  dsimp only at *
  have hS1 : 1 ≤ S := by rw [hs]; exact one_le_pow₀ (by decide)
  have hS14 : E .overflow = true → S ≤ 10 ^ 14 := fun hE => by
    rw [hs]; exact pow_le_pow_right₀ (by decide) (hB hE).1
  unfold liqQuote fixedDivFloor fixedDivCeil fixedMulFloor
  dsimp only
  refine NoErr.bind (NoErr.chk fun hE => ?_) fun m hm => ?_
  · have := hS14 hE
    exact inI (by push_cast; omega) (by push_cast; omega)
  rw [chk_ok] at hm
  have hpct : Int.tdiv m 100 = S := by
    rw [hm.2]; push_cast
    rw [Int.mul_comm]
    exact Int.mul_tdiv_cancel _ (by decide)
  rw [hpct]
  refine NoErr.bind (NoErr.mulDivFloor (by omega) fun hE => ?_) fun cf hcf => ?_
  · have := prod_le hC (le_trans hCr (hB hE).2.1) (by omega) (hS14 hE)
    exact inI this.1 (le_trans this.2 (by decide))
  have cf0 : 0 ≤ cf := mulDivFloor_nonneg hcf (by omega) (mul_nonneg hC (by omega))
  have cf1 : cf ≤ S := floor_le (by omega) hcf (by rw [Int.mul_comm]; exact mul_le_mul_of_nonneg_left hCr (by omega))
  refine NoErr.bind (NoErr.mulDivFloor (by omega) fun hE => ?_) fun lf hlf => ?_
  · have := prod_le (by omega : 0 ≤ L) (hB hE).2.2 (by omega) (hS14 hE)
    exact inI this.1 (le_trans this.2 (by decide))
  have lf1 : S ≤ lf := by
    have := (mulDivFloor_spec hlf (by omega)).2
    by_contra hlt
    have h1 : Lr * S ≤ L * S := mul_le_mul_of_nonneg_right hLr (by omega)
    have h2 : (lf + 1) * Lr ≤ S * Lr := mul_le_mul_of_nonneg_right (by omega) (by omega)
    rw [Int.mul_comm S] at h2
    nlinarith
  refine NoErr.bind (NoErr.mulDivCeil (by omega) fun hE => ?_) fun ratio hra => ?_
  · have := prod_le cf0 (le_trans cf1 (hS14 hE)) (by omega) (hS14 hE)
    exact ⟨by omega, le_trans this.2 (by decide)⟩
  have r0 : 0 ≤ ratio := mulDivCeil_nonneg hra (by omega) (mul_nonneg cf0 (by omega))
  have r1 : ratio ≤ S := Blend.ceil_le (by omega) hra (by
    rw [Int.mul_comm]; exact mul_le_mul_of_nonneg_left (le_trans cf1 lf1) (by omega))
  refine NoErr.bind (NoErr.chk fun hE => ?_) fun dif hdif => ?_
  · have := hS14 hE
    exact inI (by omega) (by omega)
  rw [chk_ok] at hdif
  refine NoErr.bind (NoErr.chk fun hE => ?_) fun two htwo => ?_
  · have := hS14 hE
    exact inI (by omega) (by omega)
  rw [chk_ok] at htwo
  refine NoErr.bind (NoErr.mulDivCeil (by omega) fun hE => ?_) fun half hhalf => ?_
  · have := prod_le (by omega : 0 ≤ dif) (by have := hS14 hE; omega : dif ≤ 10 ^ 14) (by omega : 0 ≤ S) (hS14 hE)
    exact ⟨by omega, le_trans this.2 (by decide)⟩
  have h0 : 0 ≤ half := mulDivCeil_nonneg hhalf (by omega) (mul_nonneg (by omega) (by omega))
  have h1 : half ≤ S := Blend.ceil_le (by omega) hhalf (by
    have := mul_le_mul_of_nonneg_right (by omega : dif ≤ S) (by omega : (0 : Int) ≤ S)
    rw [htwo.2]
    nlinarith)
  refine NoErr.bind (NoErr.chk fun hE => ?_) fun inc hinc => ?_
  · have := hS14 hE
    exact inI (by omega) (by omega)
  rw [chk_ok] at hinc
  refine NoErr.bind (NoErr.mulDivFloor (by omega) fun hE => ?_) fun x hx => ?_
  · have := prod_le (by omega : 0 ≤ Lr) (le_trans hLr (hB hE).2.2) (by omega) (hS14 hE)
    exact inI this.1 (le_trans this.2 (by decide))
  have x0 : 0 ≤ x := mulDivFloor_nonneg hx (by omega) (mul_nonneg (by omega) (by omega))
  have x1 : x ≤ Lr := floor_le (by omega) hx (le_refl _)
  refine NoErr.bind (NoErr.mulDivFloor (by omega) fun hE => ?_) fun wd hwd => ?_
  · have := prod_le x0 (le_trans x1 (le_trans hLr (hB hE).2.2)) (by omega : 0 ≤ inc) (by have := hS14 hE; omega : inc ≤ 2 * 10 ^ 14)
    exact inI this.1 (le_trans this.2 (by decide))
  have w0 : 0 ≤ wd := mulDivFloor_nonneg hwd (by omega) (mul_nonneg x0 (by omega))
  have w1 : wd ≤ 2 * x := floor_le (by omega) hwd (by
    have := mul_le_mul_of_nonneg_left (by omega : inc ≤ 2 * S) x0
    nlinarith)
  refine NoErr.bind (NoErr.mulDivCeil (by omega) fun hE => ?_) fun _ _ => NoErr.pure
  have := (hB hE).2.2
  have := prod_le w0 (by omega : wd ≤ 2 * 10 ^ 23) (by omega) (hS14 hE)
  exact ⟨by omega, le_trans this.2 (by decide)⟩

/-- liquidating all of the debt of an insolvent account offers all of its collateral -/
theorem liqQuote_all {S C Cr L Lr pct wd share : Int} (hS : 1 ≤ S) (hCr : C ≤ Cr) (hCr0 : 0 < Cr) (hLr : Lr ≤ L)
    (hLr0 : 0 < Lr) (h : LiquidationShare S C Cr L Lr 100 pct wd share) : Lr ≤ wd := by
  obtain ⟨hp, cf, lf, ratio, half, x, sh, h1, h2, h3, h4, h5, h6, h7, h8⟩ := h
  have hpct : pct = S := floor_unique hp (⟨by push_cast; omega, by push_cast; omega⟩ : IsFloor S (((100 : Nat) : Int) * S) 100) (by decide)
  subst hpct
  have hx : x = Lr := floor_unique h5 (⟨by omega, by nlinarith⟩ : IsFloor Lr (Lr * pct) pct) (by omega)
  subst hx
  have cf1 : cf ≤ pct := by
    by_contra hlt
    have := h1.1
    have e1 : C * pct ≤ Cr * pct := mul_le_mul_of_nonneg_right hCr (by omega)
    nlinarith
  have lf1 : pct ≤ lf := by
    have := h2.2
    by_contra hlt
    have e1 : x * pct ≤ L * pct := mul_le_mul_of_nonneg_right hLr (by omega)
    nlinarith
  have r1 : ratio ≤ pct := by
    by_contra hlt
    have k0 : (ratio - 1) * lf < cf * pct := h3.1
    have k1 : pct * lf ≤ (ratio - 1) * lf := mul_le_mul_of_nonneg_right (by omega) (by omega)
    have k2 : cf * pct ≤ lf * pct := mul_le_mul_of_nonneg_right (by omega) (by omega)
    rw [Int.mul_comm lf] at k2
    omega
  have hh : 0 ≤ half := IsCeil.nonneg h4 (by omega) (mul_nonneg (by omega) (by omega))
  by_contra hlt
  have := h6.2
  have e1 : x * pct ≤ x * (pct + half) := mul_le_mul_of_nonneg_left (by omega) (by omega)
  have e2 : (wd + 1) * pct ≤ x * pct := mul_le_mul_of_nonneg_right (by omega) (by omega)
  omega

theorem liqAmounts_live {resList : List Address} {pct scalar : Int} (hs : 1 ≤ scalar) (hp : 0 ≤ pct) :
    ∀ (l : List (Nat × Int)) (m : SMap Int), (∀ kv ∈ l, (∃ a, resList[kv.1]? = some a) ∧ 0 ≤ kv.2 ∧
      (E .overflow = true → pct ≤ 10 ^ 14 ∧ kv.2 ≤ 10 ^ 18)) → NoErr E (liqAmounts resList pct scalar l m)
  | [], m, _ => NoErr.pure
  | kv :: t, m, h => by
    obtain ⟨⟨a, ha⟩, h0, hB⟩ := h kv (List.mem_cons_self ..)
    unfold liqAmounts
    refine NoErr.bind (NoErr.unwrap ha) fun _ _ => NoErr.bind (NoErr.mulDivCeil hs fun hE => ?_) fun _ _ =>
      liqAmounts_live hs hp t _ fun kv hkv => h kv (List.mem_cons_of_mem _ hkv)
    have := prod_le h0 (hB hE).2 hp (hB hE).1
    exact ⟨by omega, le_trans this.2 (by decide)⟩

/-- amounts of shares are bounded by amounts of tokens -/
theorem units_le {b r : Int} (hb : 0 ≤ b) (hr : 1000000000 ≤ r) (h : b * r ≤ 10 ^ 27) : b ≤ 10 ^ 18 := by
  have := mul_le_mul_of_nonneg_left hr hb
  omega

theorem _root_.Blend.Reachable.rates_ge (hr : Reachable w) (hp : w.poolAddr p = true) {d : ReserveData}
    (h : Current (w.pools p) w.time a d) : 1000000000 ≤ d.bRate ∧ 1000000000 ≤ d.dRate := by
  have pi := hr.pinv hp
  have cfg := hr.base.cfg p
  obtain ⟨c, d0, i, hc, hd, hi, hac⟩ := h
  have hr := accrue_rates hac (pi.dataOk cfg hd) (pi.rates a d0 hd).2.2.2.2 (cfg.valid a c hc).util (cfg.rate i hi)
  have := pi.rates a d0 hd
  omega

/-- creating a liquidation of all of the debt of an account whose quote covers its collateral -/
theorem newLiquidation_live (hr : Reachable w) (hp : w.poolAddr p = true) {auth : List Address} (hauth : ∀ x ∈ auth, ¬ w.isProtocol x)
    {j : PoolInst} (hj : (w.pools p).inst = some j) {u : Address} (hup : u ≠ p) (hub : u ≠ j.backstop)
    (hnone : (w.pools p).auctions 0 u = none) (hpr : PricesOk w (w.pools p)) {C Cr L Lr : Int}
    (hv : Values w (w.pools p) (getPositions (w.pools p) u) C Cr L Lr) (hCL : C ≤ L) (hCr : 0 < Cr) (hLr : 0 < Lr)
    (hq : ∀ n pct wd share, PriceDecimals w (w.pools p) n → LiquidationShare (10 ^ n) C Cr L Lr 100 pct wd share → Cr ≤ wd)
    (hB : E .overflow = true → Ordinary w (w.pools p) (getPositions (w.pools p) u) Cr L) :
    NoErr E (step w (.pool p auth (.newLiquidation u 100))) := by
  have cfg := hr.base.cfg p
  have hrt := hr.ratesPos hp
  have hb := hr.bal_nonneg hp u .coll
  have hd := hr.bal_nonneg hp u .liab
  obtain ⟨o1, o2, o3, o4⟩ := values_order hv hpr hrt cfg hb hd
  unfold step call createLiquidation PoolState.getInst createUserLiq
  refine NoErr.bind (NoErr.req hp) fun _ _ => NoErr.bind (NoErr.req hauth) fun _ _ => ?_
  refine NoErr.bind (NoErr.unwrap hj) fun j' hj' => ?_
  rw [unwrap_ok, hj] at hj'; cases hj'
  refine NoErr.bind (NoErr.req (by rw [not_or]; exact ⟨hup, hub⟩)) fun _ _ => ?_
  refine NoErr.bind ?_ fun _ _ => NoErr.pure
  dsimp only
  refine NoErr.bind (NoErr.req (by rw [hnone]; rfl)) fun _ _ => NoErr.bind (NoErr.req (by decide)) fun _ _ => ?_
  refine NoErr.bind (NoErr.chkU32 fun hE => ?_) fun blk _ => ?_
  · have := (hB hE).seq
    unfold InU32
    omega
  refine NoErr.bind ?_ fun cache hc => ?_
  · unfold Cache.load PoolState.getInst
    exact NoErr.bind (NoErr.unwrap hj) fun _ _ => NoErr.pure
  obtain ⟨ok0, hr0, _, _⟩ := load_ok (now := w.time) hc
  have cur0 : CacheCur (w.pools p) (w.pools p) w.time cache := by
    have := CacheCur.of ok0 []
    rwa [overlay_loaded hr0] at this
  refine NoErr.bind (calcPositionData_live cur0 cfg hpr hrt hb hd hv hB) fun x hx => ?_
  obtain ⟨pd, cache1⟩ := x
  obtain ⟨cur1, va⟩ := calcPositionData_ok cur0 hb hd hx
  obtain ⟨rfl, rfl, rfl, rfl⟩ := values_unique hv ⟨va.coll, va.collRaw, va.liab, va.liabRaw⟩
  obtain ⟨n, hn, hsc⟩ := va.scalar
  have hS1 : 1 ≤ pd.scalar := by rw [hsc]; exact one_le_pow₀ (by decide)
  dsimp only
  refine NoErr.bind (NoErr.req (by omega)) fun _ _ => NoErr.bind (liqQuote_live hsc o1 o2 hCr o4 hLr fun hE => ?_) fun y hy => ?_
  · have := hB hE
    exact ⟨this.decimals n hn, this.value.1, this.value.2⟩
  obtain ⟨pct, wd, share⟩ := y
  obtain ⟨hls, _⟩ := liqQuote_ok hsc o1 (by omega) (by omega) o3 hy
  have hwd := hq n pct wd share hn hls
  have hpct : pct = 10 ^ n := floor_unique hls.1 (⟨by push_cast; omega, by push_cast; omega⟩ : IsFloor (10 ^ n) (((100 : Nat) : Int) * 10 ^ n) 100) (by decide)
  have hsh : 0 ≤ share ∧ share ≤ 10 ^ n := by
    obtain ⟨_, cf, lf, ratio, half, x, sh, h1, h2, h3, h4, h5, h6, h7, h8⟩ := hls
    have hsh : 0 ≤ sh := IsCeil.nonneg h7 hCr (mul_nonneg (by omega) (by positivity))
    have : (0 : Int) < 10 ^ n := by positivity
    rw [h8]
    omega
  have hn14 : E .overflow = true → (10 : Int) ^ n ≤ 10 ^ 14 := fun hE => pow_le_pow_right₀ (by decide) ((hB hE).decimals n hn)
  have items : ∀ (k : Kind) kv, kv ∈ (k.map (getPositions (w.pools p) u)).toList → (k = .coll ∨ k = .liab) →
      (∃ a, (w.pools p).resList[kv.1]? = some a) ∧ 0 ≤ kv.2 ∧ (E .overflow = true → kv.2 ≤ 10 ^ 18) := by
    rintro k ⟨i, v⟩ hkv hk
    rw [SMap.mem_toList] at hkv
    obtain ⟨pos, g1, g2⟩ := getPositions_get hkv
    obtain ⟨b0, bl⟩ := (hr.pinv hp).bals u pos k i v g1 g2
    have hl : (w.pools p).resList[i]? = some (w.pools p).resList[i] := List.getElem?_eq_getElem bl
    refine ⟨⟨_, hl⟩, b0.le, fun hE => ?_⟩
    have hbal : (k.map (getPositions (w.pools p) u)).bal i = v := by unfold SMap.bal; rw [hkv]; rfl
    obtain ⟨⟨f, hf, _⟩, _, ⟨g, hg, _⟩, _⟩ := hv
    rcases hk with rfl | rfl
    · rcases hf i bl with ⟨h, _⟩ | ⟨a, c, d, x, m, e, g1, _, g3, _⟩
      · rw [← hbal]; simp only [Kind.map]; rw [h]; decide
      · have := ((hB hE).amount i a d g1 g3).1
        have hrate := (hr.rates_ge hp g3).1
        simp only [Kind.map] at hbal
        rw [hbal] at this
        exact units_le b0.le hrate this
    · rcases hg i bl with ⟨h, _⟩ | ⟨a, c, d, x, m, e, g1, _, g3, _⟩
      · rw [← hbal]; simp only [Kind.map]; rw [h]; decide
      · have := ((hB hE).amount i a d g1 g3).2
        have hrate := (hr.rates_ge hp g3).2
        simp only [Kind.map] at hbal
        rw [hbal] at this
        exact units_le b0.le hrate this
  dsimp only [User.load]
  refine NoErr.bind (liqAmounts_live hS1 hsh.1 _ _ fun kv hkv => ?_) fun lot _ => ?_
  · obtain ⟨a1, a2, a3⟩ := items .coll kv hkv (.inl rfl)
    exact ⟨a1, a2, fun hE => ⟨le_trans hsh.2 (hn14 hE), a3 hE⟩⟩
  refine NoErr.bind (liqAmounts_live hS1 (by rw [hpct]; positivity) _ _ fun kv hkv => ?_) fun bid _ => ?_
  · obtain ⟨a1, a2, a3⟩ := items .liab kv hkv (.inr rfl)
    exact ⟨a1, a2, fun hE => ⟨by rw [hpct]; exact hn14 hE, a3 hE⟩⟩
  rw [if_pos rfl]
  exact NoErr.bind (NoErr.req (by omega)) fun _ _ => NoErr.pure

end Pool
end Blend
