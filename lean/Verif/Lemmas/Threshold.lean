import Verif.Lemmas.LpInv
import Verif.Spec
/-
  The backstop threshold without saturation.
-/

namespace Blend
namespace Backstop

theorem satMul_of_nonneg {x y : Int} (h : 0 ≤ x * y) :
    satMul x y = min (x * y) 170141183460469231731687303715884105727 := by
  unfold satMul
  split
  · rw [min_eq_right]; omega
  · rw [if_neg (by omega), min_eq_left]; omega

theorem satPow {b u T : Int} (hb : 0 ≤ b) (hu : 0 ≤ u) (hT : 0 < T) (hM : T ≤ 170141183460469231731687303715884105727) :
    T ≤ satMul (satMul (satMul (satMul b b) b) b) u ↔ T ≤ b ^ 4 * u := by
  -- `S` saturates `x`: equal, or both large
  have key : ∀ {s x y : Int}, 0 ≤ x → 0 ≤ y → (s = min x 170141183460469231731687303715884105727) →
      satMul s y = min (x * y) 170141183460469231731687303715884105727 := by
    intro s x y hx hy hs
    have hs0 : 0 ≤ s := by rw [hs]; exact le_min hx (by norm_num)
    rw [satMul_of_nonneg (mul_nonneg hs0 hy)]
    rcases hy.lt_or_eq with hy | hy
    · rcases le_total x 170141183460469231731687303715884105727 with h | h
      · rw [min_eq_left h] at hs; rw [hs]
      · rw [min_eq_right h] at hs
        rw [hs, min_eq_right, min_eq_right]
        · nlinarith
        · nlinarith
    · rw [← hy]; simp
  have h1 := key (s := min b 170141183460469231731687303715884105727) hb hb rfl
  have e1 : satMul b b = min (b * b) 170141183460469231731687303715884105727 := satMul_of_nonneg (mul_nonneg hb hb)
  have e2 := key (mul_nonneg hb hb) hb e1
  have e3 := key (mul_nonneg (mul_nonneg hb hb) hb) hb e2
  have e4 := key (mul_nonneg (mul_nonneg (mul_nonneg hb hb) hb) hb) hu e3
  rw [e4, le_min_iff]
  have : b * b * b * b * u = b ^ 4 * u := by ring
  rw [this]
  exact ⟨fun h => h.1, fun h => ⟨h, hM⟩⟩

open Spec

theorem _root_.Blend.Spec.IsFloor.unique {v v' x y : Int} (hy : 0 < y) (h : IsFloor v x y) (h' : IsFloor v' x y) : v = v' := by
  obtain ⟨h1, h2⟩ := h
  obtain ⟨h3, h4⟩ := h'
  by_contra hne
  rcases lt_or_gt_of_ne hne with h | h
  · nlinarith [mul_le_mul_of_nonneg_right (show v + 1 ≤ v' from h) hy.le]
  · nlinarith [mul_le_mul_of_nonneg_right (show v' + 1 ≤ v from h) hy.le]

theorem tdiv_floor {x y : Int} (hx : 0 ≤ x) (hy : 0 < y) : IsFloor (Int.tdiv x y) x y := by
  rw [Int.tdiv_eq_ediv_of_nonneg hx]
  exact ⟨Int.ediv_mul_le x hy.ne', Int.lt_ediv_add_one_mul_self x hy⟩

theorem _root_.Blend.Spec.IsFloor.nonneg {v x y : Int} (hy : 0 < y) (h : IsFloor v x y) (hx : 0 ≤ x) : 0 ≤ v := by
  by_contra hn
  have : (v + 1) * y ≤ 0 := by nlinarith
  have := h.2
  omega

theorem isFloor_of_mulDiv {x y z v : Int} (h : mulDivFloor x y z = .ok v) (hz : 0 < z) : IsFloor v (x * y) z := by
  have := mulDivFloor_spec h hz
  exact ⟨this.1, by have := this.2; linarith⟩

/-- the data loaded for a pool, in terms of the specification -/
theorem loadPoolData_spec' {w : World} {p : Address} (lp : ∀ b u, w.backstop.lpVal = some (b, u) → 0 ≤ b ∧ 0 ≤ u)
    (ht : 0 ≤ (w.backstop.getPoolBal p).tokens) {pd : PoolData} (h : loadPoolData w p = .ok pd) :
    0 ≤ Int.tdiv pd.blnd SCALAR_7 ∧ 0 ≤ Int.tdiv pd.usdc SCALAR_7 ∧
    ∀ B U, Underlying w p B U ↔ B = Int.tdiv pd.blnd SCALAR_7 ∧ U = Int.tdiv pd.usdc SCALAR_7 := by
  have ⟨vb, vu, h1, h2, h3⟩ : ∃ vb vu, w.backstop.lpVal = some (vb, vu) ∧
      fixedMulFloor (w.backstop.getPoolBal p).tokens vb SCALAR_7 = .ok pd.blnd ∧
      fixedMulFloor (w.backstop.getPoolBal p).tokens vu SCALAR_7 = .ok pd.usdc := by
    simp only [loadPoolData, bind_ok, pure_ok, Prod.exists, ite_ok, unwrap_ok] at h
    rcases h with ⟨_, _, _, vb, vu, h1, b, hb, u, hu, rfl⟩ | ⟨_, _, _, vb, vu, h1, b, hb, u, hu, rfl⟩ <;>
      exact ⟨vb, vu, h1, hb, hu⟩
  obtain ⟨n1, n2⟩ := lp vb vu h1
  have hS : (0 : Int) < SCALAR_7 := by norm_num [SCALAR_7]
  have f1 := isFloor_of_mulDiv h2 hS
  have f2 := isFloor_of_mulDiv h3 hS
  have p1 := f1.nonneg hS (mul_nonneg ht n1)
  have p2 := f2.nonneg hS (mul_nonneg ht n2)
  have g1 := tdiv_floor p1 hS
  have g2 := tdiv_floor p2 hS
  refine ⟨g1.nonneg hS p1, g2.nonneg hS p2, fun B U => ⟨?_, ?_⟩⟩
  · rintro ⟨vb', vu', b, u, k1, k2, k3, k4, k5⟩
    rw [h1] at k1
    simp only [Option.some.injEq, Prod.mk.injEq] at k1
    obtain ⟨rfl, rfl⟩ := k1
    have e1 := f1.unique hS k2
    have e2 := f2.unique hS k3
    rw [← e1] at k4
    rw [← e2] at k5
    exact ⟨k4.unique hS g1, k5.unique hS g2⟩
  · rintro ⟨rfl, rfl⟩
    exact ⟨vb, vu, pd.blnd, pd.usdc, h1, f1, f2, g1, g2⟩

theorem loadPoolData_spec {w : World} (lp : LpOk w) (inv : BInv w.time w.backstop) {p : Address} {pd : PoolData}
    (h : loadPoolData w p = .ok pd) :
    0 ≤ Int.tdiv pd.blnd SCALAR_7 ∧ 0 ≤ Int.tdiv pd.usdc SCALAR_7 ∧
    ∀ B U, Underlying w p B U ↔ B = Int.tdiv pd.blnd SCALAR_7 ∧ U = Int.tdiv pd.usdc SCALAR_7 :=
  loadPoolData_spec' lp.val (inv.pool p) h

theorem above_iff {w : World} (lp : LpOk w) (inv : BInv w.time w.backstop) {p : Address} {pd : PoolData}
    (h : loadPoolData w p = .ok pd) : poolAboveThreshold pd = true ↔ BackstopAtLeast w p 1 1 := by
  obtain ⟨h1, h2, h3⟩ := loadPoolData_spec lp inv h
  unfold poolAboveThreshold BackstopAtLeast
  simp only [ge_iff_le, decide_eq_true_eq]
  rw [satPow h1 h2 (by norm_num) (by norm_num)]
  constructor
  · intro hh; exact ⟨_, _, (h3 _ _).2 ⟨rfl, rfl⟩, by norm_num at hh ⊢; exact hh⟩
  · rintro ⟨B, U, hu, hh⟩
    obtain ⟨rfl, rfl⟩ := (h3 _ _).1 hu
    norm_num at hh ⊢; exact hh

/-- the pool's own computation, with seven decimals: at least `n` -/
theorem pool_threshold_iff' {w : World} {p : Address} (lp : ∀ b u, w.backstop.lpVal = some (b, u) → 0 ≤ b ∧ 0 ≤ u)
    (ht : 0 ≤ (w.backstop.getPoolBal p).tokens) {pd : PoolData}
    (h : loadPoolData w p = .ok pd) {n : Int} (hn : 0 < n) (hn' : n ≤ 10000000) :
    n ≤ Pool.backstopThreshold pd ↔ BackstopAtLeast w p n 10000000 := by
  obtain ⟨h1, h2, h3⟩ := loadPoolData_spec' lp ht h
  unfold Pool.backstopThreshold BackstopAtLeast
  simp only []
  have hM : n * 320000000000000000000000000 ≤ 170141183460469231731687303715884105727 := by nlinarith
  have hs : ∀ {x : Int}, 0 ≤ x → (n ≤ Int.tdiv x 320000000000000000000000000 ↔ n * 320000000000000000000000000 ≤ x) := by
    intro x hx
    rw [Int.tdiv_eq_ediv_of_nonneg hx]
    exact Int.le_ediv_iff_mul_le (by norm_num)
  have hsat : ∀ {x y : Int}, 0 ≤ x → 0 ≤ y → 0 ≤ satMul x y := by
    intro x y hx hy
    rw [satMul_of_nonneg (mul_nonneg hx hy)]
    exact le_min (mul_nonneg hx hy) (by norm_num)
  generalize hb : Int.tdiv pd.blnd SCALAR_7 = b at *
  generalize hu : Int.tdiv pd.usdc SCALAR_7 = u at *
  have q1 := hsat h1 h1
  have q2 := hsat q1 h1
  have q3 := hsat q2 h1
  have q4 := hsat q3 h2
  rw [hs (hsat q4 (by norm_num [SCALAR_7]))]
  rw [satMul_of_nonneg (mul_nonneg q4 (by norm_num [SCALAR_7])), le_min_iff]
  -- n * 3.2e26 ≤ s * 1e7 ↔ ceil(n * 3.2e19) ≤ s
  have e : n * 320000000000000000000000000 ≤ satMul (satMul (satMul (satMul b b) b) b) u * SCALAR_7 ↔
      n * 32000000000000000000 ≤ satMul (satMul (satMul (satMul b b) b) b) u := by
    simp only [SCALAR_7]
    constructor <;> intro h <;> omega
  rw [e, satPow h1 h2 (by positivity) (by nlinarith)]
  constructor
  · rintro ⟨hh, _⟩
    refine ⟨b, u, (h3 _ _).2 ⟨rfl, rfl⟩, ?_⟩
    norm_num at hh ⊢
    generalize b ^ 4 * u = x at *
    omega
  · rintro ⟨B, U, hu, hh⟩
    obtain ⟨rfl, rfl⟩ := (h3 _ _).1 hu
    refine ⟨?_, hM⟩
    norm_num at hh ⊢
    generalize B ^ 4 * U = x at *
    omega

theorem pool_threshold_iff {w : World} (lp : LpOk w) (inv : BInv w.time w.backstop) {p : Address} {pd : PoolData}
    (h : loadPoolData w p = .ok pd) {n : Int} (hn : 0 < n) (hn' : n ≤ 10000000) :
    n ≤ Pool.backstopThreshold pd ↔ BackstopAtLeast w p n 10000000 :=
  pool_threshold_iff' lp.val (inv.pool p) h hn hn'

end Backstop
end Blend
