import Verif.Spec.Bonus
import Verif.Props.Margin
import Verif.Lemmas.Liquidation
/-
  C97: what a liquidation auction offers for the debt it asks to take over.

  The statements use `Verif/Spec/Bonus.lean`.
-/

namespace Blend
namespace Pool
open Spec

theorem q_floor_lt {v x y : Int} (h : IsFloor v x y) (hy : 0 < y) : (x : ℚ) / y ≤ v + 1 := by
  rw [div_le_iff₀ (by exact_mod_cast hy)]; exact_mod_cast h.2.le

theorem q_ceil_lt {v x y : Int} (h : IsCeil v x y) (hy : 0 < y) : (v : ℚ) ≤ x / y + 1 := by
  have : (v : ℚ) - 1 ≤ x / y := by
    rw [le_div_iff₀ (by exact_mod_cast hy)]; exact_mod_cast h.1.le
  linarith

/-- the raw value of a collateral position is the exact value, up to the value of a share and one unit less -/
theorem rawColl_exact {w : World} {ps : PoolState} {i : Nat} {b v : Int} (hb : 0 ≤ b)
    (h : RawCollItem w ps i b v) (hprice : PricesOk w ps) (hrate : ∀ a d, Current ps w.time a d → 1000000000 ≤ d.bRate) :
    ∃ q : ℚ, 0 ≤ q ∧ (b ≠ 0 → UnitWorth (·.bRate) w ps i q) ∧ (v : ℚ) ≤ b * q ∧ (b : ℚ) * q ≤ v + (if b = 0 then 0 else q + 1) := by
  by_cases h0 : b = 0
  · subst h0
    obtain rfl := RawCollItem.unique h (.inl ⟨rfl, rfl⟩)
    exact ⟨0, le_refl _, fun h => absurd rfl h, by simp, by simp⟩
  rcases h with ⟨h, _⟩ | ⟨a, c, d, x, n, h1, h2, h3, h4, h5, h6⟩
  · exact absurd h h0
  have hx := price_nonneg hprice h1 h4
  have hr := hrate a d h3
  have p1 : (n : ℚ) ≤ b * d.bRate / 10 ^ 9 ∧ (b : ℚ) * d.bRate / 10 ^ 9 ≤ n + 1 := by
    have := q_floor h5 (by unfold ONE9; norm_num)
    have := q_floor_lt h5 (by unfold ONE9; norm_num)
    unfold ONE9 at *; push_cast at *; norm_num at *; constructor <;> assumption
  have p3 : (v : ℚ) ≤ x * n / 10 ^ c.decimals ∧ (x : ℚ) * n / 10 ^ c.decimals ≤ v + 1 := by
    have := q_floor h6 (by positivity)
    have := q_floor_lt h6 (by positivity)
    push_cast at *; constructor <;> assumption
  have hxq : (0 : ℚ) ≤ x := by exact_mod_cast hx
  have hrq : (10 ^ 9 : ℚ) ≤ d.bRate := by norm_num; exact_mod_cast hr
  have hD : (0 : ℚ) < 10 ^ c.decimals := by positivity
  refine ⟨((x * d.bRate : Int) : ℚ) / (10 ^ 9 * 10 ^ c.decimals), ?_, fun _ => ⟨a, c, d, x, h1, h2, h3, h4, rfl⟩, ?_, ?_⟩
  · push_cast
    have : (0 : ℚ) ≤ d.bRate := by linarith
    positivity
  · push_cast
    calc (v : ℚ) ≤ x * n / 10 ^ c.decimals := p3.1
      _ ≤ (x : ℚ) * (b * d.bRate / 10 ^ 9) / 10 ^ c.decimals := div_le_div_of_nonneg_right (mul_le_mul_of_nonneg_left p1.1 hxq) hD.le
      _ = (b : ℚ) * (x * d.bRate / (10 ^ 9 * 10 ^ c.decimals)) := by field_simp
  · rw [if_neg h0]
    push_cast
    have hu : (x : ℚ) / 10 ^ c.decimals ≤ x * d.bRate / (10 ^ 9 * 10 ^ c.decimals) := by
      rw [div_le_div_iff₀ hD (by positivity)]
      have := mul_le_mul_of_nonneg_left hrq (mul_nonneg hxq hD.le)
      linarith
    calc (b : ℚ) * (x * d.bRate / (10 ^ 9 * 10 ^ c.decimals)) = x * (b * d.bRate / 10 ^ 9) / 10 ^ c.decimals := by field_simp
      _ ≤ (x : ℚ) * (n + 1) / 10 ^ c.decimals := div_le_div_of_nonneg_right (mul_le_mul_of_nonneg_left p1.2 hxq) hD.le
      _ = (x : ℚ) * n / 10 ^ c.decimals + x / 10 ^ c.decimals := by rw [mul_add, add_div, mul_one]
      _ ≤ v + (x * d.bRate / (10 ^ 9 * 10 ^ c.decimals) + 1) := by linarith [p3.2]

/-- the raw value of a debt is the exact value, up to the value of a share and one unit more -/
theorem rawLiab_exact {w : World} {ps : PoolState} {i : Nat} {b v : Int} (hb : 0 ≤ b)
    (h : RawLiabItem w ps i b v) (hprice : PricesOk w ps) (hrate : ∀ a d, Current ps w.time a d → 1000000000 ≤ d.dRate) :
    ∃ q : ℚ, 0 ≤ q ∧ (b ≠ 0 → UnitWorth (·.dRate) w ps i q) ∧ (b : ℚ) * q ≤ v ∧ (v : ℚ) ≤ b * q + (if b = 0 then 0 else q + 1) := by
  by_cases h0 : b = 0
  · subst h0
    obtain rfl := RawLiabItem.unique h (.inl ⟨rfl, rfl⟩)
    exact ⟨0, le_refl _, fun h => absurd rfl h, by simp, by simp⟩
  rcases h with ⟨h, _⟩ | ⟨a, c, d, x, n, h1, h2, h3, h4, h5, h6⟩
  · exact absurd h h0
  have hx := price_nonneg hprice h1 h4
  have hr := hrate a d h3
  have p1 : (b : ℚ) * d.dRate / 10 ^ 9 ≤ n ∧ (n : ℚ) ≤ b * d.dRate / 10 ^ 9 + 1 := by
    have := q_ceil h5 (by unfold ONE9; norm_num)
    have := q_ceil_lt h5 (by unfold ONE9; norm_num)
    unfold ONE9 at *; push_cast at *; norm_num at *; constructor <;> assumption
  have p3 : (x : ℚ) * n / 10 ^ c.decimals ≤ v ∧ (v : ℚ) ≤ x * n / 10 ^ c.decimals + 1 := by
    have := q_ceil h6 (by positivity)
    have := q_ceil_lt h6 (by positivity)
    push_cast at *; constructor <;> assumption
  have hxq : (0 : ℚ) ≤ x := by exact_mod_cast hx
  have hrq : (10 ^ 9 : ℚ) ≤ d.dRate := by norm_num; exact_mod_cast hr
  have hD : (0 : ℚ) < 10 ^ c.decimals := by positivity
  refine ⟨((x * d.dRate : Int) : ℚ) / (10 ^ 9 * 10 ^ c.decimals), ?_, fun _ => ⟨a, c, d, x, h1, h2, h3, h4, rfl⟩, ?_, ?_⟩
  · push_cast
    have : (0 : ℚ) ≤ d.dRate := by linarith
    positivity
  · push_cast
    calc (b : ℚ) * (x * d.dRate / (10 ^ 9 * 10 ^ c.decimals)) = x * (b * d.dRate / 10 ^ 9) / 10 ^ c.decimals := by field_simp
      _ ≤ (x : ℚ) * n / 10 ^ c.decimals := div_le_div_of_nonneg_right (mul_le_mul_of_nonneg_left p1.1 hxq) hD.le
      _ ≤ v := p3.1
  · rw [if_neg h0]
    push_cast
    have hu : (x : ℚ) / 10 ^ c.decimals ≤ x * d.dRate / (10 ^ 9 * 10 ^ c.decimals) := by
      rw [div_le_div_iff₀ hD (by positivity)]
      have := mul_le_mul_of_nonneg_left hrq (mul_nonneg hxq hD.le)
      linarith
    have : (b : ℚ) * (x * d.dRate / (10 ^ 9 * 10 ^ c.decimals)) = x * (b * d.dRate / 10 ^ 9) / 10 ^ c.decimals := by field_simp
    rw [this]
    calc (v : ℚ) ≤ x * n / 10 ^ c.decimals + 1 := p3.2
      _ ≤ (x : ℚ) * (b * d.dRate / 10 ^ 9 + 1) / 10 ^ c.decimals + 1 := by
          have := div_le_div_of_nonneg_right (mul_le_mul_of_nonneg_left p1.2 hxq) hD.le
          linarith
      _ = (x : ℚ) * (b * d.dRate / 10 ^ 9) / 10 ^ c.decimals + x / 10 ^ c.decimals + 1 := by rw [mul_add, add_div, mul_one]
      _ ≤ _ := by linarith

/-- the arithmetic of the share of the collateral on offer: the value offered is at least that of the debt taken over, and at most one
and a half times it -/
theorem share_bounds {S C Cr L Lr pct wd share : Int} {n : Nat} (h : LiquidationShare S C Cr L Lr n pct wd share) (hS : 0 < S) (hn : n ≤ 100)
    (h1 : 0 ≤ C) (h2 : C ≤ Cr) (h3 : 0 ≤ Lr) (h4 : Lr ≤ L) :
    0 ≤ pct ∧ pct ≤ S ∧ 0 ≤ share ∧ share ≤ S ∧ (Lr : ℚ) * pct / S ≤ wd + 1 ∧
      (wd : ℚ) ≤ (3 / 2 + 1 / (2 * S)) * (Lr * pct / S) ∧ (share : ℚ) / S * Cr ≤ wd + Cr / S ∧
      (share = S ∨ (wd : ℚ) ≤ share / S * Cr) := by
  obtain ⟨hp, cf, lf, ratio, half, x, sh, hcf, hlf, hra, hha, hx, hwd, hsh, rfl⟩ := h
  have pos : ∀ {v a b : Int}, IsFloor v a b → 0 ≤ b → 0 < b := fun {v a b} hf hb => by
    rcases hb.lt_or_eq with h | h
    · exact h
    · subst h; obtain ⟨f1, f2⟩ := hf; simp at f1 f2; omega
  have hCr : 0 < Cr := pos hcf (by omega)
  have hLr : 0 < Lr := pos hlf h3
  have p0 : 0 ≤ pct := by
    have := hp.2; by_contra hlt
    have : (0 : Int) ≤ n * S := mul_nonneg (by positivity) hS.le
    omega
  have pS : pct ≤ S := by
    have := hp.1
    have : (n : Int) * S ≤ 100 * S := mul_le_mul_of_nonneg_right (by exact_mod_cast hn) hS.le
    omega
  have cf0 : 0 ≤ cf := by
    by_contra hlt
    have k1 : (0 : Int) ≤ C * S := mul_nonneg h1 hS.le
    have k2 : (cf + 1) * Cr ≤ 0 := mul_nonpos_of_nonpos_of_nonneg (by omega) hCr.le
    have := hcf.2
    omega
  have cfS : cf ≤ S := by
    have k1 : C * S ≤ Cr * S := mul_le_mul_of_nonneg_right h2 hS.le
    have := hcf.1
    by_contra hlt
    have : S * Cr < cf * Cr := mul_lt_mul_of_pos_right (by omega) hCr
    nlinarith
  have lfS : S ≤ lf := by
    have k1 : Lr * S ≤ L * S := mul_le_mul_of_nonneg_right h4 hS.le
    have := hlf.2
    by_contra hlt
    have : (lf + 1) * Lr ≤ S * Lr := mul_le_mul_of_nonneg_right (by omega) hLr.le
    nlinarith
  have hlf0 : 0 < lf := by omega
  have r0 : 0 ≤ ratio := by
    by_contra hlt
    have k1 : (0 : Int) ≤ cf * S := mul_nonneg cf0 hS.le
    have : ratio * lf < 0 := mul_neg_of_neg_of_pos (by omega) hlf0
    have := hra.2
    omega
  have rS : ratio ≤ S := by
    by_contra hlt
    have := hra.1
    have k1 : S * lf ≤ (ratio - 1) * lf := mul_le_mul_of_nonneg_right (by omega) hlf0.le
    have k2 : cf * S ≤ S * lf := by
      have := mul_le_mul cfS lfS hS.le hS.le
      nlinarith [mul_le_mul_of_nonneg_right (show cf ≤ lf by omega) hS.le]
    omega
  have hh0 : 0 ≤ half := by
    by_contra hlt
    have k1 : (0 : Int) ≤ (S - ratio) * S := mul_nonneg (by omega) hS.le
    have : half * (2 * S) < 0 := mul_neg_of_neg_of_pos (by omega) (by omega)
    have := hha.2
    omega
  have hh1 : 2 * half ≤ S + 1 := by
    by_contra hlt
    have k1 : (S - ratio) * S ≤ S * S := mul_le_mul_of_nonneg_right (by omega) hS.le
    have k2 : S * S ≤ (half - 1) * 2 * S := mul_le_mul_of_nonneg_right (by omega) hS.le
    have := hha.1
    have e : (half - 1) * (2 * S) = (half - 1) * 2 * S := by ring
    omega
  have x0 : 0 ≤ x := by
    by_contra hlt
    have k1 : (0 : Int) ≤ Lr * pct := mul_nonneg h3 p0
    have : (x + 1) * S ≤ 0 := mul_nonpos_of_nonpos_of_nonneg (by omega) hS.le
    have := hx.2
    omega
  have xw : x ≤ wd := by
    by_contra hlt
    have k1 : (wd + 1) * S ≤ x * S := mul_le_mul_of_nonneg_right (by omega) hS.le
    have k2 : x * S ≤ x * (S + half) := mul_le_mul_of_nonneg_left (by omega) x0
    have := hwd.2
    omega
  have s0 : 0 ≤ sh := by
    by_contra hlt
    have k1 : (0 : Int) ≤ wd * S := mul_nonneg (by omega) hS.le
    have : sh * Cr < 0 := mul_neg_of_neg_of_pos (by omega) hCr
    have := hsh.2
    omega
  have hSq : (0 : ℚ) < S := by exact_mod_cast hS
  have hCq : (0 : ℚ) ≤ Cr := by exact_mod_cast hCr.le
  have fx := q_floor_lt hx hS
  have fx' := q_floor hx hS
  have fw := q_floor hwd hS
  have fs : (sh : ℚ) * Cr ≤ wd * S + Cr := by
    have := hsh.1
    have e : (sh - 1) * Cr = sh * Cr - Cr := by ring
    rw [e] at this
    have : sh * Cr ≤ wd * S + Cr := by omega
    exact_mod_cast this
  refine ⟨p0, pS, by omega, min_le_left _ _, ?_, ?_, ?_, ?_⟩
  · push_cast at fx
    have : (x : ℚ) ≤ wd := by exact_mod_cast xw
    linarith
  · push_cast at fw fx'
    refine le_trans fw ?_
    have e1 : (2 * half : ℚ) ≤ S + 1 := by exact_mod_cast hh1
    have hx0 : (0 : ℚ) ≤ x := by exact_mod_cast x0
    calc (x : ℚ) * (S + half) / S ≤ x * ((3 / 2 + 1 / (2 * S)) * S) / S := by
            refine div_le_div_of_nonneg_right (mul_le_mul_of_nonneg_left ?_ hx0) hSq.le
            have : (3 / 2 + 1 / (2 * S) : ℚ) * S = 3 / 2 * S + 1 / 2 := by field_simp
            rw [this]; linarith
      _ = (3 / 2 + 1 / (2 * (S : ℚ))) * x := by field_simp
      _ ≤ _ := mul_le_mul_of_nonneg_left fx' (by positivity)
  · have : ((min S sh : Int) : ℚ) ≤ sh := by exact_mod_cast min_le_right _ _
    calc ((min S sh : Int) : ℚ) / S * Cr ≤ (sh : ℚ) / S * Cr := mul_le_mul_of_nonneg_right (div_le_div_of_nonneg_right this hSq.le) hCq
      _ = (sh : ℚ) * Cr / S := by ring
      _ ≤ ((wd : ℚ) * S + Cr) / S := div_le_div_of_nonneg_right fs hSq.le
      _ = _ := by field_simp
  · by_cases hm : S ≤ sh
    · exact .inl (min_eq_left hm)
    · right
      rw [min_eq_right (by omega)]
      have := hsh.2
      have k : (wd : ℚ) * S ≤ sh * Cr := by exact_mod_cast this
      rw [div_mul_eq_mul_div, le_div_iff₀ hSq]
      exact k

end Pool

namespace Props
open Spec Pool

/-- **C97** A liquidation auction offers collateral worth at most one and a half times the debt it asks to take over, and at least as
much as that debt unless it offers all of the collateral; exact values at the prices of the moment, up to rounding: `1/2S` of the debt
and `1/S` of the collateral, where `1/S` is the smallest amount the prices of the oracle can express, and the value of one share plus one
unit for each reserve in use. -/
theorem C97_bonus {w w' : World} (hr : Reachable w) {p u : Address} {auth : List Address} {n : Nat}
    (h : step w (.pool p auth (.newLiquidation u n)) = .ok w') (hprice : PricesOk w (w.pools p)) {dec : Nat}
    (hdec : PriceDecimals w (w.pools p) dec) :
    ∃ a B T V Ec Ed, (w'.pools p).auctions 0 u = some a ∧
      SideWorth (·.dRate) w (w.pools p) a.bid B ∧ SideWorth (·.bRate) w (w.pools p) a.lot T ∧
      Worth (·.bRate) w (w.pools p) (getPositions (w.pools p) u).collateral V ∧
      Dust (·.bRate) w (w.pools p) (getPositions (w.pools p) u).collateral Ec ∧
      Dust (·.dRate) w (w.pools p) (getPositions (w.pools p) u).liabilities Ed ∧
      T ≤ (3 / 2 + 1 / (2 * 10 ^ dec)) * (B + Ed) + V / 10 ^ dec + 2 * Ec ∧
      (B ≤ T + Ed + 1 ∨ ∀ i x, (w.pools p).resList[i]? = some x → a.lot.bal x = (accountOf (w.pools p) u).collateral i) := by
  have hp : w.poolAddr p = true := by
    have h := h
    simp only [step, bind_ok, require_ok] at h
    obtain ⟨_, hp, _⟩ := h
    exact hp
  obtain ⟨_, hn, _⟩ := C18_only_unhealthy hr h hprice
  obtain ⟨a, ha, _, C, Cr, L, Lr, dec', pct, wd, share, hC, hCr, hL, hLr, hd, hsh, hamt, _⟩ := C18_terms hr h hprice
  have : dec' = dec := by
    obtain ⟨i, hi, rfl⟩ := hd
    obtain ⟨j, hj, rfl⟩ := hdec
    rw [hi] at hj; cases hj; rfl
  subst this
  obtain ⟨f, hf, rfl⟩ := hC
  obtain ⟨fr, hfr, rfl⟩ := hCr
  obtain ⟨g, hg, rfl⟩ := hL
  obtain ⟨gr, hgr, rfl⟩ := hLr
  set ps := w.pools p with hps
  set pos := getPositions ps u with hpos
  have rb : ∀ a d, Current ps w.time a d → 1000000000 ≤ d.bRate ∧ 1000000000 ≤ d.dRate := fun a d hc => hr.rates_ge hp hc
  have rp : RatesPos ps w.time := fun a d hc => by have := rb a d hc; omega
  have cfg : CfgOk ps := hr.base.cfg p
  have bc : ∀ i, 0 ≤ pos.collateral.bal i ∧ (pos.collateral.bal i ≠ 0 → i < ps.resList.length) := fun i => bal_pos hr hp u .coll i
  have bl : ∀ i, 0 ≤ pos.liabilities.bal i ∧ (pos.liabilities.bal i ≠ 0 → i < ps.resList.length) := fun i => bal_pos hr hp u .liab i
  have kc : ∀ i, ∃ q : ℚ, 0 ≤ q ∧ (pos.collateral.bal i ≠ 0 → UnitWorth (·.bRate) w ps i q) ∧
      (i < ps.resList.length → (fr i : ℚ) ≤ pos.collateral.bal i * q ∧
        (pos.collateral.bal i : ℚ) * q ≤ fr i + (if pos.collateral.bal i = 0 then 0 else q + 1)) := fun i => by
    by_cases hi : i < ps.resList.length
    · obtain ⟨q, h1, h2, h3⟩ := rawColl_exact (bc i).1 (hfr i hi) hprice (fun a d h => (rb a d h).1)
      exact ⟨q, h1, h2, fun _ => h3⟩
    · exact ⟨0, le_refl _, fun h => absurd ((bc i).2 h) hi, fun h => absurd h hi⟩
  have kl : ∀ i, ∃ q : ℚ, 0 ≤ q ∧ (pos.liabilities.bal i ≠ 0 → UnitWorth (·.dRate) w ps i q) ∧
      (i < ps.resList.length → (pos.liabilities.bal i : ℚ) * q ≤ gr i ∧
        (gr i : ℚ) ≤ pos.liabilities.bal i * q + (if pos.liabilities.bal i = 0 then 0 else q + 1)) := fun i => by
    by_cases hi : i < ps.resList.length
    · obtain ⟨q, h1, h2, h3⟩ := rawLiab_exact (bl i).1 (hgr i hi) hprice (fun a d h => (rb a d h).2)
      exact ⟨q, h1, h2, fun _ => h3⟩
    · exact ⟨0, le_refl _, fun h => absurd ((bl i).2 h) hi, fun h => absurd h hi⟩
  choose qc c0 c1 c2 using kc
  choose ql l0 l1 l2 using kl
  have hget : ∀ i, i < ps.resList.length → ps.resList[i]? = some (ps.resList.getD i 0) := fun i hi => by
    simp [List.getD, hi]
  have hS : (0 : Int) < 10 ^ dec' := by positivity
  have hSq : (0 : ℚ) < 10 ^ dec' := by positivity
  have t0 : 0 ≤ total ps f ∧ total ps f ≤ total ps fr := by
    constructor
    · exact sum_range_nonneg fun i hi => (CollateralItem.le_raw (hf i hi) (hfr i hi) (bc i).1 hprice rp cfg).1
    · unfold total
      exact List.sum_le_sum fun i hi => (CollateralItem.le_raw (hf i (List.mem_range.1 hi)) (hfr i (List.mem_range.1 hi)) (bc i).1 hprice rp cfg).2
  have t1 : 0 ≤ total ps gr ∧ total ps gr ≤ total ps g := by
    constructor
    · exact sum_range_nonneg fun i hi => (LiabilityItem.ge_raw (hg i hi) (hgr i hi) (bl i).1 hprice rp cfg).1
    · unfold total
      exact List.sum_le_sum fun i hi => (LiabilityItem.ge_raw (hg i (List.mem_range.1 hi)) (hgr i (List.mem_range.1 hi)) (bl i).1 hprice rp cfg).2
  obtain ⟨p0, pS, s0, sS, hlo, hhi, hsh1, hsh2⟩ := share_bounds hsh hS hn t0.1 t0.2 t1.1 t1.2
  push_cast at hlo hhi hsh1 hsh2
  -- names for the sums
  have eV : ((total ps fr : Int) : ℚ) ≤ ∑ i ∈ Finset.range ps.resList.length, (pos.collateral.bal i : ℚ) * qc i := by
    rw [total_cast]
    exact Finset.sum_le_sum fun i hi => (c2 i (Finset.mem_range.1 hi)).1
  have eV' : ∑ i ∈ Finset.range ps.resList.length, (pos.collateral.bal i : ℚ) * qc i ≤ ((total ps fr : Int) : ℚ) +
      ∑ i ∈ Finset.range ps.resList.length, if pos.collateral.bal i = 0 then 0 else qc i + 1 := by
    rw [total_cast, ← Finset.sum_add_distrib]
    exact Finset.sum_le_sum fun i hi => (c2 i (Finset.mem_range.1 hi)).2
  have eD : ∑ i ∈ Finset.range ps.resList.length, (pos.liabilities.bal i : ℚ) * ql i ≤ ((total ps gr : Int) : ℚ) := by
    rw [total_cast]
    exact Finset.sum_le_sum fun i hi => (l2 i (Finset.mem_range.1 hi)).1
  have eD' : ((total ps gr : Int) : ℚ) ≤ ∑ i ∈ Finset.range ps.resList.length, (pos.liabilities.bal i : ℚ) * ql i +
      ∑ i ∈ Finset.range ps.resList.length, if pos.liabilities.bal i = 0 then 0 else ql i + 1 := by
    rw [total_cast, ← Finset.sum_add_distrib]
    exact Finset.sum_le_sum fun i hi => (l2 i (Finset.mem_range.1 hi)).2
  have dust : ∀ (q : Nat → ℚ) (m : SMap Int), (∀ i, 0 ≤ q i) →
      0 ≤ ∑ i ∈ Finset.range ps.resList.length, if m.bal i = 0 then 0 else q i + 1 := fun q m hq =>
    Finset.sum_nonneg fun i _ => by
      split
      · exact le_refl _
      · have := hq i; linarith
  have dl := dust ql pos.liabilities l0
  have dc := dust qc pos.collateral c0
  -- the two sides
  have item : ∀ {v b k : Int} {q : ℚ}, IsCeil v (b * k) (10 ^ dec') → 0 ≤ q →
      (k : ℚ) / 10 ^ dec' * (b * q) ≤ v * q ∧ (v : ℚ) * q ≤ k / 10 ^ dec' * (b * q) + (if b = 0 then 0 else q + 1) := by
    intro v b k q hv hq
    by_cases h0 : b = 0
    · subst h0
      rw [zero_mul] at hv
      obtain rfl := margin_ceil_zero hv hS
      simp
    have a1 := q_ceil hv hS
    have a2 := q_ceil_lt hv hS
    push_cast at a1 a2
    rw [if_neg h0]
    have e : (k : ℚ) / 10 ^ dec' * (b * q) = b * k / 10 ^ dec' * q := by ring
    rw [e]
    constructor
    · exact mul_le_mul_of_nonneg_right a1 hq
    · have := mul_le_mul_of_nonneg_right a2 hq
      rw [add_mul] at this
      linarith
  have cItem : ∀ i, i < ps.resList.length → IsCeil (a.lot.bal (ps.resList.getD i 0)) (pos.collateral.bal i * share) (10 ^ dec') :=
    fun i hi => (hamt i _ (hget i hi)).1
  have lItem : ∀ i, i < ps.resList.length → IsCeil (a.bid.bal (ps.resList.getD i 0)) (pos.liabilities.bal i * pct) (10 ^ dec') :=
    fun i hi => (hamt i _ (hget i hi)).2.2.1
  have eT : ∑ i ∈ Finset.range ps.resList.length, (a.lot.bal (ps.resList.getD i 0) : ℚ) * qc i ≤
      share / 10 ^ dec' * (∑ i ∈ Finset.range ps.resList.length, (pos.collateral.bal i : ℚ) * qc i) +
      ∑ i ∈ Finset.range ps.resList.length, if pos.collateral.bal i = 0 then 0 else qc i + 1 := by
    rw [Finset.mul_sum, ← Finset.sum_add_distrib]
    exact Finset.sum_le_sum fun i hi => (item (cItem i (Finset.mem_range.1 hi)) (c0 i)).2
  have eT' : share / 10 ^ dec' * (∑ i ∈ Finset.range ps.resList.length, (pos.collateral.bal i : ℚ) * qc i) ≤
      ∑ i ∈ Finset.range ps.resList.length, (a.lot.bal (ps.resList.getD i 0) : ℚ) * qc i := by
    rw [Finset.mul_sum]
    exact Finset.sum_le_sum fun i hi => (item (cItem i (Finset.mem_range.1 hi)) (c0 i)).1
  have eB : ∑ i ∈ Finset.range ps.resList.length, (a.bid.bal (ps.resList.getD i 0) : ℚ) * ql i ≤
      pct / 10 ^ dec' * (∑ i ∈ Finset.range ps.resList.length, (pos.liabilities.bal i : ℚ) * ql i) +
      ∑ i ∈ Finset.range ps.resList.length, if pos.liabilities.bal i = 0 then 0 else ql i + 1 := by
    rw [Finset.mul_sum, ← Finset.sum_add_distrib]
    exact Finset.sum_le_sum fun i hi => (item (lItem i (Finset.mem_range.1 hi)) (l0 i)).2
  have eB' : pct / 10 ^ dec' * (∑ i ∈ Finset.range ps.resList.length, (pos.liabilities.bal i : ℚ) * ql i) ≤
      ∑ i ∈ Finset.range ps.resList.length, (a.bid.bal (ps.resList.getD i 0) : ℚ) * ql i := by
    rw [Finset.mul_sum]
    exact Finset.sum_le_sum fun i hi => (item (lItem i (Finset.mem_range.1 hi)) (l0 i)).1
  have nz : ∀ {v b k : Int}, IsCeil v (b * k) (10 ^ dec') → v ≠ 0 → b ≠ 0 := fun {v b k} hv h0 hb => by
    subst hb
    rw [zero_mul] at hv
    exact h0 (margin_ceil_zero hv hS)
  have ilt : ∀ {i : Nat} {x : Address}, ps.resList[i]? = some x → i < ps.resList.length ∧ ps.resList.getD i 0 = x := fun {i x} hi => by
    obtain ⟨h1, _⟩ := List.getElem?_eq_some_iff.1 hi
    exact ⟨h1, by have := hget i h1; rw [hi] at this; exact (Option.some.inj this).symm⟩
  have pq : (0 : ℚ) ≤ pct / 10 ^ dec' ∧ (pct : ℚ) / 10 ^ dec' ≤ 1 := by
    constructor
    · have : (0 : ℚ) ≤ pct := by exact_mod_cast p0
      positivity
    · rw [div_le_one hSq]; exact_mod_cast pS
  have sq : (0 : ℚ) ≤ share / 10 ^ dec' ∧ (share : ℚ) / 10 ^ dec' ≤ 1 := by
    constructor
    · have : (0 : ℚ) ≤ share := by exact_mod_cast s0
      positivity
    · rw [div_le_one hSq]; exact_mod_cast sS
  refine ⟨a, _, _, _, _, _, ha, ⟨ql, fun i x hi hx => l1 i ?_, rfl⟩, ⟨qc, fun i x hi hx => c1 i ?_, rfl⟩, ⟨qc, c1, rfl⟩, ⟨qc, c1, rfl⟩,
    ⟨ql, l1, rfl⟩, ?_, ?_⟩
  · obtain ⟨h1, h2⟩ := ilt hi
    exact nz (lItem i h1) (by rw [h2]; exact hx)
  · obtain ⟨h1, h2⟩ := ilt hi
    exact nz (cItem i h1) (by rw [h2]; exact hx)
  · generalize (∑ i ∈ Finset.range ps.resList.length, (a.lot.bal (ps.resList.getD i 0) : ℚ) * qc i) = T at *
    generalize (∑ i ∈ Finset.range ps.resList.length, (a.bid.bal (ps.resList.getD i 0) : ℚ) * ql i) = B at *
    generalize (∑ i ∈ Finset.range ps.resList.length, (pos.collateral.bal i : ℚ) * qc i) = V at *
    generalize (∑ i ∈ Finset.range ps.resList.length, (pos.liabilities.bal i : ℚ) * ql i) = D at *
    generalize (∑ i ∈ Finset.range ps.resList.length, if pos.liabilities.bal i = 0 then 0 else ql i + 1) = Ed at *
    generalize (∑ i ∈ Finset.range ps.resList.length, if pos.collateral.bal i = 0 then 0 else qc i + 1) = Ec at *
    have k1 : (share : ℚ) / 10 ^ dec' * V ≤ share / 10 ^ dec' * (total ps fr : Int) + Ec := by
      have := mul_le_mul_of_nonneg_left eV' sq.1
      have := mul_le_mul_of_nonneg_right sq.2 dc
      linarith
    have k2 : ((total ps fr : Int) : ℚ) / 10 ^ dec' ≤ V / 10 ^ dec' := div_le_div_of_nonneg_right eV hSq.le
    have k3 : ((total ps gr : Int) : ℚ) * pct / 10 ^ dec' ≤ B + Ed := by
      have m1 := mul_le_mul_of_nonneg_left eD' pq.1
      have m2 := mul_le_mul_of_nonneg_right pq.2 dl
      have e : ((total ps gr : Int) : ℚ) * pct / 10 ^ dec' = pct / 10 ^ dec' * (total ps gr : Int) := by ring
      rw [e]
      linarith
    have k4 := mul_le_mul_of_nonneg_left k3 (show (0 : ℚ) ≤ 3 / 2 + 1 / (2 * 10 ^ dec') by positivity)
    linarith
  · rcases hsh2 with hfull | hpart
    · right
      intro i x hi
      obtain ⟨e1, e2, _⟩ := hamt i x hi
      rw [hfull] at e1
      exact ceil_unit e1 hS
    · left
      generalize (∑ i ∈ Finset.range ps.resList.length, (a.lot.bal (ps.resList.getD i 0) : ℚ) * qc i) = T at *
      generalize (∑ i ∈ Finset.range ps.resList.length, (a.bid.bal (ps.resList.getD i 0) : ℚ) * ql i) = B at *
      generalize (∑ i ∈ Finset.range ps.resList.length, (pos.collateral.bal i : ℚ) * qc i) = V at *
      generalize (∑ i ∈ Finset.range ps.resList.length, (pos.liabilities.bal i : ℚ) * ql i) = D at *
      generalize (∑ i ∈ Finset.range ps.resList.length, if pos.liabilities.bal i = 0 then 0 else ql i + 1) = Ed at *
      have m1 := mul_le_mul_of_nonneg_left eD pq.1
      have m2 := mul_le_mul_of_nonneg_left eV sq.1
      have e : ((total ps gr : Int) : ℚ) * pct / 10 ^ dec' = pct / 10 ^ dec' * (total ps gr : Int) := by ring
      rw [e] at hlo
      linarith

open Demo

/-- non-vacuity of `C97_bonus`: bob is liquidated for 60 percent, and does not lose all of his collateral -/
example : ∃ w w' a, Reachable w ∧ step w (.pool poolA [] (.newLiquidation bob 60)) = .ok w' ∧ PricesOk w (w.pools poolA) ∧
    PriceDecimals w (w.pools poolA) 7 ∧ (w'.pools poolA).auctions 0 bob = some a ∧ 0 < a.lot.bal xlmA ∧ 0 < a.bid.bal usdcA ∧
    a.lot.bal xlmA < (accountOf (w.pools poolA) bob).collateral 1 := by
  obtain ⟨w, w', _, hr, hs, h⟩ := Demo.reach_step (ops := setup ++ trade ++ emissions ++ claims ++ liquidation.take 1)
    (op := .pool poolA [] (.newLiquidation bob 60))
    (f := fun w w' => (pricesOk w (w.pools poolA) && optAnd (w.pools poolA).inst fun i => decide ((w.oracle i.config.oracle).decimals = 7)) &&
      optAnd ((w'.pools poolA).auctions 0 bob) fun a => decide (0 < a.lot.bal xlmA ∧ 0 < a.bid.bal usdcA ∧
        a.lot.bal xlmA < (accountOf (w.pools poolA) bob).collateral 1))
    (by decide +kernel)
  rw [Bool.and_eq_true, Bool.and_eq_true] at h
  obtain ⟨i, hi, h2⟩ := optAnd_iff.1 h.1.2
  obtain ⟨a, ha, h3⟩ := optAnd_iff.1 h.2
  exact ⟨w, w', a, hr, hs, pricesOk_iff h.1.1, ⟨i, hi, of_decide_eq_true h2⟩, ha, of_decide_eq_true h3⟩

end Props
end Blend
