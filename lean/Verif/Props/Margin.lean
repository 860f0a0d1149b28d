import Verif.Spec.Margin
import Verif.Lemmas.Health
import Verif.Lemmas.LiveLiq
import Verif.Props.Health
import Verif.Props.SameLedger
import Verif.Examples.HealthDemo
import Mathlib.Data.Rat.Cast.Order
import Mathlib.Algebra.Order.BigOperators.Group.Finset
import Mathlib.Algebra.BigOperators.Ring.Finset
import Mathlib.Algebra.Order.Field.Basic
import Mathlib.Tactic.Positivity
import Mathlib.Tactic.FieldSimp
import Mathlib.Tactic.Linarith
/-
  C95: the margin of safety of an account.

  The statements use `Verif/Spec/Margin.lean`.
-/

namespace Blend
namespace Pool
open Spec

theorem total_cast (ps : PoolState) (f : Nat → Int) : ((total ps f : Int) : ℚ) = ∑ i ∈ Finset.range ps.resList.length, (f i : ℚ) := by
  unfold total
  induction ps.resList.length with
  | zero => simp
  | succ n ih => rw [List.range_succ, List.map_append, List.sum_append, Finset.sum_range_succ, Int.cast_add, ih]; simp

theorem q_floor {v x y : Int} (h : IsFloor v x y) (hy : 0 < y) : (v : ℚ) ≤ x / y := by
  rw [le_div_iff₀ (by exact_mod_cast hy)]; exact_mod_cast h.1

theorem q_ceil {v x y : Int} (h : IsCeil v x y) (hy : 0 < y) : (x : ℚ) / y ≤ v := by
  rw [div_le_iff₀ (by exact_mod_cast hy)]; exact_mod_cast h.2

theorem price_nonneg {w : World} {ps : PoolState} {a : Address} {i : Nat} {x : Int} (h : PricesOk w ps) (h1 : ps.resList[i]? = some a)
    (h4 : FreshPrice w ps a x) : 0 ≤ x := by
  obtain ⟨j, ts, hj, hp, _⟩ := h4
  exact h j a x ts hj (List.mem_of_getElem? h1) hp

theorem margin_ceil_zero {v y : Int} (h : IsCeil v 0 y) (hy : 0 < y) : v = 0 := by
  obtain ⟨h1, h2⟩ := h
  have k1 : v < 1 := by
    by_contra hlt
    have := mul_nonneg (show 0 ≤ v - 1 by omega) hy.le
    omega
  have k2 : 0 ≤ v := by
    by_contra hlt
    have := mul_neg_of_neg_of_pos (show v < 0 by omega) hy
    omega
  omega

/-- the code's value of a collateral position is at most the exact value times the collateral factor -/
theorem coll_exact {w : World} {ps : PoolState} {i : Nat} {b v : Int} {m : SMap Int} {cf : ℚ} (hm : m.bal i = b) (hb : 0 ≤ b)
    (h : CollateralItem w ps i b v) (hprice : PricesOk w ps) (hrate : ∀ a d, Current ps w.time a d → 0 < d.bRate)
    (hcf : FactorAtMost (·.cFactor) ps m cf) :
    ∃ q, 0 ≤ q ∧ (b ≠ 0 → UnitWorth (·.bRate) w ps i q) ∧ (v : ℚ) ≤ cf * (b * q) := by
  rcases h with ⟨rfl, rfl⟩ | ⟨a, c, d, x, n, e, h1, h2, h3, h4, h5, h6, h7⟩
  · exact ⟨0, le_refl _, fun h => absurd rfl h, by simp⟩
  by_cases h0 : b = 0
  · subst h0
    refine ⟨0, le_refl _, fun h => absurd rfl h, ?_⟩
    have hx := price_nonneg hprice h1 h4
    have hn : n ≤ 0 := by
      have := h5.1
      unfold ONE9 at this; omega
    have he : e ≤ 0 := by
      have := h6.1
      have : n * c.cFactor ≤ 0 := mul_nonpos_of_nonpos_of_nonneg hn (by positivity)
      have := h6.1
      unfold ONE7 at this; omega
    have hv : v * 10 ^ c.decimals ≤ 0 := le_trans h7.1 (mul_nonpos_of_nonneg_of_nonpos hx he)
    have : v ≤ 0 := by
      by_contra hlt
      have : 0 < v * 10 ^ c.decimals := mul_pos (by omega) (by positivity)
      omega
    simpa using this
  · have hx := price_nonneg hprice h1 h4
    have hr := hrate a d h3
    have p1 : (n : ℚ) ≤ b * d.bRate / 10 ^ 9 := by
      have := q_floor h5 (by unfold ONE9; norm_num)
      unfold ONE9 at this; push_cast at this; norm_num at this ⊢; exact this
    have p2 : (e : ℚ) ≤ n * c.cFactor / 10 ^ 7 := by
      have := q_floor h6 (by unfold ONE7; norm_num)
      unfold ONE7 at this; push_cast at this; norm_num at this ⊢; exact this
    have p3 : (v : ℚ) ≤ x * e / 10 ^ c.decimals := by
      have := q_floor h7 (by positivity)
      push_cast at this; exact this
    have hf := hcf i a c (by rw [hm]; exact h0) h1 h2
    have hxq : (0 : ℚ) ≤ x := by exact_mod_cast hx
    have hbq : (0 : ℚ) ≤ b := by exact_mod_cast hb
    have hrq : (0 : ℚ) ≤ d.bRate := by exact_mod_cast hr.le
    have hD : (0 : ℚ) < 10 ^ c.decimals := by positivity
    refine ⟨((x * d.bRate : Int) : ℚ) / (10 ^ 9 * 10 ^ c.decimals), ?_, fun _ => ⟨a, c, d, x, h1, h2, h3, h4, rfl⟩, ?_⟩
    · push_cast; positivity
    · push_cast
      have s2 : (e : ℚ) ≤ b * d.bRate / 10 ^ 9 * cf := by
        refine le_trans p2 ?_
        rw [div_le_iff₀ (by norm_num)]
        have : (n : ℚ) * c.cFactor ≤ b * d.bRate / 10 ^ 9 * c.cFactor := mul_le_mul_of_nonneg_right p1 (by positivity)
        have : b * d.bRate / 10 ^ 9 * c.cFactor ≤ b * d.bRate / 10 ^ 9 * (cf * 10 ^ 7) :=
          mul_le_mul_of_nonneg_left hf (by positivity)
        linarith
      refine le_trans p3 ?_
      have : (x : ℚ) * e ≤ x * (b * d.bRate / 10 ^ 9 * cf) := mul_le_mul_of_nonneg_left s2 hxq
      calc (x : ℚ) * e / 10 ^ c.decimals ≤ x * (b * d.bRate / 10 ^ 9 * cf) / 10 ^ c.decimals :=
            div_le_div_of_nonneg_right this hD.le
        _ = cf * (b * (x * d.bRate / (10 ^ 9 * 10 ^ c.decimals))) := by field_simp

/-- the code's value of a debt is at least the exact value over the liability factor -/
theorem liab_exact {w : World} {ps : PoolState} {i : Nat} {b v : Int} {m : SMap Int} {lf : ℚ} (hm : m.bal i = b) (hb : 0 ≤ b)
    (h : LiabilityItem w ps i b v) (hprice : PricesOk w ps) (hrate : ∀ a d, Current ps w.time a d → 0 < d.dRate)
    (hlf : FactorAtMost (·.lFactor) ps m lf) :
    ∃ q, 0 ≤ q ∧ (b ≠ 0 → UnitWorth (·.dRate) w ps i q) ∧ (b : ℚ) * q ≤ lf * v := by
  rcases h with ⟨rfl, rfl⟩ | ⟨a, c, d, x, n, e, h1, h2, h3, h4, h5, h6, h7, h8⟩
  · exact ⟨0, le_refl _, fun h => absurd rfl h, by simp⟩
  by_cases h0 : b = 0
  · subst h0
    rw [zero_mul] at h5
    obtain rfl := margin_ceil_zero h5 (by unfold ONE9; norm_num)
    rw [zero_mul] at h7
    obtain rfl := margin_ceil_zero h7 (by exact_mod_cast h6)
    rw [mul_zero] at h8
    obtain rfl := margin_ceil_zero h8 (by positivity)
    exact ⟨0, le_refl _, fun h => absurd rfl h, by simp⟩
  · have hx := price_nonneg hprice h1 h4
    have hr := hrate a d h3
    have hf := hlf i a c (by rw [hm]; exact h0) h1 h2
    have hlp : (0 : ℚ) < c.lFactor := by exact_mod_cast h6
    have p1 : (b : ℚ) * d.dRate / 10 ^ 9 ≤ n := by
      have := q_ceil h5 (by unfold ONE9; norm_num)
      unfold ONE9 at this; push_cast at this; norm_num at this ⊢; exact this
    have p2 : (n : ℚ) * 10 ^ 7 / c.lFactor ≤ e := by
      have := q_ceil h7 (by exact_mod_cast h6)
      unfold ONE7 at this; push_cast at this; norm_num at this ⊢; exact this
    have p3 : (x : ℚ) * e / 10 ^ c.decimals ≤ v := by
      have := q_ceil h8 (by positivity)
      push_cast at this; exact this
    have hxq : (0 : ℚ) ≤ x := by exact_mod_cast hx
    have hbq : (0 : ℚ) ≤ b := by exact_mod_cast hb
    have hrq : (0 : ℚ) ≤ d.dRate := by exact_mod_cast hr.le
    have hD : (0 : ℚ) < 10 ^ c.decimals := by positivity
    refine ⟨((x * d.dRate : Int) : ℚ) / (10 ^ 9 * 10 ^ c.decimals), ?_, fun _ => ⟨a, c, d, x, h1, h2, h3, h4, rfl⟩, ?_⟩
    · push_cast; positivity
    · push_cast
      have hn : (0 : ℚ) ≤ n := le_trans (by positivity) p1
      have he : (0 : ℚ) ≤ e := le_trans (by positivity) p2
      have s2 : (b : ℚ) * d.dRate / 10 ^ 9 ≤ lf * e := by
        rw [div_le_iff₀ hlp] at p2
        have : (e : ℚ) * c.lFactor ≤ e * (lf * 10 ^ 7) := mul_le_mul_of_nonneg_left hf he
        nlinarith
      have hlf0 : 0 ≤ lf := by
        have : (0 : ℚ) < lf * 10 ^ 7 := lt_of_lt_of_le hlp hf
        by_contra hlt
        nlinarith
      calc (b : ℚ) * (x * d.dRate / (10 ^ 9 * 10 ^ c.decimals)) = x * (b * d.dRate / 10 ^ 9) / 10 ^ c.decimals := by field_simp
        _ ≤ x * (lf * e) / 10 ^ c.decimals := div_le_div_of_nonneg_right (mul_le_mul_of_nonneg_left s2 hxq) hD.le
        _ = lf * (x * e / 10 ^ c.decimals) := by field_simp
        _ ≤ lf * v := mul_le_mul_of_nonneg_left p3 hlf0

end Pool

namespace Props
open Spec Pool

theorem bal_pos {w : World} (hr : Reachable w) {p : Address} (hp : w.poolAddr p = true) (u : Address) (k : Kind) (i : Nat) :
    0 ≤ (k.map (getPositions (w.pools p) u)).bal i ∧
      ((k.map (getPositions (w.pools p) u)).bal i ≠ 0 → i < (w.pools p).resList.length) := by
  unfold getPositions
  cases hg : (w.pools p).positions.get u with
  | none => cases k <;> simp [Kind.map, Positions.default, SMap.bal]
  | some pos =>
    simp only [Option.getD_some, SMap.bal]
    cases hv : (k.map pos).get i with
    | none => simp
    | some v =>
      have := (hr.pinv hp).bals u pos k i v hg hv
      exact ⟨by simp only [Option.getD_some]; omega, fun _ => this.2⟩

/-- **C95** An account that is healthy in the sense of C09 (as after every submit with a borrow or another risky request) has debts
whose exact value is at most the exact value of its collateral times the product of the largest collateral factor and the largest
liability factor it uses, and that with a further margin of 0.001 percent if the oracle has at least five decimals. -/
theorem C95_margin {w : World} (hr : Reachable w) {p : Address} (hp : w.poolAddr p = true) (hprice : PricesOk w (w.pools p)) {u : Address}
    (hh : Healthy w (w.pools p) (getPositions (w.pools p) u)) {cf lf : ℚ} (hlf0 : 0 ≤ lf)
    (hcf : FactorAtMost (·.cFactor) (w.pools p) (getPositions (w.pools p) u).collateral cf)
    (hlf : FactorAtMost (·.lFactor) (w.pools p) (getPositions (w.pools p) u).liabilities lf) :
    ∃ C L : ℚ, Worth (·.bRate) w (w.pools p) (getPositions (w.pools p) u).collateral C ∧
      Worth (·.dRate) w (w.pools p) (getPositions (w.pools p) u).liabilities L ∧ 0 ≤ C ∧ 0 ≤ L ∧ L ≤ cf * lf * C ∧
      (∀ n, PriceDecimals w (w.pools p) n → 5 ≤ n → 1.00001 * L ≤ cf * lf * C) := by
  obtain ⟨C, L, n, ⟨f, hf, rfl⟩, ⟨g, hg, rfl⟩, hn, hle, hbuf⟩ := hh
  have rb : ∀ a d, Current (w.pools p) w.time a d → 0 < d.bRate ∧ 0 < d.dRate := fun a d hc => by
    have := hr.rates_ge hp hc; omega
  have kc : ∀ i, ∃ q, 0 ≤ q ∧ ((getPositions (w.pools p) u).collateral.bal i ≠ 0 → UnitWorth (·.bRate) w (w.pools p) i q) ∧
      (i < (w.pools p).resList.length → (f i : ℚ) ≤ cf * ((getPositions (w.pools p) u).collateral.bal i * q)) := fun i => by
    by_cases hi : i < (w.pools p).resList.length
    · obtain ⟨q, h1, h2, h3⟩ := coll_exact rfl (bal_pos hr hp u .coll i).1 (hf i hi) hprice (fun a d h => (rb a d h).1) hcf
      exact ⟨q, h1, h2, fun _ => h3⟩
    · exact ⟨0, le_refl _, fun h => absurd ((bal_pos hr hp u .coll i).2 h) hi, fun h => absurd h hi⟩
  have kl : ∀ i, ∃ q, 0 ≤ q ∧ ((getPositions (w.pools p) u).liabilities.bal i ≠ 0 → UnitWorth (·.dRate) w (w.pools p) i q) ∧
      (i < (w.pools p).resList.length → ((getPositions (w.pools p) u).liabilities.bal i : ℚ) * q ≤ lf * g i) := fun i => by
    by_cases hi : i < (w.pools p).resList.length
    · obtain ⟨q, h1, h2, h3⟩ := liab_exact rfl (bal_pos hr hp u .liab i).1 (hg i hi) hprice (fun a d h => (rb a d h).2) hlf
      exact ⟨q, h1, h2, fun _ => h3⟩
    · exact ⟨0, le_refl _, fun h => absurd ((bal_pos hr hp u .liab i).2 h) hi, fun h => absurd h hi⟩
  choose qc c0 c1 c2 using kc
  choose ql l0 l1 l2 using kl
  have eC : ((total (w.pools p) f : Int) : ℚ) ≤
      cf * ∑ i ∈ Finset.range (w.pools p).resList.length, ((getPositions (w.pools p) u).collateral.bal i : ℚ) * qc i := by
    rw [total_cast, Finset.mul_sum]
    exact Finset.sum_le_sum fun i hi => c2 i (Finset.mem_range.1 hi)
  have eL : ∑ i ∈ Finset.range (w.pools p).resList.length, ((getPositions (w.pools p) u).liabilities.bal i : ℚ) * ql i ≤
      lf * ((total (w.pools p) g : Int) : ℚ) := by
    rw [total_cast, Finset.mul_sum]
    exact Finset.sum_le_sum fun i hi => l2 i (Finset.mem_range.1 hi)
  refine ⟨_, _, ⟨qc, c1, rfl⟩, ⟨ql, l1, rfl⟩, ?_, ?_, ?_, fun m hm h5 => ?_⟩
  · refine Finset.sum_nonneg fun i _ => mul_nonneg ?_ (c0 i)
    exact_mod_cast (bal_pos hr hp u .coll i).1
  · refine Finset.sum_nonneg fun i _ => mul_nonneg ?_ (l0 i)
    exact_mod_cast (bal_pos hr hp u .liab i).1
  · have h1 : ((total (w.pools p) g : Int) : ℚ) ≤ (total (w.pools p) f : Int) := by exact_mod_cast hle
    have := mul_le_mul_of_nonneg_left (le_trans h1 eC) hlf0
    linarith
  · have : m = n := by
      obtain ⟨i, hi, rfl⟩ := hm
      obtain ⟨j, hj, rfl⟩ := hn
      rw [hi] at hj; cases hj; rfl
    subst this
    have h1 : 100001 * ((total (w.pools p) g : Int) : ℚ) ≤ 100000 * (total (w.pools p) f : Int) := by exact_mod_cast hbuf h5
    have := mul_le_mul_of_nonneg_left eC hlf0
    have := mul_le_mul_of_nonneg_left h1 hlf0
    norm_num
    linarith

theorem worth_unique {rate : ReserveData → Int} {w : World} {ps : PoolState} {i : Nat} {q q' : ℚ} (h : UnitWorth rate w ps i q)
    (h' : UnitWorth rate w ps i q') : q = q' := by
  obtain ⟨a, c, d, x, h1, h2, h3, h4, rfl⟩ := h
  obtain ⟨a', c', d', x', h1', h2', h3', h4', rfl⟩ := h'
  rw [h1] at h1'; cases h1'
  rw [h2] at h2'; cases h2'
  rw [Pool.Current.unique h3 h3', Pool.FreshPrice.unique h4 h4']

/-- the exact value of shares when the value of each changes by a factor -/
theorem worth_scale {rate : ReserveData → Int} {w g : World} {ps ps' : PoolState} {m : SMap Int} {V V' : ℚ} (hw : Worth rate w ps m V)
    (hg : Worth rate g ps' m V') (hm : ∀ i, 0 ≤ m.bal i) (hlt : ∀ i, m.bal i ≠ 0 → i < ps.resList.length)
    (hlen : ps.resList.length ≤ ps'.resList.length) {k : ℚ} :
    ((∀ i q q', m.bal i ≠ 0 → UnitWorth rate w ps i q → UnitWorth rate g ps' i q' → k * q ≤ q') → k * V ≤ V') ∧
    ((∀ i q q', m.bal i ≠ 0 → UnitWorth rate w ps i q → UnitWorth rate g ps' i q' → q' ≤ k * q) → V' ≤ k * V) := by
  obtain ⟨q, hq, rfl⟩ := hw
  obtain ⟨q', hq', rfl⟩ := hg
  have e : ∑ i ∈ Finset.range ps'.resList.length, (m.bal i : ℚ) * q' i = ∑ i ∈ Finset.range ps.resList.length, (m.bal i : ℚ) * q' i := by
    refine (Finset.sum_subset (Finset.range_mono hlen) fun i _ hi => ?_).symm
    have : m.bal i = 0 := by
      by_contra hne
      exact hi (Finset.mem_range.2 (hlt i hne))
    rw [this]; simp
  rw [e, Finset.mul_sum]
  constructor <;> intro h <;> refine Finset.sum_le_sum fun i _ => ?_ <;> by_cases h0 : m.bal i = 0
  · rw [h0]; simp
  · have := mul_le_mul_of_nonneg_left (h i _ _ h0 (hq i h0) (hq' i h0)) (show (0 : ℚ) ≤ m.bal i by exact_mod_cast hm i)
    linarith
  · rw [h0]; simp
  · have := mul_le_mul_of_nonneg_left (h i _ _ h0 (hq i h0) (hq' i h0)) (show (0 : ℚ) ≤ m.bal i by exact_mod_cast hm i)
    linarith

/-- **C95** After a submit with a borrow, a withdrawal of collateral or another risky request the sender's debts are worth at most the
product of the factors times his collateral (exact values). -/
theorem C95_after_submit {w w' : World} (hr : Reachable w) {p : Address} {auth : List Address} {sender spender dst : Address}
    {reqs : List Request} (h : step w (.pool p auth (.submit sender spender dst reqs)) = .ok w') (hprice : PricesOk w (w.pools p))
    (hprice' : PricesOk w' (w'.pools p))
    (hq : ∃ q ∈ reqs, q.type = 3 ∨ q.type = 4 ∨ q.type = 6 ∨ q.type = 7 ∨ q.type = 9)
    {i : Nat} (hd : (accountOf (w'.pools p) sender).debt i ≠ 0) {cf lf : ℚ} (hlf0 : 0 ≤ lf)
    (hcf : FactorAtMost (·.cFactor) (w'.pools p) (getPositions (w'.pools p) sender).collateral cf)
    (hlf : FactorAtMost (·.lFactor) (w'.pools p) (getPositions (w'.pools p) sender).liabilities lf) :
    ∃ C L : ℚ, Worth (·.bRate) w' (w'.pools p) (getPositions (w'.pools p) sender).collateral C ∧
      Worth (·.dRate) w' (w'.pools p) (getPositions (w'.pools p) sender).liabilities L ∧ 0 ≤ C ∧ 0 ≤ L ∧ L ≤ cf * lf * C ∧
      (∀ n, PriceDecimals w' (w'.pools p) n → 5 ≤ n → 1.00001 * L ≤ cf * lf * C) := by
  have hp : w'.poolAddr p = true := by
    rw [(step_res hr.base h).poolAddr]
    simp only [step, bind_ok, require_ok] at h
    obtain ⟨_, hp, _⟩ := h
    exact hp
  exact C95_margin (hr.step h) hp hprice' (C09_health hr h hprice hq hd) hlf0 hcf hlf

/-- **C95** A healthy account stays solvent (its collateral is worth at least its debts) whatever happens to prices, rates and settings,
as long as each of its collateral shares keeps at least the fraction `α` of its value and the value of each of its debt shares grows
at most by the factor `β`, where `β` times the product of the factors is at most `α` (or 1.00001 times `α`, if the oracle has five
decimals or more). `g` is any other state in which the account has the same shares. -/
theorem C95_solvent {w g : World} (hr : Reachable w) {p : Address} (hp : w.poolAddr p = true) (hprice : PricesOk w (w.pools p)) {u : Address}
    (hh : Healthy w (w.pools p) (getPositions (w.pools p) u)) {cf lf : ℚ} (hlf0 : 0 ≤ lf)
    (hcf : FactorAtMost (·.cFactor) (w.pools p) (getPositions (w.pools p) u).collateral cf)
    (hlf : FactorAtMost (·.lFactor) (w.pools p) (getPositions (w.pools p) u).liabilities lf)
    (hlen : (w.pools p).resList.length ≤ (g.pools p).resList.length)
    {α β : ℚ} (hβ0 : 0 ≤ β)
    (hα : ∀ i q q', (getPositions (w.pools p) u).collateral.bal i ≠ 0 → UnitWorth (·.bRate) w (w.pools p) i q →
      UnitWorth (·.bRate) g (g.pools p) i q' → α * q ≤ q')
    (hβ : ∀ i q q', (getPositions (w.pools p) u).liabilities.bal i ≠ 0 → UnitWorth (·.dRate) w (w.pools p) i q →
      UnitWorth (·.dRate) g (g.pools p) i q' → q' ≤ β * q)
    (hF : cf * lf * β ≤ α ∨ (∃ n, PriceDecimals w (w.pools p) n ∧ 5 ≤ n) ∧ cf * lf * β ≤ 1.00001 * α)
    {C L : ℚ} (hC : Worth (·.bRate) g (g.pools p) (getPositions (w.pools p) u).collateral C)
    (hL : Worth (·.dRate) g (g.pools p) (getPositions (w.pools p) u).liabilities L) : L ≤ C := by
  obtain ⟨C0, L0, hC0, hL0, c0, l0, h1, h2⟩ := C95_margin hr hp hprice hh hlf0 hcf hlf
  have kC := (worth_scale hC0 hC (fun i => (bal_pos hr hp u .coll i).1) (fun i => (bal_pos hr hp u .coll i).2) hlen).1 hα
  have kL := (worth_scale hL0 hL (fun i => (bal_pos hr hp u .liab i).1) (fun i => (bal_pos hr hp u .liab i).2) hlen).2 hβ
  rcases hF with hF | ⟨⟨n, hn, h5⟩, hF⟩
  · have k1 := mul_le_mul_of_nonneg_left h1 hβ0
    have k2 := mul_le_mul_of_nonneg_right hF c0
    linarith
  · have k1 := mul_le_mul_of_nonneg_left (h2 n hn h5) hβ0
    have k2 := mul_le_mul_of_nonneg_right hF c0
    norm_num at k1 k2
    linarith

/-- **C95** If only prices change: a healthy account stays solvent as long as the prices of its collateral keep at least the fraction
`α` and the prices of what it owes grow at most by the factor `β`. -/
theorem C95_prices {w g : World} (hg : OtherPrices w g) (hr : Reachable w) {p : Address} (hp : w.poolAddr p = true)
    (hprice : PricesOk w (w.pools p)) {u : Address}
    (hh : Healthy w (w.pools p) (getPositions (w.pools p) u)) {cf lf : ℚ} (hlf0 : 0 ≤ lf)
    (hcf : FactorAtMost (·.cFactor) (w.pools p) (getPositions (w.pools p) u).collateral cf)
    (hlf : FactorAtMost (·.lFactor) (w.pools p) (getPositions (w.pools p) u).liabilities lf)
    {α β : ℚ} (hβ0 : 0 ≤ β)
    (hα : ∀ i a x x', (getPositions (w.pools p) u).collateral.bal i ≠ 0 → (w.pools p).resList[i]? = some a →
      FreshPrice w (w.pools p) a x → FreshPrice g (g.pools p) a x' → α * x ≤ x')
    (hβ : ∀ i a x x', (getPositions (w.pools p) u).liabilities.bal i ≠ 0 → (w.pools p).resList[i]? = some a →
      FreshPrice w (w.pools p) a x → FreshPrice g (g.pools p) a x' → (x' : ℚ) ≤ β * x)
    (hF : cf * lf * β ≤ α ∨ (∃ n, PriceDecimals w (w.pools p) n ∧ 5 ≤ n) ∧ cf * lf * β ≤ 1.00001 * α)
    {C L : ℚ} (hC : Worth (·.bRate) g (g.pools p) (getPositions (g.pools p) u).collateral C)
    (hL : Worth (·.dRate) g (g.pools p) (getPositions (g.pools p) u).liabilities L) : L ≤ C := by
  obtain ⟨o, rfl⟩ := hg
  refine C95_solvent (g := { w with oracle := o }) hr hp hprice hh hlf0 hcf hlf (le_refl _) hβ0 ?_ ?_ hF hC hL
  all_goals
    rintro i q q' h0 ⟨a, c, d, x, h1, h2, h3, h4, rfl⟩ ⟨a', c', d', x', h1', h2', h3', h4', rfl⟩
    rw [h1] at h1'; cases h1'
    rw [h2] at h2'; cases h2'
    obtain rfl := Pool.Current.unique h3 h3'
    have hge := hr.rates_ge hp h3
    have hD : (0 : ℚ) < 10 ^ 9 * 10 ^ c.decimals := by positivity
    rw [← mul_div_assoc]
    refine div_le_div_of_nonneg_right ?_ hD.le
    push_cast
  · have k := hα i a x x' h0 h1 h4 h4'
    have : (0 : ℚ) ≤ d.bRate := by exact_mod_cast (by omega : (0 : Int) ≤ d.bRate)
    nlinarith [mul_le_mul_of_nonneg_right k this]
  · have k := hβ i a x x' h0 h1 h4 h4'
    have : (0 : ℚ) ≤ d.dRate := by exact_mod_cast (by omega : (0 : Int) ≤ d.dRate)
    nlinarith [mul_le_mul_of_nonneg_right k this]

open Demo

/-- the pool's oracle has the price `x` of `a`, not older than a day -/
def priceOf (w : World) (p a : Address) : Option Int :=
  match (w.pools p).inst with
  | none => none
  | some i => match (w.oracle i.config.oracle).price a with
    | some (x, ts) => if w.time ≤ ts + 86400 then some x else none
    | none => none

theorem priceOf_iff {w : World} {p a : Address} {x : Int} : priceOf w p a = some x ↔ FreshPrice w (w.pools p) a x := by
  unfold priceOf FreshPrice
  constructor
  · intro h
    split at h
    · cases h
    · rename_i i hi
      split at h
      · rename_i y ts hy
        split at h
        · rename_i ht
          cases h
          exact ⟨i, ts, hi, hy, ht⟩
        · cases h
      · cases h
  · rintro ⟨i, ts, hi, hx, ht⟩
    simp only [hi, hx, if_pos ht]

/-- the demo pool after bob has borrowed USDC with XLM as collateral -/
def bobBorrows : Op := .pool poolA [bob] (.submit bob bob bob [⟨2, xlmA, 1000000000000⟩, ⟨4, usdcA, 60000000000⟩])

/-- the oracles report a price of XLM that is 30 percent lower -/
def xlmFalls : Oracle :=
  { decimals := 7, price := fun a => if a = usdcA then some (10000000, 1713139200) else if a = xlmA then some (700000, 1713139200) else none }

/-- bob has XLM as collateral (factor 0.75) and owes USDC (factor 0.9); XLM falls by 30 percent: all the hypotheses of `C95_prices` (and
of `C95_margin`) are met, and he has debts -/
example : ∃ w g C L, Reachable w ∧ w.poolAddr poolA = true ∧ PricesOk w (w.pools poolA) ∧
    Healthy w (w.pools poolA) (getPositions (w.pools poolA) bob) ∧ OtherPrices w g ∧
    FactorAtMost (·.cFactor) (w.pools poolA) (getPositions (w.pools poolA) bob).collateral 0.75 ∧
    FactorAtMost (·.lFactor) (w.pools poolA) (getPositions (w.pools poolA) bob).liabilities 0.9 ∧
    (∀ i a x x', (getPositions (w.pools poolA) bob).collateral.bal i ≠ 0 → (w.pools poolA).resList[i]? = some a →
      FreshPrice w (w.pools poolA) a x → FreshPrice g (g.pools poolA) a x' → (0.7 : ℚ) * x ≤ x') ∧
    (∀ i a x x', (getPositions (w.pools poolA) bob).liabilities.bal i ≠ 0 → (w.pools poolA).resList[i]? = some a →
      FreshPrice w (w.pools poolA) a x → FreshPrice g (g.pools poolA) a x' → (x' : ℚ) ≤ 1 * x) ∧
    (0.75 : ℚ) * 0.9 * 1 ≤ 0.7 ∧
    Worth (·.bRate) g (g.pools poolA) (getPositions (g.pools poolA) bob).collateral C ∧
    Worth (·.dRate) g (g.pools poolA) (getPositions (g.pools poolA) bob).liabilities L ∧ 0 < L := by
  obtain ⟨v, w, _, hr, hs, h⟩ := Demo.reach_step (ops := setup ++ trade.take 2) (op := bobBorrows)
    (f := fun v w => (pricesOk v (v.pools poolA) && pricesOk w (w.pools poolA)) && w.poolAddr poolA && decide (
      (w.pools poolA).resList = [usdcA, xlmA] ∧
      (getPositions (w.pools poolA) bob).collateral.bal 0 = 0 ∧ (getPositions (w.pools poolA) bob).liabilities.bal 1 = 0 ∧
      0 < (getPositions (w.pools poolA) bob).liabilities.bal 0 ∧
      priceOf w poolA usdcA = some 10000000 ∧ priceOf w poolA xlmA = some 1000000 ∧
      priceOf { w with oracle := fun _ => xlmFalls } poolA usdcA = some 10000000 ∧
      priceOf { w with oracle := fun _ => xlmFalls } poolA xlmA = some 700000) &&
      (optAnd ((w.pools poolA).resConfig usdcA) fun c => decide (c.lFactor = 9000000 ∧ c.decimals = 7)) &&
      (optAnd ((w.pools poolA).resConfig xlmA) fun c => decide (c.cFactor = 7500000 ∧ c.decimals = 7)) &&
      (okAnd (currentOf w poolA usdcA) fun _ => true) && (okAnd (currentOf w poolA xlmA) fun _ => true)) (by decide +kernel)
  simp only [Bool.and_eq_true, okAnd_iff, optAnd_iff, decide_eq_true_eq] at h
  obtain ⟨⟨⟨⟨⟨⟨⟨g1, g2⟩, hp⟩, hl, c0, l1, l0, p1, p2, p3, p4⟩, cu, hcu, f1, f2⟩, cx, hcx, f3, f4⟩, du, hdu, _⟩, dx, hdx, _⟩ := h
  have hr' := hr.step hs
  have dc : ∀ i, (getPositions (w.pools poolA) bob).collateral.bal i ≠ 0 → i = 1 := fun i h0 => by
    have := (bal_pos hr' hp bob .coll i).2 h0
    rw [hl] at this
    have : i ≠ 0 := by rintro rfl; exact h0 c0
    simp only [List.length_cons, List.length_nil] at *
    omega
  have dl : ∀ i, (getPositions (w.pools poolA) bob).liabilities.bal i ≠ 0 → i = 0 := fun i h0 => by
    have := (bal_pos hr' hp bob .liab i).2 h0
    rw [hl] at this
    have : i ≠ 1 := by rintro rfl; exact h0 l1
    simp only [List.length_cons, List.length_nil] at *
    omega
  set g : World := { w with oracle := fun _ => xlmFalls } with hgdef
  have hbs : ((getPositions (w.pools poolA) bob).liabilities.bal 0 : ℚ) ≠ 0 := by
    have : (getPositions (w.pools poolA) bob).liabilities.bal 0 ≠ 0 := by omega
    exact_mod_cast this
  have i0 : (w.pools poolA).resList[0]? = some usdcA := by rw [hl]; rfl
  have i1 : (w.pools poolA).resList[1]? = some xlmA := by rw [hl]; rfl
  have pr : ∀ {v : World} {a : Address} {x y : Int}, priceOf v poolA a = some x → FreshPrice v (v.pools poolA) a y → y = x := by
    intro v a x y h1 h2
    have := priceOf_iff.2 h2
    rw [h1] at this; cases this; rfl
  refine ⟨w, g, _, _, hr', hp, pricesOk_iff g2, C09_health hr hs (pricesOk_iff g1) ⟨⟨4, usdcA, 60000000000⟩, by simp, by simp⟩
    (i := 0) (by show (getPositions (w.pools poolA) bob).liabilities.bal 0 ≠ 0; omega), ⟨_, rfl⟩, ?_, ?_, ?_, ?_, by norm_num,
    ⟨fun i => ((700000 * dx.bRate : Int) : ℚ) / (10 ^ 9 * 10 ^ cx.decimals), fun i h0 => ?_, rfl⟩,
    ⟨fun i => ((10000000 * du.dRate : Int) : ℚ) / (10 ^ 9 * 10 ^ cu.decimals), fun i h0 => ?_, rfl⟩, ?_⟩
  · intro i a c h0 h1 h2
    obtain rfl := dc i h0
    rw [i1] at h1; cases h1
    rw [hcx] at h2; cases h2
    simp only [f3]; norm_num
  · intro i a c h0 h1 h2
    obtain rfl := dl i h0
    rw [i0] at h1; cases h1
    rw [hcu] at h2; cases h2
    simp only [f1]; norm_num
  · intro i a x x' h0 h1 h2 h3
    obtain rfl := dc i h0
    rw [i1] at h1; cases h1
    obtain rfl := pr p2 h2
    obtain rfl := pr p4 h3
    norm_num
  · intro i a x x' h0 h1 h2 h3
    obtain rfl := dl i h0
    rw [i0] at h1; cases h1
    obtain rfl := pr p1 h2
    obtain rfl := pr p3 h3
    norm_num
  · obtain rfl := dc i h0
    exact ⟨xlmA, cx, dx, 700000, i1, hcx, currentOf_ok hdx, priceOf_iff.1 p4, rfl⟩
  · obtain rfl := dl i h0
    exact ⟨usdcA, cu, du, 10000000, i0, hcu, currentOf_ok hdu, priceOf_iff.1 p3, rfl⟩
  · have hge := (hr'.rates_ge hp (currentOf_ok hdu)).2
    have hd : (0 : ℚ) < ((10000000 * du.dRate : Int) : ℚ) := by exact_mod_cast (by omega)
    refine Finset.sum_pos' (fun i _ => mul_nonneg ?_ (by positivity)) ⟨0, by rw [Finset.mem_range]; show 0 < (w.pools poolA).resList.length; rw [hl]; decide, ?_⟩
    · exact_mod_cast (bal_pos hr' hp bob .liab i).1
    · exact mul_pos (by exact_mod_cast l0) (by positivity)

end Props
end Blend
