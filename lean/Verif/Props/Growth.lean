import Verif.Props.Curve
import Verif.Spec.Growth
import Verif.Lemmas.Solvency
import Verif.Examples.Demo
import Mathlib.Algebra.Order.Ring.Pow
import Mathlib.Tactic.FieldSimp
import Mathlib.Tactic.GCongr
/-
  C78: how fast debts grow.
-/

namespace Blend
namespace Props
open Spec Pool Demo

theorem yearlyRate_le {c : ReserveConfig} {u m S : ℚ} (hS : (c.rBase : ℚ) + c.rOne + c.rTwo + c.rThree ≤ S) (hu0 : 0 ≤ u)
    (hu : u ≤ 10000000) (hm0 : 0 ≤ m) (hm : m ≤ 10 ^ 10) : yearlyRate c u m ≤ 10 * S := by
  have b0 : (0 : ℚ) ≤ c.rBase := Nat.cast_nonneg _
  have b1 : (0 : ℚ) ≤ c.rOne := Nat.cast_nonneg _
  have b2 : (0 : ℚ) ≤ c.rTwo := Nat.cast_nonneg _
  have b3 : (0 : ℚ) ≤ c.rThree := Nat.cast_nonneg _
  have bu : (0 : ℚ) ≤ c.util := Nat.cast_nonneg _
  have k0 : 0 ≤ m / 10 ^ 9 := by positivity
  have k1 : m / 10 ^ 9 ≤ 10 := by rw [div_le_iff₀ (by positivity)]; linarith
  have key : ∀ x : ℚ, 0 ≤ x → x ≤ S → m / 10 ^ 9 * x ≤ 10 * S := fun x h0 h1 =>
    mul_le_mul k1 h1 h0 (by norm_num)
  unfold yearlyRate
  split
  · rename_i h
    have f1 : u / c.util ≤ 1 := div_le_one_of_le₀ h bu
    have f0 : 0 ≤ u / c.util := by positivity
    have g1 : (c.rOne : ℚ) * (u / c.util) ≤ c.rOne := mul_le_of_le_one_right b1 f1
    have g0 : 0 ≤ (c.rOne : ℚ) * (u / c.util) := by positivity
    exact key _ (by linarith) (by linarith)
  · split
    · rename_i h h2
      have f1 : (u - c.util) / (9500000 - c.util) ≤ 1 := div_le_one_of_le₀ (by linarith) (by linarith)
      have f0 : 0 ≤ (u - c.util) / (9500000 - c.util) := div_nonneg (by linarith) (by linarith)
      have g1 := mul_le_of_le_one_right b2 f1
      have g0 := mul_nonneg b2 f0
      exact key _ (by linarith) (by linarith)
    · have f1 : (u - 9500000) / 500000 ≤ 1 := div_le_one_of_le₀ (by linarith) (by norm_num)
      have g1 := mul_le_of_le_one_right b3 f1
      have k2 : m / 10 ^ 9 * (c.rBase + c.rOne + c.rTwo) ≤ 10 * (c.rBase + c.rOne + c.rTwo) :=
        mul_le_mul_of_nonneg_right k1 (by positivity)
      linarith

theorem rateSlack_le {c : ReserveConfig} {m S : ℚ} (hS : (c.rThree : ℚ) ≤ S) (hm : m ≤ 10 ^ 10) :
    rateSlack c m ≤ 11 * S / 10 ^ 7 + 12 := by
  have b3 : (0 : ℚ) ≤ c.rThree := Nat.cast_nonneg _
  have k1 : m / 10 ^ 9 ≤ 10 := by rw [div_le_iff₀ (by positivity)]; linarith
  have k2 : (m / 10 ^ 9 + 1) * (c.rThree / 10 ^ 7 + 1) ≤ 11 * (c.rThree / 10 ^ 7 + 1) :=
    mul_le_mul_of_nonneg_right (by linarith) (by positivity)
  unfold rateSlack
  have : (c.rThree : ℚ) / 10 ^ 7 ≤ S / 10 ^ 7 := by gcongr
  have e : 11 * S / 10 ^ 7 = 11 * (S / 10 ^ 7) := by ring
  linarith

theorem growth_ge {S : ℚ} (hS : 0 ≤ S) : 1 ≤ growth S := by
  unfold growth
  have : 0 ≤ (10 * S + 11 * S / 10 ^ 7 + 12) / (10 ^ 7 * 31536000) := by positivity
  linarith [show (0 : ℚ) ≤ 2 / 10 ^ 9 by norm_num]

/-- one accrual -/
theorem simple_growth {y s S : ℚ} {dt : ℕ} {x x' : ℚ} (h : SimpleInterest (y / 10 ^ 7) (s / 10 ^ 7) dt x x') (hx : 10 ^ 9 ≤ x)
    (hdt : 1 ≤ dt) (hS : 0 ≤ S) (hy : y + s ≤ 10 * S + 11 * S / 10 ^ 7 + 12) : x' ≤ x * growth S ^ dt := by
  have hd : (1 : ℚ) ≤ dt := by exact_mod_cast hdt
  have hg := growth_ge hS
  have bern : 1 + (dt : ℚ) * (growth S - 1) ≤ growth S ^ dt := by
    have := one_add_mul_le_pow (a := growth S - 1) (by linarith) dt
    rwa [show 1 + (growth S - 1) = growth S by ring] at this
  refine le_trans h.2 (le_trans ?_ (mul_le_mul_of_nonneg_left bern (by linarith)))
  have e1 : growth S - 1 = (10 * S + 11 * S / 10 ^ 7 + 12) / (10 ^ 7 * 31536000) + 2 / 10 ^ 9 := by unfold growth; ring
  have e2 : (dt : ℚ) / 31536000 * (y / 10 ^ 7 + s / 10 ^ 7) ≤ dt * ((10 * S + 11 * S / 10 ^ 7 + 12) / (10 ^ 7 * 31536000)) := by
    have : (dt : ℚ) / 31536000 * (y / 10 ^ 7 + s / 10 ^ 7) = dt * ((y + s) / (10 ^ 7 * 31536000)) := by field_simp
    rw [this]
    gcongr
  have e3 : 1 ≤ x * (1 / 10 ^ 9) := by linarith
  have e4 : (1 : ℚ) / 10 ^ 9 ≤ dt * (1 / 10 ^ 9) := by linarith
  have e5 : x * (1 / 10 ^ 9) ≤ x * (dt * (1 / 10 ^ 9)) := mul_le_mul_of_nonneg_left e4 (by linarith)
  have e6 := mul_le_mul_of_nonneg_left e2 (show 0 ≤ x by linarith)
  rw [e1]
  have : x * (1 + (dt : ℚ) * ((10 * S + 11 * S / 10 ^ 7 + 12) / (10 ^ 7 * 31536000) + 2 / 10 ^ 9)) =
      x + x * (dt * ((10 * S + 11 * S / 10 ^ 7 + 12) / (10 ^ 7 * 31536000))) + x * (dt * (1 / 10 ^ 9)) + x * (dt * (1 / 10 ^ 9)) := by
    ring
  rw [this]
  have e7 : x * (1 + (dt : ℚ) / 31536000 * (y / 10 ^ 7 + s / 10 ^ 7) + 1 / 10 ^ 9) =
      x + x * ((dt : ℚ) / 31536000 * (y / 10 ^ 7 + s / 10 ^ 7)) + x * (1 / 10 ^ 9) := by ring
  rw [e7]
  linarith

/-- one accrual of a reserve in normal use -/
theorem accrues_growth {c : ReserveConfig} {take now S : Nat} {d dA : ReserveData} (hA : Accrues c take now d dA) (h1 : 1000000000 ≤ d.dRate)
    (hm : 0 ≤ d.irMod ∧ d.irMod ≤ 10000000000) (hsum : c.rBase + c.rOne + c.rTwo + c.rThree ≤ S)
    (hu : ∀ debt value : Int, IsCeil debt (d.dSupply * d.dRate) ONE9 → IsFloor value (d.bSupply * d.bRate) ONE9 → debt ≤ value) :
    dA.lastTime = now ∧ (dA.dRate : ℚ) ≤ d.dRate * growth S ^ (now - d.lastTime) := by
  have hS0 : (0 : ℚ) ≤ (S : ℚ) := Nat.cast_nonneg _
  have hg := growth_ge hS0
  rcases hA with ⟨_, rfl⟩ | ⟨⟨hlt, hb, hds⟩, et, _, _, debt, value, u, debt', gain, k1, k2, k3, k4, _⟩
  · refine ⟨rfl, ?_⟩
    have := one_le_pow₀ hg (n := now - d.lastTime)
    have hd0 : (0 : ℚ) ≤ d.dRate := by exact_mod_cast (show (0 : Int) ≤ d.dRate by omega)
    exact le_mul_of_one_le_right hd0 this
  · refine ⟨et, ?_⟩
    have hval : debt ≤ value := hu _ _ k1 k2
    have hval0 : 0 < value := by
      obtain ⟨k1a, k1b⟩ := k1
      unfold ONE9 at k1a k1b
      have : 0 < d.dSupply * d.dRate := mul_pos hds (by omega)
      by_contra hv
      nlinarith
    have hu0 : 0 ≤ u ∧ u ≤ 10000000 := by
      obtain ⟨k3a, k3b⟩ := k3
      obtain ⟨k1a, k1b⟩ := k1
      unfold ONE9 at k1a k1b
      unfold ONE7 at k3a k3b
      have : 0 < d.dSupply * d.dRate := mul_pos hds (by omega)
      constructor
      · by_contra hv
        have : u * value < 0 := mul_neg_of_neg_of_pos (by omega) hval0
        nlinarith
      · by_contra hv
        have : 10000000 * value ≤ (u - 1) * value := mul_le_mul_of_nonneg_right (by omega) hval0.le
        nlinarith
    have hm0 : (0 : ℚ) ≤ d.irMod := by exact_mod_cast (show (0 : Int) ≤ d.irMod by omega)
    have hm1 : (d.irMod : ℚ) ≤ 10 ^ 10 := by
      have := hm.2
      exact_mod_cast (show d.irMod ≤ 10 ^ 10 by omega)
    have hSq : (c.rBase : ℚ) + c.rOne + c.rTwo + c.rThree ≤ S := by exact_mod_cast hsum
    have y1 := yearlyRate_le (u := (u : ℚ)) hSq (by exact_mod_cast hu0.1) (by exact_mod_cast hu0.2) hm0 hm1
    have y2 := rateSlack_le (S := (S : ℚ)) (c := c) (by
      have b0 : (0 : ℚ) ≤ c.rBase := Nat.cast_nonneg _
      have b1 : (0 : ℚ) ≤ c.rOne := Nat.cast_nonneg _
      have b2 : (0 : ℚ) ≤ c.rTwo := Nat.cast_nonneg _
      linarith) hm1
    have g := simple_growth k4 (by exact_mod_cast h1) (by omega) hS0 (by linarith)
    exact g

theorem historyIn_steps {P : World → Prop} {w w' : World} (h : HistoryIn P w w') : Steps w w' := by
  induction h with
  | refl => exact .refl _
  | tail _ _ hs ih => exact .tail ih ⟨_, hs⟩

/-- **C78** A debt grows at most by compounding, every second, ten times the highest rate of the curve: as long as a reserve is
in normal use, with base rate and slopes adding up to at most `S`, the value of its debt shares grows from one time of accrual
to another by at most `growth S` to the power of the seconds between them. -/
theorem C78_at_most {w w' : World} (hr : Reachable w) {p a : Address} (hp : w.poolAddr p = true) {S : Nat}
    (h : HistoryIn (NormalUse p a S) w w') {d d' : ReserveData} (hd : (w.pools p).resData a = some d)
    (hd' : (w'.pools p).resData a = some d') :
    d.lastTime ≤ d'.lastTime ∧ (d'.dRate : ℚ) ≤ d.dRate * growth S ^ (d'.lastTime - d.lastTime) := by
  induction h generalizing d' with
  | refl => rw [hd] at hd'; cases hd'; simp
  | @tail w1 w2 op hh hP hs ih =>
    have st := historyIn_steps hh
    have hr1 := hr.steps st
    have hp1 : w1.poolAddr p = true := by rw [(st.poolAddr hr.base).1]; exact hp
    obtain ⟨d1, hd1, _⟩ := hr.ratesGrow st hp a d hd
    obtain ⟨ht, ih⟩ := ih hd1
    obtain ⟨d2, hd2, hc⟩ := C47_rates_change hr1 hs hp1 hd1
    rw [hd2] at hd'; cases hd'
    have hS0 : (0 : ℚ) ≤ (S : ℚ) := Nat.cast_nonneg _
    rcases hc with rfl | ⟨c, i, dA, hcf, hi, hA, hsame⟩
    · exact ⟨ht, ih⟩
    have hR : d'.dRate = dA.dRate ∧ d'.lastTime = dA.lastTime := by
      rcases hsame with h | ⟨_, h⟩
      · exact ⟨h.1, h.2.2.2⟩
      · exact ⟨h.1, h.2.2.2⟩
    have hrt := (hr1.pinv hp1).rates a d1 hd1
    have hg := growth_ge hS0
    obtain ⟨hsum, hu⟩ := hP c d1 hcf hd1
    obtain ⟨et, g⟩ := accrues_growth hA hrt.1 ⟨by omega, hrt.2.2.2.1⟩ hsum hu
    refine ⟨by rw [hR.2, et]; omega, ?_⟩
    rw [hR.1, hR.2, et]
    refine le_trans g ?_
    have e : w1.time - d.lastTime = (d1.lastTime - d.lastTime) + (w1.time - d1.lastTime) := by omega
    rw [e, pow_add, ← mul_assoc]
    exact mul_le_mul_of_nonneg_right ih (pow_nonneg (by linarith) _)

/-- the accrued ratio is more than one whenever time passes -/
theorem calcAccrual_gt_one {c : ReserveConfig} (hv : ValidConfig c) {u m : Int} {last now : Nat} {x m' : Int}
    (h : calcAccrual c u m last now = .ok (x, m')) (hu : 0 ≤ u) (hm : 0 < m) (ht : last < now) : 1000000001 ≤ x := by
  unfold calcAccrual at h
  simp only [bind_ok, chk_ok, pure_ok, subU_ok, Prod.mk.injEq] at h
  obtain ⟨ir, hir, dt, ⟨hle, rfl⟩, dts, ⟨_, rfl⟩, nm, hnm, i100, ⟨_, rfl⟩, acc, hacc, b, ⟨_, rfl⟩, rfl, _⟩ := h
  have hmq : (0 : ℚ) < m := by exact_mod_cast hm
  have huq : (0 : ℚ) ≤ u := by exact_mod_cast hu
  have hpos : (0 : ℚ) < yearlyRate c u m := by
    have b0 : (0 : ℚ) < c.rBase := by exact_mod_cast (show 0 < c.rBase from lt_of_lt_of_le (by norm_num) hv.rBase_lo)
    have ht : (c.util : ℚ) ≤ 9500000 := by exact_mod_cast hv.util
    unfold yearlyRate
    split
    · positivity
    · rename_i h1
      split
      · rename_i h2
        have f0 : 0 ≤ ((u : ℚ) - c.util) / (9500000 - c.util) := div_nonneg (by linarith) (by linarith)
        positivity
      · have f0 : 0 ≤ ((u : ℚ) - 9500000) / 500000 := div_nonneg (by linarith) (by norm_num)
        positivity
  have h1 : 0 < ir := by
    have := (calcIr_rate hv hir hm.le).1
    exact_mod_cast lt_of_lt_of_le hpos this
  have h2 : 0 < Int.tdiv (((now - last : Nat) : Int) * SCALAR_9) SECONDS_PER_YEAR := by
    rw [Int.tdiv_eq_ediv_of_nonneg (by unfold SCALAR_9; positivity)]
    unfold SECONDS_PER_YEAR SCALAR_9
    omega
  have h3 := (mulDivCeil_spec hacc S9_pos).1
  have h4 : 0 < acc := by
    by_contra hh
    have : 0 < Int.tdiv (((now - last : Nat) : Int) * SCALAR_9) SECONDS_PER_YEAR * (ir * 100) := mul_pos h2 (by omega)
    have : acc * SCALAR_9 ≤ 0 := mul_nonpos_of_nonpos_of_nonneg (by omega) S9_pos.le
    linarith
  unfold SCALAR_9; omega

/-- **C78** Rounding has no mercy: in every new ledger in which anybody does something with a reserve that has deposits and
debts, the debts grow by at least one part in `10⁹`, whatever the interest rate is. -/
theorem C78_at_least {w w' : World} (hr : Reachable w) {op : Op} (h : step w op = .ok w') {p a : Address}
    (hp : w.poolAddr p = true) {d d' : ReserveData} (hd : (w.pools p).resData a = some d)
    (hd' : (w'.pools p).resData a = some d') (hb : 0 < d.bSupply) (hs : 0 < d.dSupply) (ht : d'.lastTime ≠ d.lastTime) :
    d.dRate * (10 ^ 9 + 1) ≤ d'.dRate * 10 ^ 9 := by
  have hinv := hr.pinv hp
  have hcfg := hr.base.cfg p
  rcases data_step hr h hp hd with ⟨_, e⟩ | ⟨dA, d2, ⟨c, d0, i, h1, h2, h3, h4⟩, e, e1, _, e3, _⟩
  · rw [e] at hd'; cases hd'; exact absurd rfl ht
  rw [e] at hd'; cases hd'
  rw [hd] at h2; cases h2
  have hv := hcfg.valid a c h1
  have hok := hinv.dataOk hcfg hd
  have hrt := hinv.rates a d hd
  have hA := accrue_accrues hv hok hrt.2.2.2.2 h4
  rw [e1]
  rcases accrue_cases h4 with ⟨h1, rfl⟩ | ⟨h1, rfl, h2⟩ |
      ⟨util, acc, irm, ps, pl, dR, pol, h1, h2, h3, hu, hac, hps, hpl, hdR, hpol, hr⟩
  · exact absurd e3 ht
  · exfalso
    rcases hA with ⟨hA | hA | hA, _⟩ | ⟨_, _, _, _, debt, value, u, debt', gain, k1, k2, k3, _⟩
    · exact h1 hA
    · omega
    · omega
    · rcases h2 with h2 | h2
      · omega
      · unfold ReserveData.utilization at h2
        simp only [bind_ok] at h2
        obtain ⟨l, hl, s, hs', hu⟩ := h2
        have j1 := (mulDivFloor_spec hs' S9_pos).2
        have j2 := (mulDivCeil_spec hl S9_pos).1
        unfold SCALAR_9 at j1 j2
        have p1 : 0 < d.dSupply * d.dRate := mul_pos hs (by omega)
        have p2 : 1000000000 ≤ d.bSupply * d.bRate := by nlinarith [hrt.2.1]
        have hs0 : 0 < s := by omega
        have j3 := (mulDivCeil_spec hu hs0).1
        unfold SCALAR_7 at j3
        omega
  · have hu0 : 0 ≤ util := by
      unfold ReserveData.utilization at hu
      simp only [bind_ok] at hu
      obtain ⟨l, hl, s, hs', hu⟩ := hu
      have p1 : 0 < d.dSupply * d.dRate := mul_pos hs (by omega)
      have p2 : 1000000000 ≤ d.bSupply * d.bRate := by nlinarith [hrt.2.1]
      have j1 := (mulDivFloor_spec hs' S9_pos).2
      have j2 := (mulDivCeil_spec hl S9_pos).1
      unfold SCALAR_9 at j1 j2
      have hs0 : 0 < s := by omega
      exact mulDivCeil_nonneg hu hs0 (mul_nonneg (by omega) (by decide))
    have g := calcAccrual_gt_one hv hac hu0 (by omega) (by omega)
    have j := (mulDivCeil_spec hdR S9_pos).1
    unfold SCALAR_9 at j
    have : dA.dRate = dR := by
      rcases hr with ⟨_, rfl⟩ | ⟨_, _, _, _, _, rfl⟩ <;> rfl
    rw [this]
    have : 1000000001 * d.dRate ≤ acc * d.dRate := mul_le_mul_of_nonneg_right g (by omega)
    linarith

/-- a check for `NormalUse` -/
theorem ordinary_of {w : World} {p a : Address} {S : Nat} {c : ReserveConfig} {d : ReserveData}
    (hc : (w.pools p).resConfig a = some c) (hd : (w.pools p).resData a = some d)
    (h : c.rBase + c.rOne + c.rTwo + c.rThree ≤ S ∧ d.dSupply * d.dRate + 2000000000 ≤ d.bSupply * d.bRate) : NormalUse p a S w := by
  intro c' d' hc' hd'
  rw [hc] at hc'; cases hc'
  rw [hd] at hd'; cases hd'
  refine ⟨h.1, fun debt value h1 h2 => ?_⟩
  simp only [IsCeil, IsFloor, ONE9] at h1 h2
  omega

/-- In the demo: a year after bob borrowed, alice's supply accrues the interest of the year. The slopes and the base rate add up to
less than 100 percent. -/
example : ∃ w w', Reachable w ∧ w.poolAddr poolA = true ∧ HistoryIn (NormalUse poolA usdcA 20000000) w w' ∧
    ∃ d d', (w.pools poolA).resData usdcA = some d ∧ (w'.pools poolA).resData usdcA = some d' ∧
      0 < d.bSupply ∧ 0 < d.dSupply ∧ d'.lastTime = d.lastTime + 31536000 ∧ d.dRate < d'.dRate := by
  obtain ⟨w, w', _, hr, hs, h⟩ := Demo.reach_step (ops := setup ++ trade ++ [.ledger 31536000 1000])
    (op := .pool poolA [alice] (.submit alice alice alice [⟨0, usdcA, 1000⟩]))
    (f := fun w w' => w.poolAddr poolA && optAnd ((w.pools poolA).resConfig usdcA) fun c =>
      optAnd ((w.pools poolA).resData usdcA) fun d => optAnd ((w'.pools poolA).resData usdcA) fun d' =>
      decide ((c.rBase + c.rOne + c.rTwo + c.rThree ≤ 20000000 ∧ d.dSupply * d.dRate + 2000000000 ≤ d.bSupply * d.bRate) ∧
        0 < d.bSupply ∧ 0 < d.dSupply ∧ d'.lastTime = d.lastTime + 31536000 ∧ d.dRate < d'.dRate)) (by decide +kernel)
  simp only [Bool.and_eq_true, decide_eq_true_eq, optAnd_iff] at h
  obtain ⟨h1, c, hc, d, hd, d', hd', h⟩ := h
  exact ⟨w, w', hr, h1, .tail (.refl _) (ordinary_of hc hd h.1) hs, d, d', hd, hd', h.2⟩

/-- a ledger closes, five seconds after the last, and alice supplies the smallest unit of USDC -/
def touch : List Op := [.ledger 5 1, .pool poolA [alice] (.submit alice alice alice [⟨0, usdcA, 1⟩])]

/-- Twenty such touches charge borrowers 139 units of `10⁻⁹` for 100 seconds, at a rate of 3.6 percent a year; one touch at the
end charges 114 (which is the rate of the curve): whoever acts in every ledger makes the loan a fifth more expensive. -/
example : ∃ w w1 w2, Reachable w ∧ run w (touch ++ touch ++ touch ++ touch ++ touch ++ touch ++ touch ++ touch ++ touch ++ touch ++
      touch ++ touch ++ touch ++ touch ++ touch ++ touch ++ touch ++ touch ++ touch ++ touch) = .ok w1 ∧
    run w [.ledger 100 20, .pool poolA [alice] (.submit alice alice alice [⟨0, usdcA, 20⟩])] = .ok w2 ∧
    w1.time = w2.time ∧ ∃ d d1 d2, (w.pools poolA).resData usdcA = some d ∧ (w1.pools poolA).resData usdcA = some d1 ∧
      (w2.pools poolA).resData usdcA = some d2 ∧ d.dRate = 1000000000 ∧ d1.dRate = 1000000139 ∧ d2.dRate = 1000000114 := by
  obtain ⟨w, _, hr, h⟩ := Demo.reach (ops := setup ++ trade)
    (f := fun w => okAnd (run w (touch ++ touch ++ touch ++ touch ++ touch ++ touch ++ touch ++ touch ++ touch ++ touch ++
      touch ++ touch ++ touch ++ touch ++ touch ++ touch ++ touch ++ touch ++ touch ++ touch)) fun w1 =>
      okAnd (run w [.ledger 100 20, .pool poolA [alice] (.submit alice alice alice [⟨0, usdcA, 20⟩])]) fun w2 =>
      decide (w1.time = w2.time) && optAnd ((w.pools poolA).resData usdcA) fun d => optAnd ((w1.pools poolA).resData usdcA) fun d1 =>
      optAnd ((w2.pools poolA).resData usdcA) fun d2 =>
      decide (d.dRate = 1000000000 ∧ d1.dRate = 1000000139 ∧ d2.dRate = 1000000114)) (by decide +kernel)
  simp only [Bool.and_eq_true, decide_eq_true_eq, optAnd_iff, okAnd_iff] at h
  obtain ⟨w1, h1, w2, h2, ht, d, hd, d1, hd1, d2, hd2, h⟩ := h
  exact ⟨w, w1, w2, hr, h1, h2, ht, d, d1, d2, hd, hd1, hd2, h⟩

end Props
end Blend
