import Verif.Spec.Interest
import Verif.Lemmas.Plain
import Mathlib.Tactic.FieldSimp
import Mathlib.Tactic.Positivity
/-
  The interest computation of the model against the specification in `Spec/Interest.lean`.
-/

namespace Blend
namespace Pool
open Spec

/-- a rounded up quotient, over the rationals -/
theorem ceil_rat {x y z v : Int} (h : mulDivCeil x y z = .ok v) (hz : 0 < z) :
    (x * y / z : ℚ) ≤ v ∧ (v : ℚ) ≤ x * y / z + 1 := by
  have := ceil_spec h hz
  have hz' : (0 : ℚ) < z := by exact_mod_cast hz
  have h1 : ((v - 1) * z : ℚ) ≤ x * y := by exact_mod_cast this.1.le
  have h2 : (x * y : ℚ) ≤ v * z := by exact_mod_cast this.2
  constructor
  · rw [div_le_iff₀ hz']; exact h2
  · have : (v - 1 : ℚ) ≤ x * y / z := by rw [le_div_iff₀ hz']; exact h1
    linarith

theorem yearlyRate_nonneg {c : ReserveConfig} (hv : ValidConfig c) {u m : ℚ} (hu : 0 ≤ u) (hm : 0 ≤ m) :
    0 ≤ yearlyRate c u m := by
  have ht : (c.util : ℚ) ≤ 9500000 := by exact_mod_cast hv.util
  unfold yearlyRate
  split
  · positivity
  · rename_i h
    split
    · have : 0 ≤ (u - c.util) / (9500000 - (c.util : ℚ)) := div_nonneg (by linarith) (by linarith)
      positivity
    · have : 0 ≤ (u - 9500000) / 500000 := div_nonneg (by linarith) (by norm_num)
      positivity

theorem ceil2_rat {x y z r v v2 : Int} (h : mulDivCeil x y z = .ok v) (hz : 0 < z) (h2 : mulDivCeil v r y = .ok v2)
    (hy : 0 < y) (hr : 0 ≤ r) : (r * (x / z) : ℚ) ≤ v2 ∧ (v2 : ℚ) ≤ r * (x / z) + (r / y + 1) := by
  have a := ceil_rat h hz
  have b := ceil_rat h2 hy
  have hz' : (0 : ℚ) < z := by exact_mod_cast hz
  have hy' : (0 : ℚ) < y := by exact_mod_cast hy
  have hr' : (0 : ℚ) ≤ r := by exact_mod_cast hr
  have e : (r * (x / z) : ℚ) = (x * y / z) * r / y := by field_simp
  have e1 : (x * y / z) * r / y ≤ (v * r / y : ℚ) := by gcongr; exact a.1
  have e2 : (v * r / y : ℚ) ≤ ((x * y / z) + 1) * r / y := by gcongr; exact a.2
  have e3 : (((x * y / z) + 1) * r / y : ℚ) = (x * y / z) * r / y + r / y := by ring
  constructor
  · rw [e]; linarith [b.1]
  · rw [e]; linarith [b.2]

/-- the rate of the model is the rate of the curve, rounded up by at most `rateSlack` -/
theorem calcIr_rate {c : ReserveConfig} (hv : ValidConfig c) {u m v : Int} (h : calcIr c u m = .ok v)
    (hm : 0 ≤ m) : yearlyRate c u m ≤ v ∧ (v : ℚ) ≤ yearlyRate c u m + rateSlack c m := by
  have r1 : (0 : Int) ≤ c.rOne := by positivity
  have r2 : (0 : Int) ≤ c.rTwo := by positivity
  have r3 : (0 : Int) ≤ c.rThree := by positivity
  have q12 : (c.rOne : ℚ) ≤ c.rThree := by exact_mod_cast hv.r12.trans hv.r23
  have q23 : (c.rTwo : ℚ) ≤ c.rThree := by exact_mod_cast hv.r23
  have hm' : (0 : ℚ) ≤ m := by exact_mod_cast hm
  have hmul : ∀ {b i : Int} {lo hi : ℚ}, mulDivCeil b m SCALAR_9 = .ok i → lo ≤ b → (b : ℚ) ≤ hi →
      m / 10 ^ 9 * lo ≤ i ∧ (i : ℚ) ≤ m / 10 ^ 9 * hi + 1 := by
    intro b i lo hi h1 h2 h3
    have := ceil_rat h1 S9_pos
    unfold SCALAR_9 at this
    push_cast at this
    have e : (b * m / 1000000000 : ℚ) = m / 10 ^ 9 * b := by ring
    rw [e] at this
    have k : (0 : ℚ) ≤ m / 10 ^ 9 := by positivity
    constructor
    · nlinarith [this.1, mul_le_mul_of_nonneg_left h2 k]
    · nlinarith [this.2, mul_le_mul_of_nonneg_left h3 k]
  have hk : (0 : ℚ) ≤ m / 10 ^ 9 := by positivity
  have hs : ∀ {r : ℚ}, r ≤ c.rThree → m / 10 ^ 9 * (r / 10 ^ 7 + 1) + 1 ≤ rateSlack c m := by
    intro r hr
    unfold rateSlack
    have : r / 10 ^ 7 ≤ c.rThree / 10 ^ 7 := by gcongr
    have h3 : (0 : ℚ) ≤ c.rThree / 10 ^ 7 := by positivity
    nlinarith [mul_le_mul_of_nonneg_left this hk]
  unfold calcIr at h
  simp only [ite_ok, bind_ok, chk_ok, chkU32_ok] at h
  rcases h with ⟨hu, us, hus, mm, hmm, b, ⟨_, rfl⟩, hv1⟩ |
      ⟨hu, ⟨hu2, n, ⟨_, rfl⟩, us, hus, mm, hmm, b, ⟨_, rfl⟩, hv1⟩ |
        ⟨hu2, n, ⟨_, rfl⟩, us, hus, e, he, s, ⟨_, rfl⟩, i, hi, _, rfl⟩⟩
  · have hne := (mulDivCeil_ok.1 hus).2.1
    have hpos : (0 : Int) < c.util := lt_of_le_of_ne (by positivity) (Ne.symm hne)
    have hh := ceil2_rat hus hpos hmm S7_pos r1
    unfold SCALAR_7 at hh
    push_cast at hh
    have hu' : (u : ℚ) ≤ c.util := by exact_mod_cast hu
    have := hmul hv1 (lo := c.rBase + c.rOne * (u / c.util)) (hi := c.rBase + c.rOne * (u / c.util) + (c.rOne / 10 ^ 7 + 1))
      (by push_cast; linarith [hh.1]) (by push_cast; linarith [hh.2])
    unfold yearlyRate
    rw [if_pos hu']
    refine ⟨this.1, this.2.trans ?_⟩
    linarith [hs q12]
  · have hpos : (0 : Int) < 9500000 - c.util := by omega
    have hh := ceil2_rat hus hpos hmm S7_pos r2
    unfold SCALAR_7 at hh
    push_cast at hh
    have hu' : ¬ (u : ℚ) ≤ c.util := by exact_mod_cast hu
    have hu2' : (u : ℚ) ≤ 9500000 := by exact_mod_cast hu2
    have := hmul hv1 (lo := c.rBase + c.rOne + c.rTwo * ((u - c.util) / (9500000 - c.util)))
      (hi := c.rBase + c.rOne + c.rTwo * ((u - c.util) / (9500000 - c.util)) + (c.rTwo / 10 ^ 7 + 1))
      (by push_cast; linarith [hh.1]) (by push_cast; linarith [hh.2])
    unfold yearlyRate
    rw [if_neg hu', if_pos hu2']
    refine ⟨this.1, this.2.trans ?_⟩
    linarith [hs q23]
  · have hh := ceil2_rat hus (by decide) he S7_pos r3
    unfold SCALAR_7 at hh
    push_cast at hh
    have hu' : ¬ (u : ℚ) ≤ c.util := by exact_mod_cast hu
    have hu2' : ¬ (u : ℚ) ≤ 9500000 := by exact_mod_cast hu2
    have hi' : mulDivCeil ((c.rTwo + c.rOne + c.rBase : Nat) : Int) m SCALAR_9 = .ok i := by
      unfold fixedMulCeil mulDivCeil at hi; unfold mulDivCeil; rw [mul_comm]; exact hi
    have := hmul hi' (lo := c.rBase + c.rOne + c.rTwo) (hi := c.rBase + c.rOne + c.rTwo)
      (by push_cast; linarith) (by push_cast; linarith)
    unfold yearlyRate
    rw [if_neg hu', if_neg hu2']
    push_cast
    have h3 : (0 : ℚ) ≤ c.rThree / 10 ^ 7 := by positivity
    refine ⟨by linarith [this.1, hh.1], ?_⟩
    unfold rateSlack
    nlinarith [this.2, hh.2, mul_nonneg hk h3]

/-- the modifier of the model moves as specified -/
theorem calcIrMod_moves {c : ReserveConfig} {u m v : Int} {dt : Nat} (h : calcIrMod c u m (dt * SCALAR_9) = .ok v)
    (hm : 100000000 ≤ m ∧ m ≤ 10000000000) : ModifierMoves c dt u m v := by
  unfold calcIrMod at h
  simp only [ite_ok, bind_ok, chk_ok, pure_ok] at h
  obtain ⟨d, ⟨_, rfl⟩, dif, ⟨_, rfl⟩, h⟩ := h
  have hdt : (0 : Int) ≤ dt := by positivity
  have hre : (0 : Int) ≤ c.reactivity := by positivity
  rcases h with ⟨hd, e, he, rd, hrd, n, ⟨_, rfl⟩, rfl⟩ | ⟨hd, e, he, rd, hrd, n, ⟨_, rfl⟩, rfl⟩
  · have e1 : e = dt * ((u - c.util) * 100) := by
      have := mulDivFloor_spec he S9_pos
      unfold SCALAR_9 at this
      nlinarith [this.1, this.2]
    subst e1
    have hx : 0 ≤ dt * ((u - c.util) * 100) * c.reactivity := mul_nonneg (mul_nonneg hdt hd) hre
    have h2 : 0 ≤ rd := mulDivFloor_nonneg hrd S7_pos hx
    refine ⟨rd, ⟨fun _ => floor_spec hrd S7_pos, fun h => absurd h (not_lt.2 hx)⟩, ?_⟩
    unfold SCALAR_9 IsClamp
    split <;> omega
  · have e1 : e = dt * ((u - c.util) * 100) := by
      have := mulDivCeil_spec he S9_pos
      unfold SCALAR_9 at this
      nlinarith [this.1, this.2]
    subst e1
    have hx : dt * ((u - c.util) * 100) * c.reactivity ≤ 0 :=
      mul_nonpos_of_nonpos_of_nonneg (mul_nonpos_of_nonneg_of_nonpos hdt (by omega)) hre
    have hc := ceil_spec hrd S7_pos
    have h2 : rd ≤ 0 := by
      have := hc.1
      unfold SCALAR_7 at this
      by_contra hh
      nlinarith
    refine ⟨rd, ⟨fun h => ?_, fun _ => hc⟩, ?_⟩
    · have h0 : dt * ((u - c.util) * 100) * c.reactivity = 0 := le_antisymm hx h
      rw [h0] at hc ⊢
      have := hc.1
      have := hc.2
      unfold SCALAR_7 at *
      have : rd = 0 := by omega
      subst this
      exact ⟨by simp, by simp⟩
    · have h3 : Int.tdiv SCALAR_9 10 = 100000000 := by decide
      rw [h3]
      unfold IsClamp
      split <;> omega

theorem calcAccrual_interest {c : ReserveConfig} (hv : ValidConfig c) {u m : Int} {last now : Nat} {a m' x x' : Int}
    (h : calcAccrual c u m last now = .ok (a, m')) (hx : mulDivCeil a x SCALAR_9 = .ok x') (h0 : 0 ≤ x) (hu : 0 ≤ u)
    (hm : 100000000 ≤ m ∧ m ≤ 10000000000) :
    last ≤ now ∧ SimpleInterest (yearlyRate c u m / 10 ^ 7) (rateSlack c m / 10 ^ 7) (now - last) x x' ∧
      ModifierMoves c (now - last) u m m' := by
  unfold calcAccrual at h
  simp only [bind_ok, chk_ok, pure_ok, subU_ok, Prod.mk.injEq] at h
  obtain ⟨ir, hir, dt, ⟨hle, rfl⟩, dts, ⟨_, rfl⟩, nm, hnm, i100, ⟨_, rfl⟩, acc, hacc, b, ⟨_, rfl⟩, rfl, rfl⟩ := h
  refine ⟨hle, ?_, calcIrMod_moves hnm hm⟩
  have hY := calcIr_rate hv hir (by omega)
  have hY0 := yearlyRate_nonneg hv (u := u) (m := m) (by exact_mod_cast hu) (by exact_mod_cast (by omega : 0 ≤ m))
  generalize yearlyRate c u m = Y at *
  have hs0 : 0 ≤ rateSlack c m := by linarith
  generalize rateSlack c m = s at *
  generalize now - last = dt at *
  have htw : ∃ tw : Int, Int.tdiv ((dt : Int) * SCALAR_9) SECONDS_PER_YEAR = tw ∧ 0 ≤ tw ∧
      (dt : ℚ) / 31536000 * 10 ^ 9 - 1 ≤ tw ∧ (tw : ℚ) ≤ dt / 31536000 * 10 ^ 9 := by
    have e : Int.tdiv ((dt : Int) * SCALAR_9) SECONDS_PER_YEAR = ((dt : Int) * 1000000000) / 31536000 := by
      rw [Int.tdiv_eq_ediv_of_nonneg (by unfold SCALAR_9; positivity)]; rfl
    refine ⟨_, e, by positivity, ?_, ?_⟩
    · have : ((dt : Int) * 1000000000) ≤ (((dt : Int) * 1000000000) / 31536000 + 1) * 31536000 := by omega
      have : ((dt : ℚ) * 1000000000) ≤ ((((dt : Int) * 1000000000) / 31536000 : Int) + 1) * 31536000 := by exact_mod_cast this
      linarith
    · have : (((dt : Int) * 1000000000) / 31536000) * 31536000 ≤ ((dt : Int) * 1000000000)  := by omega
      have : ((((dt : Int) * 1000000000) / 31536000 : Int) : ℚ) * 31536000 ≤ ((dt : ℚ) * 1000000000) := by exact_mod_cast this
      linarith
  obtain ⟨tw, etw, htw0, htl, htu⟩ := htw
  rw [etw] at hacc
  have ha := ceil_rat hacc S9_pos
  have hb := ceil_rat hx S9_pos
  unfold SCALAR_9 at ha hb
  push_cast at ha hb
  have hx0 : (0 : ℚ) ≤ x := by exact_mod_cast h0
  have htw0' : (0 : ℚ) ≤ tw := by exact_mod_cast htw0
  unfold SimpleInterest
  generalize (dt : ℚ) / 31536000 = t at *
  constructor
  · have l1 : (t * 10 ^ 9 - 1) * Y / 10 ^ 7 ≤ acc := by
      have : (t * 10 ^ 9 - 1) * Y ≤ tw * ir :=
        (mul_le_mul_of_nonneg_right htl hY0).trans (mul_le_mul_of_nonneg_left hY.1 htw0')
      have e : (tw * (ir * 100) / 1000000000 : ℚ) = tw * ir / 10 ^ 7 := by ring
      rw [e] at ha
      linarith [ha.1]
    have l2 : x * (10 ^ 9 + (t * 10 ^ 9 - 1) * Y / 10 ^ 7) ≤ x * (10 ^ 9 + acc) := by gcongr
    linarith [hb.1]
  · have l1 : (acc : ℚ) ≤ t * 10 ^ 9 * (Y + s) / 10 ^ 7 + 1 := by
      have : tw * ir ≤ t * 10 ^ 9 * (Y + s) :=
        (mul_le_mul_of_nonneg_left hY.2 htw0').trans (mul_le_mul_of_nonneg_right htu (by linarith))
      have e : (tw * (ir * 100) / 1000000000 : ℚ) = tw * ir / 10 ^ 7 := by ring
      rw [e] at ha
      linarith [ha.2]
    have l2 : x * (10 ^ 9 + acc) ≤ x * (10 ^ 9 + (t * 10 ^ 9 * (Y + s) / 10 ^ 7 + 1)) := by gcongr
    linarith [hb.2]

/-- accrual in the model is accrual in the specification -/
theorem accrue_accrues {c : ReserveConfig} (hv : ValidConfig c) {take now : Nat} {d d' : ReserveData} (ok : DataOk d)
    (hl : d.lastTime ≤ now) (h : accrue c take now d = .ok d') : Accrues c take now d d' := by
  have hvalue : ∀ {v}, d.totalSupply = .ok v → 0 < d.bSupply → 0 < v := by
    intro v hv hb
    have := (mulDivFloor_spec hv S9_pos).2
    unfold SCALAR_9 at this
    by_contra hh
    nlinarith [ok.bRate]
  rcases accrue_cases h with ⟨h1, rfl⟩ | ⟨h1, rfl, h2⟩ |
      ⟨util, acc, irm, ps, pl, dR, pol, h1, h2, h3, hu, hac, hps, hpl, hdR, hpol, hr⟩
  · exact .inl ⟨.inl h1, by rw [h1]⟩
  · refine .inl ⟨.inr ?_, rfl⟩
    rcases h2 with h2 | h2
    · exact .inl h2
    · by_cases hb : d.bSupply = 0
      · exact .inl hb
      right
      unfold ReserveData.utilization at h2
      simp only [bind_ok] at h2
      obtain ⟨l, hl, s, hs, hu⟩ := h2
      have hs0 := hvalue hs (lt_of_le_of_ne ok.bSupply (Ne.symm hb))
      have e1 := (mulDivCeil_spec hu hs0).1
      have e2 := (mulDivCeil_spec hl S9_pos).1
      unfold SCALAR_7 SCALAR_9 at *
      have : l ≤ 0 := by nlinarith
      have := ok.dSupply
      have := ok.dRate
      nlinarith
  · have hb : 0 < d.bSupply := lt_of_le_of_ne ok.bSupply (Ne.symm h2)
    have hps0 := hvalue hps hb
    have hu0 := utilization_nonneg hu ok.dSupply ok.bSupply (by linarith [ok.dRate]) (by linarith [ok.bRate])
    have hd : 0 < d.dSupply := by
      refine lt_of_le_of_ne ok.dSupply fun e => h3 ?_
      unfold ReserveData.utilization at hu
      simp only [bind_ok, hps, hpl, Except.ok.injEq, exists_eq_left'] at hu
      have e2 := (mulDivCeil_spec hpl S9_pos).2
      rw [← e, zero_mul] at e2
      have e1 := (mulDivCeil_spec hu hps0).2
      unfold SCALAR_7 SCALAR_9 at *
      have : pl ≤ 0 := by omega
      nlinarith
    obtain ⟨hle, hsi, hmod⟩ := calcAccrual_interest hv hac hdR (by linarith [ok.dRate]) hu0 ⟨ok.irMod_lo, ok.irMod_hi⟩
    have hacc := (calcAccrual_ge_one hac hu0 (by linarith [ok.irMod_lo]) hv.util).1
    have hdd : d.dRate ≤ dR := by
      have h1 := (mulDivCeil_spec hdR S9_pos).1
      unfold SCALAR_9 at h1
      nlinarith [ok.dRate]
    have hpp : pl ≤ pol := mulDivCeil_mono hpl hpol S9_pos (by nlinarith)
    unfold ReserveData.utilization at hu
    simp only [bind_ok, hps, hpl, Except.ok.injEq, exists_eq_left'] at hu
    have k1 := ceil_spec hpl S9_pos
    have k2 := floor_spec hps S9_pos
    have k3 := ceil_spec hu hps0
    have k4 := ceil_spec hpol S9_pos
    refine .inr ⟨⟨lt_of_le_of_ne hl (Ne.symm h1), hb, hd⟩, ?_⟩
    rcases hr with ⟨hn, rfl⟩ | ⟨nc, bR, hpos, hnc, hbR, rfl⟩
    · have e : pol = pl := by omega
      refine ⟨rfl, rfl, rfl, pl, ps, util, pol, 0, k1, k2, k3, hsi, hmod, k4, hpp, ?_, by simp, fun _ => rfl, fun h => ?_⟩
      · rw [e]; exact ⟨by simp, by simp⟩
      · omega
    · refine ⟨rfl, rfl, rfl, pl, ps, util, pol, nc, k1, k2, k3, hsi, hmod, k4, hpp, ?_, rfl, fun h => ?_, fun _ => ?_⟩
      · rcases hnc with ⟨_, hnc⟩ | ⟨rfl, rfl⟩
        · exact floor_spec hnc S7_pos
        · exact ⟨by simp, by simp⟩
      · omega
      · exact floor_spec hbR hb

end Pool
end Blend
