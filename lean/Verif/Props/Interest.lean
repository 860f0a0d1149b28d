import Verif.Lemmas.Interest
/-
  C07, C08: interest accrual and the interest rate curve.
-/

namespace Blend
namespace Props
open Spec

/-- **C08** The interest rate is monotone in utilization: for a valid configuration and any
non-negative rate modifier, whenever the rate at `u` and at `u' ≥ u` can be computed, the first is at
most the second, also across the kinks at the target utilization and at 95 percent. -/
theorem C08_rate_monotone {c : ReserveConfig} (hv : ValidConfig c) {m u u' v v' : Int}
    (hm : 0 ≤ m) (huu : u ≤ u') (h : calcIr c u m = .ok v) (h' : calcIr c u' m = .ok v') :
    v ≤ v' := by
  have ht : (c.util : Int) ≤ 9500000 := by exact_mod_cast hv.util
  unfold calcIr at h h'
  simp only [ite_ok, bind_ok, chk_ok, chkU32_ok] at h h'
  have r0 : (0 : Int) ≤ c.rBase := by positivity
  have r1 : (0 : Int) ≤ c.rOne := by positivity
  have r2 : (0 : Int) ≤ c.rTwo := by positivity
  have r3 : (0 : Int) ≤ c.rThree := by positivity
  -- the first leg never exceeds `(rOne + rBase) * m`
  have leg1 : ∀ {u us mm : Int}, u ≤ (c.util : Int) → fixedDivCeil u c.util SCALAR_7 = .ok us →
      fixedMulCeil us c.rOne SCALAR_7 = .ok mm → mm ≤ c.rOne := by
    intro u us mm hu h1 h2
    have hne := (mulDivCeil_ok.1 h1).2.1
    have hpos : (0 : Int) < c.util := lt_of_le_of_ne (by positivity) (Ne.symm hne)
    have h3 := (mulDivCeil_spec h1 hpos).2
    have h4 := (mulDivCeil_spec h2 S7_pos).2
    have h5 : us ≤ SCALAR_7 := by
      unfold SCALAR_7 at *
      by_contra hh
      have : (10000001 : Int) ≤ us := by omega
      nlinarith
    by_contra hh
    have h6 : (c.rOne : Int) + 1 ≤ mm := by omega
    nlinarith [S7_pos]
  have leg2lo : ∀ {u us mm : Int}, ¬ u ≤ (c.util : Int) → u ≤ 9500000 →
      fixedDivCeil (u - c.util) (9500000 - c.util) SCALAR_7 = .ok us →
      fixedMulCeil us c.rTwo SCALAR_7 = .ok mm → 0 ≤ mm ∧ mm ≤ c.rTwo := by
    intro u us mm hu hu2 h1 h2
    have hpos : (0 : Int) < 9500000 - c.util := by omega
    have h3 := (mulDivCeil_spec h1 hpos).2
    have h4 := (mulDivCeil_spec h2 S7_pos).2
    have h5 : us ≤ SCALAR_7 := by
      unfold SCALAR_7 at *
      by_contra hh
      have : (10000001 : Int) ≤ us := by omega
      nlinarith
    have h50 : 0 ≤ us := mulDivCeil_nonneg h1 hpos (by unfold SCALAR_7; apply mul_nonneg <;> omega)
    refine ⟨mulDivCeil_nonneg h2 S7_pos (by positivity), ?_⟩
    by_contra hh
    have h6 : (c.rTwo : Int) + 1 ≤ mm := by omega
    nlinarith [S7_pos]
  rcases h with ⟨hu, us, hus, mm, hmm, b, ⟨_, rfl⟩, hv1⟩ |
      ⟨hu, ⟨hu2, n, ⟨_, rfl⟩, us, hus, mm, hmm, b, ⟨_, rfl⟩, hv1⟩ |
        ⟨hu2, n, ⟨_, rfl⟩, us, hus, e, he, s, ⟨_, rfl⟩, i, hi, _, rfl⟩⟩ <;>
    rcases h' with ⟨hu', us', hus', mm', hmm', b', ⟨_, rfl⟩, hv1'⟩ |
      ⟨hu', ⟨hu2', n', ⟨_, rfl⟩, us', hus', mm', hmm', b', ⟨_, rfl⟩, hv1'⟩ |
        ⟨hu2', n', ⟨_, rfl⟩, us', hus', e', he', s', ⟨_, rfl⟩, i', hi', _, rfl⟩⟩
  · -- both on the first leg
    have hne := (mulDivCeil_ok.1 hus).2.1
    have hpos : (0 : Int) < c.util := lt_of_le_of_ne (by positivity) (Ne.symm hne)
    have h1 := mulDivCeil_mono_left hus hus' hpos (by decide) huu
    have h2 := mulDivCeil_mono_left hmm hmm' S7_pos r1 h1
    exact mulDivCeil_mono_left hv1 hv1' S9_pos hm (by linarith)
  · -- first to second
    have h1 := leg1 hu hus hmm
    have h2 := (leg2lo hu' hu2' hus' hmm').1
    exact mulDivCeil_mono_left hv1 hv1' S9_pos hm (by linarith)
  · -- first to third
    have h1 := leg1 hu hus hmm
    have hus0 : 0 ≤ us' := mulDivCeil_nonneg hus' (by decide) (by unfold SCALAR_7; apply mul_nonneg <;> omega)
    have he0 : 0 ≤ e' := mulDivCeil_nonneg he' S7_pos (by positivity)
    have h2 : v ≤ i' := mulDivCeil_mono hv1 hi' S9_pos (by push_cast; nlinarith)
    linarith
  · omega
  · -- both on the second leg
    have hpos : (0 : Int) < 9500000 - c.util := by omega
    have h1 := mulDivCeil_mono_left hus hus' hpos (by decide) (by linarith)
    have h2 := mulDivCeil_mono_left hmm hmm' S7_pos r2 h1
    exact mulDivCeil_mono_left hv1 hv1' S9_pos hm (by linarith)
  · -- second to third
    have h1 := (leg2lo hu hu2 hus hmm).2
    have hus0 : 0 ≤ us' := mulDivCeil_nonneg hus' (by decide) (by unfold SCALAR_7; apply mul_nonneg <;> omega)
    have he0 : 0 ≤ e' := mulDivCeil_nonneg he' S7_pos (by positivity)
    have h2 : v ≤ i' := mulDivCeil_mono hv1 hi' S9_pos (by push_cast; nlinarith)
    linarith
  · omega
  · omega
  · -- both on the third leg
    have h1 := mulDivCeil_mono_left hus hus' (by decide) (by decide) (by linarith)
    have h2 := mulDivCeil_mono_left he he' S7_pos r3 h1
    have h3 := mulDivCeil_mono hi hi' S9_pos (le_refl _)
    linarith

/-- the hypotheses of `C08_rate_monotone` are met: a valid configuration, on both sides of a kink -/
example : ValidConfig ⟨0, 7, 9000000, 9000000, 8500000, 9500000, 300000, 400000, 1000000, 10000000, 50⟩ ∧
    calcIr ⟨0, 7, 9000000, 9000000, 8500000, 9500000, 300000, 400000, 1000000, 10000000, 50⟩
      8000000 1000000000 = .ok 676471 ∧
    calcIr ⟨0, 7, 9000000, 9000000, 8500000, 9500000, 300000, 400000, 1000000, 10000000, 50⟩
      9700000 1000000000 = .ok 5700000 := by
  refine ⟨?_, rfl, rfl⟩
  constructor <;> decide

/-- **C07** For any non-negative utilization and rate modifier and any elapsed time the loan accrual
factor is at least 1 (9 decimals). -/
theorem C07_accrual_factor_ge_one {c : ReserveConfig} (hv : ValidConfig c) {u m : Int}
    {last now : Nat} {acc m' : Int} (hu : 0 ≤ u) (hm : 0 ≤ m)
    (h : calcAccrual c u m last now = .ok (acc, m')) : ONE9 ≤ acc :=
  (calcAccrual_ge_one h hu hm hv.util).1

example : calcAccrual ⟨0, 7, 7500000, 7500000, 7500000, 9500000, 100000, 500000, 5000000, 15000000, 20⟩
    7979797 1000000000 0 500 = .ok (1000002853, 1000047979) := rfl

/-- **C07** After an accrual the reserve's last update time is the ledger time, share totals are
unchanged, and accruing again at the same ledger time (with whatever configuration and backstop
rate) changes nothing. -/
theorem C07_accrual_idempotent {c c' : ReserveConfig} {rate rate' now : Nat} {r r' : ReserveData}
    (h : accrue c rate now r = .ok r') :
    r'.lastTime = now ∧ r'.bSupply = r.bSupply ∧ r'.dSupply = r.dSupply ∧
      accrue c' rate' now r' = .ok r' :=
  ⟨accrue_time h, (accrue_supplies h).1, (accrue_supplies h).2, accrue_idem (accrue_time h)⟩

/-- an accrual that does change the rates -/
example : accrue ⟨0, 7, 7500000, 7500000, 7500000, 9500000, 100000, 500000, 5000000, 15000000, 20⟩
      2000000 617280
      ⟨1345678123, 1123456789, 1000000000, 990000000, 650000000, 0, 0⟩ =
    .ok ⟨1349657800, 1125547124, 1044981563, 990000000, 650000000, 517358, 617280⟩ := rfl

end Props
end Blend
