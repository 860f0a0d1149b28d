import Verif.Lemmas.SMap
import Verif.Spec
/-
  Helper facts about interest and accrual.
-/

namespace Blend
open Spec

theorem validMetadata_iff {c : ReserveConfig} : Pool.validMetadata c = true ↔ ValidConfig c := by
  unfold Pool.validMetadata
  simp only [decide_eq_true_eq]
  constructor
  · intro h
    constructor <;> omega
  · rintro ⟨⟩; omega

theorem tdiv_nonneg {a b : Int} (ha : 0 ≤ a) (hb : 0 ≤ b) : 0 ≤ Int.tdiv a b :=
  Int.tdiv_nonneg ha hb

/-- product facts for the rate curve: floor/ceil of `x * y / z` is monotone in `x` when `0 ≤ y` -/
theorem mulDivCeil_mono_left {x x' y z v v' : Int} (h : mulDivCeil x y z = .ok v)
    (h' : mulDivCeil x' y z = .ok v') (hz : 0 < z) (hy : 0 ≤ y) (hle : x ≤ x') : v ≤ v' :=
  mulDivCeil_mono h h' hz (by nlinarith)

theorem mulDivFloor_mono_left {x x' y z v v' : Int} (h : mulDivFloor x y z = .ok v)
    (h' : mulDivFloor x' y z = .ok v') (hz : 0 < z) (hy : 0 ≤ y) (hle : x ≤ x') : v ≤ v' :=
  mulDivFloor_mono h h' hz (by nlinarith)

theorem calcIr_nonneg {c : ReserveConfig} {u m v : Int} (h : calcIr c u m = .ok v)
    (hu : 0 ≤ u) (hm : 0 ≤ m) (ht : c.util ≤ 9500000) : 0 ≤ v := by
  unfold calcIr at h
  simp only [ite_ok, bind_ok, chk_ok, chkU32_ok] at h
  rcases h with ⟨_, us, hus, mm, hmm, b, ⟨_, rfl⟩, hv⟩ | ⟨_, ⟨h2, n, ⟨_, rfl⟩, us, hus, mm, hmm, b, ⟨_, rfl⟩, hv⟩ | ⟨h2, n, ⟨_, rfl⟩, us, hus, e, he, s, ⟨_, rfl⟩, i, hi, _, rfl⟩⟩
  · have h1 : 0 ≤ us := by
      by_cases ht0 : (c.util : Int) = 0
      · have := (mulDivCeil_ok.1 hus).2.1; omega
      · exact mulDivCeil_nonneg hus (by omega) (by unfold SCALAR_7; positivity)
    have h2 : 0 ≤ mm := mulDivCeil_nonneg hmm S7_pos (by positivity)
    exact mulDivCeil_nonneg hv S9_pos (by positivity)
  · have h1 : 0 ≤ us := by
      have := (mulDivCeil_ok.1 hus).2.1
      exact mulDivCeil_nonneg hus (by omega) (by unfold SCALAR_7; apply mul_nonneg <;> omega)
    have h2 : 0 ≤ mm := mulDivCeil_nonneg hmm S7_pos (by positivity)
    exact mulDivCeil_nonneg hv S9_pos (by positivity)
  · have h1 : 0 ≤ us := mulDivCeil_nonneg hus (by decide) (by unfold SCALAR_7; apply mul_nonneg <;> omega)
    have h2 : 0 ≤ e := mulDivCeil_nonneg he S7_pos (by positivity)
    have h3 : 0 ≤ i := mulDivCeil_nonneg hi S9_pos (by positivity)
    omega

/-- the rate modifier stays in `[0.1, 10]` -/
theorem calcIrMod_bounds {c : ReserveConfig} {u m t v : Int} (h : calcIrMod c u m t = .ok v)
    (ht : 0 ≤ t) (hm : 100000000 ≤ m ∧ m ≤ 10000000000) : 100000000 ≤ v ∧ v ≤ 10000000000 := by
  unfold calcIrMod at h
  simp only [ite_ok, bind_ok, chk_ok, pure_ok] at h
  obtain ⟨d, ⟨_, rfl⟩, dif, ⟨_, rfl⟩, h⟩ := h
  rcases h with ⟨hd, e, he, rd, hrd, n, ⟨_, rfl⟩, rfl⟩ | ⟨hd, e, he, rd, hrd, n, ⟨_, rfl⟩, rfl⟩
  · have h1 : 0 ≤ e := mulDivFloor_nonneg he S9_pos (mul_nonneg ht hd)
    have h2 : 0 ≤ rd := mulDivFloor_nonneg hrd S7_pos (by positivity)
    unfold SCALAR_9
    split <;> omega
  · have h1 : e ≤ 0 := by
      have h1 := (mulDivCeil_spec he S9_pos).2
      have h2 : t * ((u - (c.util : Int)) * 100) ≤ 0 := by nlinarith
      by_contra hh
      have h3 : 1 ≤ e := by omega
      nlinarith [S9_pos]
    have h2 : rd ≤ 0 := by
      have h1' := (mulDivCeil_spec hrd S7_pos).2
      have h2 : e * (c.reactivity : Int) ≤ 0 := by
        have : (0:Int) ≤ (c.reactivity : Int) := by positivity
        nlinarith
      by_contra hh
      have h3 : 1 ≤ rd := by omega
      nlinarith [S7_pos]
    have h3 : Int.tdiv SCALAR_9 10 = 100000000 := by decide
    rw [h3]
    split <;> omega

theorem calcAccrual_ge_one {c : ReserveConfig} {u m : Int} {last now : Nat} {a m' : Int}
    (h : calcAccrual c u m last now = .ok (a, m')) (hu : 0 ≤ u) (hm : 0 ≤ m)
    (ht : c.util ≤ 9500000) : 1000000000 ≤ a ∧ last ≤ now := by
  unfold calcAccrual at h
  simp only [bind_ok, chk_ok, pure_ok, subU_ok, Prod.mk.injEq] at h
  obtain ⟨ir, hir, dt, ⟨hle, rfl⟩, dts, ⟨_, rfl⟩, nm, hnm, i100, ⟨_, rfl⟩, acc, hacc, b, ⟨_, rfl⟩, rfl, _⟩ := h
  refine ⟨?_, hle⟩
  have h1 := calcIr_nonneg hir hu hm ht
  have h2 : 0 ≤ Int.tdiv (((now - last : Nat) : Int) * SCALAR_9) SECONDS_PER_YEAR :=
    Int.tdiv_nonneg (by unfold SCALAR_9; positivity) (by decide)
  have h3 : 0 ≤ acc := mulDivCeil_nonneg hacc S9_pos (mul_nonneg h2 (by linarith))
  unfold SCALAR_9; linarith

theorem calcAccrual_irMod {c : ReserveConfig} {u m : Int} {last now : Nat} {a m' : Int}
    (h : calcAccrual c u m last now = .ok (a, m')) (hm : 100000000 ≤ m ∧ m ≤ 10000000000) :
    100000000 ≤ m' ∧ m' ≤ 10000000000 := by
  unfold calcAccrual at h
  simp only [bind_ok, chk_ok, pure_ok, subU_ok, Prod.mk.injEq] at h
  obtain ⟨ir, hir, dt, ⟨hle, rfl⟩, dts, ⟨_, rfl⟩, nm, hnm, i100, ⟨_, rfl⟩, acc, hacc, b, ⟨_, rfl⟩, _, rfl⟩ := h
  exact calcIrMod_bounds hnm (by unfold SCALAR_9; positivity) hm

/-- What a successful accrual does, in all cases. -/
theorem accrue_cases {c : ReserveConfig} {rate now : Nat} {r r' : ReserveData}
    (h : accrue c rate now r = .ok r') :
    (now = r.lastTime ∧ r' = r) ∨
    (now ≠ r.lastTime ∧ r' = { r with lastTime := now } ∧
      (r.bSupply = 0 ∨ r.utilization = .ok 0)) ∨
    (∃ util acc irm ps pl dR pol, now ≠ r.lastTime ∧ r.bSupply ≠ 0 ∧ util ≠ 0 ∧
      r.utilization = .ok util ∧
      calcAccrual c util r.irMod r.lastTime now = .ok (acc, irm) ∧ r.totalSupply = .ok ps ∧
      r.totalLiabilities = .ok pl ∧ fixedMulCeil acc r.dRate SCALAR_9 = .ok dR ∧
      ({ r with dRate := dR } : ReserveData).totalLiabilities = .ok pol ∧
      ((pol - pl ≤ 0 ∧ r' = { r with irMod := irm, dRate := dR, lastTime := now }) ∨
       (∃ nc bR, 0 < pol - pl ∧
          ((0 < rate ∧ fixedMulFloor (pol - pl) rate SCALAR_7 = .ok nc) ∨ (rate = 0 ∧ nc = 0)) ∧
          fixedDivFloor (ps + (pol - pl) - nc) r.bSupply SCALAR_9 = .ok bR ∧
          r' = { r with irMod := irm, dRate := dR, backstopCredit := r.backstopCredit + nc,
                        bRate := bR, lastTime := now }))) := by
  unfold accrue at h
  simp only [ite_ok, bind_ok, chk_ok, pure_ok, Prod.exists] at h
  rcases h with ⟨h1, rfl⟩ | ⟨h1, ⟨h2, rfl⟩ | ⟨h2, util, hu, ⟨h3, rfl⟩ | ⟨h3, acc, irm, hac, ps, hps, pl, hpl, dR, hdR, pol, hpol, ac, ⟨_, rfl⟩, h⟩⟩⟩
  · exact .inl ⟨h1, rfl⟩
  · exact .inr (.inl ⟨h1, rfl, .inl h2⟩)
  · subst h3; exact .inr (.inl ⟨h1, rfl, .inr hu⟩)
  · refine .inr (.inr ⟨util, acc, irm, ps, pl, dR, pol, h1, h2, h3, hu, hac, hps, hpl, hdR, hpol, ?_⟩)
    rcases h with ⟨hpos, ⟨hr, nc, hnc, cr, ⟨_, rfl⟩, t1, ⟨_, rfl⟩, t, ⟨_, rfl⟩, bR, hbR, rfl⟩ |
      ⟨hr, nc, hnc, cr, ⟨_, rfl⟩, t1, ⟨_, rfl⟩, t, ⟨_, rfl⟩, bR, hbR, rfl⟩⟩ | ⟨hn, rfl⟩
    · exact .inr ⟨nc, bR, hpos, .inl ⟨hr, hnc⟩, hbR, rfl⟩
    · exact .inr ⟨nc, bR, hpos, .inr ⟨by omega, hnc.symm⟩, hbR, rfl⟩
    · exact .inl ⟨by omega, rfl⟩

theorem utilization_nonneg {r : ReserveData} {u : Int} (h : r.utilization = .ok u)
    (hd : 0 ≤ r.dSupply) (hb : 0 ≤ r.bSupply) (hdr : 0 ≤ r.dRate) (hbr : 0 ≤ r.bRate) : 0 ≤ u := by
  unfold ReserveData.utilization at h
  simp only [bind_ok] at h
  obtain ⟨l, hl, s, hs, hu⟩ := h
  have h1 : 0 ≤ l := mulDivCeil_nonneg hl S9_pos (mul_nonneg hd hdr)
  have h2 : 0 ≤ s := mulDivFloor_nonneg hs S9_pos (mul_nonneg hb hbr)
  have h3 := (mulDivCeil_ok.1 hu).2.1
  exact mulDivCeil_nonneg hu (by omega) (by unfold SCALAR_7; positivity)

theorem accrue_time {c : ReserveConfig} {rate now : Nat} {r r' : ReserveData}
    (h : accrue c rate now r = .ok r') : r'.lastTime = now := by
  rcases accrue_cases h with ⟨h1, rfl⟩ | ⟨_, rfl, _⟩ | ⟨_, _, _, _, _, _, _, _, _, _, _, _, _, _, _, _, ⟨_, rfl⟩ | ⟨_, _, _, _, _, rfl⟩⟩
  · exact h1.symm
  all_goals rfl

theorem accrue_supplies {c : ReserveConfig} {rate now : Nat} {r r' : ReserveData}
    (h : accrue c rate now r = .ok r') : r'.bSupply = r.bSupply ∧ r'.dSupply = r.dSupply := by
  rcases accrue_cases h with ⟨h1, rfl⟩ | ⟨_, rfl, _⟩ | ⟨_, _, _, _, _, _, _, _, _, _, _, _, _, _, _, _, ⟨_, rfl⟩ | ⟨_, _, _, _, _, rfl⟩⟩
  all_goals exact ⟨rfl, rfl⟩

theorem accrue_idem {c : ReserveConfig} {rate now : Nat} {r : ReserveData}
    (h : r.lastTime = now) : accrue c rate now r = .ok r := by
  unfold accrue; rw [if_pos h.symm]; rfl

theorem accrue_irMod {c : ReserveConfig} {rate now : Nat} {r r' : ReserveData}
    (h : accrue c rate now r = .ok r') (hm : 100000000 ≤ r.irMod ∧ r.irMod ≤ 10000000000) :
    100000000 ≤ r'.irMod ∧ r'.irMod ≤ 10000000000 := by
  rcases accrue_cases h with ⟨h1, rfl⟩ | ⟨_, rfl, _⟩ | ⟨_, _, _, _, _, _, _, _, _, _, _, hac, _, _, _, _, ⟨_, rfl⟩ | ⟨_, _, _, _, _, rfl⟩⟩
  · exact hm
  · exact hm
  all_goals exact calcAccrual_irMod hac hm

/-- The invariant under which accrual is well behaved. -/
structure DataOk (r : ReserveData) : Prop where
  dRate : 1000000000 ≤ r.dRate
  bRate : 1000000000 ≤ r.bRate
  dSupply : 0 ≤ r.dSupply
  bSupply : 0 ≤ r.bSupply
  irMod_lo : 100000000 ≤ r.irMod
  irMod_hi : r.irMod ≤ 10000000000

/-- Accrual lowers neither rate nor the backstop's credit. -/
theorem accrue_mono {c : ReserveConfig} {rate now : Nat} {r r' : ReserveData}
    (h : accrue c rate now r = .ok r') (ok : DataOk r) (ht : c.util ≤ 9500000)
    (hrate : rate < 10000000) :
    r.dRate ≤ r'.dRate ∧ r.bRate ≤ r'.bRate ∧ r.backstopCredit ≤ r'.backstopCredit ∧ r.lastTime ≤ r'.lastTime ∨
    now < r.lastTime ∧ r' = { r with lastTime := now } := by
  rcases accrue_cases h with ⟨h1, rfl⟩ | ⟨_, rfl, _⟩ | ⟨util, acc, irm, ps, pl, dR, pol, h1, h2, h3, hu, hac, hps, hpl, hdR, hpol, hr⟩
  · exact .inl ⟨le_refl _, le_refl _, le_refl _, le_refl _⟩
  · by_cases hlt : now < r.lastTime
    · exact .inr ⟨hlt, rfl⟩
    · exact .inl ⟨le_refl _, le_refl _, le_refl _, by simpa using hlt⟩
  · left
    have hu0 := utilization_nonneg hu ok.dSupply ok.bSupply (by linarith [ok.dRate]) (by linarith [ok.bRate])
    obtain ⟨hacc, hle⟩ := calcAccrual_ge_one hac hu0 (by linarith [ok.irMod_lo]) ht
    have hd : r.dRate ≤ dR := by
      have h1 := (mulDivCeil_spec hdR S9_pos).1
      unfold SCALAR_9 at h1
      nlinarith [ok.dRate]
    have hbs : 0 < r.bSupply := lt_of_le_of_ne ok.bSupply (Ne.symm h2)
    rcases hr with ⟨_, rfl⟩ | ⟨nc, bR, hpos, hnc, hbR, rfl⟩
    · exact ⟨hd, le_refl _, le_refl _, hle⟩
    · have hnc0 : 0 ≤ nc ∧ nc < pol - pl := by
        rcases hnc with ⟨_, hnc⟩ | ⟨_, rfl⟩
        · refine ⟨mulDivFloor_nonneg hnc S7_pos (by positivity), ?_⟩
          have h1 := (mulDivFloor_spec hnc S7_pos).1
          unfold SCALAR_7 at h1
          have h2 : (rate : Int) < 10000000 := by exact_mod_cast hrate
          by_contra hh
          nlinarith
        · exact ⟨le_refl _, hpos⟩
      refine ⟨hd, ?_, by show r.backstopCredit ≤ r.backstopCredit + nc; linarith, hle⟩
      show r.bRate ≤ bR
      have h4 := (mulDivFloor_spec hps S9_pos).2
      have h5 := (mulDivFloor_spec hbR hbs).2
      unfold SCALAR_9 at h4 h5
      by_contra hh
      have h6 : bR + 1 ≤ r.bRate := by omega
      nlinarith [hnc0.2]

end Blend
