import Verif.Spec.Live
import Verif.Lemmas.NoStatus
import Verif.Lemmas.PoolEmis
import Verif.Lemmas.Threshold
/-
  Which errors interest accrual can run into: only overflow, and not even that for reserves of ordinary size (C52).
-/

namespace Blend
open Spec

theorem inI {x : Int} (h0 : 0 ≤ x) (h1 : x ≤ 10 ^ 38) : InI128 x := ⟨by omega, by omega⟩

theorem inI_abs {x : Int} (h0 : -10 ^ 38 ≤ x) (h1 : x ≤ 10 ^ 38) : InI128 x := ⟨by omega, by omega⟩

theorem prod_le {x y X Y : Int} (hx : 0 ≤ x) (hX : x ≤ X) (hy : 0 ≤ y) (hY : y ≤ Y) : 0 ≤ x * y ∧ x * y ≤ X * Y :=
  ⟨mul_nonneg hx hy, mul_le_mul hX hY hy (le_trans hx hX)⟩

theorem fdiv_inI {x z : Int} (hz : 1 ≤ z) (h : InI128 x) : InI128 (Int.fdiv x z) := by
  rw [Int.fdiv_eq_ediv_of_nonneg _ (by omega)]
  unfold InI128 at *
  constructor
  · rw [Int.le_ediv_iff_mul_le (by omega)]
    have : (-170141183460469231731687303715884105728 : Int) * z ≤ -170141183460469231731687303715884105728 * 1 := by omega
    omega
  · have : x / z ≤ max x 0 := by
      rcases le_total 0 x with h0 | h0
      · exact le_trans (Int.ediv_le_self _ h0) (le_max_left _ _)
      · exact le_trans (Int.ediv_nonpos_of_nonpos_of_neg h0 (by omega)) (le_max_right _ _)
    omega

namespace NoErr
variable {E : Err → Bool}

theorem chk {x : Int} (h : E .overflow = true → InI128 x) : NoErr E (Blend.chk x) := by
  unfold Blend.chk
  split
  · exact ok
  · rename_i hn
    exact error (by cases hE : E .overflow with | true => exact absurd (h hE) hn | false => rfl)

theorem chkU32 {x : Nat} (h : E .overflow = true → InU32 x) : NoErr E (Blend.chkU32 x) := by
  unfold Blend.chkU32
  split
  · exact ok
  · rename_i hn
    exact error (by cases hE : E .overflow with | true => exact absurd (h hE) hn | false => rfl)

theorem subU {a b : Nat} (h : b ≤ a) : NoErr E (Blend.subU a b) := by
  unfold Blend.subU; rw [if_pos h]; exact ok

theorem mulDivFloor {x y z : Int} (hz : 1 ≤ z) (h : E .overflow = true → InI128 (x * y)) : NoErr E (Blend.mulDivFloor x y z) := by
  unfold Blend.mulDivFloor
  refine bind (chk h) fun r hr => bind ?_ fun _ _ => chk fun hE => ?_
  · unfold Blend.require; rw [if_pos (by omega)]; exact ok
  · rw [chk_ok] at hr; rw [hr.2]; exact fdiv_inI hz (h hE)

theorem mulDivCeil {x y z : Int} (hz : 1 ≤ z) (h : E .overflow = true → -10 ^ 38 ≤ x * y ∧ x * y ≤ 10 ^ 38) :
    NoErr E (Blend.mulDivCeil x y z) := by
  unfold Blend.mulDivCeil
  refine bind (chk fun hE => inI_abs (h hE).1 (h hE).2) fun r hr => bind ?_ fun _ _ => chk fun hE => ?_
  · unfold Blend.require; rw [if_pos (by omega)]; exact ok
  · rw [chk_ok] at hr
    rw [hr.2]
    have h1 : InI128 (Int.fdiv (-(x * y)) z) := fdiv_inI hz (inI_abs (by have := (h hE); omega) (by have := (h hE); omega))
    have h2 : -10 ^ 38 ≤ Int.fdiv (-(x * y)) z := by
      rw [Int.fdiv_eq_ediv_of_nonneg _ (by omega), Int.le_ediv_iff_mul_le (by omega)]
      have := (h hE).2
      nlinarith
    unfold InI128 at *
    omega

theorem unwrap {α : Type} {x : Option α} {a : α} (h : x = some a) : NoErr E (Blend.unwrap x) := by
  subst h; exact ok

theorem req {c : Prop} [Decidable c] {e : Err} (h : c) : NoErr E (Blend.require c e) := by
  unfold Blend.require; rw [if_pos h]; exact ok

end NoErr

/-- the number of the least multiple is at most any bound with a large enough multiple -/
theorem ceil_le {x y z v B : Int} (hz : 1 ≤ z) (h : mulDivCeil x y z = .ok v) (hB : x * y ≤ B * z) : v ≤ B := by
  have := (mulDivCeil_spec h (by omega)).2
  by_contra hlt
  nlinarith

theorem floor_le {x y z v B : Int} (hz : 1 ≤ z) (h : mulDivFloor x y z = .ok v) (hB : x * y ≤ B * z) : v ≤ B := by
  have := (mulDivFloor_spec h (by omega)).1
  by_contra hlt
  nlinarith


variable {E : Err → Bool}

/-- the yearly rate can be computed -/
theorem calcIr_live {c : ReserveConfig} {u m : Int} (hc : ValidConfig c) (hu : 0 < u) (hm : 0 ≤ m)
    (hB : E .overflow = true → m ≤ 10000000000 ∧ u ≤ 200000000 ∧ c.rThree ≤ 1000000000) : NoErr E (calcIr c u m) := by
  have r1 := hc.r12
  have r2 := hc.r23
  have r3 := hc.rBase_hi
  have hut := hc.util
  unfold calcIr
  dsimp only
  split
  · rename_i hle
    refine NoErr.bind (NoErr.mulDivCeil (by omega) fun hE => ?_) fun us hus => ?_
    · obtain ⟨b1, b2, b3⟩ := hB hE
      have := prod_le (y := SCALAR_7) (Y := 10000000) hu.le b2 (by decide) (by decide)
      omega
    have hus0 : 0 ≤ us := by
      have := (mulDivCeil_spec hus (by omega)).1
      have : 0 < u * SCALAR_7 := by unfold SCALAR_7; omega
      by_contra hlt
      nlinarith
    have hus1 : us ≤ 10000000 := ceil_le (by omega) hus (by unfold SCALAR_7; nlinarith)
    refine NoErr.bind (NoErr.mulDivCeil (by decide) fun hE => ?_) fun mm hmm => ?_
    · obtain ⟨b1, b2, b3⟩ := hB hE
      have := prod_le (y := (c.rOne : Int)) (Y := 1000000000) hus0 hus1 (by omega) (by omega)
      omega
    have hm0 : 0 ≤ mm := mulDivCeil_nonneg hmm (by decide) (mul_nonneg hus0 (by omega))
    have hm1 : E .overflow = true → mm ≤ 1000000000 := fun hE => ceil_le (by decide) hmm (by
      obtain ⟨b1, b2, b3⟩ := hB hE
      have := prod_le (y := (c.rOne : Int)) (Y := 1000000000) hus0 hus1 (by omega) (by omega)
      unfold SCALAR_7
      omega)
    refine NoErr.bind (NoErr.chk fun hE => inI (by omega) (by have := hm1 hE; omega)) fun b hb => ?_
    rw [chk_ok] at hb
    refine NoErr.mulDivCeil (by decide) fun hE => ?_
    have := hm1 hE
    obtain ⟨b1, b2, b3⟩ := hB hE
    have := prod_le (x := b) (y := m) (X := 1010000000) (Y := 10000000000) (by omega) (by omega) hm b1
    omega
  · rename_i hgt
    split
    · rename_i hle
      have htt : (c.util : Int) < 9500000 := by omega
      refine NoErr.bind (NoErr.chk fun hE => inI (by omega) (by omega)) fun n hn => ?_
      rw [chk_ok] at hn
      refine NoErr.bind (NoErr.mulDivCeil (by omega) fun hE => ?_) fun us hus => ?_
      · have := prod_le (x := n) (y := SCALAR_7) (X := 9500000) (Y := 10000000) (by omega) (by omega) (by decide) (by decide)
        omega
      have hus0 : 0 ≤ us := mulDivCeil_nonneg hus (by omega) (mul_nonneg (by omega) (by decide))
      have hus1 : us ≤ 10000000 := ceil_le (by omega) hus (by unfold SCALAR_7; rw [hn.2]; nlinarith)
      refine NoErr.bind (NoErr.mulDivCeil (by decide) fun hE => ?_) fun mm hmm => ?_
      · obtain ⟨b1, b2, b3⟩ := hB hE
        have := prod_le (y := (c.rTwo : Int)) (Y := 1000000000) hus0 hus1 (by omega) (by omega)
        omega
      have hm0 : 0 ≤ mm := mulDivCeil_nonneg hmm (by decide) (mul_nonneg hus0 (by omega))
      have hm1 : E .overflow = true → mm ≤ 1000000000 := fun hE => ceil_le (by decide) hmm (by
        obtain ⟨b1, b2, b3⟩ := hB hE
        have := prod_le (y := (c.rTwo : Int)) (Y := 1000000000) hus0 hus1 (by omega) (by omega)
        unfold SCALAR_7
        omega)
      refine NoErr.bind (NoErr.chk fun hE => inI (by omega) (by have := hm1 hE; have := hB hE; omega)) fun b hb => ?_
      rw [chk_ok] at hb
      refine NoErr.mulDivCeil (by decide) fun hE => ?_
      have := hm1 hE
      obtain ⟨b1, b2, b3⟩ := hB hE
      have := prod_le (x := b) (y := m) (X := 2010000000) (Y := 10000000000) (by omega) (by omega) hm b1
      omega
    · rename_i hle
      refine NoErr.bind (NoErr.chk fun hE => inI (by omega) (by have := hB hE; omega)) fun n hn => ?_
      rw [chk_ok] at hn
      refine NoErr.bind (NoErr.mulDivCeil (by decide) fun hE => ?_) fun us hus => ?_
      · obtain ⟨b1, b2, b3⟩ := hB hE
        have := prod_le (x := n) (y := SCALAR_7) (X := 200000000) (Y := 10000000) (by omega) (by omega) (by decide) (by decide)
        omega
      have hus0 : 0 ≤ us := mulDivCeil_nonneg hus (by decide) (mul_nonneg (by omega) (by decide))
      have hus1 : E .overflow = true → us ≤ 4000000000 := fun hE => ceil_le (by decide) hus (by have := hB hE; unfold SCALAR_7; omega)
      refine NoErr.bind (NoErr.mulDivCeil (by decide) fun hE => ?_) fun mm hmm => ?_
      · obtain ⟨b1, b2, b3⟩ := hB hE
        have := prod_le (y := (c.rThree : Int)) (Y := 1000000000) hus0 (hus1 hE) (by omega) (by omega)
        omega
      have hm0 : 0 ≤ mm := mulDivCeil_nonneg hmm (by decide) (mul_nonneg hus0 (by omega))
      have hm1 : E .overflow = true → mm ≤ 400000000000 := fun hE => ceil_le (by decide) hmm (by
        obtain ⟨b1, b2, b3⟩ := hB hE
        have := prod_le (y := (c.rThree : Int)) (Y := 1000000000) hus0 (hus1 hE) (by omega) (by omega)
        unfold SCALAR_7
        omega)
      refine NoErr.bind (NoErr.chkU32 fun hE => by have := hB hE; unfold InU32; omega) fun s hs => ?_
      rw [chkU32_ok] at hs
      have hs1 : E .overflow = true → 0 ≤ m * (s : Int) ∧ m * (s : Int) ≤ 20100000000000000000 := fun hE => by
        obtain ⟨b1, b2, b3⟩ := hB hE
        have := prod_le (x := m) (y := (s : Int)) (X := 10000000000) (Y := 2010000000) hm b1 (by omega) (by omega)
        omega
      refine NoErr.bind (NoErr.mulDivCeil (by decide) fun hE => by have := hs1 hE; omega) fun i hi => ?_
      have hi0 : 0 ≤ i := mulDivCeil_nonneg hi (by decide) (mul_nonneg hm (by omega))
      refine NoErr.chk fun hE => inI (by omega) ?_
      have h1 := hm1 hE
      have h2 : i ≤ 20100000000 := ceil_le (by decide) hi (by have := hs1 hE; unfold SCALAR_9; omega)
      omega

/-- its size -/
theorem calcIr_le {c : ReserveConfig} {u m v : Int} (hc : ValidConfig c) (hu : 0 < u) (hm : 0 ≤ m)
    (hB : m ≤ 10000000000 ∧ u ≤ 200000000 ∧ c.rThree ≤ 1000000000) (h : calcIr c u m = .ok v) : v ≤ 430000000000 := by
  obtain ⟨b1, b2, b3⟩ := hB
  have r1 := hc.r12
  have r2 := hc.r23
  have r3 := hc.rBase_hi
  have hut := hc.util
  unfold calcIr at h
  simp only [ite_ok, bind_ok, chk_ok, chkU32_ok] at h
  rcases h with ⟨hle, us, hus, mm, hmm, b, ⟨_, rfl⟩, hv⟩ | ⟨hgt, ⟨h2, n, ⟨_, rfl⟩, us, hus, mm, hmm, b, ⟨_, rfl⟩, hv⟩ | ⟨h2, n, ⟨_, rfl⟩, us, hus, e, he, s, ⟨_, rfl⟩, i, hi, _, rfl⟩⟩
  · have ht0 : 0 < (c.util : Int) := by omega
    have hus0 : 0 ≤ us := mulDivCeil_nonneg hus ht0 (mul_nonneg hu.le (by decide))
    have hus1 : us ≤ 10000000 := ceil_le (by omega) hus (by unfold SCALAR_7; nlinarith)
    have p1 := prod_le (y := (c.rOne : Int)) (Y := 1000000000) hus0 hus1 (by omega) (by omega)
    have hm0 : 0 ≤ mm := mulDivCeil_nonneg hmm (by decide) p1.1
    have hm1 : mm ≤ 1000000000 := ceil_le (by decide) hmm (by unfold SCALAR_7; omega)
    have p2 := prod_le (x := mm + c.rBase) (y := m) (X := 1010000000) (Y := 10000000000) (by omega) (by omega) hm b1
    exact ceil_le (by decide) hv (by unfold SCALAR_9; omega)
  · have hus0 : 0 ≤ us := mulDivCeil_nonneg hus (by omega) (mul_nonneg (by omega) (by decide))
    have hus1 : us ≤ 10000000 := ceil_le (by omega) hus (by unfold SCALAR_7; nlinarith)
    have p1 := prod_le (y := (c.rTwo : Int)) (Y := 1000000000) hus0 hus1 (by omega) (by omega)
    have hm0 : 0 ≤ mm := mulDivCeil_nonneg hmm (by decide) p1.1
    have hm1 : mm ≤ 1000000000 := ceil_le (by decide) hmm (by unfold SCALAR_7; omega)
    have p2 := prod_le (x := mm + c.rOne + c.rBase) (y := m) (X := 2010000000) (Y := 10000000000) (by omega) (by omega) hm b1
    exact ceil_le (by decide) hv (by unfold SCALAR_9; omega)
  · have hus0 : 0 ≤ us := mulDivCeil_nonneg hus (by decide) (mul_nonneg (by omega) (by decide))
    have hus1 : us ≤ 4000000000 := ceil_le (by decide) hus (by unfold SCALAR_7; omega)
    have p1 := prod_le (y := (c.rThree : Int)) (Y := 1000000000) hus0 hus1 (by omega) (by omega)
    have he1 : e ≤ 400000000000 := ceil_le (by decide) he (by unfold SCALAR_7; omega)
    have p2 := prod_le (x := m) (y := ((c.rTwo + c.rOne + c.rBase : Nat) : Int)) (X := 10000000000) (Y := 2010000000) hm b1 (by omega) (by omega)
    have hi1 : i ≤ 20100000000 := ceil_le (by decide) hi (by unfold SCALAR_9; omega)
    omega

/-- the rate modifier can be computed -/
theorem calcIrMod_live {c : ReserveConfig} {u m t : Int} (hc : ValidConfig c) (hu : 0 < u) (hm : 0 ≤ m) (ht : 0 ≤ t)
    (hB : E .overflow = true → m ≤ 10000000000 ∧ u ≤ 200000000 ∧ t ≤ 1000000000000000) : NoErr E (calcIrMod c u m t) := by
  have hut := hc.util
  have hre := hc.reactivity
  unfold calcIrMod
  refine NoErr.bind (NoErr.chk fun hE => inI_abs (by omega) (by have := hB hE; omega)) fun d hd => ?_
  rw [chk_ok] at hd
  refine NoErr.bind (NoErr.chk fun hE => inI_abs (by omega) (by have := hB hE; omega)) fun dif hdif => ?_
  rw [chk_ok] at hdif
  split
  · rename_i h0
    have p1 : E .overflow = true → 0 ≤ t * dif ∧ t * dif ≤ 1000000000000000 * 30000000000 := fun hE => by
      obtain ⟨b1, b2, b3⟩ := hB hE
      exact prod_le ht b3 h0 (by omega)
    refine NoErr.bind (NoErr.mulDivFloor (by decide) fun hE => inI (p1 hE).1 (by have := p1 hE; omega)) fun e he => ?_
    have he0 : 0 ≤ e := mulDivFloor_nonneg he (by decide) (mul_nonneg ht h0)
    have p2 : E .overflow = true → 0 ≤ e * (c.reactivity : Int) ∧ e * (c.reactivity : Int) ≤ 30000000000000000 * 1000 := fun hE =>
      prod_le he0 (floor_le (by decide) he (by have := p1 hE; unfold SCALAR_9; omega)) (by omega) (by omega)
    refine NoErr.bind (NoErr.mulDivFloor (by decide) fun hE => inI (p2 hE).1 (by have := p2 hE; omega)) fun rd hrd => ?_
    have hrd0 : 0 ≤ rd := mulDivFloor_nonneg hrd (by decide) (mul_nonneg he0 (by omega))
    refine NoErr.bind (NoErr.chk fun hE => inI (by omega) ?_) fun _ _ => NoErr.pure
    have : rd ≤ 3000000000000 := floor_le (by decide) hrd (by have := p2 hE; unfold SCALAR_7; omega)
    have := hB hE
    omega
  · rename_i h0
    have p1 : E .overflow = true → 0 ≤ t * (-dif) ∧ t * (-dif) ≤ 1000000000000000 * 950000000 := fun hE => by
      obtain ⟨b1, b2, b3⟩ := hB hE
      exact prod_le ht b3 (by omega) (by omega)
    refine NoErr.bind (NoErr.mulDivCeil (by decide) fun hE => by have := p1 hE; rw [mul_neg] at this; omega) fun e he => ?_
    have he1 := (mulDivCeil_spec he (by decide))
    have hn0 : t * dif ≤ 0 := mul_nonpos_of_nonneg_of_nonpos ht (by omega)
    have he0 : e ≤ 0 := ceil_le (by decide) he (by omega)
    have p2 : E .overflow = true → 0 ≤ (-e) * (c.reactivity : Int) ∧ (-e) * (c.reactivity : Int) ≤ 950000000000000 * 1000 := fun hE =>
      prod_le (by omega) (by have := p1 hE; rw [mul_neg] at this; have := he1.1; unfold SCALAR_9 at this; omega) (by omega) (by omega)
    refine NoErr.bind (NoErr.mulDivCeil (by decide) fun hE => by have := p2 hE; rw [neg_mul] at this; omega) fun rd hrd => ?_
    have hrd1 := (mulDivCeil_spec hrd (by decide))
    have hrd0 : rd ≤ 0 := ceil_le (by decide) hrd (by have := mul_nonpos_of_nonpos_of_nonneg he0 (show 0 ≤ (c.reactivity : Int) by omega); omega)
    refine NoErr.bind (NoErr.chk fun hE => inI_abs ?_ ?_) fun _ _ => NoErr.pure
    · have := p2 hE; rw [neg_mul] at this; have := hrd1.1; unfold SCALAR_7 at this; omega
    · have := hB hE; omega

/-- the accrual ratio of at most a week can be computed -/
theorem calcAccrual_live {c : ReserveConfig} {u m : Int} {last now : Nat} (hc : ValidConfig c) (hu : 0 < u) (hm : 0 ≤ m) (hl : last ≤ now)
    (hB : E .overflow = true → m ≤ 10000000000 ∧ u ≤ 200000000 ∧ c.rThree ≤ 1000000000 ∧ now ≤ last + 604800) :
    NoErr E (calcAccrual c u m last now) := by
  unfold calcAccrual
  refine NoErr.bind (calcIr_live hc hu hm fun hE => by have := hB hE; omega) fun ir hir => ?_
  have hir0 := calcIr_nonneg hir hu.le hm hc.util
  have hir1 : E .overflow = true → ir ≤ 430000000000 := fun hE => calcIr_le hc hu hm (by have := hB hE; omega) hir
  refine NoErr.bind (NoErr.subU hl) fun dt hdt => ?_
  rw [subU_ok] at hdt
  refine NoErr.bind (NoErr.chk fun hE => inI (by unfold SCALAR_9; omega) (by have := hB hE; unfold SCALAR_9; omega)) fun ds hds => ?_
  rw [chk_ok] at hds
  have hds0 : 0 ≤ ds := by rw [hds.2]; unfold SCALAR_9; omega
  have hds1 : E .overflow = true → ds ≤ 604800000000000 := fun hE => by have := hB hE; rw [hds.2]; unfold SCALAR_9; omega
  refine NoErr.bind (calcIrMod_live hc hu hm hds0 fun hE => by have := hB hE; have := hds1 hE; omega) fun _ _ => ?_
  have htw0 : 0 ≤ Int.tdiv ds SECONDS_PER_YEAR := Int.tdiv_nonneg hds0 (by decide)
  have htw1 : E .overflow = true → Int.tdiv ds SECONDS_PER_YEAR ≤ 20000000 := fun hE => by
    rw [Int.tdiv_eq_ediv_of_nonneg hds0]; have := hds1 hE; unfold SECONDS_PER_YEAR; omega
  refine NoErr.bind (NoErr.chk fun hE => inI (by omega) (by have := hir1 hE; omega)) fun i hi => ?_
  rw [chk_ok] at hi
  have p1 : E .overflow = true → 0 ≤ Int.tdiv ds SECONDS_PER_YEAR * i ∧ Int.tdiv ds SECONDS_PER_YEAR * i ≤ 20000000 * 43000000000000 := fun hE =>
    prod_le htw0 (htw1 hE) (by omega) (by have := hir1 hE; omega)
  refine NoErr.bind (NoErr.mulDivCeil (by decide) fun hE => by have := p1 hE; omega) fun acc hacc => ?_
  have ha0 : 0 ≤ acc := mulDivCeil_nonneg hacc (by decide) (mul_nonneg htw0 (by omega))
  refine NoErr.bind (NoErr.chk fun hE => inI (by unfold SCALAR_9; omega) ?_) fun _ _ => NoErr.pure
  have : acc ≤ 860000000000 := ceil_le (by decide) hacc (by have := p1 hE; unfold SCALAR_9; omega)
  unfold SCALAR_9
  omega

/-- its size -/
theorem calcAccrual_le {c : ReserveConfig} {u m a m' : Int} {last now : Nat} (hc : ValidConfig c) (hu : 0 < u) (hm : 0 ≤ m)
    (hB : m ≤ 10000000000 ∧ u ≤ 200000000 ∧ c.rThree ≤ 1000000000 ∧ now ≤ last + 604800)
    (h : calcAccrual c u m last now = .ok (a, m')) : a ≤ 870000000000 := by
  unfold calcAccrual at h
  simp only [bind_ok, chk_ok, pure_ok, subU_ok, Prod.mk.injEq] at h
  obtain ⟨ir, hir, dt, ⟨hle, rfl⟩, dts, ⟨_, rfl⟩, nm, hnm, i100, ⟨_, rfl⟩, acc, hacc, b, ⟨_, rfl⟩, rfl, _⟩ := h
  have hir0 := calcIr_nonneg hir hu.le hm hc.util
  have hir1 : ir ≤ 430000000000 := calcIr_le hc hu hm (by omega) hir
  have hds0 : 0 ≤ ((now - last : Nat) : Int) * SCALAR_9 := by unfold SCALAR_9; omega
  have htw0 : 0 ≤ Int.tdiv (((now - last : Nat) : Int) * SCALAR_9) SECONDS_PER_YEAR := Int.tdiv_nonneg hds0 (by decide)
  have htw1 : Int.tdiv (((now - last : Nat) : Int) * SCALAR_9) SECONDS_PER_YEAR ≤ 20000000 := by
    rw [Int.tdiv_eq_ediv_of_nonneg hds0]; unfold SECONDS_PER_YEAR SCALAR_9; omega
  have p1 := prod_le (y := ir * 100) (Y := 43000000000000) htw0 htw1 (by omega) (by omega)
  have : acc ≤ 860000000000 := ceil_le (by decide) hacc (le_trans p1.2 (by decide))
  unfold SCALAR_9
  omega

/-- what is deposited in a reserve with shares is worth at least one unit -/
theorem totalSupply_pos {d : ReserveData} {s : Int} (ok : DataOk d) (hb : d.bSupply ≠ 0) (h : d.totalSupply = .ok s) : 0 < s := by
  have h1 := (mulDivFloor_spec h (by decide)).2
  have h2 := ok.bSupply
  have h3 := ok.bRate
  have : 1 * 1000000000 ≤ d.bSupply * d.bRate := mul_le_mul (by omega) h3 (by decide) h2
  unfold SCALAR_9 at h1
  by_contra hn
  nlinarith

variable {c : ReserveConfig} {d : ReserveData} {now : Nat}

theorem totalLiabilities_live (ok : DataOk d) (hB : E .overflow = true → d.dSupply * d.dRate ≤ 10 ^ 38) : NoErr E d.totalLiabilities := by
  refine NoErr.mulDivCeil (by decide) fun hE => ⟨?_, hB hE⟩
  have := mul_nonneg ok.dSupply (le_trans (by decide) ok.dRate : (0 : Int) ≤ d.dRate)
  omega

theorem totalSupply_live (ok : DataOk d) (hB : E .overflow = true → d.bSupply * d.bRate ≤ 10 ^ 38) : NoErr E d.totalSupply := by
  refine NoErr.mulDivFloor (by decide) fun hE => inI ?_ (hB hE)
  exact mul_nonneg ok.bSupply (le_trans (by decide) ok.bRate : (0 : Int) ≤ d.bRate)

theorem utilization_live (ok : DataOk d) (hb : d.bSupply ≠ 0) (hB : E .overflow = true → Moderate c d now) : NoErr E d.utilization := by
  unfold ReserveData.utilization
  refine NoErr.bind (totalLiabilities_live ok fun hE => by have := (hB hE).debt; omega) fun L hL => ?_
  refine NoErr.bind (totalSupply_live ok fun hE => by have := (hB hE).value; omega) fun S hS => ?_
  have hS0 := totalSupply_pos ok hb hS
  refine NoErr.mulDivCeil (by omega) fun hE => ?_
  have h1 := (hB hE).debt
  have hd := mul_nonneg ok.dSupply (le_trans (by decide) ok.dRate : (0 : Int) ≤ d.dRate)
  have h0 : 0 ≤ L := mulDivCeil_nonneg hL (by decide) hd
  have h2 : L ≤ 10 ^ 27 := ceil_le (by decide) hL (by unfold SCALAR_9; omega)
  unfold SCALAR_7
  omega

theorem utilization_le {u : Int} (ok : DataOk d) (hb : d.bSupply ≠ 0) (hB : Moderate c d now) (h : d.utilization = .ok u) : u ≤ 200000000 := by
  unfold ReserveData.utilization at h
  simp only [bind_ok] at h
  obtain ⟨L, hL, S, hS, hu⟩ := h
  have hS0 := totalSupply_pos ok hb hS
  have h1 := hB.util
  have h2 := (mulDivCeil_spec hL (by decide)).2
  have h3 := (mulDivFloor_spec hS (by decide)).2
  unfold SCALAR_9 at h2 h3
  refine ceil_le (by omega) hu ?_
  unfold SCALAR_7
  have : L ≤ 10 * S + 10 := by omega
  omega

/-- the accrued debt per share -/
theorem dRate_le {a x : Int} (ok : DataOk d) (hB : Moderate c d now) (ha : a ≤ 870000000000) (h : fixedMulCeil a d.dRate SCALAR_9 = .ok x) :
    d.dSupply * x ≤ 9 * 10 ^ 37 := by
  have h1 := (mulDivCeil_spec h (by decide)).2
  have h2 := ok.dSupply
  have h3 := ok.dRate
  have h4 := hB.debt
  unfold SCALAR_9 at h1
  have h5 : d.dSupply * (x * 1000000000) ≤ d.dSupply * (a * d.dRate + 1000000000) := mul_le_mul_of_nonneg_left (by omega) h2
  have h6 : d.dSupply * 1000000000 ≤ d.dSupply * d.dRate := mul_le_mul_of_nonneg_left h3 h2
  have h7 : a * (d.dSupply * d.dRate) ≤ 870000000000 * (d.dSupply * d.dRate) :=
    mul_le_mul_of_nonneg_right ha (mul_nonneg h2 (by omega))
  nlinarith

/-- **interest accrual fails only by overflow, and not at all for reserves of ordinary size** -/
theorem accrue_live {rate : Nat} (hc : ValidConfig c) (ok : DataOk d) (hl : d.lastTime ≤ now) (hr : rate < 10000000)
    (hB : E .overflow = true → Moderate c d now) : NoErr E (accrue c rate now d) := by
  have hd := mul_nonneg ok.dSupply (le_trans (by decide) ok.dRate : (0 : Int) ≤ d.dRate)
  have hv := mul_nonneg ok.bSupply (le_trans (by decide) ok.bRate : (0 : Int) ≤ d.bRate)
  have hdr := ok.dRate
  unfold accrue
  split
  · exact NoErr.pure
  split
  · exact NoErr.pure
  rename_i hb
  refine NoErr.bind (utilization_live ok hb hB) fun u hu => ?_
  have hu0 := utilization_nonneg hu ok.dSupply ok.bSupply (by omega) (by have := ok.bRate; omega)
  split
  · exact NoErr.pure
  rename_i hu1
  have hup : 0 < u := by omega
  have hm0 : 0 ≤ d.irMod := by have := ok.irMod_lo; omega
  have hsz : E .overflow = true → d.irMod ≤ 10000000000 ∧ u ≤ 200000000 ∧ c.rThree ≤ 1000000000 ∧ now ≤ d.lastTime + 604800 := fun hE =>
    ⟨ok.irMod_hi, utilization_le ok hb (hB hE) hu, (hB hE).slope, (hB hE).week⟩
  refine NoErr.bind (calcAccrual_live hc hup hm0 hl hsz) fun am hac => ?_
  obtain ⟨a, m'⟩ := am
  have ha1 := (calcAccrual_ge_one hac hu0 hm0 hc.util).1
  have ha2 : E .overflow = true → a ≤ 870000000000 := fun hE => calcAccrual_le hc hup hm0 (hsz hE) hac
  refine NoErr.bind (totalSupply_live ok fun hE => by have := (hB hE).value; omega) fun S hS => ?_
  have hS0 := totalSupply_pos ok hb hS
  have hS1 : E .overflow = true → S ≤ 10 ^ 26 := fun hE => floor_le (by decide) hS (by have := (hB hE).value; unfold SCALAR_9; omega)
  refine NoErr.bind (totalLiabilities_live ok fun hE => by have := (hB hE).debt; omega) fun L hL => ?_
  have hL0 : 0 ≤ L := mulDivCeil_nonneg hL (by decide) hd
  refine NoErr.bind (NoErr.mulDivCeil (by decide) fun hE => ?_) fun dR hdR => ?_
  · have := prod_le (y := d.dRate) (Y := 10 ^ 20) (by omega) (ha2 hE) (by omega) (hB hE).dRate
    omega
  have hdR0 : 0 ≤ dR := mulDivCeil_nonneg hdR (by decide) (mul_nonneg (by omega) (by omega))
  have hdR1 : E .overflow = true → d.dSupply * dR ≤ 9 * 10 ^ 37 := fun hE => dRate_le ok (hB hE) (ha2 hE) hdR
  dsimp only
  refine NoErr.bind (NoErr.mulDivCeil (by decide) fun hE => ?_) fun L' hL' => ?_
  · have := mul_nonneg ok.dSupply hdR0; have := hdR1 hE; dsimp only; omega
  have hL'0 : 0 ≤ L' := mulDivCeil_nonneg hL' (by decide) (mul_nonneg ok.dSupply hdR0)
  have hL'1 : E .overflow = true → L' ≤ 9 * 10 ^ 28 := fun hE => ceil_le (by decide) hL' (by have := hdR1 hE; dsimp only; unfold SCALAR_9; omega)
  refine NoErr.bind (NoErr.chk fun hE => inI_abs (by have := ceil_le (B := 10 ^ 27) (by decide) hL (by have := (hB hE).debt; unfold SCALAR_9; omega); omega)
    (by have := hL'1 hE; omega)) fun gain hgain => ?_
  rw [chk_ok] at hgain
  split
  · rename_i hg
    have rest : ∀ nc, 0 ≤ nc → nc ≤ gain → NoErr E (do
        let credit ← Blend.chk (d.backstopCredit + nc)
        let tot1 ← Blend.chk (S + gain)
        let tot ← Blend.chk (tot1 - nc)
        let bRate ← fixedDivFloor tot d.bSupply SCALAR_9
        Pure.pure (ReserveData.mk dR bRate m' d.bSupply d.dSupply credit now)) := by
      intro nc hn0 hn1
      refine NoErr.bind (NoErr.chk fun hE => inI_abs (by have := (hB hE).credit; omega)
        (by have := (hB hE).credit; have := hL'1 hE; omega)) fun cr hcr => ?_
      refine NoErr.bind (NoErr.chk fun hE => inI (by omega) (by have := hL'1 hE; have := hS1 hE; omega)) fun t1 ht1 => ?_
      rw [chk_ok] at ht1
      refine NoErr.bind (NoErr.chk fun hE => inI (by omega) (by have := hL'1 hE; have := hS1 hE; omega)) fun t ht => ?_
      rw [chk_ok] at ht
      refine NoErr.bind (NoErr.mulDivFloor (by have := ok.bSupply; omega) fun hE => ?_) fun _ _ => NoErr.pure
      have := hL'1 hE
      have := hS1 hE
      exact inI (by unfold SCALAR_9; omega) (by unfold SCALAR_9; omega)
    split
    · refine NoErr.bind (NoErr.mulDivFloor (by decide) fun hE => ?_) fun nc hnc => rest nc ?_ ?_
      · have := hL'1 hE
        have := prod_le (x := gain) (y := (rate : Int)) (X := 9 * 10 ^ 28) (Y := 10000000) hg.le (by omega) (by omega) (by omega)
        exact inI this.1 (by omega)
      · exact mulDivFloor_nonneg hnc (by decide) (mul_nonneg hg.le (by omega))
      · exact floor_le (by decide) hnc (by unfold SCALAR_7; nlinarith)
    · exact rest 0 (le_refl _) hg.le
  · exact NoErr.pure

/-- the size of a reserve after accrual -/
theorem accrue_le {rate : Nat} {d' : ReserveData} (hc : ValidConfig c) (ok : DataOk d)
    (hB : Moderate c d now) (h : accrue c rate now d = .ok d') :
    d'.dSupply * d'.dRate ≤ 10 ^ 38 ∧ d'.bSupply * d'.bRate ≤ 10 ^ 38 := by
  have hd := hB.debt
  have hv := hB.value
  have h0 := mul_nonneg ok.dSupply (le_trans (by decide) ok.dRate : (0 : Int) ≤ d.dRate)
  rcases accrue_cases h with ⟨h1, rfl⟩ | ⟨_, rfl, _⟩ | ⟨u, a, irm, S, L, dR, L', h1, h2, h3, hu, hac, hS, hL, hdR, hL', hr⟩
  · exact ⟨by omega, by omega⟩
  · exact ⟨by dsimp only; omega, by dsimp only; omega⟩
  have hu0 := utilization_nonneg hu ok.dSupply ok.bSupply (by have := ok.dRate; omega) (by have := ok.bRate; omega)
  have hm0 : 0 ≤ d.irMod := by have := ok.irMod_lo; omega
  have ha2 : a ≤ 870000000000 := calcAccrual_le hc (by omega) hm0 ⟨ok.irMod_hi, utilization_le ok h2 hB hu, hB.slope, hB.week⟩ hac
  have ha1 := (calcAccrual_ge_one hac hu0 hm0 hc.util).1
  have hdR1 := dRate_le ok hB ha2 hdR
  have hdR0 : 0 ≤ dR := mulDivCeil_nonneg hdR (by decide) (mul_nonneg (by omega) (by have := ok.dRate; omega))
  have hL'1 : L' ≤ 9 * 10 ^ 28 := ceil_le (by decide) hL' (by dsimp only; unfold SCALAR_9; omega)
  have hL0 : 0 ≤ L := mulDivCeil_nonneg hL (by decide) h0
  have hS1 : S ≤ 10 ^ 26 := floor_le (by decide) hS (by unfold SCALAR_9; omega)
  rcases hr with ⟨_, rfl⟩ | ⟨nc, bR, hg, hnc, hbR, rfl⟩
  · exact ⟨by dsimp only; omega, by dsimp only; omega⟩
  · refine ⟨by dsimp only; omega, ?_⟩
    have hb := ok.bSupply
    have hn : 0 ≤ nc := by
      rcases hnc with ⟨_, h⟩ | ⟨_, rfl⟩
      · exact mulDivFloor_nonneg h (by decide) (mul_nonneg hg.le (by omega))
      · exact le_refl _
    have := (mulDivFloor_spec hbR (by omega)).1
    dsimp only
    unfold SCALAR_9 at this
    rw [mul_comm]
    omega

end Blend
