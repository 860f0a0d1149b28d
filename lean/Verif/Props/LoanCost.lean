import Verif.Lemmas.UtilCap
import Verif.Props.Growth
import Verif.Props.Submit
import Verif.Props.Grace
/-
  C100: what a loan costs and what a deposit returns.
-/

namespace Blend
namespace Pool
open Spec

/-- after a plain request, the interest of its reserve is stored -/
theorem plain_stored {w w' : World} (hr : Reachable w) {p : Address} {auth : List Address} {sender spender dst : Address} {q : Request}
    (hq : Plain q) (h : step w (.pool p auth (.submit sender spender dst [q])) = .ok w') :
    ∃ d, (w'.pools p).resData q.address = some d ∧ d.lastTime = w.time := by
  obtain ⟨hp, cache, s, v⟩ := submit_view hr h
  have hf := v.fold
  have f := flight_of hr hp v.sender_ne v.load (auth := auth) (l := []) (by rw [foldlM_nil])
  have f' := flight_of hr hp v.sender_ne v.load hf
  rw [foldlM_cons] at hf
  obtain ⟨s1, h1, h2⟩ := hf
  rw [foldlM_nil] at h2
  subst h2
  obtain ⟨⟨r, r', cache', hld, hlo, hres, _⟩, _⟩ := plain_step f hq h1
  have hg : s1.fl.cache.reserves.get q.address = some r' := by rw [hres]; simp
  refine ⟨r'.data, ?_, (f'.cacheOk.res _ _ hg).time⟩
  rw [v.pools]
  show overlayData _ _ _ = _
  simp [overlayData, hg]

end Pool

namespace Props
open Spec Pool

/-- **C100** What a loan costs: an account that owes nothing in a reserve borrows `n` tokens of it, and when it has repaid all of it later,
it has paid at least `n`, and at most `n` compounded every second at ten times the highest rate of the curve, plus the worth of two shares. -/
theorem C100_loan {w w1 w2 w3 : World} (hr : Reachable w) {p : Address} {auth auth' : List Address} {u sp dst sp' dst' t : Address}
    {n m : Int} (h : step w (.pool p auth (.submit u sp dst [⟨4, t, n⟩])) = .ok w1) {S : Nat}
    (hist : HistoryIn (NormalUse p t S) w1 w2) (hn : NormalUse p t S w2)
    (h' : step w2 (.pool p auth' (.submit u sp' dst' [⟨5, t, m⟩])) = .ok w3)
    {c : ReserveConfig} (hc : (w.pools p).resConfig t = some c)
    (h0 : (accountOf (w.pools p) u).debt c.index = 0)
    (hk : (accountOf (w2.pools p) u).debt c.index = (accountOf (w1.pools p) u).debt c.index)
    (h3 : (accountOf (w3.pools p) u).debt c.index = 0) :
    w1.balance t p = w.balance t p - n ∧
    ∃ paid : Int, w3.balance t p = w2.balance t p + paid ∧ n ≤ paid ∧ ∃ d, (w3.pools p).resData t = some d ∧
      (paid : ℚ) ≤ n * growth S ^ (w2.time - w.time) + 2 * (d.dRate / 10 ^ 9) := by
  obtain ⟨hp, _⟩ := submit_view hr h
  have hr1 := hr.step h
  have hp1 : w1.poolAddr p = true := by rw [(step_res hr.base h).poolAddr]; exact hp
  have st := historyIn_steps hist
  have hr2 := hr1.steps st
  have hp2 : w2.poolAddr p = true := by rw [(st.poolAddr hr1.base).1]; exact hp1
  have hr3 := hr2.step h'
  have hp3 : w3.poolAddr p = true := by rw [(step_res hr2.base h').poolAddr]; exact hp2
  obtain ⟨c1, d1, k, hc1, hd1, hk1, hk0, hb1, _, e1⟩ := C04_borrow hr h
  obtain ⟨c3, d3, b, paid, hc3, hd3, hb3, e3, hle, _, hcase⟩ := C04_repay hr2 h'
  have i1 : c1.index = c.index := by
    obtain ⟨c', g, gi, _⟩ := (C23_identity_stable hr (.tail (.refl _) ⟨_, h⟩) hp).1 t c hc
    rw [hc1] at g; cases g; exact gi
  have i3 : c3.index = c.index := by
    obtain ⟨c', g, gi, _⟩ := (C23_identity_stable hr1 (.tail st ⟨_, h'⟩) hp1).1 t c1 hc1
    rw [hc3] at g; cases g; omega
  refine ⟨e1, paid, e3, ?_⟩
  simp only [accountOf] at h0 hk h3
  rw [i1] at hb1
  rw [i3] at hb3 hcase
  have hbk : b = k := by omega
  subst hbk
  obtain ⟨d1', g1, t1⟩ := plain_stored hr (q := ⟨4, t, n⟩) (by simp [Plain]) h
  rw [show (⟨4, t, n⟩ : Request).address = t from rfl, hd1] at g1; cases g1
  obtain ⟨d3', g3, t3⟩ := plain_stored hr2 (q := ⟨5, t, m⟩) (by simp [Plain]) h'
  rw [show (⟨5, t, m⟩ : Request).address = t from rfl, hd3] at g3; cases g3
  obtain ⟨_, hg⟩ := C78_at_most hr1 hp1 (.tail hist hn h') hd1 hd3
  rw [t1, t3] at hg
  have r1 := (hr1.pinv hp1).rates t d1 hd1
  have r3 := (hr3.pinv hp3).rates t d3 hd3
  have hmono : d1.dRate ≤ d3.dRate := by
    obtain ⟨x, hx, l, _⟩ := hr1.ratesGrow (.tail st ⟨_, h'⟩) hp1 t d1 hd1
    have hx : (w3.pools p).resData t = some x := hx
    rw [hd3] at hx; cases hx
    exact l
  unfold ONE9 at *
  refine ⟨?_, d3, hd3, ?_⟩
  · have := mul_le_mul_of_nonneg_left hmono hk0.le
    have := hk1.2
    omega
  have d1p : (0 : ℚ) < d1.dRate := by exact_mod_cast (by omega : (0 : Int) < d1.dRate)
  have d3p : (10 ^ 9 : ℚ) ≤ d3.dRate := by exact_mod_cast (by omega : (10 ^ 9 : Int) ≤ d3.dRate)
  have q1 : ((b : ℚ) - 1) * d1.dRate ≤ n * 10 ^ 9 := by
    have := hk1.1
    have : ((b : ℚ) - 1) * d1.dRate < n * 1000000000 := by exact_mod_cast this
    norm_num; linarith
  have q2 : (paid : ℚ) * 10 ^ 9 ≤ (b + 1) * d3.dRate := by
    rcases hcase with ⟨rfl, hfl⟩ | ⟨_, hce, _⟩
    · have := hfl.2
      have : (paid : ℚ) * 1000000000 < (b + 1) * d3.dRate := by exact_mod_cast this
      norm_num; linarith
    · have := hce.1
      have : ((paid : ℚ) - 1) * 1000000000 < b * d3.dRate := by exact_mod_cast this
      norm_num at d3p ⊢; linarith
  have n0 : (0 : ℚ) ≤ n := by
    have : (0 : Int) ≤ n := by
      have hh := hk1.1
      have : (0 : Int) ≤ (b - 1) * d1.dRate := Int.mul_nonneg (by omega) (by omega)
      omega
    exact_mod_cast this
  have b1 : (0 : ℚ) ≤ b - 1 := by
    have : (1 : ℚ) ≤ b := by exact_mod_cast (by omega : (1 : Int) ≤ b)
    linarith
  have q3 : ((b : ℚ) - 1) * d3.dRate ≤ n * 10 ^ 9 * growth S ^ (w2.time - w.time) := by
    have hG : (0 : ℚ) ≤ growth S ^ (w2.time - w.time) := pow_nonneg (by linarith [growth_ge (S := (S : ℚ)) (Nat.cast_nonneg _)]) _
    calc ((b : ℚ) - 1) * d3.dRate ≤ (b - 1) * (d1.dRate * growth S ^ (w2.time - w.time)) := mul_le_mul_of_nonneg_left hg b1
      _ = (b - 1) * d1.dRate * growth S ^ (w2.time - w.time) := by ring
      _ ≤ _ := mul_le_mul_of_nonneg_right q1 hG
  have : (paid : ℚ) * 10 ^ 9 ≤ (n * growth S ^ (w2.time - w.time) + 2 * (d3.dRate / 10 ^ 9)) * 10 ^ 9 := by
    have e : (n * growth S ^ (w2.time - w.time) + 2 * (d3.dRate / 10 ^ 9)) * 10 ^ 9 =
      n * 10 ^ 9 * growth S ^ (w2.time - w.time) + 2 * (d3.dRate : ℚ) := by field_simp
    rw [e]; linarith
  exact le_of_mul_le_mul_right this (by norm_num)

/-- **C100** What a deposit returns: an account without a supply of a reserve supplies `n` tokens of it, and when it has withdrawn all of it
later, it has got what the `n` tokens have grown to with the price of the shares, up to the worth of two shares. -/
theorem C100_deposit {w w1 w2 w3 : World} (hr : Reachable w) {p : Address} {auth auth' : List Address} {u sp dst sp' dst' t : Address}
    {n m : Int} (h : step w (.pool p auth (.submit u sp dst [⟨0, t, n⟩])) = .ok w1)
    (st : Steps w1 w2)
    (h' : step w2 (.pool p auth' (.submit u sp' dst' [⟨1, t, m⟩])) = .ok w3)
    {c : ReserveConfig} (hc : (w.pools p).resConfig t = some c)
    (h0 : (accountOf (w.pools p) u).supplied c.index = 0)
    (hk : (accountOf (w2.pools p) u).supplied c.index = (accountOf (w1.pools p) u).supplied c.index)
    (h3 : (accountOf (w3.pools p) u).supplied c.index = 0) :
    w1.balance t p = w.balance t p + n ∧
    ∃ (got : Int) (d1 d3 : ReserveData), w3.balance t p = w2.balance t p - got ∧ (w1.pools p).resData t = some d1 ∧
      (w3.pools p).resData t = some d3 ∧ d1.bRate ≤ d3.bRate ∧ (got : ℚ) ≤ n * (d3.bRate / d1.bRate) ∧
      n * (d3.bRate / d1.bRate : ℚ) - 2 * (d3.bRate / 10 ^ 9) ≤ got := by
  obtain ⟨hp, _⟩ := submit_view hr h
  have hr1 := hr.step h
  have hp1 : w1.poolAddr p = true := by rw [(step_res hr.base h).poolAddr]; exact hp
  have hr2 := hr1.steps st
  have hp2 : w2.poolAddr p = true := by rw [(st.poolAddr hr1.base).1]; exact hp1
  have hr3 := hr2.step h'
  have hp3 : w3.poolAddr p = true := by rw [(step_res hr2.base h').poolAddr]; exact hp2
  obtain ⟨c1, d1, k, hc1, hd1, hk1, hk0, hb1, e1⟩ := C03_supply hr h
  obtain ⟨c3, d3, b, paid, hc3, hd3, hb3, e3, hle, hcase⟩ := C03_withdraw hr2 h'
  have i1 : c1.index = c.index := by
    obtain ⟨c', g, gi, _⟩ := (C23_identity_stable hr (.tail (.refl _) ⟨_, h⟩) hp).1 t c hc
    rw [hc1] at g; cases g; exact gi
  have i3 : c3.index = c.index := by
    obtain ⟨c', g, gi, _⟩ := (C23_identity_stable hr1 (.tail st ⟨_, h'⟩) hp1).1 t c1 hc1
    rw [hc3] at g; cases g; omega
  simp only [accountOf] at h0 hk h3
  rw [i1] at hb1
  rw [i3] at hb3 hcase
  have hbk : b = k := by omega
  subst hbk
  have r1 := (hr1.pinv hp1).rates t d1 hd1
  have r3 := (hr3.pinv hp3).rates t d3 hd3
  have hmono : d1.bRate ≤ d3.bRate := by
    obtain ⟨x, hx, _, l, _⟩ := hr1.ratesGrow (.tail st ⟨_, h'⟩) hp1 t d1 hd1
    have hx : (w3.pools p).resData t = some x := hx
    rw [hd3] at hx; cases hx
    exact l
  refine ⟨e1, paid, d1, d3, e3, hd1, hd3, hmono, ?_⟩
  unfold ONE9 at *
  have d1p : (0 : ℚ) < d1.bRate := by exact_mod_cast (by omega : (0 : Int) < d1.bRate)
  have d3p : (10 ^ 9 : ℚ) ≤ d3.bRate := by exact_mod_cast (by omega : (10 ^ 9 : Int) ≤ d3.bRate)
  have d3p0 : (0 : ℚ) < d3.bRate := lt_of_lt_of_le (by norm_num) d3p
  have q1 : (b : ℚ) * d1.bRate ≤ n * 10 ^ 9 ∧ (n : ℚ) * 10 ^ 9 ≤ (b + 1) * d1.bRate := by
    have a1 : (b : ℚ) * d1.bRate ≤ n * 1000000000 := by exact_mod_cast hk1.1
    have a2 : (n : ℚ) * 1000000000 < (b + 1) * d1.bRate := by exact_mod_cast hk1.2
    norm_num; exact ⟨a1, a2.le⟩
  have q2 : (paid : ℚ) * 10 ^ 9 ≤ b * d3.bRate ∧ ((b : ℚ) - 1) * d3.bRate ≤ paid * 10 ^ 9 := by
    have a1 : (paid : ℚ) * 1000000000 ≤ b * d3.bRate := by exact_mod_cast hle
    refine ⟨by norm_num; exact a1, ?_⟩
    rcases hcase with ⟨rfl, hce⟩ | ⟨_, hfl, _⟩
    · have : ((b : ℚ) - 1) * d3.bRate < paid * 1000000000 := by exact_mod_cast hce.1
      norm_num; linarith
    · have : (b : ℚ) * d3.bRate < (paid + 1) * 1000000000 := by exact_mod_cast hfl.2
      norm_num at d3p ⊢; linarith
  have x0 : (0 : ℚ) ≤ d3.bRate / d1.bRate := by positivity
  have m1 := mul_le_mul_of_nonneg_right q1.1 x0
  have m2 := mul_le_mul_of_nonneg_right q1.2 x0
  have c1' : (b : ℚ) * d1.bRate * (d3.bRate / d1.bRate) = b * d3.bRate := by field_simp
  have c2' : ((b : ℚ) + 1) * d1.bRate * (d3.bRate / d1.bRate) = (b + 1) * d3.bRate := by field_simp
  rw [c1'] at m1
  rw [c2'] at m2
  constructor
  · have : (paid : ℚ) * 10 ^ 9 ≤ n * (d3.bRate / d1.bRate) * 10 ^ 9 := by linarith [q2.1]
    exact le_of_mul_le_mul_right this (by norm_num)
  · have e : ((n : ℚ) * (d3.bRate / d1.bRate) - 2 * (d3.bRate / 10 ^ 9)) * 10 ^ 9 = n * 10 ^ 9 * (d3.bRate / d1.bRate) - 2 * d3.bRate := by
      field_simp
    have : ((n : ℚ) * (d3.bRate / d1.bRate) - 2 * (d3.bRate / 10 ^ 9)) * 10 ^ 9 ≤ paid * 10 ^ 9 := by rw [e]; linarith [q2.2]
    exact le_of_mul_le_mul_right this (by norm_num)

open Demo

/-- dave supplies USDC as collateral -/
def beforeLoan : List Op := [.pool poolA [dave] (.submit dave dave dave [⟨2, usdcA, 100000000000⟩])]

/-- non-vacuity of `C100_loan`: dave borrows XLM, a day passes, and he repays; he pays more than he got -/
example : ∃ (w w1 w2 w3 : World) (c : ReserveConfig), Reachable w ∧
    step w (.pool poolA [dave] (.submit dave dave dave [⟨4, xlmA, 10000000000⟩])) = .ok w1 ∧
    HistoryIn (NormalUse poolA xlmA 20000000) w1 w2 ∧ NormalUse poolA xlmA 20000000 w2 ∧
    step w2 (.pool poolA [dave] (.submit dave dave dave [⟨5, xlmA, 11000000000⟩])) = .ok w3 ∧
    (w.pools poolA).resConfig xlmA = some c ∧ (accountOf (w.pools poolA) dave).debt c.index = 0 ∧
    (accountOf (w2.pools poolA) dave).debt c.index = (accountOf (w1.pools poolA) dave).debt c.index ∧
    (accountOf (w3.pools poolA) dave).debt c.index = 0 ∧ w2.time = w.time + 86400 ∧
    w2.balance xlmA poolA + 10000000000 < w3.balance xlmA poolA := by
  obtain ⟨w, _, hr, h⟩ := Demo.reach
    (ops := setup ++ trade ++ emissions ++ [prices 1713150200 10000000 800000] ++ beforeLoan)
    (f := fun w => okAnd (step w (.pool poolA [dave] (.submit dave dave dave [⟨4, xlmA, 10000000000⟩]))) fun w1 =>
      okAnd (step w1 (.ledger 86400 17280)) fun w2 =>
      okAnd (step w2 (.pool poolA [dave] (.submit dave dave dave [⟨5, xlmA, 11000000000⟩]))) fun w3 =>
      (optAnd ((w.pools poolA).resConfig xlmA) fun c => decide ((accountOf (w.pools poolA) dave).debt c.index = 0 ∧
        (accountOf (w2.pools poolA) dave).debt c.index = (accountOf (w1.pools poolA) dave).debt c.index ∧
        (accountOf (w3.pools poolA) dave).debt c.index = 0 ∧ w2.time = w.time + 86400 ∧
        w2.balance xlmA poolA + 10000000000 < w3.balance xlmA poolA)) &&
      (optAnd ((w1.pools poolA).resConfig xlmA) fun c => optAnd ((w1.pools poolA).resData xlmA) fun d =>
        decide (c.rBase + c.rOne + c.rTwo + c.rThree ≤ 20000000 ∧ d.dSupply * d.dRate + 2000000000 ≤ d.bSupply * d.bRate)) &&
      (optAnd ((w2.pools poolA).resConfig xlmA) fun c => optAnd ((w2.pools poolA).resData xlmA) fun d =>
        decide (c.rBase + c.rOne + c.rTwo + c.rThree ≤ 20000000 ∧ d.dSupply * d.dRate + 2000000000 ≤ d.bSupply * d.bRate)))
    (by decide +kernel)
  simp only [okAnd_iff, optAnd_iff, Bool.and_eq_true, decide_eq_true_eq] at h
  obtain ⟨w1, h1, w2, h2, w3, h3, ⟨⟨c, hc, k1, k2, k3, k4, k5⟩, c1, hc1, d1, hd1, n1⟩, c2, hc2, d2, hd2, n2⟩ := h
  exact ⟨w, w1, w2, w3, c, hr, h1, .tail (.refl _) (ordinary_of hc1 hd1 n1) h2, ordinary_of hc2 hd2 n2, h3, hc, k1, k2, k3, k4, k5⟩

/-- non-vacuity of `C100_deposit`: dave supplies USDC, a year passes, and he withdraws more than he supplied -/
example : ∃ (w w1 w2 w3 : World) (c : ReserveConfig), Reachable w ∧
    step w (.pool poolA [dave] (.submit dave dave dave [⟨0, usdcA, 10000000000⟩])) = .ok w1 ∧ Steps w1 w2 ∧
    step w2 (.pool poolA [dave] (.submit dave dave dave [⟨1, usdcA, 20000000000⟩])) = .ok w3 ∧
    (w.pools poolA).resConfig usdcA = some c ∧ (accountOf (w.pools poolA) dave).supplied c.index = 0 ∧
    (accountOf (w2.pools poolA) dave).supplied c.index = (accountOf (w1.pools poolA) dave).supplied c.index ∧
    (accountOf (w3.pools poolA) dave).supplied c.index = 0 ∧ w3.balance usdcA poolA + 10000000000 < w2.balance usdcA poolA := by
  obtain ⟨w, _, hr, h⟩ := Demo.reach
    (ops := setup ++ trade)
    (f := fun w => okAnd (step w (.pool poolA [dave] (.submit dave dave dave [⟨0, usdcA, 10000000000⟩]))) fun w1 =>
      okAnd (step w1 (.ledger 31536000 1000)) fun w2 =>
      okAnd (step w2 (.pool poolA [dave] (.submit dave dave dave [⟨1, usdcA, 20000000000⟩]))) fun w3 =>
      (optAnd ((w.pools poolA).resConfig usdcA) fun c => decide ((accountOf (w.pools poolA) dave).supplied c.index = 0 ∧
        (accountOf (w2.pools poolA) dave).supplied c.index = (accountOf (w1.pools poolA) dave).supplied c.index ∧
        (accountOf (w3.pools poolA) dave).supplied c.index = 0 ∧ w3.balance usdcA poolA + 10000000000 < w2.balance usdcA poolA)))
    (by decide +kernel)
  simp only [okAnd_iff, optAnd_iff, decide_eq_true_eq] at h
  obtain ⟨w1, h1, w2, h2, w3, h3, c, hc, k1, k2, k3, k4⟩ := h
  exact ⟨w, w1, w2, w3, c, hr, h1, .tail (.refl _) ⟨_, h2⟩, h3, hc, k1, k2, k3, k4⟩

end Props
end Blend
