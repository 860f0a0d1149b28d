import Verif.Spec.Grace
import Verif.Props.Calm
import Verif.Props.Growth
import Verif.Props.Bonus
import Verif.Props.Margin
import Verif.Props.Accounting
/-
  C99: how long a borrower has.

  The statements use `Verif/Spec/Grace.lean`.
-/

namespace Blend
namespace Pool
open Spec

theorem historyIn_mono {P Q : World → Prop} (h : ∀ v, P v → Q v) {w w' : World} (hh : HistoryIn P w w') : HistoryIn Q w w' := by
  induction hh with
  | refl => exact .refl _
  | tail _ hP hs ih => exact .tail ih (h _ hP) hs

/-- the collateral of an account under prices and rates that are not lower -/
theorem coll_time {w g : World} {V V' : PoolState} {i : Nat} {b v v' : Int} (h : CollateralItem w V i b v) (h' : CollateralItem g V' i b v')
    (hb : 0 ≤ b) (hl : ∀ a, V.resList[i]? = some a → V'.resList[i]? = some a) (hc : ∀ a c, V.resConfig a = some c → V'.resConfig a = some c)
    (hx : b ≠ 0 → ∀ a, V.resList[i]? = some a → (∀ x x', FreshPrice w V a x → FreshPrice g V' a x' → x ≤ x') ∧
      ∀ d d', Current V w.time a d → Current V' g.time a d' → d.bRate ≤ d'.bRate) (hp : PricesOk w V) (hr : RatesPos V w.time) : v ≤ v' := by
  by_cases h0 : b = 0
  · subst h0
    rw [CollateralItem.unique h (.inl ⟨rfl, rfl⟩), CollateralItem.unique h' (.inl ⟨rfl, rfl⟩)]
  rcases h with ⟨h, _⟩ | ⟨a, c, d, x, n, e, h1, h2, h3, h4, h5, h6, h7⟩
  · exact absurd h h0
  rcases h' with ⟨h', _⟩ | ⟨a', c', d', x', n', e', g1, g2, g3, g4, g5, g6, g7⟩
  · exact absurd h' h0
  rw [hl a h1] at g1; cases g1
  rw [hc a c h2] at g2; cases g2
  obtain ⟨kx, kd⟩ := hx h0 a h1
  have hxx := kx x x' h4 g4
  have hdd := kd d d' h3 g3
  have hx0 := price_nonneg hp h1 h4
  have hrt := (hr a d h3).1
  have n0 := IsFloor.nonneg h5 (by decide) (Int.mul_nonneg hb (by omega))
  have e0 := IsFloor.nonneg h6 (by decide) (Int.mul_nonneg n0 (by positivity))
  have k1 : n ≤ n' := floor_mono' (by decide) h5 g5 (mul_le_mul_of_nonneg_left hdd hb)
  have k2 : e ≤ e' := floor_mono' (by decide) h6 g6 (mul_le_mul_of_nonneg_right k1 (by positivity))
  exact floor_mono' (by positivity) h7 g7 (mul_le_mul hxx k2 e0 (by omega))

/-- the debts of an account when the value of debt shares in tokens grows by at most the factor `G` -/
theorem liab_time {w g : World} {V V' : PoolState} {i : Nat} {b v v' : Int} {G : ℚ} (h : LiabilityItem w V i b v)
    (h' : LiabilityItem g V' i b v') (hb : 0 ≤ b) (hG : 1 ≤ G)
    (hl : ∀ a, V.resList[i]? = some a → V'.resList[i]? = some a) (hc : ∀ a c, V.resConfig a = some c → V'.resConfig a = some c)
    (hx : b ≠ 0 → ∀ a, V.resList[i]? = some a → (∀ x x', FreshPrice w V a x → FreshPrice g V' a x' → x' ≤ x) ∧
      ∀ d d', Current V w.time a d → Current V' g.time a d' → (d'.dRate : ℚ) ≤ d.dRate * G) (hp : PricesOk w V) (hr' : RatesPos V' g.time)
    {E : ℚ} (hE : b ≠ 0 → ∃ a c x, V.resList[i]? = some a ∧ V.resConfig a = some c ∧ FreshPrice w V a x ∧
      E = 1 + (x : ℚ) / 10 ^ c.decimals * (1 + 10 ^ 7 / c.lFactor)) :
    (v' : ℚ) ≤ G * v + if b = 0 then 0 else E := by
  by_cases h0 : b = 0
  · subst h0
    rw [LiabilityItem.unique h (.inl ⟨rfl, rfl⟩), LiabilityItem.unique h' (.inl ⟨rfl, rfl⟩)]; simp
  rcases h with ⟨h, _⟩ | ⟨a, c, d, x, n, e, h1, h2, h3, h4, h5, hlf, h6, h7⟩
  · exact absurd h h0
  rcases h' with ⟨h', _⟩ | ⟨a', c', d', x', n', e', g1, g2, g3, g4, g5, _, g6, g7⟩
  · exact absurd h' h0
  obtain ⟨a2, c2, x2, j1, j2, j3, rfl⟩ := hE h0
  rw [h1] at j1; cases j1
  rw [h2] at j2; cases j2
  obtain rfl := FreshPrice.unique h4 j3
  rw [hl a h1] at g1; cases g1
  rw [hc a c h2] at g2; cases g2
  obtain ⟨kx, kd⟩ := hx h0 a h1
  have hxx : (x' : ℚ) ≤ x := by exact_mod_cast kx x x' h4 g4
  have hdd := kd d d' h3 g3
  have hx0 : (0 : ℚ) ≤ x := by exact_mod_cast price_nonneg hp h1 h4
  have hlq : (0 : ℚ) < c.lFactor := by exact_mod_cast hlf
  have hlz : (0 : Int) < c.lFactor := by exact_mod_cast hlf
  have hbq : (0 : ℚ) ≤ b := by exact_mod_cast hb
  have hD : (0 : ℚ) < 10 ^ c.decimals := by positivity
  have n0 : (0 : ℚ) ≤ n' := by
    have := (hr' a d' g3).2
    exact_mod_cast IsCeil.nonneg g5 (by decide) (Int.mul_nonneg hb (by omega))
  have e0 : (0 : ℚ) ≤ e' := by
    have : (0 : Int) ≤ n' := by exact_mod_cast n0
    exact_mod_cast IsCeil.nonneg g6 hlz (Int.mul_nonneg this (by decide))
  have p1 : (b : ℚ) * d.dRate / 10 ^ 9 ≤ n ∧ (n' : ℚ) ≤ b * d'.dRate / 10 ^ 9 + 1 := by
    have := q_ceil h5 (by unfold ONE9; norm_num)
    have := q_ceil_lt g5 (by unfold ONE9; norm_num)
    unfold ONE9 at *; push_cast at *; norm_num at *; constructor <;> assumption
  have p2 : (n : ℚ) * 10 ^ 7 / c.lFactor ≤ e ∧ (e' : ℚ) ≤ n' * 10 ^ 7 / c.lFactor + 1 := by
    have := q_ceil h6 hlz
    have := q_ceil_lt g6 hlz
    unfold ONE7 at *; push_cast at *; norm_num at *; constructor <;> assumption
  have p3 : (x : ℚ) * e / 10 ^ c.decimals ≤ v ∧ (v' : ℚ) ≤ x' * e' / 10 ^ c.decimals + 1 := by
    have := q_ceil h7 (by positivity)
    have := q_ceil_lt g7 (by positivity)
    push_cast at *; constructor <;> assumption
  rw [if_neg h0]
  have q1 : (n' : ℚ) ≤ G * n + 1 := by
    have k := mul_le_mul_of_nonneg_left hdd hbq
    have k2 := mul_le_mul_of_nonneg_left p1.1 (show (0 : ℚ) ≤ G by linarith)
    have : (b : ℚ) * d'.dRate / 10 ^ 9 ≤ G * (b * d.dRate / 10 ^ 9) := by
      rw [mul_div_assoc', div_le_div_iff_of_pos_right (by norm_num)]
      linarith
    linarith [p1.2]
  have q2 : (e' : ℚ) ≤ G * e + (1 + 10 ^ 7 / c.lFactor) := by
    have k : (n' : ℚ) * 10 ^ 7 / c.lFactor ≤ (G * n + 1) * 10 ^ 7 / c.lFactor :=
      div_le_div_of_nonneg_right (mul_le_mul_of_nonneg_right q1 (by norm_num)) hlq.le
    have k2 := mul_le_mul_of_nonneg_left p2.1 (show (0 : ℚ) ≤ G by linarith)
    have e1 : (G * n + 1) * 10 ^ 7 / c.lFactor = G * (n * 10 ^ 7 / c.lFactor) + 10 ^ 7 / c.lFactor := by field_simp
    linarith [p2.2]
  have q3 : (x' : ℚ) * e' / 10 ^ c.decimals ≤ x * (G * e + (1 + 10 ^ 7 / c.lFactor)) / 10 ^ c.decimals :=
    div_le_div_of_nonneg_right (mul_le_mul hxx q2 e0 hx0) hD.le
  have e2 : (x : ℚ) * (G * e + (1 + 10 ^ 7 / c.lFactor)) / 10 ^ c.decimals =
      G * (x * e / 10 ^ c.decimals) + x / 10 ^ c.decimals * (1 + 10 ^ 7 / c.lFactor) := by field_simp
  have k3 := mul_le_mul_of_nonneg_left p3.1 (show (0 : ℚ) ≤ G by linarith)
  linarith [p3.2]

end Pool

namespace Props
open Spec Pool

/-- a debt share at the time of `g` is worth at most what it was at its last accrual before `w`, compounded -/
theorem current_growth {w g : World} (hr : Reachable w) {p a : Address} (hp : w.poolAddr p = true) {S : Nat}
    (h : HistoryIn (NormalUse p a S) w g) (hg : NormalUse p a S g) {d d' : ReserveData} (hd : (w.pools p).resData a = some d)
    (hd' : Current (g.pools p) g.time a d') : (d'.dRate : ℚ) ≤ d.dRate * growth S ^ (g.time - d.lastTime) := by
  have st := historyIn_steps h
  have hrg := hr.steps st
  have hpg : g.poolAddr p = true := by rw [(st.poolAddr hr.base).1]; exact hp
  obtain ⟨d1, hd1, _⟩ := hr.ratesGrow st hp a d hd
  have hd1 : (g.pools p).resData a = some d1 := hd1
  obtain ⟨t1, k1⟩ := C78_at_most hr hp h hd hd1
  have hd'0 := hd'
  obtain ⟨c, d0, i, h1, h2, h3, _⟩ := hd'0
  rw [hd1] at h2; cases h2
  have hA := C47_accrual hrg hpg h1 hd1 h3 hd'
  have hrt := (hrg.pinv hpg).rates a d1 hd1
  obtain ⟨hsum, hu⟩ := hg c d1 h1 hd1
  obtain ⟨_, k2⟩ := accrues_growth hA hrt.1 ⟨by omega, hrt.2.2.2.1⟩ hsum hu
  refine le_trans k2 ?_
  have e : g.time - d.lastTime = (d1.lastTime - d.lastTime) + (g.time - d1.lastTime) := by omega
  rw [e, pow_add, ← mul_assoc]
  have hS := growth_ge (S := (S : ℚ)) (Nat.cast_nonneg _)
  exact mul_le_mul_of_nonneg_right k1 (pow_nonneg (by linarith) _)

theorem current_ge {w : World} (hr : Reachable w) {p a : Address} (hp : w.poolAddr p = true) {d d' : ReserveData}
    (hd : (w.pools p).resData a = some d) (hd' : Current (w.pools p) w.time a d') : d.dRate ≤ d'.dRate := by
  have pi := hr.pinv hp
  have cfg := hr.base.cfg p
  obtain ⟨c, d0, i, hc, hd0, hi, hac⟩ := hd'
  rw [hd] at hd0; cases hd0
  rcases accrue_mono hac (pi.dataOk cfg hd) (cfg.valid a c hc).util (cfg.rate i hi) with h3 | ⟨h3, _⟩
  · exact h3.1
  · have := (pi.rates a d hd).2.2.2.2
    omega

/-- **C99** A share of a reserve whose interest is stored is never worth fewer tokens later (see C63's finding for interest that is
not stored yet: a new take rate applies to it). -/
theorem C99_shares_keep {w g : World} (hr : Reachable w) (st : Steps w g) {p a : Address} (hp : w.poolAddr p = true) {d0 d d' : ReserveData}
    (h0 : (w.pools p).resData a = some d0) (ht : d0.lastTime = w.time) (hd : Current (w.pools p) w.time a d)
    (hd' : Current (g.pools p) g.time a d') : d.bRate ≤ d'.bRate := by
  have hrg := hr.steps st
  have hpg : g.poolAddr p = true := by rw [(st.poolAddr hr.base).1]; exact hp
  obtain ⟨c, e0, i, _, he0, _, hac⟩ := hd
  rw [h0] at he0; cases he0
  have : d = d0 := by
    unfold accrue at hac
    rw [if_pos ht.symm] at hac
    cases hac; rfl
  subst this
  obtain ⟨d1, hd1, _, k, _⟩ := hr.ratesGrow st hp a d h0
  have hd1 : (g.pools p).resData a = some d1 := hd1
  obtain ⟨c', e1, i', hc', he1, hi', hac'⟩ := hd'
  rw [hd1] at he1; cases he1
  have pi := hrg.pinv hpg
  have cfg := hrg.base.cfg p
  rcases accrue_mono hac' (pi.dataOk cfg hd1) (cfg.valid a c' hc').util (cfg.rate i' hi') with h3 | ⟨h3, _⟩
  · omega
  · have := (pi.rates a d1 hd1).2.2.2.2
    omega

/-- **C99** How long a borrower has: when the collateral of an account at `w` is worth more than its debts compounded for `T` seconds at
ten times the highest rate of the curve, plus the rounding dust, no liquidation of it can be created at `g`, where nothing happened to the
account but that time passed (other accounts did what they like), as long as its debts were accrued less than `T` seconds before `g`
and the reserves it owes were in normal use all the time. -/
theorem C99_not_liquidated {w g : World} (hr : Reachable w) {p u : Address} (hp : w.poolAddr p = true)
    (hprice : PricesOk w (w.pools p)) (hprice' : PricesOk g (g.pools p)) {C L : Int}
    (hC : CollateralValue w (w.pools p) (getPositions (w.pools p) u) C) (hL : LiabilityValue w (w.pools p) (getPositions (w.pools p) u) L)
    {E : ℚ} (hE : DebtDust w (w.pools p) (getPositions (w.pools p) u).liabilities E) {S T : Nat}
    (hist : HistoryIn (NormalDebts w p (getPositions (w.pools p) u).liabilities S) w g)
    (hg : NormalDebts w p (getPositions (w.pools p) u).liabilities S g) (ot : OnlyTime w g p u)
    (hT : AccruedWithin w p (getPositions (w.pools p) u).liabilities g.time T) (hm : growth S ^ T * L + E < C) (auth : List Address) (n : Nat)
    (w'' : World) : step g (.pool p auth (.newLiquidation u n)) ≠ .ok w'' := by
  intro h
  have st := historyIn_steps hist
  have hrg := hr.steps st
  have hpg : g.poolAddr p = true := by rw [(st.poolAddr hr.base).1]; exact hp
  obtain ⟨_, _, _, _, C', L', hC', hL', hle⟩ := C18_only_unhealthy hrg h hprice'
  rw [ot.positions] at hC' hL'
  obtain ⟨_, more, hlist⟩ := C23_identity_stable hr st hp
  have hlen : (w.pools p).resList.length ≤ (g.pools p).resList.length := by rw [hlist]; simp
  have hl : ∀ i a, (w.pools p).resList[i]? = some a → (g.pools p).resList[i]? = some a := fun i a hi => by
    rw [hlist, List.getElem?_append_left (List.getElem?_eq_some_iff.1 hi).1]; exact hi
  have bc : ∀ i, 0 ≤ (getPositions (w.pools p) u).collateral.bal i ∧ ((getPositions (w.pools p) u).collateral.bal i ≠ 0 →
    i < (w.pools p).resList.length) := fun i => bal_pos hr hp u .coll i
  have bl : ∀ i, 0 ≤ (getPositions (w.pools p) u).liabilities.bal i ∧ ((getPositions (w.pools p) u).liabilities.bal i ≠ 0 →
    i < (w.pools p).resList.length) := fun i => bal_pos hr hp u .liab i
  have hsub : Finset.range (w.pools p).resList.length ⊆ Finset.range (g.pools p).resList.length := by
    intro i hi; rw [Finset.mem_range] at *; omega
  have hG := growth_ge (S := (S : ℚ)) (Nat.cast_nonneg _)
  have hGT : (1 : ℚ) ≤ growth S ^ T := one_le_pow₀ hG
  obtain ⟨f, hf, rfl⟩ := hC
  obtain ⟨f', hf', rfl⟩ := hC'
  obtain ⟨l, hl0, rfl⟩ := hL
  obtain ⟨l', hl', rfl⟩ := hL'
  obtain ⟨e, he, rfl⟩ := hE
  have k1 : ((total (w.pools p) f : Int) : ℚ) ≤ (total (g.pools p) f' : Int) := by
    rw [total_cast, total_cast, ← Finset.sum_subset (f := fun i => (f' i : ℚ)) hsub (fun i hi hn => by
      rw [Finset.mem_range] at hi hn
      have h0 : (getPositions (w.pools p) u).collateral.bal i = 0 := by by_contra hne; exact hn ((bc i).2 hne)
      have k := hf' i hi
      rw [h0] at k
      rw [CollateralItem.unique k (.inl ⟨rfl, rfl⟩)]; simp)]
    refine Finset.sum_le_sum fun i hi => ?_
    have hi : i < (w.pools p).resList.length := Finset.mem_range.1 hi
    have := coll_time (hf i hi) (hf' i (by omega)) (bc i).1 (hl i) ot.settings (fun hb a ha => ot.collateral i a hb ha) hprice
      (calm_rates hr hp)
    exact_mod_cast this
  have k2 : ((total (g.pools p) l' : Int) : ℚ) ≤ growth S ^ T * (total (w.pools p) l : Int) +
      ∑ i ∈ Finset.range (w.pools p).resList.length, if (getPositions (w.pools p) u).liabilities.bal i = 0 then 0 else e i := by
    rw [total_cast, total_cast, ← Finset.sum_subset (f := fun i => (l' i : ℚ)) hsub (fun i hi hn => by
      rw [Finset.mem_range] at hi hn
      have h0 : (getPositions (w.pools p) u).liabilities.bal i = 0 := by by_contra hne; exact hn ((bl i).2 hne)
      have k := hl' i hi
      rw [h0] at k
      rw [LiabilityItem.unique k (.inl ⟨rfl, rfl⟩)]; simp), Finset.mul_sum, ← Finset.sum_add_distrib]
    refine Finset.sum_le_sum fun i hi => ?_
    have hi : i < (w.pools p).resList.length := Finset.mem_range.1 hi
    refine liab_time (hl0 i hi) (hl' i (by omega)) (bl i).1 hGT (hl i) ot.settings (fun hb a ha => ⟨ot.debts i a hb ha, fun d d' hd hd' => ?_⟩)
      hprice (calm_rates hrg hpg) (fun hb => he i hb)
    obtain ⟨_, d0, _, _, h2, _, _⟩ := id hd
    have k := current_growth hr hp (historyIn_mono (fun v hv => hv i a hb ha) hist) (hg i a hb ha) h2 hd'
    have k0 : (d0.dRate : ℚ) ≤ d.dRate := by exact_mod_cast current_ge hr hp h2 hd
    have ht := hT i a hb ha d0 h2
    have k3 : growth (S : ℚ) ^ (g.time - d0.lastTime) ≤ growth S ^ T := pow_le_pow_right₀ hG (by omega)
    have hd0 : (0 : ℚ) ≤ d0.dRate := by
      have := ((hr.pinv hp).rates a d0 h2).1
      exact_mod_cast (by omega : (0 : Int) ≤ d0.dRate)
    calc (d'.dRate : ℚ) ≤ d0.dRate * growth S ^ (g.time - d0.lastTime) := k
      _ ≤ d0.dRate * growth S ^ T := mul_le_mul_of_nonneg_left k3 hd0
      _ ≤ d.dRate * growth S ^ T := mul_le_mul_of_nonneg_right k0 (by linarith)
  have k3 : ((total (g.pools p) f' : Int) : ℚ) ≤ (total (g.pools p) l' : Int) := by exact_mod_cast hle
  linarith

/-- **C99** How long an account stays solvent: when it is healthy at `w`, its collateral (without rounding or risk adjustment) is still worth
at least its debts at `g`, as long as the prices of its collateral kept the fraction `α`, those of its debts grew at most by the factor `β`,
and `β`, the growth of debts in `T` seconds and the product of the factors are together at most `α`. -/
theorem C99_solvent {w g : World} (hr : Reachable w) {p u : Address} (hp : w.poolAddr p = true) (hprice : PricesOk w (w.pools p))
    (hprice' : PricesOk g (g.pools p)) (hh : Healthy w (w.pools p) (getPositions (w.pools p) u)) {cf lf : ℚ} (hlf0 : 0 ≤ lf)
    (hcf : FactorAtMost (·.cFactor) (w.pools p) (getPositions (w.pools p) u).collateral cf)
    (hlf : FactorAtMost (·.lFactor) (w.pools p) (getPositions (w.pools p) u).liabilities lf) {S T : Nat}
    (hist : HistoryIn (NormalDebts w p (getPositions (w.pools p) u).liabilities S) w g)
    (hg : NormalDebts w p (getPositions (w.pools p) u).liabilities S g)
    (hT : AccruedWithin w p (getPositions (w.pools p) u).liabilities g.time T) {α β : ℚ} (hβ0 : 0 ≤ β) (hpw : PricesWithin w g p u α β)
    (hF : cf * lf * (β * growth S ^ T) ≤ α ∨ (∃ n, PriceDecimals w (w.pools p) n ∧ 5 ≤ n) ∧ cf * lf * (β * growth S ^ T) ≤ 1.00001 * α)
    {C L : ℚ} (hC : Worth (·.bRate) g (g.pools p) (getPositions (w.pools p) u).collateral C)
    (hL : Worth (·.dRate) g (g.pools p) (getPositions (w.pools p) u).liabilities L) : L ≤ C := by
  have st := historyIn_steps hist
  have hrg := hr.steps st
  have hpg : g.poolAddr p = true := by rw [(st.poolAddr hr.base).1]; exact hp
  obtain ⟨hid, more, hlist⟩ := C23_identity_stable hr st hp
  have hlen : (w.pools p).resList.length ≤ (g.pools p).resList.length := by rw [hlist]; simp
  have hl : ∀ i a, (w.pools p).resList[i]? = some a → (g.pools p).resList[i]? = some a := fun i a hi => by
    rw [hlist, List.getElem?_append_left (List.getElem?_eq_some_iff.1 hi).1]; exact hi
  have hG := growth_ge (S := (S : ℚ)) (Nat.cast_nonneg _)
  have hGT : (1 : ℚ) ≤ growth S ^ T := one_le_pow₀ hG
  refine C95_solvent hr hp hprice hh hlf0 hcf hlf hlen (α := α) (β := β * growth S ^ T) (by positivity) ?_ ?_ hF hC hL
  · intro i q q' hb ⟨a, c, d, x, h1, h2, h3, h4, e⟩ ⟨a', c', d', x', g1, g2, g3, g4, e'⟩
    rw [hl i a h1] at g1; cases g1
    obtain ⟨c2, j1, _, j2⟩ := hid a c h2
    rw [j1] at g2; cases g2
    obtain ⟨kx, kd⟩ := hpw.collateral i a hb h1
    have k1 := kx x x' h4 g4
    have k2 : (d.bRate : ℚ) ≤ d'.bRate := by exact_mod_cast kd d d' h3 g3
    have b0 : (0 : ℚ) ≤ d.bRate := by exact_mod_cast (calm_rates hr hp a d h3).1.le
    have x0 : (0 : ℚ) ≤ x' := by exact_mod_cast price_nonneg hprice' (hl i a h1) g4
    rw [e, e', j2, ← mul_div_assoc, div_le_div_iff_of_pos_right (by positivity)]
    push_cast
    nlinarith [mul_le_mul_of_nonneg_right k1 b0, mul_le_mul_of_nonneg_left k2 x0]
  · intro i q q' hb ⟨a, c, d, x, h1, h2, h3, h4, e⟩ ⟨a', c', d', x', g1, g2, g3, g4, e'⟩
    rw [hl i a h1] at g1; cases g1
    obtain ⟨c2, j1, _, j2⟩ := hid a c h2
    rw [j1] at g2; cases g2
    have k1 := hpw.debts i a hb h1 x x' h4 g4
    obtain ⟨_, d0, _, _, h2', _, _⟩ := id h3
    have k2 : (d'.dRate : ℚ) ≤ d.dRate * growth S ^ T := by
      have k := current_growth hr hp (historyIn_mono (fun v hv => hv i a hb h1) hist) (hg i a hb h1) h2' g3
      have k0 : (d0.dRate : ℚ) ≤ d.dRate := by exact_mod_cast current_ge hr hp h2' h3
      have ht := hT i a hb h1 d0 h2'
      have k3 : growth (S : ℚ) ^ (g.time - d0.lastTime) ≤ growth S ^ T := pow_le_pow_right₀ hG (by omega)
      have hd0 : (0 : ℚ) ≤ d0.dRate := by
        have := ((hr.pinv hp).rates a d0 h2').1
        exact_mod_cast (by omega : (0 : Int) ≤ d0.dRate)
      exact k.trans ((mul_le_mul_of_nonneg_left k3 hd0).trans (mul_le_mul_of_nonneg_right k0 (by linarith)))
    have x0 : (0 : ℚ) ≤ x := by exact_mod_cast price_nonneg hprice h1 h4
    have d0' : (0 : ℚ) ≤ d'.dRate := by exact_mod_cast (calm_rates hrg hpg a d' g3).2.le
    rw [e, e', j2, ← mul_div_assoc, div_le_div_iff_of_pos_right (by positivity)]
    push_cast
    calc (x' : ℚ) * d'.dRate ≤ β * x * d'.dRate := mul_le_mul_of_nonneg_right k1 d0'
      _ ≤ β * x * (d.dRate * growth S ^ T) := mul_le_mul_of_nonneg_left k2 (by positivity)
      _ = β * growth S ^ T * (x * d.dRate) := by ring

open Demo

/-- ten minutes pass, and then alice withdraws -/
def tenMinutes : List Op := [.ledger 600 100, .pool poolA [alice] (.submit alice alice alice [⟨1, usdcA, 10000000000⟩])]

/-- non-vacuity of `C99_not_liquidated` and `C99_solvent`: dave has USDC as collateral and owes XLM, and then `tenMinutes` happen -/
example : ∃ (w g : World) (C L : Int) (E : ℚ), Reachable w ∧ w.poolAddr poolA = true ∧ PricesOk w (w.pools poolA) ∧ PricesOk g (g.pools poolA) ∧
    CollateralValue w (w.pools poolA) (getPositions (w.pools poolA) dave) C ∧
    LiabilityValue w (w.pools poolA) (getPositions (w.pools poolA) dave) L ∧ 0 < L ∧
    DebtDust w (w.pools poolA) (getPositions (w.pools poolA) dave).liabilities E ∧
    HistoryIn (NormalDebts w poolA (getPositions (w.pools poolA) dave).liabilities 20000000) w g ∧
    NormalDebts w poolA (getPositions (w.pools poolA) dave).liabilities 20000000 g ∧ OnlyTime w g poolA dave ∧
    AccruedWithin w poolA (getPositions (w.pools poolA) dave).liabilities g.time 605 ∧ growth (20000000 : Nat) ^ 605 * L + E < C ∧
    g.time = w.time + 600 ∧ ∃ d d', Current (w.pools poolA) w.time xlmA d ∧ Current (g.pools poolA) g.time xlmA d' ∧ d.dRate < d'.dRate ∧
    Healthy w (w.pools poolA) (getPositions (w.pools poolA) dave) ∧
    FactorAtMost (·.cFactor) (w.pools poolA) (getPositions (w.pools poolA) dave).collateral (9 / 10) ∧
    FactorAtMost (·.lFactor) (w.pools poolA) (getPositions (w.pools poolA) dave).liabilities (3 / 4) ∧
    PricesWithin w g poolA dave 1 1 ∧ 9 / 10 * (3 / 4) * (1 * growth (20000000 : Nat) ^ 605) ≤ (1 : ℚ) ∧
    ∃ C L : ℚ, Worth (·.bRate) g (g.pools poolA) (getPositions (w.pools poolA) dave).collateral C ∧
      Worth (·.dRate) g (g.pools poolA) (getPositions (w.pools poolA) dave).liabilities L := by
  have g0 : growth ((20000000 : Nat) : ℚ) ^ 11 ≤ 1001 / 1000 := by unfold growth; norm_num
  have g1 : growth ((20000000 : Nat) : ℚ) ^ 605 ≤ 6 / 5 := by
    rw [show 605 = 11 * 55 by rfl, pow_mul]
    exact (pow_le_pow_left₀ (by unfold growth; positivity) g0 55).trans (by norm_num)
  obtain ⟨w, g, hr, hrun, h⟩ := Demo.reach_runs
    (ops := setup ++ trade ++ emissions ++ [prices 1713150200 10000000 800000, sameLedger[0], .ledger 5 1]) (ops' := tenMinutes)
    (f := fun w g => (optAnd (w.pools poolA).inst fun i => decide ((w.oracle i.config.oracle).decimals = 7)) &&
      (optAnd ((w.pools poolA).resConfig usdcA) fun c => decide (c.cFactor = 9000000)) && pricesOk w (w.pools poolA) && pricesOk g (g.pools poolA) &&
      valuesOk w poolA dave (fun C L => decide (2 * L + 1000000 < C ∧ 0 < L)) &&
      (optAnd ((w.pools poolA).resConfig xlmA) fun c => optAnd ((w.pools poolA).resData xlmA) fun d => optAnd ((g.pools poolA).resData xlmA) fun d' =>
        decide (c.rBase + c.rOne + c.rTwo + c.rThree ≤ 20000000 ∧ c.decimals = 7 ∧ c.lFactor = 7500000 ∧
        d.dSupply * d.dRate + 2000000000 ≤ d.bSupply * d.bRate ∧
        d'.dSupply * d'.dRate + 2000000000 ≤ d'.bSupply * d'.bRate ∧ g.time ≤ d.lastTime + 605)) &&
      (optAnd (priceOf w poolA usdcA) fun x => optAnd (priceOf g poolA usdcA) fun x' => decide (x = x')) &&
      (optAnd (priceOf w poolA xlmA) fun x => optAnd (priceOf g poolA xlmA) fun x' => decide (x = x' ∧ 0 ≤ x ∧ x ≤ 10000000)) &&
      (okAnd (currentOf w poolA usdcA) fun d => okAnd (currentOf g poolA usdcA) fun d' => decide (d.bRate ≤ d'.bRate)) &&
      (okAnd (currentOf w poolA xlmA) fun d => okAnd (currentOf g poolA xlmA) fun d' => decide (d.dRate < d'.dRate)) &&
      decide ((getPositions (w.pools poolA) dave).liabilities.toList.map (·.1) = [1] ∧
        (getPositions (w.pools poolA) dave).collateral.toList.map (·.1) = [0] ∧
        (getPositions (w.pools poolA) dave).liabilities.bal 1 ≠ 0 ∧
        (getPositions (g.pools poolA) dave).liabilities.toList = (getPositions (w.pools poolA) dave).liabilities.toList ∧
        (getPositions (g.pools poolA) dave).collateral.toList = (getPositions (w.pools poolA) dave).collateral.toList ∧
        (getPositions (g.pools poolA) dave).supply.toList = (getPositions (w.pools poolA) dave).supply.toList ∧
        (w.pools poolA).resList = [usdcA, xlmA] ∧ (g.pools poolA).resList = [usdcA, xlmA] ∧ (g.pools poolA).resConfig usdcA = (w.pools poolA).resConfig usdcA ∧
        (g.pools poolA).resConfig xlmA = (w.pools poolA).resConfig xlmA ∧ g.time = w.time + 600)) (by decide +kernel)
  simp only [Bool.and_eq_true] at h
  obtain ⟨⟨⟨⟨⟨⟨⟨⟨⟨⟨hi, hcf⟩, h1⟩, h2⟩, h3⟩, h4⟩, h5⟩, h6⟩, h7⟩, h8⟩, h9⟩ := h
  obtain ⟨hp, C, L, hC, hL, hCL⟩ := valuesOk_iff hr h3
  obtain ⟨hCL, hL0⟩ := of_decide_eq_true hCL
  simp only [optAnd_iff, okAnd_iff, decide_eq_true_eq, priceOf_iff] at hi hcf h4 h5 h6 h7 h8
  obtain ⟨c, hc, d, hd, d', hd', hS, hdec, hlf, u1, u2, hT⟩ := h4
  obtain ⟨i, hi, hn⟩ := hi
  obtain ⟨cu, hcu, hcf⟩ := hcf
  obtain ⟨x, hx, x', hx', rfl⟩ := h5
  obtain ⟨y, hy, y', hy', rfl, hy0, hy1⟩ := h6
  obtain ⟨e, he, e', he', hee⟩ := h7
  obtain ⟨q, hq, q', hq', hqq⟩ := h8
  obtain ⟨p1, p2, p3, p4, p5, p6, hlist, hgl, c1, c2, ht⟩ := of_decide_eq_true h9
  have key : ∀ (m : SMap Int) (k : Nat), m.toList.map (·.1) = [k] → ∀ i, m.bal i ≠ 0 → i = k := by
    intro m k hm i hi
    rcases m with ⟨l, hl⟩
    rcases l with _ | ⟨⟨j, v⟩, _ | ⟨y, l⟩⟩
    · simp at hm
    · simp only [List.map_cons, List.map_nil, List.cons.injEq, and_true] at hm
      subst hm
      by_contra hne
      apply hi
      simp only [SMap.bal, SMap.get, SMap.getL]
      split
      · omega
      · simp
    · simp at hm
  have smap : ∀ (m m' : SMap Int), m.toList = m'.toList → m = m' := by
    rintro ⟨l, _⟩ ⟨l', _⟩ h; cases h; rfl
  have hpos : getPositions (g.pools poolA) dave = getPositions (w.pools poolA) dave := by
    have ext : ∀ P Q : Positions, P.liabilities = Q.liabilities → P.collateral = Q.collateral → P.supply = Q.supply → P = Q := by
      rintro ⟨_, _, _⟩ ⟨_, _, _⟩ h h' h''
      cases h; cases h'; cases h''; rfl
    exact ext _ _ (smap _ _ p4) (smap _ _ p5) (smap _ _ p6)
  have debt : ∀ {v : Nat → Address → Prop}, v 1 xlmA → InEach w poolA (getPositions (w.pools poolA) dave).liabilities v := by
    intro v hv i a hi ha
    obtain rfl := key _ _ p1 i hi
    rw [hlist] at ha; cases ha; exact hv
  have coll : ∀ {v : Nat → Address → Prop}, v 0 usdcA → InEach w poolA (getPositions (w.pools poolA) dave).collateral v := by
    intro v hv i a hi ha
    obtain rfl := key _ _ p2 i hi
    rw [hlist] at ha; cases ha; exact hv
  have hw : NormalUse poolA xlmA 20000000 w := ordinary_of hc hd ⟨hS, u1⟩
  have hg : NormalUse poolA xlmA 20000000 g := ordinary_of (c2.trans hc) hd' ⟨hS, u2⟩
  have cfg := hr.base.cfg poolA
  refine ⟨w, g, C, L, 1 + (y : ℚ) / 10 ^ c.decimals * (1 + 10 ^ 7 / c.lFactor), hr, hp, pricesOk_iff h1, pricesOk_iff h2, hC, hL, hL0,
    ⟨fun _ => 1 + (y : ℚ) / 10 ^ c.decimals * (1 + 10 ^ 7 / c.lFactor), ?_, ?_⟩, ?_, debt hg,
    ⟨hpos, ?_, coll ⟨fun a b ha hb => ?_, fun a b ha hb => ?_⟩, debt fun a b ha hb => ?_⟩, debt ?_, ?_, ht, q, q', currentOf_ok hq, currentOf_ok hq', hqq,
    ⟨C, L, 7, hC, hL, ⟨i, hi, hn⟩, by omega, fun _ => by omega⟩, fun j a c0 hj ha hc0 => ?_, fun j a c0 hj ha hc0 => ?_,
    ⟨coll ⟨fun a b ha hb => ?_, fun a b ha hb => ?_⟩, debt fun a b ha hb => ?_⟩, by linarith, _, _,
    ⟨fun _ => ((x * e'.bRate : Int) : ℚ) / (10 ^ 9 * 10 ^ cu.decimals), fun j hj => ?_, rfl⟩,
    ⟨fun _ => ((y * q'.dRate : Int) : ℚ) / (10 ^ 9 * 10 ^ c.decimals), fun j hj => ?_, rfl⟩⟩
  · intro i hi
    obtain rfl := key _ _ p1 i hi
    exact ⟨xlmA, c, y, by rw [hlist]; rfl, hc, hy, rfl⟩
  · rw [hlist]
    have : (getPositions (w.pools poolA) dave).liabilities.bal 0 = 0 := by
      by_contra hne; cases key _ _ p1 0 hne
    simp [Finset.sum_range_succ, this, p3]
  · have hrun' := hrun
    simp only [tenMinutes, Demo.run, bind_ok, pure_ok] at hrun'
    obtain ⟨w1, s1, w2, s2, rfl⟩ := hrun'
    have e1 : w1.pools = w.pools := by
      simp only [step, pure_ok] at s1; rw [← s1]
    refine .tail (.tail (.refl _) (debt hw) s1) (debt ?_) s2
    intro c0 d0 hc0 hd0
    rw [e1] at hc0 hd0
    exact hw c0 d0 hc0 hd0
  · intro a c0 h0
    have ha := List.mem_of_getElem? (cfg.idx a c0 h0)
    rw [hlist] at ha
    simp only [List.mem_cons, List.not_mem_nil, or_false] at ha
    rcases ha with rfl | rfl
    · exact c1.trans h0
    · exact c2.trans h0
  · rw [FreshPrice.unique ha hx, FreshPrice.unique hb hx']
  · rw [Current.unique ha (currentOf_ok he), Current.unique hb (currentOf_ok he')]; exact hee
  · rw [FreshPrice.unique ha hy, FreshPrice.unique hb hy']
  · intro d0 hd0
    rw [hd] at hd0; cases hd0; exact hT
  · have l0 : (0 : ℚ) < L := by exact_mod_cast hL0
    have k1 := mul_le_mul_of_nonneg_right g1 l0.le
    have k2 : (2 * L + 1000000 : ℚ) < C := by exact_mod_cast hCL
    rw [hdec, hlf]
    have k3 : (y : ℚ) ≤ 10000000 := by exact_mod_cast hy1
    push_cast at *
    norm_num
    linarith
  · obtain rfl := key _ _ p2 j hj
    rw [hlist] at ha; cases ha
    rw [hcu] at hc0; cases hc0
    show (cu.cFactor : ℚ) ≤ _; rw [hcf]; norm_num
  · obtain rfl := key _ _ p1 j hj
    rw [hlist] at ha; cases ha
    rw [hc] at hc0; cases hc0
    show (c.lFactor : ℚ) ≤ _; rw [hlf]; norm_num
  · rw [FreshPrice.unique ha hx, FreshPrice.unique hb hx', one_mul]
  · rw [Current.unique ha (currentOf_ok he), Current.unique hb (currentOf_ok he')]; exact hee
  · rw [FreshPrice.unique ha hy, FreshPrice.unique hb hy', one_mul]
  · obtain rfl := key _ _ p2 j hj
    exact ⟨usdcA, cu, e', x, by rw [hgl]; rfl, c1.trans hcu, currentOf_ok he', hx', rfl⟩
  · obtain rfl := key _ _ p1 j hj
    exact ⟨xlmA, c, q', y, by rw [hgl]; rfl, c2.trans hc, currentOf_ok hq', hy', rfl⟩

end Props
end Blend
