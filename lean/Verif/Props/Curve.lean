import Verif.Lemmas.DataStep
import Verif.Examples.Demo
/-
  C47, C48: how much interest accrues and who gets it.
-/

namespace Blend
namespace Spec

/-- the same value of shares, rate modifier and time of the last accrual -/
def SameRates (d d' : ReserveData) : Prop :=
  d'.dRate = d.dRate ∧ d'.bRate = d.bRate ∧ d'.irMod = d.irMod ∧ d'.lastTime = d.lastTime

/-- the same value of shares and time of the last accrual, and the rate modifier is back to 1 -/
def ModifierReset (d d' : ReserveData) : Prop :=
  d'.dRate = d.dRate ∧ d'.bRate = d.bRate ∧ d'.irMod = ONE9 ∧ d'.lastTime = d.lastTime

end Spec

namespace Props
open Spec Pool Demo

/-- **C47** The current state of a reserve, as every operation of a pool sees it, is the stored one with interest accrued by
the documented curve: the debt per share grows by simple interest at the three-legged rate for the utilization, the modifier
moves with the distance to the target utilization and stays within 0.1 and 10, and the interest is split by the take rate. -/
theorem C47_accrual {w : World} (hr : Reachable w) {p a : Address} (hp : w.poolAddr p = true) {c : ReserveConfig}
    {i : PoolInst} {d d' : ReserveData} (hc : (w.pools p).resConfig a = some c) (hd : (w.pools p).resData a = some d)
    (hi : (w.pools p).inst = some i) (h : Current (w.pools p) w.time a d') :
    Accrues c i.config.bstopRate w.time d d' := by
  obtain ⟨c', d0, i', h1, h2, h3, h4⟩ := h
  have := hc.symm.trans h1; cases this
  have := hd.symm.trans h2; cases this
  have := hi.symm.trans h3; cases this
  have hinv := hr.pinv hp
  have hcfg := hr.base.cfg p
  exact accrue_accrues (hcfg.valid a c hc) (hinv.dataOk hcfg hd) (hinv.rates a d hd).2.2.2.2 h4

/-- **C47** The value of shares and the rate modifier of a reserve change in no other way: in any one operation, either
all data of the reserve stays as it is, or interest is accrued up to the present; only a change of the
reserve's parameters may also set the modifier back to 1. -/
theorem C47_rates_change {w w' : World} (hr : Reachable w) {op : Op} (h : step w op = .ok w') {p a : Address}
    (hp : w.poolAddr p = true) {d : ReserveData} (hd : (w.pools p).resData a = some d) :
    ∃ d', (w'.pools p).resData a = some d' ∧ (d' = d ∨
      ∃ c i dA, (w.pools p).resConfig a = some c ∧ (w.pools p).inst = some i ∧
        Accrues c i.config.bstopRate w.time d dA ∧
        (SameRates dA d' ∨ (∃ auth, op = .pool p auth (.setReserve a)) ∧ ModifierReset dA d')) := by
  rcases data_step hr h hp hd with ⟨_, e⟩ | ⟨dA, d', hcur, e, e1, e2, e3, e4⟩
  · exact ⟨d, e, .inl rfl⟩
  · obtain ⟨c, d0, i, h1, h2, h3, h4⟩ := id hcur
    refine ⟨d', e, .inr ⟨c, i, dA, h1, h3, C47_accrual hr hp h1 hd h3 hcur, ?_⟩⟩
    rcases e4 with e4 | ⟨e4, e5⟩
    · exact .inl ⟨e1, e2, e4, e3⟩
    · exact .inr ⟨e4, e1, e2, e5, e3⟩

/-- **C48** Interest is neither created nor lost: over any accrual, what suppliers and the backstop gain together is at most
the growth of the debt, and less than it by at most the rounding of two divisions; the backstop gets its take rate of
the growth, rounded down. -/
theorem C48_interest_split {w : World} (hr : Reachable w) {p a : Address} (hp : w.poolAddr p = true)
    {i : PoolInst} {d d' : ReserveData} (hd : (w.pools p).resData a = some d)
    (hi : (w.pools p).inst = some i) (h : Current (w.pools p) w.time a d') {debt debt' value value' : Int}
    (h1 : IsCeil debt (d.dSupply * d.dRate) ONE9) (h2 : IsCeil debt' (d'.dSupply * d'.dRate) ONE9)
    (h3 : IsFloor value (d.bSupply * d.bRate) ONE9) (h4 : IsFloor value' (d'.bSupply * d'.bRate) ONE9) :
    (value' - value) + (d'.backstopCredit - d.backstopCredit) ≤ debt' - debt ∧
    debt' - debt ≤ (value' - value) + (d'.backstopCredit - d.backstopCredit) + 1 + d.bSupply / ONE9 ∧
    IsFloor (d'.backstopCredit - d.backstopCredit) ((debt' - debt) * i.config.bstopRate) ONE7 := by
  obtain ⟨c, _, _, hc, _, _, _⟩ := id h
  have hA := C47_accrual hr hp hc hd hi h
  have hinv := hr.pinv hp
  have hok := hinv.dataOk (hr.base.cfg p) hd
  have hb := hok.bSupply
  simp only [IsCeil, IsFloor, ONE9] at h1 h2 h3 h4
  unfold ONE9
  rcases hA with ⟨_, rfl⟩ | ⟨⟨_, hb0, _⟩, _, eb, ed, debt0, value0, u, debt0', gain, k1, k2, k3, _, _, k4, kle, k5, k6, k7, k8⟩
  · simp only at h2 h4 ⊢
    have e1 : debt' = debt := by omega
    have e2 : value' = value := by omega
    subst e1 e2
    exact ⟨by omega, by omega, by simp [IsFloor]⟩
  · simp only [IsCeil, IsFloor, ONE9, ONE7] at k1 k2 k4 k5 k8 ⊢
    rw [ed] at h2
    rw [eb] at h4
    have e1 : debt = debt0 := by omega
    have e2 : value = value0 := by omega
    have e3 : debt' = debt0' := by omega
    subst e1 e2 e3
    have hg : d'.backstopCredit - d.backstopCredit = gain := by omega
    rw [hg]
    refine ⟨?_, ?_, k5⟩
    · rcases kle.eq_or_lt with e | e
      · rw [k7 e.symm] at h4
        have : value' = value := by omega
        subst this e
        have := k5.1
        simp only [sub_self, zero_mul] at this ⊢
        omega
      · obtain ⟨k8a, k8b⟩ := k8 e
        have : d'.bRate * d.bSupply = d.bSupply * d'.bRate := mul_comm _ _
        omega
    · rcases kle.eq_or_lt with e | e
      · rw [k7 e.symm] at h4
        have : value' = value := by omega
        subst this e
        have := k5.2
        simp only [sub_self, zero_mul] at this ⊢
        omega
      · obtain ⟨k8a, k8b⟩ := k8 e
        have : (d'.bRate + 1) * d.bSupply = d.bSupply * d'.bRate + d.bSupply := by ring
        omega

/-- In the demo, a year after bob borrowed: the loan of 12 percent of the deposits has grown by about 3.6 percent, the modifier
has fallen, suppliers and the backstop have earned. -/
example : ∃ w, Reachable w ∧ w.poolAddr poolA = true ∧ ∃ c i d d', (w.pools poolA).resConfig usdcA = some c ∧
    (w.pools poolA).inst = some i ∧ (w.pools poolA).resData usdcA = some d ∧ Current (w.pools poolA) w.time usdcA d' ∧
    d.lastTime + 31536000 = w.time ∧ d.dRate = 1000000000 ∧ d'.dRate = 1035647100 ∧ d'.bRate = 1003849886 ∧
    d'.irMod < d.irMod ∧ d'.backstopCredit = 213882600 := by
  obtain ⟨w, _, hr, h⟩ := Demo.reach (ops := setup ++ trade ++ [.ledger 31536000 1000])
    (f := fun w => w.poolAddr poolA && optAnd ((w.pools poolA).resConfig usdcA) fun c => optAnd (w.pools poolA).inst fun i =>
      optAnd ((w.pools poolA).resData usdcA) fun d => okAnd (accrue c i.config.bstopRate w.time d) fun d' =>
      decide (d.lastTime + 31536000 = w.time ∧ d.dRate = 1000000000 ∧ d'.dRate = 1035647100 ∧ d'.bRate = 1003849886 ∧
        d'.irMod < d.irMod ∧ d'.backstopCredit = 213882600))
    (by decide +kernel)
  simp only [Bool.and_eq_true, decide_eq_true_eq, optAnd_iff, okAnd_iff] at h
  obtain ⟨h1, c, hc, i, hi, d, hd, d', ha, h⟩ := h
  exact ⟨w, hr, h1, c, i, d, d', hc, hi, hd, ⟨c, d, i, hc, hd, hi, ha⟩, h⟩

/-- the curve of the demo's USDC reserve at 12 percent utilization: 3 percent plus 12/85 of 4 percent -/
example : yearlyRate usdcCfg 1200000 1000000000 = 300000 + 400000 * (1200000 / 8500000) := by
  simp [yearlyRate, usdcCfg]; norm_num

/-- and in a submit of alice at that time the stored rates become the accrued ones -/
example : ∃ w w', Reachable w ∧ step w (.pool poolA [alice] (.submit alice alice alice [⟨0, usdcA, 1000⟩])) = .ok w' ∧
    w.poolAddr poolA = true ∧ ∃ d d', (w.pools poolA).resData usdcA = some d ∧ (w'.pools poolA).resData usdcA = some d' ∧
    ¬ SameRates d d' := by
  obtain ⟨w, w', _, hr, hs, h⟩ := Demo.reach_step (ops := setup ++ trade ++ [.ledger 31536000 1000])
    (op := .pool poolA [alice] (.submit alice alice alice [⟨0, usdcA, 1000⟩]))
    (f := fun w w' => w.poolAddr poolA && optAnd ((w.pools poolA).resData usdcA) fun d =>
      optAnd ((w'.pools poolA).resData usdcA) fun d' => decide (d.dRate < d'.dRate)) (by decide +kernel)
  simp only [Bool.and_eq_true, decide_eq_true_eq, optAnd_iff] at h
  obtain ⟨h1, d, hd, d', hd', h⟩ := h
  exact ⟨w, w', hr, hs, h1, d, d', hd, hd', fun e => by have := e.1; omega⟩

end Props
end Blend
