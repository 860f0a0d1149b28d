import Verif.Lemmas.Solvency
import Verif.Examples.Demo
/-
  C01, C02, C05, C06, C23: what holds of every reserve of every pool after every history.
-/

namespace Blend
namespace Props
open Spec

/-- **C01** In every reachable world, for every pool and every reserve of it: the total of debt shares
is the sum of all users' liabilities, the total of supply shares is the sum of all users' collateral
and uncollateralized supply. -/
theorem C01_share_totals {w : World} (h : Reachable w) {p : Address} (hp : w.poolAddr p = true)
    {asset : Address} {c : ReserveConfig} {d : ReserveData}
    (hc : (w.pools p).resConfig asset = some c) (hd : (w.pools p).resData asset = some d) :
    d.dSupply = (w.pools p).positions.sum (fun _ pos => pos.liabilities.bal c.index) ∧
    d.bSupply = (w.pools p).positions.sum (fun _ pos => pos.collateral.bal c.index) +
      (w.pools p).positions.sum (fun _ pos => pos.supply.bal c.index) :=
  ⟨(h.pinv hp).dsum asset c d hc hd, (h.pinv hp).bsum asset c d hc hd⟩

/-- **C01** No share balance is ever negative (stored balances are positive), and positions refer to
listed reserves only. -/
theorem C01_balances_positive {w : World} (h : Reachable w) {p : Address} (hp : w.poolAddr p = true)
    {user : Address} {pos : Positions} (hu : (w.pools p).positions.get user = some pos) {i : Nat} {v : Int}
    (hv : pos.liabilities.get i = some v ∨ pos.collateral.get i = some v ∨ pos.supply.get i = some v) :
    0 < v ∧ i < (w.pools p).resList.length := by
  rcases hv with hv | hv | hv
  · exact (h.pinv hp).bals user pos .liab i v hu hv
  · exact (h.pinv hp).bals user pos .coll i v hu hv
  · exact (h.pinv hp).bals user pos .supp i v hu hv

/-- the hypotheses are met: after a trade, a liquidation and bad debt, bob's debt is in the total -/
example : ∃ w, Reachable w ∧ w.poolAddr Demo.poolA = true ∧
    ∃ c d, (w.pools Demo.poolA).resConfig Demo.usdcA = some c ∧
      (w.pools Demo.poolA).resData Demo.usdcA = some d ∧ 0 < d.dSupply ∧ 0 < d.bSupply := by
  obtain ⟨w, _, hr, h⟩ := Demo.reach (ops := Demo.setup ++ Demo.trade ++ Demo.emissions)
    (f := fun w => w.poolAddr Demo.poolA && Demo.optAnd ((w.pools Demo.poolA).resConfig Demo.usdcA) fun _ =>
      Demo.optAnd ((w.pools Demo.poolA).resData Demo.usdcA) fun d => decide (0 < d.dSupply ∧ 0 < d.bSupply))
    (by decide +kernel)
  simp only [Bool.and_eq_true, decide_eq_true_eq, Demo.optAnd_iff] at h
  obtain ⟨h1, c, hc, d, hd, h2⟩ := h
  exact ⟨w, hr, h1, c, d, hc, hd, h2⟩

/-- **C02** Solvency: in every reachable world, for every reserve of every pool, the pool's token
balance plus the value of the outstanding debt (rounded up, as borrowers must repay it) plus the value
of the debt ever written off covers what all suppliers together can redeem (rounded down) plus the
backstop's credit. (The credit is negative if an interest auction sold more than was accrued in
storage; then the inequality shows what covers it.) -/
theorem C02_solvency {w : World} (h : Reachable w) {p : Address} (hp : w.poolAddr p = true)
    {asset : Address} {d : ReserveData} (hd : (w.pools p).resData asset = some d)
    {debt redeemable : Int} (hdebt : IsCeil debt (d.dSupply * d.dRate) ONE9)
    (hred : IsFloor redeemable (d.bSupply * d.bRate) ONE9) :
    redeemable + d.backstopCredit ≤
      w.balance asset p + debt + (w.pools p).writtenOff asset := by
  have hw := (h.solv hp).worth asset d hd
  unfold Pool.worth Pool.VS.of at hw
  simp only [add_zero] at hw
  have h1 := Pool.ceil9_spec d.dSupply d.dRate
  have h2 := Pool.floor9_spec d.bSupply d.bRate
  unfold IsCeil IsFloor ONE9 at *
  omega

/-- the hypotheses are met after the whole story -/
example : ∃ w, Reachable w ∧ w.poolAddr Demo.poolA = true ∧ ∃ d,
    (w.pools Demo.poolA).resData Demo.usdcA = some d ∧ 0 < d.dSupply ∧ 0 < d.bSupply ∧
    0 < d.backstopCredit := by
  obtain ⟨w, _, hr, h⟩ := Demo.reach (ops := Demo.story)
    (f := fun w => w.poolAddr Demo.poolA && Demo.optAnd ((w.pools Demo.poolA).resData Demo.usdcA) fun d =>
      decide (0 < d.dSupply ∧ 0 < d.bSupply ∧ 0 < d.backstopCredit)) (by decide +kernel)
  simp only [Bool.and_eq_true, decide_eq_true_eq, Demo.optAnd_iff] at h
  obtain ⟨h1, d, hd, h2⟩ := h
  exact ⟨w, hr, h1, d, hd, h2⟩

/-- **C05** The value of debt shares and of supply shares never falls: if a reserve exists at some
point of a history, it exists at every later point, with rates at least as high. Both start at 1. -/
theorem C05_rates_never_fall {w w' : World} (h : Reachable w) (hs : Steps w w') {p : Address}
    (hp : w.poolAddr p = true) {asset : Address} {d : ReserveData}
    (hd : (w.pools p).resData asset = some d) :
    ∃ d', (w'.pools p).resData asset = some d' ∧ d.dRate ≤ d'.dRate ∧ d.bRate ≤ d'.bRate ∧
      d.lastTime ≤ d'.lastTime ∧ ONE9 ≤ d.dRate ∧ ONE9 ≤ d.bRate := by
  obtain ⟨d', h1, h2, h3, h4⟩ := h.ratesGrow hs hp asset d hd
  have := (h.pinv hp).rates asset d hd
  exact ⟨d', h1, h2, h3, h4, this.1, this.2.1⟩

/-- the rates do move: after the story the debt share of USDC is worth more than at its start -/
example : ∃ w w', Reachable w ∧ Steps w w' ∧ w.poolAddr Demo.poolA = true ∧ ∃ d d',
    (w.pools Demo.poolA).resData Demo.usdcA = some d ∧ (w'.pools Demo.poolA).resData Demo.usdcA = some d' ∧
    d.dRate < d'.dRate ∧ d.bRate < d'.bRate := by
  obtain ⟨w, w', hr, hs, h⟩ := Demo.reach_run (ops := Demo.setup ++ Demo.trade)
    (ops' := Demo.emissions ++ Demo.claims ++ Demo.liquidation)
    (f := fun w w' => w.poolAddr Demo.poolA && Demo.optAnd ((w.pools Demo.poolA).resData Demo.usdcA) fun d =>
      Demo.optAnd ((w'.pools Demo.poolA).resData Demo.usdcA) fun d' =>
      decide (d.dRate < d'.dRate ∧ d.bRate < d'.bRate)) (by decide +kernel)
  simp only [Bool.and_eq_true, decide_eq_true_eq, Demo.optAnd_iff] at h
  obtain ⟨h1, d, hd, d', hd', h2⟩ := h
  exact ⟨w, w', hr, hs, h1, d, d', hd, hd', h2⟩

/-- **C06** The interest rate modifier of every reserve is always between 0.1 and 10. -/
theorem C06_rate_modifier_bounded {w : World} (h : Reachable w) {p : Address} (hp : w.poolAddr p = true)
    {asset : Address} {d : ReserveData} (hd : (w.pools p).resData asset = some d) :
    ONE9 ≤ 10 * d.irMod ∧ d.irMod ≤ 10 * ONE9 := by
  have := (h.pinv hp).rates asset d hd
  unfold ONE9
  omega

/-- the modifier is not constant: it fell below its initial value 1 -/
example : ∃ w, Reachable w ∧ w.poolAddr Demo.poolA = true ∧ ∃ d,
    (w.pools Demo.poolA).resData Demo.usdcA = some d ∧ d.irMod < ONE9 := by
  obtain ⟨w, _, hr, h⟩ := Demo.reach (ops := Demo.setup ++ Demo.trade ++ Demo.emissions ++ Demo.claims ++ Demo.liquidation)
    (f := fun w => w.poolAddr Demo.poolA && Demo.optAnd ((w.pools Demo.poolA).resData Demo.usdcA) fun d =>
      decide (d.irMod < ONE9)) (by decide +kernel)
  simp only [Bool.and_eq_true, decide_eq_true_eq, Demo.optAnd_iff] at h
  obtain ⟨h1, d, hd, h2⟩ := h
  exact ⟨w, hr, h1, d, hd, h2⟩

/-- **C23** At all times every configured reserve satisfies the documented bounds, its index is its
place in the reserve list, it has data; the list has no duplicates and at most 32 entries, and every
entry is configured. -/
theorem C23_config_valid {w : World} (h : Reachable w) (p : Address) :
    (∀ asset c, (w.pools p).resConfig asset = some c →
      ValidConfig c ∧ (w.pools p).resList[c.index]? = some asset) ∧
    (∀ asset ∈ (w.pools p).resList, (∃ c, (w.pools p).resConfig asset = some c) ∧
      ∃ d, (w.pools p).resData asset = some d) ∧
    (w.pools p).resList.Nodup ∧ (w.pools p).resList.length ≤ 32 := by
  have c := h.base.cfg p
  refine ⟨fun a x hx => ⟨c.valid a x hx, c.idx a x hx⟩, fun a ha => ?_, c.nodup, c.len⟩
  obtain ⟨x, d, h1, h2⟩ := c.list a ha
  exact ⟨⟨x, h1⟩, d, h2⟩

/-- **C23** A reserve keeps its index and its decimals, and the reserve list only grows at its end. -/
theorem C23_identity_stable {w w' : World} (h : Reachable w) (hs : Steps w w') {p : Address}
    (hp : w.poolAddr p = true) :
    (∀ asset c, (w.pools p).resConfig asset = some c →
      ∃ c', (w'.pools p).resConfig asset = some c' ∧ c'.index = c.index ∧ c'.decimals = c.decimals) ∧
    ∃ more, (w'.pools p).resList = (w.pools p).resList ++ more := by
  have e := h.cfgExt hs hp
  exact ⟨e.cfg, e.list⟩

/-- a pool with two reserves is reachable -/
example : ∃ w, Reachable w ∧ w.poolAddr Demo.poolA = true ∧
    (w.pools Demo.poolA).resList = [Demo.usdcA, Demo.xlmA] := by
  obtain ⟨w, _, hr, h⟩ := Demo.reach (ops := Demo.setup)
    (f := fun w => w.poolAddr Demo.poolA = true ∧ (w.pools Demo.poolA).resList = [Demo.usdcA, Demo.xlmA])
    (by decide +kernel)
  exact ⟨w, hr, by simpa using h⟩

end Props
end Blend
