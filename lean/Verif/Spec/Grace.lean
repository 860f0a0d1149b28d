import Verif.Spec.Margin
import Verif.Spec.Growth
/-
  Specification for C99: what stays the same for a borrower while time passes, and the allowance for rounding.
-/

namespace Blend
namespace Spec
open Pool

/-- what `v` asks of the reserves in which `m` holds shares (by position in the list of reserves of the pool `p` in `w`) -/
def InEach (w : World) (p : Address) (m : SMap Int) (v : Nat → Address → Prop) : Prop :=
  ∀ i a, m.bal i ≠ 0 → (w.pools p).resList[i]? = some a → v i a

/-- the reserves in which `m` holds shares are in normal use (C78) -/
def NormalDebts (w : World) (p : Address) (m : SMap Int) (S : Nat) (v : World) : Prop :=
  InEach w p m fun _ a => NormalUse p a S v

/-- Between `w` and `g` nothing happened to the account `u` of the pool `p` but that time passed: it has the same positions, its reserves
the same settings, the prices of its collateral did not fall, those of its debts did not rise, and no share of its collateral is worth
fewer tokens. -/
structure OnlyTime (w g : World) (p u : Address) : Prop where
  positions : getPositions (g.pools p) u = getPositions (w.pools p) u
  settings : ∀ a c, (w.pools p).resConfig a = some c → (g.pools p).resConfig a = some c
  collateral : InEach w p (getPositions (w.pools p) u).collateral fun _ a => (∀ x x', FreshPrice w (w.pools p) a x →
    FreshPrice g (g.pools p) a x' → x ≤ x') ∧ ∀ d d', Current (w.pools p) w.time a d → Current (g.pools p) g.time a d' → d.bRate ≤ d'.bRate
  debts : InEach w p (getPositions (w.pools p) u).liabilities fun _ a => ∀ x x', FreshPrice w (w.pools p) a x →
    FreshPrice g (g.pools p) a x' → x' ≤ x

/-- all reserves in which `m` holds shares had interest accrued at the time `T` seconds before `now`, or later -/
def AccruedWithin (w : World) (p : Address) (m : SMap Int) (now T : Nat) : Prop :=
  InEach w p m fun _ a => ∀ d, (w.pools p).resData a = some d → now ≤ d.lastTime + T

/-- `E` is, for each reserve in which `m` owes, one unit of the oracle plus the price of the smallest amount of its token, plain and
divided by the liability factor -/
def DebtDust (w : World) (ps : PoolState) (m : SMap Int) (E : ℚ) : Prop :=
  ∃ e : Nat → ℚ, (∀ i, m.bal i ≠ 0 → ∃ a c x, ps.resList[i]? = some a ∧ ps.resConfig a = some c ∧ FreshPrice w ps a x ∧
    e i = 1 + (x : ℚ) / 10 ^ c.decimals * (1 + 10 ^ 7 / c.lFactor)) ∧
    E = ∑ i ∈ Finset.range ps.resList.length, if m.bal i = 0 then 0 else e i

/-- Between `w` and `g` the prices of the collateral of `u` kept at least the fraction `α` and those of its debts grew at most by the factor
`β`, and no share of its collateral is worth fewer tokens. -/
structure PricesWithin (w g : World) (p u : Address) (α β : ℚ) : Prop where
  collateral : InEach w p (getPositions (w.pools p) u).collateral fun _ a => (∀ x x' : Int, FreshPrice w (w.pools p) a x →
    FreshPrice g (g.pools p) a x' → α * x ≤ x') ∧ ∀ d d', Current (w.pools p) w.time a d → Current (g.pools p) g.time a d' → d.bRate ≤ d'.bRate
  debts : InEach w p (getPositions (w.pools p) u).liabilities fun _ a => ∀ x x' : Int, FreshPrice w (w.pools p) a x →
    FreshPrice g (g.pools p) a x' → (x' : ℚ) ≤ β * x

end Spec
end Blend
