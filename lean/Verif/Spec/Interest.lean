import Verif.Spec
import Mathlib.Data.Rat.Defs
import Mathlib.Algebra.Order.Field.Rat
/-
  Specification of interest (C47): the documented interest rate curve over the rationals, the reactive rate modifier and
  the distribution of the interest of a period. Nothing here uses the model's functions.
-/

namespace Blend
namespace Spec

/-- The yearly interest rate of borrowers (in units of `10⁻⁷`) at the utilization `u` (in units of `10⁻⁷`) with the rate
modifier `m` (in units of `10⁻⁹`): three linear legs, up to the target utilization, up to 95 percent and above; the
modifier applies to all but the slope of the last leg. -/
def yearlyRate (c : ReserveConfig) (u m : ℚ) : ℚ :=
  if u ≤ c.util then m / 10 ^ 9 * (c.rBase + c.rOne * (u / c.util))
  else if u ≤ 9500000 then m / 10 ^ 9 * (c.rBase + c.rOne + c.rTwo * ((u - c.util) / (9500000 - c.util)))
  else m / 10 ^ 9 * (c.rBase + c.rOne + c.rTwo) + c.rThree * ((u - 9500000) / 500000)

/-- by how much the yearly rate may be rounded up (in units of `10⁻⁷`): for rates up to 1000 percent at most 23 units -/
def rateSlack (c : ReserveConfig) (m : ℚ) : ℚ := (m / 10 ^ 9 + 1) * (c.rThree / 10 ^ 7 + 1) + 1

/-- `x'` is the debt per share after `dt` seconds of simple interest at the yearly rate `y` (a fraction of one), starting
from `x`, up to rounding: the time weight and the accrued ratio have 9 decimals, and the rate may be up to `s` higher. -/
def SimpleInterest (y s : ℚ) (dt : ℕ) (x x' : ℚ) : Prop :=
  x * (1 + (dt / 31536000) * y - y / 10 ^ 9) ≤ x' ∧ x' ≤ x * (1 + (dt / 31536000) * (y + s) + 1 / 10 ^ 9) + 1

/-- `v` is `x / y` rounded towards zero -/
def IsTrunc (v x y : Int) : Prop := (0 ≤ x → IsFloor v x y) ∧ (x < 0 → IsCeil v x y)

/-- `v` is the value of `x` restricted to the range from `lo` to `hi` -/
def IsClamp (v lo hi x : Int) : Prop :=
  (x < lo ∧ v = lo) ∨ (lo ≤ x ∧ x ≤ hi ∧ v = x) ∨ (hi < x ∧ v = hi)

/-- The rate modifier after `dt` seconds at the utilization `u`: it moves by the reactivity constant times the distance to the
target utilization times the time (rounded towards zero) and stays between 0.1 and 10. -/
def ModifierMoves (c : ReserveConfig) (dt : Nat) (u m m' : Int) : Prop :=
  ∃ move, IsTrunc move (dt * ((u - c.util) * 100) * c.reactivity) ONE7 ∧
    IsClamp m' 100000000 10000000000 (m + move)

/-- `d'` is the state of a reserve (configured by `c`, with the backstop take rate `take` in units of `10⁻⁷`) that was `d`
when interest was last accrued, with interest accrued up to the time `now`. Without debt or deposits, or if no time passed,
there is no interest. Otherwise borrowers pay simple interest at the rate of the curve; the growth of the total debt
is split between the backstop's credit and the suppliers. -/
def Accrues (c : ReserveConfig) (take : Nat) (now : Nat) (d d' : ReserveData) : Prop :=
  (now = d.lastTime ∨ d.bSupply = 0 ∨ d.dSupply = 0) ∧ d' = { d with lastTime := now } ∨
  (d.lastTime < now ∧ 0 < d.bSupply ∧ 0 < d.dSupply) ∧
  d'.lastTime = now ∧ d'.bSupply = d.bSupply ∧ d'.dSupply = d.dSupply ∧
  ∃ debt value u debt' gain : Int,
    -- the utilization before
    IsCeil debt (d.dSupply * d.dRate) ONE9 ∧ IsFloor value (d.bSupply * d.bRate) ONE9 ∧ IsCeil u (debt * ONE7) value ∧
    -- what borrowers pay
    SimpleInterest (yearlyRate c u d.irMod / 10 ^ 7) (rateSlack c d.irMod / 10 ^ 7) (now - d.lastTime) d.dRate d'.dRate ∧
    ModifierMoves c (now - d.lastTime) u d.irMod d'.irMod ∧
    -- who gets it
    IsCeil debt' (d.dSupply * d'.dRate) ONE9 ∧ debt ≤ debt' ∧ IsFloor gain ((debt' - debt) * take) ONE7 ∧
    d'.backstopCredit = d.backstopCredit + gain ∧
    (debt' = debt → d'.bRate = d.bRate) ∧
    (debt < debt' → IsFloor d'.bRate ((value + (debt' - debt) - gain) * ONE9) d.bSupply)

end Spec
end Blend
