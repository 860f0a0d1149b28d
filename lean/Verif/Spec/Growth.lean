import Verif.Spec.Interest
/-
  Specification for the speed of interest (C78).
-/

namespace Blend
namespace Spec

/-- a history that takes all its steps in worlds with the property `P` -/
inductive HistoryIn (P : World → Prop) : World → World → Prop
  | refl (w) : HistoryIn P w w
  | tail {w w' w'' op} : HistoryIn P w w' → P w' → step w' op = .ok w'' → HistoryIn P w w''

/-- The reserve `a` of the pool `p` is in normal use: the base rate and the slopes of its curve add up to at most `S` (in units
of `10⁻⁷`), and its debts are worth no more than its deposits. -/
def NormalUse (p a : Address) (S : Nat) (w : World) : Prop :=
  ∀ c d, (w.pools p).resConfig a = some c → (w.pools p).resData a = some d →
    c.rBase + c.rOne + c.rTwo + c.rThree ≤ S ∧
    ∀ debt value : Int, IsCeil debt (d.dSupply * d.dRate) ONE9 → IsFloor value (d.bSupply * d.bRate) ONE9 → debt ≤ value

/-- The factor by which a debt may grow in a second: the yearly rate is ten times the sum `S` of base rate and slopes
(rounded up by at most `11 S / 10⁷ + 12` units of `10⁻⁷`), a year has 31536000 seconds, and there are two roundings of `10⁻⁹`. -/
def growth (S : ℚ) : ℚ := 1 + (10 * S + 11 * S / 10 ^ 7 + 12) / (10 ^ 7 * 31536000) + 2 / 10 ^ 9

end Spec
end Blend
