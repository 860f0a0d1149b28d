import Verif.Spec.Health
import Mathlib.Data.Rat.Defs
import Mathlib.Algebra.BigOperators.Group.Finset.Basic
/-
  Specification for C95: exact (unrounded) values of positions, and the loan to value ratio the factors of the reserves allow.
-/

namespace Blend
namespace Spec
open Pool

/-- `q` is the exact value of one share (debt or supply, `rate` tells which) of the reserve listed at position `i`, in units of the
oracle: price times tokens per share, nothing rounded. -/
def UnitWorth (rate : ReserveData → Int) (w : World) (ps : PoolState) (i : Nat) (q : ℚ) : Prop :=
  ∃ a c d x, ps.resList[i]? = some a ∧ ps.resConfig a = some c ∧ Current ps w.time a d ∧ FreshPrice w ps a x ∧
    q = ((x * rate d : Int) : ℚ) / (10 ^ 9 * 10 ^ c.decimals)

/-- `V` is the exact value of the shares `m` (by position in the list of reserves) -/
def Worth (rate : ReserveData → Int) (w : World) (ps : PoolState) (m : SMap Int) (V : ℚ) : Prop :=
  ∃ q : Nat → ℚ, (∀ i, m.bal i ≠ 0 → UnitWorth rate w ps i (q i)) ∧
    V = ∑ i ∈ Finset.range ps.resList.length, (m.bal i : ℚ) * q i

/-- the reserves in which `m` holds shares have a factor (collateral or liability, 7 decimals) of at most `f` -/
def FactorAtMost (factor : ReserveConfig → Nat) (ps : PoolState) (m : SMap Int) (f : ℚ) : Prop :=
  ∀ i a c, m.bal i ≠ 0 → ps.resList[i]? = some a → ps.resConfig a = some c → (factor c : ℚ) ≤ f * 10 ^ 7

/-- `g` is `w` with other answers of the oracles -/
def OtherPrices (w g : World) : Prop := ∃ o, g = { w with oracle := o }

end Spec
end Blend
