import Verif.Spec.Margin
/-
  Specification for C97: the exact value of the two sides of an auction, and the allowance for rounding.
-/

namespace Blend
namespace Spec
open Pool

/-- `V` is the exact value of the shares `m` (by asset) of a side of a liquidation auction -/
def SideWorth (rate : ReserveData → Int) (w : World) (ps : PoolState) (m : SMap Int) (V : ℚ) : Prop :=
  ∃ q : Nat → ℚ, (∀ i a, ps.resList[i]? = some a → m.bal a ≠ 0 → UnitWorth rate w ps i (q i)) ∧
    V = ∑ i ∈ Finset.range ps.resList.length, (m.bal (ps.resList.getD i 0) : ℚ) * q i

/-- `E` is, for each reserve in which `m` holds shares, the value of one share plus one unit of the oracle -/
def Dust (rate : ReserveData → Int) (w : World) (ps : PoolState) (m : SMap Int) (E : ℚ) : Prop :=
  ∃ q : Nat → ℚ, (∀ i, m.bal i ≠ 0 → UnitWorth rate w ps i (q i)) ∧
    E = ∑ i ∈ Finset.range ps.resList.length, if m.bal i = 0 then 0 else q i + 1

end Spec
end Blend
