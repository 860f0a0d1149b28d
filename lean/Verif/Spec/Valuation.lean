import Verif.Model.System
import Verif.Spec
/-
  Specification for C93: what the backstop believes its tokens (LP tokens of Comet) to be worth.
-/

namespace Blend
namespace Spec

/-- the calls that refresh the recorded value of an LP token -/
def Refresh (op : Op) : Prop := ∃ auth, op = .backstop auth .updateTknVal

/-- In `w` the Comet pool holds `blnd` BLND and `usdc` USDC (with 7 decimals, rounded down) per LP token. -/
def HoldsPerToken (w : World) (blnd usdc : Int) : Prop :=
  ∃ i, w.backstop.inst = some i ∧ 0 < w.cometShares ∧
    IsFloor blnd (w.balance i.blnd i.backstopToken * ONE7) w.cometShares ∧
    IsFloor usdc (w.balance i.usdc i.backstopToken * ONE7) w.cometShares

end Spec
end Blend
