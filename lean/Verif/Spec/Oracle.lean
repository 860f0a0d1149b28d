import Verif.Spec.Gift
/-
  Specification for C85: two states in which the oracles report something else. Nothing here refers
  to the functions of the model other than `step`.
-/

namespace Blend.Spec

/-- `g` is the state `w` with other oracles: other prices, other times of the prices, other decimals, or none at all. -/
def OtherOracles (w g : World) : Prop := g = { w with oracle := g.oracle }

/-- The operation may ask an oracle: a submit with a withdrawal of collateral (3), a borrow (4), a fill
of a liquidation (6) or of bad debt (7) or the deletion of a liquidation (9), and the creation of an
auction. -/
def Asks : Op → Prop
  | .pool _ _ (.submit _ _ _ reqs) => ∃ q ∈ reqs, q.type = 3 ∨ q.type = 4 ∨ q.type = 6 ∨ q.type = 7 ∨ q.type = 9
  | .pool _ _ (.newLiquidation _ _) => True
  | .pool _ _ .newBadDebt => True
  | .pool _ _ (.newInterest _) => True
  | _ => False

/-- the oracles report new prices -/
def reports : Op → Bool
  | .oracles _ => true
  | _ => false

end Blend.Spec
