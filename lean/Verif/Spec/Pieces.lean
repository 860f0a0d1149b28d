import Verif.Spec.Auction
import Mathlib.Algebra.BigOperators.Group.List.Basic
import Mathlib.Algebra.Order.Field.Rat
/-
  Specification of fills in pieces (C82).
-/

namespace Blend
namespace Spec
open Pool

/-- the part of an auction that is left over when one takes over `m` percent of it for each `m` in the list, one after the other -/
def leftOver (ns : List Nat) : ℚ := (ns.map fun m : Nat => 1 - (m : ℚ) / 100).prod

/-- the requests that fill, one after the other, these percentages of the auction of type `t` of `u` -/
def pieces (t : Nat) (u : Address) (ns : List Nat) : List Request := ns.map fun m : Nat => ⟨6 + t, u, (m : Int)⟩

end Spec
end Blend
