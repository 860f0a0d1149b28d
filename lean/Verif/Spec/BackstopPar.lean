import Verif.Model.System
import Verif.Spec
/-
  Specification for C94: how much a share of a pool's backstop can be worth.
-/

namespace Blend
namespace Spec

/-- the operation fills (also) an interest auction of pool `p` (request type 8) -/
def FillsInterest (p : Address) (op : Op) : Prop :=
  ∃ auth s sp d reqs, op = .pool p auth (.submit s sp d reqs) ∧ ∃ r ∈ reqs, r.type = 8

/-- The backstop holds at most as many tokens for pool `p` as there are shares: a share is worth at most one token. -/
def AtMostPar (w : World) (p : Address) : Prop := (w.backstop.getPoolBal p).tokens ≤ (w.backstop.getPoolBal p).shares

end Spec
end Blend
