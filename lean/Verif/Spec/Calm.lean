import Verif.Spec.SameLedger
/-
  Specification of what may happen to an account within a ledger (C98).
-/

namespace Blend
namespace Spec
open Pool

/-- An operation within a ledger that is a submit by the account `u` itself, or does not concern `u` (C64): no time passes, prices and
parameters stay, nobody fills a liquidation of `u` or moves its bad debt. -/
def CalmFor (p u : Address) (op : Op) : Prop :=
  ForeignTo p u op ∨ ∃ auth spender dst reqs, op = .pool p auth (.submit u spender dst reqs)

end Spec

end Blend
