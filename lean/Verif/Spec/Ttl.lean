import Verif.Model.Ttl
import Verif.Spec.Auction
/-
  Specification for C81: which calls end an auction or a queued change, so that without them it can end only by its age.
-/

namespace Blend
namespace Spec

/-- the number of ledgers in one day, at five seconds each -/
def ledgersPerDay : Nat := 24 * 60 * 60 / 5

/-- The operation is a submission to the pool that asks to fill the auction of type `t` of `u`, or in which `u` asks to delete its
liquidation. -/
def AsksForAuction (p : Address) (t : Nat) (u : Address) (op : Op) : Prop :=
  ∃ auth sender spender dst reqs, op = .pool p auth (.submit sender spender dst reqs) ∧
    ((∃ n, ⟨6 + t, u, n⟩ ∈ reqs) ∨ t = 0 ∧ u = sender ∧ ∃ q ∈ reqs, q.type = 9)

/-- The operation is a call of the pool that cancels the queued change of the asset or puts it into effect. -/
def SettlesQueued (p a : Address) (op : Op) : Prop :=
  ∃ auth, op = .pool p auth (.cancelSetReserve a) ∨ op = .pool p auth (.setReserve a)

end Spec
end Blend
