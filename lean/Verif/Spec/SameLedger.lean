import Verif.Spec.Health
/-
  Specification of what can happen within a ledger (C63, C64).
-/

namespace Blend
namespace Spec
open Pool

/-- an operation within a ledger: the time stays, and the pool's take rate is not changed -/
def WithinLedger (p : Address) (op : Op) : Prop :=
  (∀ dt ds, op ≠ .ledger dt ds) ∧ ∀ auth r m, op ≠ .pool p auth (.updatePool r m)

/-- An operation within a ledger that does not touch the account `u` of the pool `p`: no submit by `u`, no fill of the
liquidation of `u`, no move of bad debt of `u`. -/
def Elsewhere (p u : Address) (op : Op) : Prop :=
  WithinLedger p op ∧
  (∀ auth sender spender dst reqs, op = .pool p auth (.submit sender spender dst reqs) →
    sender ≠ u ∧ ∀ q ∈ reqs, q.type = 6 → q.address ≠ u) ∧
  ∀ auth, op ≠ .pool p auth (.badDebt u)

/-- An operation within a ledger that does not concern the account `u` of the pool `p`: it does not touch the account, and
brings no new prices and no new parameters of the pool and its reserves. -/
def ForeignTo (p u : Address) (op : Op) : Prop :=
  Elsewhere p u op ∧ (∀ o, op ≠ .oracles o) ∧ ∀ auth a, op ≠ .pool p auth (.setReserve a)

end Spec
end Blend
