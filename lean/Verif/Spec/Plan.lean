import Verif.Spec.Submit
import Verif.Spec.Health
/-
  Specification of the submits that go through (C59): a list of plain requests each of which has its effect at today's
  rates, with the utilization of the reserve within its limit after every borrow.
-/

namespace Blend
namespace Spec
open Pool

/-- The data `d` of the reserve with index `i` when the account has the shares `A` instead of `A0`. -/
def withShares (d : ReserveData) (i : Nat) (A0 A : Account) : ReserveData :=
  { d with bSupply := d.bSupply + (A.supplied i + A.collateral i - (A0.supplied i + A0.collateral i))
           dSupply := d.dSupply + (A.debt i - A0.debt i) }

/-- From the account `A` the plain requests lead to a second one, at the rates with interest accrued up to `now`; `A0` is
the account at the start of the submit. -/
inductive Plan (ps : PoolState) (now : Nat) (A0 : Account) : List Request → Account → Account → Prop
  | nil (A) : Plan ps now A0 [] A A
  | cons {q l A A1 A2 c d} : ps.resConfig q.address = some c → Current ps now q.address d →
      Effect d.bRate d.dRate c.index A q A1 → (q.type = 4 → UtilAtMost (withShares d c.index A0 A1) c.maxUtil) →
      Plan ps now A0 l A1 A2 → Plan ps now A0 (q :: l) A A2

/-- the number of reserves, among the first `n`, that the account has collateral in, plus those it owes to -/
def openPositions (n : Nat) (A : Account) : Nat :=
  ((List.range n).filter fun i => A.collateral i ≠ 0).length + ((List.range n).filter fun i => A.debt i ≠ 0).length

/-- the positions `pos` are those of the account `A` -/
def HasPositions (A : Account) (pos : Positions) : Prop :=
  ∀ i, pos.supply.bal i = A.supplied i ∧ pos.collateral.bal i = A.collateral i ∧ pos.liabilities.bal i = A.debt i

/-- The plain requests `reqs` of `sender` are orderly and leave `sender` with the account `A`: each of them is permitted by
the status of the pool and has its effect, no borrow exceeds the maximum utilization, the number of positions does not grow
beyond the maximum, and an account that withdrew collateral or borrowed and has debts is healthy. -/
structure Orderly (w : World) (p : Address) (i : PoolInst) (sender : Address) (reqs : List Request) (A : Account) : Prop where
  plan : Plan (w.pools p) w.time (accountOf (w.pools p) sender) reqs (accountOf (w.pools p) sender) A
  permitted : ∀ q ∈ reqs, Permitted i.config.status q
  count : openPositions (w.pools p).resList.length A ≤ openPositions (w.pools p).resList.length (accountOf (w.pools p) sender) ∨
    openPositions (w.pools p).resList.length A ≤ i.config.maxPositions
  health : (∃ q ∈ reqs, q.type = 3 ∨ q.type = 4) → (∃ k, A.debt k ≠ 0) → ∃ pos, HasPositions A pos ∧ Healthy w (w.pools p) pos

/-- The submit is covered: the spender holds what is to be paid, and the pool holds, with that, what is to be paid out. -/
structure Covered (w : World) (p spender : Address) (A : Account) : Prop where
  paid : ∀ t, A.pays t ≤ w.balance t spender
  out : ∀ t, A.gets t ≤ w.balance t p + A.pays t

end Spec
end Blend
