import Verif.Spec.Auction
import Verif.Spec.Plan
import Mathlib.Algebra.BigOperators.Group.Finset.Basic
/-
  Specification of the submits that go through, for all ten kinds of requests (C62).
-/

namespace Blend
namespace Spec
open Pool

/-- The data `d` of the reserve with index `i` when the accounts of the addresses `X` are `F` instead of `F0`. -/
def withAccounts (d : ReserveData) (i : Nat) (X : Finset Address) (F0 F : Address → Account) : ReserveData :=
  { d with bSupply := d.bSupply + X.sum fun x => (F x).supplied i + (F x).collateral i - ((F0 x).supplied i + (F0 x).collateral i)
           dSupply := d.dSupply + X.sum fun x => (F x).debt i - (F0 x).debt i }

/-- With the accounts `F` instead of those of the pool `p` in `w`, which differ for finitely many addresses only, the
utilization of the reserve with index `i`, whose data is `d`, is at most `maxUtil / 10⁷`. -/
def UtilWithin (w : World) (p : Address) (F : Address → Account) (d : ReserveData) (i maxUtil : Nat) : Prop :=
  ∃ X : Finset Address, (∀ x, x ∉ X → (F x).supplied i = (accountOf (w.pools p) x).supplied i ∧
      (F x).collateral i = (accountOf (w.pools p) x).collateral i ∧ (F x).debt i = (accountOf (w.pools p) x).debt i) ∧
    UtilAtMost (withAccounts d i X (accountOf (w.pools p)) F) maxUtil

/-- From the books `B` the requests of a submit by `sender` to the pool `p` in the world `w` lead to other books: every
request has its effect, and after every borrow the utilization of the reserve is within its limit. -/
inductive FullPlan (w : World) (p sender : Address) : List Request → Books → Books → Prop
  | nil (B) : FullPlan w p sender [] B B
  | plain {q l B A B2 c d} : q.type ≤ 5 → (w.pools p).resConfig q.address = some c → Current (w.pools p) w.time q.address d →
      Effect d.bRate d.dRate c.index (B.acct sender) q A →
      (q.type = 4 → UtilWithin w p (upd B.acct sender A) d c.index c.maxUtil) →
      FullPlan w p sender l { B with acct := upd B.acct sender A } B2 → FullPlan w p sender (q :: l) B B2
  | auction {q l B B1 B2} : AuctionEffect w p sender B q B1 → FullPlan w p sender l B1 B2 → FullPlan w p sender (q :: l) B B2

/-- The requests `reqs` of `sender`, of any kind, are in order and lead to the books `B`: each of them is permitted by the
status of the pool and has its effect, no borrow exceeds the maximum utilization, the number of positions of the sender does
not grow beyond the maximum, and a sender that withdrew collateral, borrowed, filled a liquidation or bad debt auction or
cancelled its own liquidation, and has debts, is healthy. -/
structure InOrder (w : World) (p : Address) (i : PoolInst) (sender : Address) (reqs : List Request) (B : Books) : Prop where
  plan : FullPlan w p sender reqs (booksOf w p) B
  permitted : ∀ q ∈ reqs, Permitted i.config.status q
  count : openPositions (w.pools p).resList.length (B.acct sender) ≤ openPositions (w.pools p).resList.length (accountOf (w.pools p) sender) ∨
    openPositions (w.pools p).resList.length (B.acct sender) ≤ i.config.maxPositions
  health : (∃ q ∈ reqs, q.type = 3 ∨ q.type = 4 ∨ q.type = 6 ∨ q.type = 7 ∨ q.type = 9) → (∃ k, (B.acct sender).debt k ≠ 0) →
    ∃ pos, HasPositions (B.acct sender) pos ∧ Healthy w (w.pools p) pos

/-- The submit is covered: after its requests the spender holds what is to be paid, and the pool holds, with that, what is to
be paid out. -/
structure FullyCovered (p sender spender : Address) (B : Books) : Prop where
  paid : ∀ t, (B.acct sender).pays t ≤ B.wallet t spender
  out : ∀ t, (B.acct sender).gets t ≤ B.wallet t p + (B.acct sender).pays t

/-- The world `w'` is what the books `B` at the end of the requests of `sender` say, once the spender has paid and the
receiver `dst` has been paid. -/
structure Outcome (w' : World) (p sender spender dst : Address) (B : Books) : Prop where
  positions : ∀ x, HasPositions (B.acct x) (getPositions (w'.pools p) x)
  auctions : (w'.pools p).auctions = B.auction
  lp : (w'.backstop.getPoolBal p).tokens = B.lp
  credit : ∀ a, creditOf (w'.pools p) w'.time a = B.credit a
  balances : ∀ t x, w'.balance t x = B.wallet t x + (if x = p then (B.acct sender).pays t - (B.acct sender).gets t else 0)
    - (if x = spender then (B.acct sender).pays t else 0) + (if x = dst then (B.acct sender).gets t else 0)

end Spec
end Blend
