import Mathlib.Algebra.BigOperators.Group.Finset.Basic
import Verif.Spec.SameLedger
import Verif.Spec.Gift
import Verif.Spec.FollowCash
/-
  Specification for C88: what a group of accounts has, and the operations in which nobody else gives it anything.
-/

namespace Blend.Spec
open Pool

/-- The token `t` is a reserve of every pool of `P`, at the position `idx p` of its list, and its supply shares and debt shares are
worth `b p` and `d p` (in billionths of a token) with interest up to now. -/
structure Quoted (w : World) (P : Finset Address) (t : Address) (idx : Address → Nat) (b d : Address → Int) : Prop where
  pool : ∀ p ∈ P, w.poolAddr p = true
  reserve : ∀ p ∈ P, ∃ c data, (w.pools p).resConfig t = some c ∧ c.index = idx p ∧ Current (w.pools p) w.time t data ∧
    data.bRate = b p ∧ data.dRate = d p

/-- What the shares of the account `x` in the reserve at position `i` of a pool are worth, minus its debts. -/
def net (ps : PoolState) (i : Nat) (b d : Int) (x : Address) : Int :=
  b * ((getPositions ps x).supply.bal i + (getPositions ps x).collateral.bal i) - d * (getPositions ps x).liabilities.bal i

/-- What the group `S` has in tokens `t`, in billionths: the tokens in the hands of its members, and what its members have in the
pools of `P`, minus what they owe there. -/
def wealth (w : World) (S P : Finset Address) (t : Address) (idx : Address → Nat) (b d : Address → Int) : Int :=
  ONE9 * (S.sum fun x => w.balance t x) + P.sum fun p => S.sum fun x => net (w.pools p) (idx p) (b p) (d p) x

/-- The members of the group `S` are no pools and no backstops of pools of `P`. -/
def Outside (w : World) (S P : Finset Address) : Prop :=
  ∀ x ∈ S, w.poolAddr x = false ∧ x ≠ w.backstopAddr ∧ ∀ p ∈ P, ∀ i, (w.pools p).inst = some i → x ≠ i.backstop

/-- `t` is a token the protocol itself pays or is paid with: BLND or the backstop token. -/
def Reward (w : World) (t : Address) : Prop :=
  IsBlnd w t ∨ ∃ i, w.backstop.inst = some i ∧ i.backstopToken = t

/-- An operation in which nobody else gives anything to the group `S`: within a ledger; a submit of a member is paid by members,
is made to a pool of `P` (or one that does not have `t`), takes no interest of the backstop and liquidates members only; a submit of
anybody else does not send anything to members and liquidates no members; no bad debt of members is moved to the backstop; no pool
that pays emissions in `t` pays them to members; no tokens are sent to members by others, and none are issued to them. -/
def Fair (S P : Finset Address) (t : Address) (w : World) (op : Op) : Prop :=
  ¬ Reward w t ∧ (∀ p ∈ P, WithinLedger p op) ∧
  match op with
  | .pool p _ (.submit sender spender dst reqs) =>
    (sender ∈ S ∧ spender ∈ S ∧ (p ∈ P ∨ (w.pools p).resConfig t = none) ∧ ∀ q ∈ reqs, q.type ≠ 8 ∧ (q.type = 6 → q.address ∈ S)) ∨
    (sender ∉ S ∧ dst ∉ S ∧ ∀ q ∈ reqs, q.type = 6 → q.address ∉ S)
  | .pool _ _ (.badDebt u) => u ∉ S
  | .pool p _ (.claim _ _ dst) => dst ∈ S → ∀ i, (w.pools p).inst = some i → i.blnd ≠ t
  | .tokenTransfer _ a x _ => x ∈ S → a ∈ S
  | .tokenMint _ x _ => x ∉ S
  | _ => True

end Blend.Spec
