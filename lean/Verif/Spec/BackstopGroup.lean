import Mathlib.Algebra.BigOperators.Group.Finset.Basic
import Mathlib.Algebra.Order.Field.Rat
import Mathlib.Data.Rat.Cast.Order
import Verif.Props.Backstop
/-
  Specification for C91: what a group of accounts has in backstop tokens.
-/

namespace Blend.Spec

/-- The shares the account `u` has in the backstop of the pool `p`, queued for withdrawal or not. -/
def holding (w : World) (p u : Address) : Int :=
  (w.backstop.getUserBal p u).shares + queueTotal (w.backstop.getUserBal p u).q4w

/-- The shares of a group of accounts. -/
def groupShares (w : World) (S : Finset Address) (p : Address) : Int := ∑ u ∈ S, holding w p u

/-- What these shares are worth: their part of the pool's backstop tokens (nothing if there are no shares). -/
def worth (w : World) (S : Finset Address) (p : Address) : ℚ :=
  ((w.backstop.getPoolBal p).tokens : ℚ) * (groupShares w S p : ℚ) / ((w.backstop.getPoolBal p).shares : ℚ)

/-- What the group has in backstop tokens `lp`: in the hands of its members, and in the backstops of the pools of `P`. -/
def backstopWealth (w : World) (S P : Finset Address) (lp : Address) : ℚ :=
  ((∑ x ∈ S, w.balance lp x : Int) : ℚ) + ∑ p ∈ P, worth w S p

/-- A deposit, withdrawal, queueing or dequeueing of a member, at the backstop of a pool of `P`. -/
def OwnTrade (S P : Finset Address) : Op → Prop
  | .backstop _ (.deposit s p _) => s ∈ S ∧ p ∈ P
  | .backstop _ (.queueWithdrawal s p _) => s ∈ S ∧ p ∈ P
  | .backstop _ (.dequeueWithdrawal s p _) => s ∈ S ∧ p ∈ P
  | .backstop _ (.withdraw s p _) => s ∈ S ∧ p ∈ P
  | _ => False

/-- From `w` to `w'` the group gets nothing from anybody else: its members together have no more backstop tokens in their hands, the
backstops of the pools of `P` have no more tokens, and nobody's shares there change. -/
def NoGift (S P : Finset Address) (lp : Address) (w w' : World) : Prop :=
  ∑ x ∈ S, w'.balance lp x ≤ ∑ x ∈ S, w.balance lp x ∧
  ∀ p ∈ P, (w'.backstop.getPoolBal p).tokens ≤ (w.backstop.getPoolBal p).tokens ∧
    (w'.backstop.getPoolBal p).shares = (w.backstop.getPoolBal p).shares ∧ ∀ u ∈ S, holding w' p u = holding w p u

/-- An own trade of a member, or any operation that gives the group nothing. -/
def BackstopFair (S P : Finset Address) (lp : Address) (w : World) (op : Op) : Prop :=
  OwnTrade S P op ∨ ∀ w', step w op = .ok w' → NoGift S P lp w w'

/-- The same by an account outside the group. -/
def OthersTrade (S P : Finset Address) (op : Op) : Prop := ∃ s ∉ S, OwnTrade {s} P op

/-- 1 for the deposits and withdrawals of accounts outside the group at the pools of `P`, 0 for everything else -/
def othersTrades (S P : Finset Address) : Op → Nat
  | .backstop _ (.deposit s p _) => if s ∉ S ∧ p ∈ P then 1 else 0
  | .backstop _ (.withdraw s p _) => if s ∉ S ∧ p ∈ P then 1 else 0
  | _ => 0

/-- As `BackstopFair`, or a trade of somebody outside the group at a time when a share is worth at most `M` tokens. -/
def BackstopBusy (S P : Finset Address) (lp : Address) (M : Int) (w : World) (op : Op) : Prop :=
  BackstopFair S P lp w op ∨
  (OthersTrade S P op ∧ ∀ p ∈ P, (w.backstop.getPoolBal p).tokens ≤ M * (w.backstop.getPoolBal p).shares)

end Blend.Spec
