import Verif.Props.BackstopExits
/-
  Specification of the calls of backstop depositors (C67): when a call is in order and what it does.
-/

namespace Blend
namespace Spec

/-- A deposit of `a` tokens mints `m` shares: one for one while there are no shares, pro rata and rounded down afterwards, and
at least one. -/
def Minted (pb : PoolBalance) (a m : Int) : Prop :=
  0 < m ∧ (pb.shares = 0 ∧ m = a ∨ pb.shares ≠ 0 ∧ 0 < pb.tokens ∧ IsFloor m (a * pb.shares) pb.tokens)

/-- The call is in order in `w`. It will leave `pb` as the balance of the pool `p`, `ub` as the balance of the account `s`,
and moves `x` tokens from `s` to the backstop (from the backstop to `s` if `x` is negative). `tok` is the backstop token. -/
inductive BackstopPlan (w : World) (tok s p : Address) : BackstopCall → PoolBalance → UserBalance → Int → Prop
  /-- the pool is one of the factory, the caller has the tokens -/
  | deposit {a m : Int} : w.factory.deployed p = true → Minted (w.backstop.getPoolBal p) a m → ¬ AllQueued w p → a ≤ w.balance tok s →
      BackstopPlan w tok s p (.deposit s p a)
        ⟨(w.backstop.getPoolBal p).shares + m, (w.backstop.getPoolBal p).tokens + a, (w.backstop.getPoolBal p).q4w⟩
        ⟨(w.backstop.getUserBal p s).shares + m, (w.backstop.getUserBal p s).q4w⟩ a
  /-- the caller has the shares and a free place in the queue -/
  | queue {a : Int} : 0 ≤ a → a ≤ (w.backstop.getUserBal p s).shares → (w.backstop.getUserBal p s).q4w.length < 21 → ¬ AllQueued w p →
      BackstopPlan w tok s p (.queueWithdrawal s p a)
        ⟨(w.backstop.getPoolBal p).shares, (w.backstop.getPoolBal p).tokens, (w.backstop.getPoolBal p).q4w + a⟩
        ⟨(w.backstop.getUserBal p s).shares - a, (w.backstop.getUserBal p s).q4w ++ [⟨a, w.time + days21⟩]⟩ 0
  /-- the shares are in the queue -/
  | dequeue {a : Int} {q : List Q4W} : 0 ≤ a → FifoTake (fun _ => True) a (w.backstop.getUserBal p s).q4w q → ¬ AllQueued w p →
      BackstopPlan w tok s p (.dequeueWithdrawal s p a)
        ⟨(w.backstop.getPoolBal p).shares, (w.backstop.getPoolBal p).tokens, (w.backstop.getPoolBal p).q4w - a⟩
        ⟨(w.backstop.getUserBal p s).shares + a, q⟩ 0
  /-- the shares are in the queue, unlocked, and worth at least one token -/
  | withdraw {a tk : Int} {q : List Q4W} : 0 ≤ a → FifoTake (fun e => e.exp ≤ w.time) a (w.backstop.getUserBal p s).q4w q → 0 < tk →
      IsFloor tk (a * (w.backstop.getPoolBal p).tokens) (w.backstop.getPoolBal p).shares →
      BackstopPlan w tok s p (.withdraw s p a)
        ⟨(w.backstop.getPoolBal p).shares - a, (w.backstop.getPoolBal p).tokens - tk, (w.backstop.getPoolBal p).q4w - a⟩
        ⟨(w.backstop.getUserBal p s).shares, q⟩ (-tk)

/-- `w'` differs from `w` only as planned: in the balance of the pool `p`, the balance of its depositor `s`, the two token
balances, and the accrual of emissions of the pool and of the depositor (for which see C51). -/
structure BackstopOutcome (w w' : World) (tok s p : Address) (pb : PoolBalance) (ub : UserBalance) (x : Int) : Prop where
  pool : ∀ q, w'.backstop.getPoolBal q = if q = p then pb else w.backstop.getPoolBal q
  user : ∀ q u, w'.backstop.getUserBal q u = if q = p ∧ u = s then ub else w.backstop.getUserBal q u
  tokens : ∀ t a, w'.balance t a = w.balance t a + (if t = tok ∧ a = w.backstopAddr then x else 0) - if t = tok ∧ a = s then x else 0
  allow : ∀ t, (w'.tok t).allow = (w.tok t).allow
  rest : w' = { w with
    tok := w'.tok
    backstop := { w.backstop with
      poolBal := w'.backstop.poolBal
      userBal := w'.backstop.userBal
      emisData := w'.backstop.emisData
      userEmis := w'.backstop.userEmis } }
  emisPool : ∀ q, q ≠ p → w'.backstop.emisData q = w.backstop.emisData q ∧ w'.backstop.userEmis q = w.backstop.userEmis q
  emisUser : ∀ u, u ≠ s → (w'.backstop.userEmis p).get u = (w.backstop.userEmis p).get u

end Spec
end Blend
