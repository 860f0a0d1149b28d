import Verif.Spec.Auction
/-
  Specification of what is counted as written off (C02, C21).
-/

namespace Blend
namespace Spec
open Pool

/-- the debt shares in the reserve with index `i` that `giver` gives up and `taker` does not take over, between two states of the
books of a submit -/
def lost (B B' : Books) (giver taker : Address) (i : Nat) : Int :=
  ((B.acct giver).debt i - (B'.acct giver).debt i) - ((B'.acct taker).debt i - (B.acct taker).debt i)

/-- somebody fills a bad debt auction of the pool `p` -/
def FillsDebtOf (p : Address) : Op → Prop
  | .pool q _ (.submit _ _ _ reqs) => q = p ∧ ∃ r ∈ reqs, r.type = 7
  | _ => False

/-- The requests `reqs` of a submit by `sender` to the pool `p`, which leads to `w'`, write debt off: one of them fills a bad
debt auction, leaves the backstop with less than 0.00003 percent of its minimum size and with no debt. The totals written off
grow, reserve by reserve, by exactly the value (rounded up, at the rate accrued up to the time of the submit) of the debt shares
that this request takes from the backstop and does not hand to the sender. -/
def WritesOff (w : World) (p sender : Address) (reqs : List Request) (w' : World) : Prop :=
  ∃ before q after B B' inst, reqs = before ++ q :: after ∧ q.type = 7 ∧ FullRun w p sender before (booksOf w p) B ∧
    AuctionEffect w p sender B q B' ∧ (w.pools p).inst = some inst ∧ sender ≠ inst.backstop ∧ BackstopLow w B'.lp ∧
    (∀ i, (B'.acct inst.backstop).debt i = 0) ∧ (∀ i, (accountOf (w'.pools p) inst.backstop).debt i = 0) ∧
    ∀ a, ((w'.pools p).writtenOff a = (w.pools p).writtenOff a ∧
          ∀ c, (w.pools p).resConfig a = some c → lost B B' inst.backstop sender c.index = 0) ∨
      ∃ c d, (w.pools p).resConfig a = some c ∧ Current (w.pools p) w.time a d ∧ 0 ≤ lost B B' inst.backstop sender c.index ∧
        IsCeil ((w'.pools p).writtenOff a - (w.pools p).writtenOff a) (lost B B' inst.backstop sender c.index * d.dRate) ONE9

end Spec
end Blend
