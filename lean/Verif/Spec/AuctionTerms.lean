import Verif.Spec.Auction
/-
  Specification of the terms of new bad debt and interest auctions (C49).
-/

namespace Blend
namespace Spec

/-- `v` is the value (at the oracle's price, rounded down) of the debt of `k` shares of the reserve listed at position `i` -/
def DebtItem (w : World) (ps : PoolState) (i : Nat) (k v : Int) : Prop :=
  (k = 0 ∧ v = 0) ∨ ∃ a c d x n, ps.resList[i]? = some a ∧ ps.resConfig a = some c ∧ Current ps w.time a d ∧
    FreshPrice w ps a x ∧ IsCeil n (k * d.dRate) ONE9 ∧ IsFloor v (x * n) (10 ^ c.decimals)

/-- `v` is the value (at the oracle's price, rounded down) of the backstop's interest `k` in the reserve of `a`; nothing if
there is none -/
def InterestItem (w : World) (ps : PoolState) (a : Address) (k v : Int) : Prop :=
  (k ≤ 0 ∧ v = 0) ∨ ∃ c x, 0 < k ∧ ps.resConfig a = some c ∧ FreshPrice w ps a x ∧ IsFloor v (x * k) (10 ^ c.decimals)

/-- `v` is the value of one backstop token, of those kept for the pool `p`, in units of the oracle's prices `S`: five times
the value of the USDC behind it (the LP token is an 80/20 pool), all rounded down -/
def BackstopTokenValue (w : World) (p : Address) (S v : Int) : Prop :=
  ∃ vb vu usdc x, w.backstop.lpVal = some (vb, vu) ∧ 0 < (w.backstop.getPoolBal p).tokens ∧
    IsFloor usdc ((w.backstop.getPoolBal p).tokens * vu) ONE7 ∧ IsFloor x (usdc * S) ONE7 ∧
    IsFloor v (x * 5 * ONE7) (w.backstop.getPoolBal p).tokens

/-- `n` backstop tokens of the value `v` each are worth 140 percent of `value` (each step rounded down) -/
def Worth140 (value v n : Int) : Prop := 0 < v ∧ ∃ x, IsFloor x (value * 14) 10 ∧ IsFloor n (x * ONE7) v

/-- `a` is the bad debt auction that may be created in `w` for the pool `p` with the backstop `b`, whose token is `t`: the bid is
all debt of the backstop, the lot backstop tokens worth 140 percent of it, or all there are. -/
structure BadDebtTerms (w : World) (p b t : Address) (a : AuctionData) : Prop where
  block : a.block = w.seq + 1
  bid : ∀ i, amountAt (w.pools p) a.bid i = (accountOf (w.pools p) b).debt i
  bidOnly : ∀ x, x ∉ (w.pools p).resList → a.bid.bal x = 0
  lotOnly : ∀ x, x ≠ t → a.lot.bal x = 0
  lot : ∃ f n v m, (∀ i, i < (w.pools p).resList.length → DebtItem w (w.pools p) i ((accountOf (w.pools p) b).debt i) (f i)) ∧
    total (w.pools p) f ≠ 0 ∧ PriceDecimals w (w.pools p) n ∧ BackstopTokenValue w p (10 ^ n) v ∧
    Worth140 (total (w.pools p) f) v m ∧ a.lot.bal t = min (w.backstop.getPoolBal p).tokens m

/-- `a` is the interest auction that may be created in `w` for the pool `p` and the assets `l`, with backstop token `t`: the lot is
all interest of the backstop in these reserves, worth more than 200 units of the oracle's base asset, the bid backstop tokens
worth 140 percent of it. -/
structure InterestTerms (w : World) (p t : Address) (l : List Address) (a : AuctionData) : Prop where
  block : a.block = w.seq + 1
  lot : ∀ x, a.lot.bal x = if x ∈ l then max 0 (creditOf (w.pools p) w.time x) else 0
  bidOnly : ∀ x, x ≠ t → a.bid.bal x = 0
  bid : ∃ f : Address → Int, ∃ n v, (∀ x, x ∈ l → InterestItem w (w.pools p) x (creditOf (w.pools p) w.time x) (f x)) ∧
    PriceDecimals w (w.pools p) n ∧ 200 * 10 ^ n < (l.map f).sum ∧ BackstopTokenValue w p (10 ^ n) v ∧
    Worth140 (l.map f).sum v (a.bid.bal t)

end Spec
end Blend
