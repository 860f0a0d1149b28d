import Verif.Spec.Auction
/-
  Specification for C92: what an auction that a pool has stored can be about.
-/

namespace Blend.Spec

/-- The auction `a` of type `t` (0 liquidation, 1 bad debt, 2 interest) that the pool `p` has stored for `u`: it starts in the next
ledger at the latest; a liquidation is about an account other than the pool and its backstop, and asks for and offers reserves of the pool only;
the others are about the pool's backstop: a bad debt auction asks for reserves (debt) and offers backstop tokens only, an interest auction asks
for backstop tokens only and offers reserves. -/
structure Contents (w : World) (p : Address) (t : Nat) (u : Address) (a : AuctionData) : Prop where
  block : a.block ≤ w.seq + 1
  kind : ∃ i, (w.pools p).inst = some i ∧
    ((t = 0 ∧ u ≠ p ∧ u ≠ i.backstop ∧ ∀ x, x ∉ (w.pools p).resList → a.bid.bal x = 0 ∧ a.lot.bal x = 0) ∨
    (u = i.backstop ∧ ∃ bi, w.backstop.inst = some bi ∧
      ((t = 1 ∧ (∀ x, 0 ≤ a.bid.bal x) ∧ (∀ x, x ∉ (w.pools p).resList → a.bid.bal x = 0) ∧
          ∀ x, x ≠ bi.backstopToken → a.lot.bal x = 0) ∨
        (t = 2 ∧ (∀ x, 0 ≤ a.lot.bal x) ∧ (∀ x, 0 ≤ a.bid.bal x) ∧ (∀ x, x ∉ (w.pools p).resList → a.lot.bal x = 0) ∧
          ∀ x, x ≠ bi.backstopToken → a.bid.bal x = 0))))

end Blend.Spec
