import Verif.Spec.Auction
import Verif.Spec.Live
/-
  Specification of the creation of liquidation auctions of any size (C72).
-/

namespace Blend
namespace Spec
open Pool

/-- The health factor of an account with the risk adjusted values `C` and `L`, in units of `S`, is between 1.03 and 1.15 (rounded to
units of `S`). -/
def HealthBand (S C L : Int) : Prop :=
  0 < L ∧ ∃ lo hi, IsFloor lo (S * 103) 100 ∧ IsCeil hi (S * 115) 100 ∧ lo * L ≤ C * S ∧ C * S < (hi + 1) * L

/-- `a` is the auction that may be created in `w` to liquidate `n` percent of the debt of `u` in the pool `p`: the account is unhealthy;
the bid is `n` percent of each debt, the lot the share of each collateral given by the incentive, a positive amount of each; with all
of the debt all of the collateral must be offered, with less the rest of the account must end up within the health band. -/
structure LiquidationTerms (w : World) (p u : Address) (n : Nat) (a : AuctionData) : Prop where
  account : u ≠ p ∧ ∃ i, (w.pools p).inst = some i ∧ u ≠ i.backstop
  fresh : (w.pools p).auctions 0 u = none
  range : 1 ≤ n ∧ n ≤ 100
  block : a.block = w.seq + 1
  values : ∃ C Cr L Lr dec pct wd share, Values w (w.pools p) (getPositions (w.pools p) u) C Cr L Lr ∧ C ≤ L ∧
    PriceDecimals w (w.pools p) dec ∧ LiquidationShare (10 ^ dec) C Cr L Lr n pct wd share ∧
    (∀ i x, (w.pools p).resList[i]? = some x → IsCeil (a.lot.bal x) ((accountOf (w.pools p) u).collateral i * share) (10 ^ dec) ∧
      IsCeil (a.bid.bal x) ((accountOf (w.pools p) u).debt i * pct) (10 ^ dec)) ∧
    (n = 100 → Cr ≤ wd) ∧
    (n < 100 → ∃ pos' C' L', LeftAfter (w.pools p) (getPositions (w.pools p) u) a.lot a.bid pos' ∧
      CollateralValue w (w.pools p) pos' C' ∧ LiabilityValue w (w.pools p) pos' L' ∧ HealthBand (10 ^ dec) C' L')
  offered : ∀ i x, (w.pools p).resList[i]? = some x → (0 < (accountOf (w.pools p) u).collateral i → 0 < a.lot.bal x) ∧
    (0 < (accountOf (w.pools p) u).debt i → 0 < a.bid.bal x)
  positive : Positive a.lot ∧ Positive a.bid
  only : ∀ x, x ∉ (w.pools p).resList → a.lot.bal x = 0 ∧ a.bid.bal x = 0

/-- What the creation of the liquidation auction `a` of `u` does: the auction is recorded, and nothing else changes but the accrual of
the emissions of `u`. -/
structure LiquidationOutcome (w w' : World) (p u : Address) (a : AuctionData) : Prop where
  created : (w'.pools p).auctions 0 u = some a
  others : ∀ t x, (t, x) ≠ (0, u) → (w'.pools p).auctions t x = (w.pools p).auctions t x
  accounts : (w'.pools p).positions = (w.pools p).positions
  reserves : (w'.pools p).resData = (w.pools p).resData ∧ (w'.pools p).resConfig = (w.pools p).resConfig ∧
    (w'.pools p).resInit = (w.pools p).resInit ∧ (w'.pools p).resList = (w.pools p).resList
  pool : (w'.pools p).inst = (w.pools p).inst
  emissions : (w'.pools p).emisConfig = (w.pools p).emisConfig ∧ (w'.pools p).poolEmis = (w.pools p).poolEmis ∧
    (w'.pools p).claimed = (w.pools p).claimed ∧ (w'.pools p).received = (w.pools p).received
  rest : ∃ ps, w' = w.setPool p ps

end Spec
end Blend
