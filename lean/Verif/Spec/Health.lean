import Verif.Spec
/-
  Specification of the health of an account (C09, C18, C20): risk adjusted values at oracle prices.
-/

namespace Blend
namespace Spec
open Pool

/-- `d` is the data of the reserve `a` with interest accrued up to the time `now` -/
def Current (ps : PoolState) (now : Nat) (a : Address) (d : ReserveData) : Prop :=
  ∃ c d0 i, ps.resConfig a = some c ∧ ps.resData a = some d0 ∧ ps.inst = some i ∧ accrue c i.config.bstopRate now d0 = .ok d

/-- `x` is the price of `a` at the pool's oracle, not older than a day -/
def FreshPrice (w : World) (ps : PoolState) (a : Address) (x : Int) : Prop :=
  ∃ i ts, ps.inst = some i ∧ (w.oracle i.config.oracle).price a = some (x, ts) ∧ w.time ≤ ts + 86400

/-- `v` is the risk adjusted value of `b` collateral shares of the reserve listed at position `i`: shares to tokens, times
the collateral factor, times the price, each rounded down. -/
def CollateralItem (w : World) (ps : PoolState) (i : Nat) (b v : Int) : Prop :=
  (b = 0 ∧ v = 0) ∨ ∃ a c d x n e, ps.resList[i]? = some a ∧ ps.resConfig a = some c ∧ Current ps w.time a d ∧
    FreshPrice w ps a x ∧ IsFloor n (b * d.bRate) ONE9 ∧ IsFloor e (n * c.cFactor) ONE7 ∧ IsFloor v (x * e) (10 ^ c.decimals)

/-- `v` is the risk adjusted value of `k` debt shares of the reserve listed at position `i`: shares to tokens, divided by
the liability factor, times the price, each rounded up. -/
def LiabilityItem (w : World) (ps : PoolState) (i : Nat) (k v : Int) : Prop :=
  (k = 0 ∧ v = 0) ∨ ∃ a c d x n e, ps.resList[i]? = some a ∧ ps.resConfig a = some c ∧ Current ps w.time a d ∧
    FreshPrice w ps a x ∧ IsCeil n (k * d.dRate) ONE9 ∧ 0 < c.lFactor ∧ IsCeil e (n * ONE7) c.lFactor ∧
    IsCeil v (x * e) (10 ^ c.decimals)

/-- the sum of `f i` over the reserves of a pool -/
def total (ps : PoolState) (f : Nat → Int) : Int := ((List.range ps.resList.length).map f).sum

/-- `C` is the risk adjusted collateral of the positions `pos` -/
def CollateralValue (w : World) (ps : PoolState) (pos : Positions) (C : Int) : Prop :=
  ∃ f, (∀ i, i < ps.resList.length → CollateralItem w ps i (pos.collateral.bal i) (f i)) ∧ C = total ps f

/-- `L` is the risk adjusted value of the liabilities of the positions `pos` -/
def LiabilityValue (w : World) (ps : PoolState) (pos : Positions) (L : Int) : Prop :=
  ∃ f, (∀ i, i < ps.resList.length → LiabilityItem w ps i (pos.liabilities.bal i) (f i)) ∧ L = total ps f

/-- the raw value of collateral: shares to tokens times price -/
def RawCollItem (w : World) (ps : PoolState) (i : Nat) (b v : Int) : Prop :=
  (b = 0 ∧ v = 0) ∨ ∃ a c d x n, ps.resList[i]? = some a ∧ ps.resConfig a = some c ∧ Current ps w.time a d ∧
    FreshPrice w ps a x ∧ IsFloor n (b * d.bRate) ONE9 ∧ IsFloor v (x * n) (10 ^ c.decimals)

/-- the raw value of debt: shares to tokens times price -/
def RawLiabItem (w : World) (ps : PoolState) (i : Nat) (k v : Int) : Prop :=
  (k = 0 ∧ v = 0) ∨ ∃ a c d x n, ps.resList[i]? = some a ∧ ps.resConfig a = some c ∧ Current ps w.time a d ∧
    FreshPrice w ps a x ∧ IsCeil n (k * d.dRate) ONE9 ∧ IsCeil v (x * n) (10 ^ c.decimals)

/-- the number of decimals of the prices of the pool's oracle -/
def PriceDecimals (w : World) (ps : PoolState) (n : Nat) : Prop :=
  ∃ i, ps.inst = some i ∧ (w.oracle i.config.oracle).decimals = n

/-- The health factor (risk adjusted collateral over risk adjusted liabilities) of the positions is at least 1, and at
least 1.00001 when the oracle's prices have 5 or more decimals. -/
def Healthy (w : World) (ps : PoolState) (pos : Positions) : Prop :=
  ∃ C L n, CollateralValue w ps pos C ∧ LiabilityValue w ps pos L ∧ PriceDecimals w ps n ∧ L ≤ C ∧
    (5 ≤ n → 100001 * L ≤ 100000 * C)

/-- `C` is the value of the collateral of the positions `pos` at oracle prices -/
def RawCollateral (w : World) (ps : PoolState) (pos : Positions) (C : Int) : Prop :=
  ∃ f, (∀ i, i < ps.resList.length → RawCollItem w ps i (pos.collateral.bal i) (f i)) ∧ C = total ps f

/-- `L` is the value of the liabilities of the positions `pos` at oracle prices -/
def RawLiability (w : World) (ps : PoolState) (pos : Positions) (L : Int) : Prop :=
  ∃ f, (∀ i, i < ps.resList.length → RawLiabItem w ps i (pos.liabilities.bal i) (f i)) ∧ L = total ps f

/-- The share `share` (of one, in units of `S`) of the collateral offered by a liquidation of `percent` percent of the debt
of an account with the risk adjusted values `C`, `L` and the values `Cr`, `Lr`: the value of the debt taken over plus an
incentive of half of `1 - average collateral factor / average liability factor`, over the value of the collateral, at most
one. `pct` is `percent` in units of `S`, `wd` the value of the collateral offered. -/
def LiquidationShare (S C Cr L Lr : Int) (percent : Nat) (pct wd share : Int) : Prop :=
  IsFloor pct (percent * S) 100 ∧
  ∃ cf lf ratio half x sh, IsFloor cf (C * S) Cr ∧ IsFloor lf (L * S) Lr ∧ IsCeil ratio (cf * S) lf ∧
    IsCeil half ((S - ratio) * S) (2 * S) ∧ IsFloor x (Lr * pct) S ∧ IsFloor wd (x * (S + half)) S ∧
    IsCeil sh (wd * S) Cr ∧ share = min S sh

/-- `pos'` is what is left of `pos` after giving away the collateral `lot` and the debt `bid` (shares by reserve) -/
def LeftAfter (ps : PoolState) (pos : Positions) (lot bid : SMap Int) (pos' : Positions) : Prop :=
  ∀ i, (∀ a, ps.resList[i]? = some a → pos'.collateral.bal i = pos.collateral.bal i - lot.bal a ∧
      pos'.liabilities.bal i = pos.liabilities.bal i - bid.bal a) ∧
    0 ≤ pos'.collateral.bal i ∧ 0 ≤ pos'.liabilities.bal i ∧ pos'.supply.bal i = pos.supply.bal i

/-- the pool's oracle reports no negative price for its reserves -/
def PricesOk (w : World) (ps : PoolState) : Prop :=
  ∀ i a x ts, ps.inst = some i → a ∈ ps.resList → (w.oracle i.config.oracle).price a = some (x, ts) → 0 ≤ x

end Spec
end Blend
