import Verif.Model.PoolUser
/-
  Auctions: `pool/src/auctions/`.
-/

namespace Blend
namespace Pool

/-- The pool's view of the backstop contract's `pool_data`. -/
abbrev BackstopData := Backstop.PoolData

/-- `BackstopClient::pool_data(current_contract)`: the pool must be wired to the modelled backstop -/
def backstopData (w : World) (p : Address) : R BackstopData := do
  let i ← (w.pools p).getInst
  require (i.backstop = w.backstopAddr) .notModelled
  Backstop.loadPoolData w p

/-- `BackstopClient::backstop_token` -/
def backstopToken (w : World) (p : Address) : R Address := do
  let i ← (w.pools p).getInst
  require (i.backstop = w.backstopAddr) .notModelled
  let bi ← Backstop.inst w
  pure bi.backstopToken

/-- `calc_pool_backstop_threshold`, `pool/src/pool/status.rs` 129-148 -/
def backstopThreshold (d : BackstopData) : Int :=
  let b := Int.tdiv d.blnd SCALAR_7
  let u := Int.tdiv d.usdc SCALAR_7
  let pc := satMul (satMul (satMul (satMul (satMul b b) b) b) u) SCALAR_7
  Int.tdiv pc 320000000000000000000000000

/-- `storage::set_auction`, `pool/src/storage.rs` 667-678 -/
def setAuction (ps : PoolState) (t : Nat) (user : Address) (a : Option AuctionData) : PoolState :=
  { ps with auctions := upd ps.auctions t (upd (ps.auctions t) user a) }

/-! ### Scaling, `pool/src/auctions/auction.rs` -/

/-- The bid and lot modifiers (7 decimals) after `dif` ledgers,
`pool/src/auctions/auction.rs` 212-228. -/
def auctionModifiers (dif : Int) : Int × Int :=
  if dif > 200 then
    (if dif < 400 then SCALAR_7 - (dif - 200) * 50000 else 0, SCALAR_7)
  else (SCALAR_7, dif * 50000)

/-- The bid loop of `scale_auction`, `pool/src/auctions/auction.rs` 232-249:
(remaining bid, bid to fill). -/
def scaleBid (pct bidMod : Int) :
    List (Nat × Int) → (SMap Int × SMap Int) → R (SMap Int × SMap Int)
  | [], s => pure s
  | (asset, amount) :: t, (rem, fill) => do
    let base ← fixedMulCeil amount pct SCALAR_7
    let left ← chk (amount - base)
    let rem' := if left > 0 then rem.set asset left else rem
    let scaled ← fixedMulCeil base bidMod SCALAR_7
    let fill' := if scaled > 0 then fill.set asset scaled else fill
    scaleBid pct bidMod t (rem', fill')

/-- The lot loop of `scale_auction`, `pool/src/auctions/auction.rs` 250-267:
(remaining lot, lot to fill). -/
def scaleLot (pct lotMod : Int) :
    List (Nat × Int) → (SMap Int × SMap Int) → R (SMap Int × SMap Int)
  | [], s => pure s
  | (asset, amount) :: t, (rem, fill) => do
    let base ← fixedMulFloor amount pct SCALAR_7
    let left ← chk (amount - base)
    let rem' := if left > 0 then rem.set asset left else rem
    let scaled ← fixedMulFloor base lotMod SCALAR_7
    let fill' := if scaled > 0 then fill.set asset scaled else fill
    scaleLot pct lotMod t (rem', fill')

/-- `scale_auction`, `pool/src/auctions/auction.rs` 191-274: (auction to fill, remaining auction) -/
def scaleAuction (seq : Nat) (a : AuctionData) (percent : Nat) :
    R (AuctionData × Option AuctionData) := do
  require (¬ (percent > 100 ∨ percent = 0)) (.pool .badRequest)
  let dif ← subU seq a.block
  let (bidMod, lotMod) := auctionModifiers dif
  let pct : Int := (percent : Int) * 100000
  let (remBid, fillBid) ← scaleBid pct bidMod a.bid.toList (.empty, .empty)
  let (remLot, fillLot) ← scaleLot pct lotMod a.lot.toList (.empty, .empty)
  let fill : AuctionData := ⟨fillBid, fillLot, a.block⟩
  if remLot.isEmpty ∧ remBid.isEmpty then pure (fill, none)
  else pure (fill, some ⟨remBid, remLot, a.block⟩)

/-! ### User liquidations, `pool/src/auctions/user_liquidation_auction.rs` -/

/-- The estimated collateral withdrawn and its share of the total collateral,
`pool/src/auctions/user_liquidation_auction.rs` 40-71. Returns (scaled percent, withdrawn
collateral, withdrawn share capped at 1). -/
def liqQuote (pd : PositionData) (percent : Nat) : R (Int × Int × Int) := do
  let m ← chk ((percent : Int) * pd.scalar)
  let pct := Int.tdiv m 100
  let avgCf ← fixedDivFloor pd.collateralBase pd.collateralRaw pd.scalar
  let avgLf ← fixedDivFloor pd.liabilityBase pd.liabilityRaw pd.scalar
  let ratio ← fixedDivCeil avgCf avgLf pd.scalar
  let dif ← chk (pd.scalar - ratio)
  let two ← chk (2 * pd.scalar)
  let half ← fixedDivCeil dif two pd.scalar
  let incentive ← chk (half + pd.scalar)
  let x ← fixedMulFloor pd.liabilityRaw pct pd.scalar
  let withdrawn ← fixedMulFloor x incentive pd.scalar
  let share ← fixedDivCeil withdrawn pd.collateralRaw pd.scalar
  pure (pct, withdrawn, if share > pd.scalar then pd.scalar else share)

/-- The loops building lot and bid, `pool/src/auctions/user_liquidation_auction.rs` 73-93 -/
def liqAmounts (resList : List Address) (pct scalar : Int) :
    List (Nat × Int) → SMap Int → R (SMap Int)
  | [], m => pure m
  | (i, amount) :: t, m => do
    let asset ← unwrap (resList[i]?)
    let x ← fixedMulCeil amount pct scalar
    liqAmounts resList pct scalar t (m.set asset x)

/-- `create_user_liq_auction_data`, `pool/src/auctions/user_liquidation_auction.rs` 12-120. The
emission bookkeeping written by `rm_positions` on the way (lines 101-106) stays in the ledger, so the
new pool state is returned as well. -/
def createUserLiq (w : World) (p : Address) (user : Address) (percent : Nat) :
    R (AuctionData × PoolState) := do
  let ps := w.pools p
  require ((ps.auctions 0 user).isNone) (.pool .auctionInProgress)
  require (¬ (percent > 100 ∨ percent = 0)) (.pool .invalidLiquidation)
  let block ← chkU32 (w.seq + 1)
  let cache ← Cache.load ps
  let u := User.load ps user
  let (pd, cache1) ← calcPositionData w ps cache u.pos
  require (¬ pd.liabilityBase < pd.collateralBase) (.pool .invalidLiquidation)
  let (pct, withdrawn, share) ← liqQuote pd percent
  let lot ← liqAmounts ps.resList share pd.scalar u.pos.collateral.toList .empty
  let bid ← liqAmounts ps.resList pct pd.scalar u.pos.liabilities.toList .empty
  let quote : AuctionData := ⟨bid, lot, block⟩
  if percent = 100 then
    require (¬ withdrawn < pd.collateralRaw) (.pool .invalidLiqTooLarge)
    pure (quote, ps)
  else
    let c ← rmPositions w.time ⟨ps, cache1, u⟩ lot bid
    let (nd, _) ← calcPositionData w c.ps c.cache c.user.pos
    let over ← nd.isHfOver 11500000
    require (¬ over = true) (.pool .invalidLiqTooLarge)
    let under ← nd.isHfUnder 10300000
    require (¬ under = true) (.pool .invalidLiqTooSmall)
    pure (quote, c.ps)

/-- `create_liquidation`, `pool/src/auctions/auction.rs` 99-115 -/
def createLiquidation (w : World) (p : Address) (user : Address) (percent : Nat) : R World := do
  let i ← (w.pools p).getInst
  require (¬ (user = p ∨ user = i.backstop)) (.pool .invalidLiquidation)
  let (a, ps) ← createUserLiq w p user percent
  pure (w.setPool p (setAuction ps 0 user (some a)))

/-- `delete_liquidation`, `pool/src/auctions/auction.rs` 126-131 -/
def deleteLiquidation (ps : PoolState) (user : Address) : R PoolState := do
  require ((ps.auctions 0 user).isSome) (.pool .badRequest)
  pure (setAuction ps 0 user none)

/-! ### Bad debt auctions, `pool/src/auctions/bad_debt_auction.rs` -/

/-- The loop of `create_bad_debt_auction_data`, `pool/src/auctions/bad_debt_auction.rs` 30-41 -/
def badDebtLoop (w : World) (ps : PoolState) :
    List (Nat × Int) → (Int × SMap Int × Cache) → R (Int × SMap Int × Cache)
  | [], s => pure s
  | (i, bal) :: t, (value, bid, cache) => do
    let asset ← unwrap (ps.resList[i]?)
    if bal > 0 then
      let (r, cache') ← cache.loadReserve ps w.time asset false
      let price ← loadPrice w cache'.config asset
      let a ← r.data.toAssetFromD bal
      let x ← fixedMulFloor price a r.scalar
      let v ← chk (value + x)
      badDebtLoop w ps t (v, bid.set asset bal, cache')
    else badDebtLoop w ps t (value, bid, cache)

/-- base value of one backstop token, `pool/src/auctions/bad_debt_auction.rs` 50-57 and
`pool/src/auctions/backstop_interest_auction.rs` 54-60 -/
def backstopTokenToBase (d : BackstopData) (scalar : Int) : R Int := do
  let x ← fixedMulFloor d.usdc scalar SCALAR_7
  let v ← chk (x * 5)
  fixedDivFloor v d.tokens SCALAR_7

/-- `create_bad_debt_auction_data`, `pool/src/auctions/bad_debt_auction.rs` 14-69 -/
def createBadDebtData (w : World) (p backstop : Address) : R AuctionData := do
  let ps := w.pools p
  require ((ps.auctions 1 backstop).isNone) (.pool .auctionInProgress)
  let block ← chkU32 (w.seq + 1)
  let cache ← Cache.load ps
  let scalar ← oracleScalar w cache.config
  let (value, bid, _) ←
    badDebtLoop w ps (getPositions ps backstop).liabilities.toList (0, .empty, cache)
  require (¬ (bid.isEmpty ∨ value = 0)) (.pool .badRequest)
  let tokenAddr ← backstopToken w p
  let d ← backstopData w p
  let toBase ← backstopTokenToBase d scalar
  let x ← fixedMulFloor value 14000000 SCALAR_7
  let lot ← fixedDivFloor x toBase SCALAR_7
  let lot' := if d.tokens ≤ lot then d.tokens else lot
  pure ⟨bid, SMap.empty.set tokenAddr lot', block⟩

/-- `create_bad_debt_auction`, `pool/src/auctions/auction.rs` 52-64 -/
def createBadDebt (w : World) (p : Address) : R World := do
  let i ← (w.pools p).getInst
  let a ← createBadDebtData w p i.backstop
  pure (w.setPool p (setAuction (w.pools p) 1 i.backstop (some a)))

/-- The loop collecting the remaining backstop liabilities,
`pool/src/auctions/bad_debt_auction.rs` 105-113 -/
def collectLiabilities (resList : List Address) : List (Nat × Int) → SMap Int → R (SMap Int)
  | [], m => pure m
  | (i, bal) :: t, m => do
    let asset ← unwrap (resList[i]?)
    collectLiabilities resList t (m.set asset bal)

/-- The part of the world a request works on: the world (its pool `p` ledger is live), the reserve
cache and the user whose positions are in flight. -/
structure Flight where
  w : World
  cache : Cache
  user : User

/-- write the pool ledger part of a context back to the world -/
def UCtx.toFlight (c : UCtx) (w : World) (p : Address) : Flight := ⟨w.setPool p c.ps, c.cache, c.user⟩

/-- the user context of a flight -/
def Flight.ctx (fl : Flight) (p : Address) : UCtx := ⟨fl.w.pools p, fl.cache, fl.user⟩

/-- `fill_user_liq_auction`, `pool/src/auctions/user_liquidation_auction.rs` 122-133 -/
def fillUserLiq (fl : Flight) (p : Address) (a : AuctionData) (user : Address) : R Flight := do
  let now := fl.w.time
  let c0 : UCtx := ⟨fl.w.pools p, fl.cache, User.load (fl.w.pools p) user⟩
  let c1 ← rmPositions now c0 a.lot a.bid
  let c2 ← addPositions now ⟨c1.ps, c1.cache, fl.user⟩ a.lot a.bid
  let ps' := c1.user.store c2.ps
  pure ⟨fl.w.setPool p ps', c2.cache, c2.user⟩

/-- ghost bookkeeping: the value (rounded up) of the debt shares `rm` that are burned without
payment; it never fails and nothing reads it -/
def recordWriteOff (ps : PoolState) (cache : Cache) (rm : SMap Int) : PoolState :=
  { ps with writtenOff := fun a =>
      ps.writtenOff a +
        match rm.get a, cache.reserves.get a with
        | some x, some r => -(Int.fdiv (-(x * r.data.dRate)) SCALAR_9)
        | _, _ => 0 }

/-- `fill_bad_debt_auction`, `pool/src/auctions/bad_debt_auction.rs` 72-120. The pool is the
authorizing invoker of the backstop's `draw`. -/
def fillBadDebt (fl : Flight) (p : Address) (a : AuctionData) : R Flight := do
  let now := fl.w.time
  let i ← (fl.w.pools p).getInst
  require (¬ fl.user.addr = i.backstop) (.pool .badRequest)
  let c0 : UCtx := ⟨fl.w.pools p, fl.cache, User.load (fl.w.pools p) i.backstop⟩
  let c1 ← rmPositions now c0 .empty a.bid
  let c2 ← addPositions now ⟨c1.ps, c1.cache, fl.user⟩ .empty a.bid
  let w1 := fl.w.setPool p c2.ps
  let tokenAddr ← backstopToken w1 p
  let lot ← unwrap (a.lot.get tokenAddr)
  let w2 ← Backstop.draw w1 [p] p lot fl.user.addr
  if c1.user.pos.liabilities.isEmpty then
    pure ⟨w2.setPool p (c1.user.store (w2.pools p)), c2.cache, c2.user⟩
  else
    let d ← backstopData w2 p
    if backstopThreshold d < 3 then
      let rm ← collectLiabilities (w2.pools p).resList c1.user.pos.liabilities.toList .empty
      let c3 ← rmPositions now ⟨w2.pools p, c2.cache, c1.user⟩ .empty rm
      pure ⟨w2.setPool p (recordWriteOff (c3.user.store c3.ps) c3.cache rm), c3.cache, c2.user⟩
    else
      pure ⟨w2.setPool p (c1.user.store (w2.pools p)), c2.cache, c2.user⟩

/-! ### Interest auctions, `pool/src/auctions/backstop_interest_auction.rs` -/

/-- The loop of `create_interest_auction_data`,
`pool/src/auctions/backstop_interest_auction.rs` 29-41 -/
def interestLoop (w : World) (ps : PoolState) :
    List Address → (Int × SMap Int × Cache) → R (Int × SMap Int × Cache)
  | [], s => pure s
  | asset :: t, (value, lot, cache) => do
    let (r, cache') ← cache.loadReserve ps w.time asset false
    if r.data.backstopCredit > 0 then
      let price ← loadPrice w cache'.config asset
      let x ← fixedMulFloor price r.data.backstopCredit r.scalar
      let v ← chk (value + x)
      interestLoop w ps t (v, lot.set asset r.data.backstopCredit, cache')
    else interestLoop w ps t (value, lot, cache')

/-- `create_interest_auction_data`, `pool/src/auctions/backstop_interest_auction.rs` 11-71 -/
def createInterestData (w : World) (p backstop : Address) (assets : List Address) :
    R AuctionData := do
  let ps := w.pools p
  require ((ps.auctions 2 backstop).isNone) (.pool .auctionInProgress)
  let cache ← Cache.load ps
  let scalar ← oracleScalar w cache.config
  let block ← chkU32 (w.seq + 1)
  let (value, lot, _) ← interestLoop w ps assets (0, .empty, cache)
  let lim ← chk (200 * scalar)
  require (¬ value ≤ lim) (.pool .interestTooSmall)
  require (¬ (lot.isEmpty ∨ value = 0)) (.pool .badRequest)
  let d ← backstopData w p
  let toBase ← backstopTokenToBase d scalar
  let x ← fixedMulFloor value 14000000 SCALAR_7
  let bid ← fixedDivFloor x toBase SCALAR_7
  let tokenAddr ← backstopToken w p
  pure ⟨SMap.empty.set tokenAddr bid, lot, block⟩

/-- `create_interest_auction`, `pool/src/auctions/auction.rs` 75-87 -/
def createInterest (w : World) (p : Address) (assets : List Address) : R World := do
  let i ← (w.pools p).getInst
  let a ← createInterestData w p i.backstop assets
  pure (w.setPool p (setAuction (w.pools p) 2 i.backstop (some a)))

/-- The loop of `fill_interest_auction`, `pool/src/auctions/backstop_interest_auction.rs` 95-104 -/
def fillInterestLoop (p filler : Address) :
    List (Nat × Int) → (World × Cache) → R (World × Cache)
  | [], s => pure s
  | (asset, amount) :: t, (w, cache) => do
    let (r, cache') ← cache.loadReserve (w.pools p) w.time asset true
    let credit ← chk (r.data.backstopCredit - amount)
    let r' := { r with data := { r.data with backstopCredit := credit } }
    let w' ← transfer w asset p filler amount
    fillInterestLoop p filler t (w', cache'.put r')

/-- `fill_interest_auction`, `pool/src/auctions/backstop_interest_auction.rs` 73-105. `auth` are the
addresses that authorized the submit; the pool is the invoker of the backstop's `donate`. -/
def fillInterest (fl : Flight) (p : Address) (auth : List Address) (a : AuctionData) : R Flight := do
  let i ← (fl.w.pools p).getInst
  require (¬ fl.user.addr = i.backstop) (.pool .badRequest)
  let tokenAddr ← backstopToken fl.w p
  let bid ← unwrap (a.bid.get tokenAddr)
  let w1 ← Backstop.donate fl.w (p :: auth) fl.user.addr p bid
  let (w2, cache) ← fillInterestLoop p fl.user.addr a.lot.toList (w1, fl.cache)
  pure ⟨w2, cache, fl.user⟩

/-- `fill`, `pool/src/auctions/auction.rs` 145-175. `t` is the auction type (0, 1 or 2). -/
def fill (fl : Flight) (p : Address) (auth : List Address) (t : Nat) (user : Address)
    (percent : Nat) : R Flight := do
  require (¬ user = fl.user.addr) (.pool .invalidLiquidation)
  let a ← unwrap ((fl.w.pools p).auctions t user)
  let (toFill, remaining) ← scaleAuction fl.w.seq a percent
  let fl' ←
    if t = 0 then fillUserLiq fl p toFill user
    else if t = 1 then fillBadDebt fl p toFill
    else fillInterest fl p auth toFill
  pure { fl' with w := fl'.w.setPool p (setAuction (fl'.w.pools p) t user remaining) }

end Pool
end Blend
