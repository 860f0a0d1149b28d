import Verif.Model.Types
/-
  `pool/src/pool/interest.rs` and `pool/src/pool/reserve.rs`.
-/

namespace Blend

/-- `Reserve`, `pool/src/pool/reserve.rs` 13-29. The ledger part of the Rust struct is kept as one
`data` field (the fields that `Reserve::store` writes back). -/
structure Reserve where
  asset : Address
  index : Nat
  lFactor : Nat
  cFactor : Nat
  maxUtil : Nat
  scalar : Int
  data : ReserveData
deriving DecidableEq, Repr

/-- The current interest rate (7 decimals): `cur_ir` in `calc_accrual`,
`pool/src/pool/interest.rs` 29-68. -/
def calcIr (c : ReserveConfig) (curUtil irMod : Int) : R Int := do
  let target : Int := c.util
  if curUtil ≤ target then
    let us ← fixedDivCeil curUtil target SCALAR_7
    let m ← fixedMulCeil us c.rOne SCALAR_7
    let base ← chk (m + c.rBase)
    fixedMulCeil base irMod SCALAR_9
  else if curUtil ≤ 9500000 then
    let num ← chk (curUtil - target)
    let us ← fixedDivCeil num (9500000 - target) SCALAR_7
    let m ← fixedMulCeil us c.rTwo SCALAR_7
    let base ← chk (m + c.rOne + c.rBase)
    fixedMulCeil base irMod SCALAR_9
  else
    let num ← chk (curUtil - 9500000)
    let us ← fixedDivCeil num 500000 SCALAR_7
    let extra ← fixedMulCeil us c.rThree SCALAR_7
    let sum ← chkU32 (c.rTwo + c.rOne + c.rBase)
    let inter ← fixedMulCeil irMod sum SCALAR_9
    chk (extra + inter)

/-- The new rate modifier: `pool/src/pool/interest.rs` 70-105. -/
def calcIrMod (c : ReserveConfig) (curUtil irMod dtScaled : Int) : R Int := do
  let d ← chk (curUtil - (c.util : Int))
  let dif ← chk (d * 100)
  if dif ≥ 0 then
    let err ← fixedMulFloor dtScaled dif SCALAR_9
    let rateDif ← fixedMulFloor err c.reactivity SCALAR_7
    let next ← chk (irMod + rateDif)
    let mx : Int := 10 * SCALAR_9
    pure (if next > mx then mx else next)
  else
    let err ← fixedMulCeil dtScaled dif SCALAR_9
    let rateDif ← fixedMulCeil err c.reactivity SCALAR_7
    let next ← chk (irMod + rateDif)
    let mn : Int := Int.tdiv SCALAR_9 10
    pure (if next < mn then mn else next)

/-- `calc_accrual`, `pool/src/pool/interest.rs` 22-116: the loan accrual ratio (9 decimals) and the
new rate modifier. `now` is the ledger timestamp. -/
def calcAccrual (c : ReserveConfig) (curUtil irMod : Int) (lastTime now : Nat) : R (Int × Int) := do
  let curIr ← calcIr c curUtil irMod
  let dt ← subU now lastTime
  let dtScaled ← chk ((dt : Int) * SCALAR_9)
  let newIrMod ← calcIrMod c curUtil irMod dtScaled
  let timeWeight := Int.tdiv dtScaled SECONDS_PER_YEAR
  let ir100 ← chk (curIr * 100)
  let acc ← fixedMulCeil timeWeight ir100 SCALAR_9
  let accrual ← chk (SCALAR_9 + acc)
  pure (accrual, newIrMod)

namespace ReserveData

/-- `to_asset_from_d_token`, `pool/src/pool/reserve.rs` 159-163 -/
def toAssetFromD (r : ReserveData) (d : Int) : R Int := fixedMulCeil d r.dRate SCALAR_9
/-- `to_asset_from_b_token`, `pool/src/pool/reserve.rs` 169-173 -/
def toAssetFromB (r : ReserveData) (b : Int) : R Int := fixedMulFloor b r.bRate SCALAR_9
/-- `to_d_token_up`, `pool/src/pool/reserve.rs` 203-207 -/
def toDUp (r : ReserveData) (a : Int) : R Int := fixedDivCeil a r.dRate SCALAR_9
/-- `to_d_token_down`, `pool/src/pool/reserve.rs` 213-217 -/
def toDDown (r : ReserveData) (a : Int) : R Int := fixedDivFloor a r.dRate SCALAR_9
/-- `to_b_token_up`, `pool/src/pool/reserve.rs` 223-227 -/
def toBUp (r : ReserveData) (a : Int) : R Int := fixedDivCeil a r.bRate SCALAR_9
/-- `to_b_token_down`, `pool/src/pool/reserve.rs` 233-237 -/
def toBDown (r : ReserveData) (a : Int) : R Int := fixedDivFloor a r.bRate SCALAR_9
/-- `total_liabilities`, `pool/src/pool/reserve.rs` 144-146 -/
def totalLiabilities (r : ReserveData) : R Int := r.toAssetFromD r.dSupply
/-- `total_supply`, `pool/src/pool/reserve.rs` 149-151 -/
def totalSupply (r : ReserveData) : R Int := r.toAssetFromB r.bSupply
/-- `utilization`, `pool/src/pool/reserve.rs` 130-134 -/
def utilization (r : ReserveData) : R Int := do
  let l ← r.totalLiabilities
  let s ← r.totalSupply
  fixedDivCeil l s SCALAR_7

end ReserveData

/-- The accrual part of `Reserve::load`, `pool/src/pool/reserve.rs` 62-112: bring the ledger data
to the ledger timestamp `now`. -/
def accrue (c : ReserveConfig) (bstopRate : Nat) (now : Nat) (r : ReserveData) : R ReserveData := do
  if now = r.lastTime then pure r
  else if r.bSupply = 0 then pure { r with lastTime := now }
  else
    let util ← r.utilization
    if util = 0 then pure { r with lastTime := now }
    else
      let (loanAccrual, newIrMod) ← calcAccrual c util r.irMod r.lastTime now
      let preSupply ← r.totalSupply
      let preLiab ← r.totalLiabilities
      let dRate ← fixedMulCeil loanAccrual r.dRate SCALAR_9
      let r1 := { r with irMod := newIrMod, dRate := dRate }
      let postLiab ← r1.totalLiabilities
      let accrued ← chk (postLiab - preLiab)
      if accrued > 0 then
        let newCredit ← if bstopRate > 0 then fixedMulFloor accrued bstopRate SCALAR_7 else pure 0
        let credit ← chk (r1.backstopCredit + newCredit)
        let tot1 ← chk (preSupply + accrued)
        let tot ← chk (tot1 - newCredit)
        let bRate ← fixedDivFloor tot r1.bSupply SCALAR_9
        pure { r1 with backstopCredit := credit, bRate := bRate, lastTime := now }
      else pure { r1 with lastTime := now }

/-- `Reserve::load`, `pool/src/pool/reserve.rs` 43-113. -/
def Reserve.load (ps : PoolState) (bstopRate : Nat) (now : Nat) (asset : Address) : R Reserve := do
  let c ← unwrap (ps.resConfig asset)
  let d ← unwrap (ps.resData asset)
  let scalar ← pow10 c.decimals
  let d' ← accrue c bstopRate now d
  pure { asset := asset, index := c.index, lFactor := c.lFactor, cFactor := c.cFactor,
         maxUtil := c.maxUtil, scalar := scalar, data := d' }

/-- `Reserve::store`, `pool/src/pool/reserve.rs` 116-127 -/
def Reserve.store (ps : PoolState) (r : Reserve) : PoolState :=
  { ps with resData := upd ps.resData r.asset (some r.data) }

/-- `require_utilization_below_max`, `pool/src/pool/reserve.rs` 137-141 -/
def Reserve.requireUtilBelowMax (r : Reserve) : R Unit := do
  let u ← r.data.utilization
  require (u ≤ (r.maxUtil : Int)) (.pool .invalidUtilRate)

/-- `to_effective_asset_from_d_token`, `pool/src/pool/reserve.rs` 180-185 -/
def Reserve.toEffectiveAssetFromD (r : Reserve) (d : Int) : R Int := do
  let a ← r.data.toAssetFromD d
  fixedDivCeil a r.lFactor SCALAR_7

/-- `to_effective_asset_from_b_token`, `pool/src/pool/reserve.rs` 192-197 -/
def Reserve.toEffectiveAssetFromB (r : Reserve) (b : Int) : R Int := do
  let a ← r.data.toAssetFromB b
  fixedMulFloor a r.cFactor SCALAR_7

/-! ### `Pool`: the per invocation cache of reserves (`pool/src/pool/pool.rs`) -/

/-- `Pool`, `pool/src/pool/pool.rs` 13-19. The oracle caches (`price_decimals`, `prices`) are not
modelled: the oracle cannot change inside one invocation, so caching it is not observable. -/
structure Cache where
  config : PoolConfig
  reserves : SMap Reserve
  toStore : List Address

/-- `storage::get_pool_config`, `pool/src/storage.rs` 309-314 (and the other instance keys). -/
def PoolState.getInst (ps : PoolState) : R PoolInst := unwrap ps.inst

/-- `Pool::load`, `pool/src/pool/pool.rs` 23-32 -/
def Cache.load (ps : PoolState) : R Cache := do
  let i ← ps.getInst
  pure { config := i.config, reserves := .empty, toStore := [] }

/-- `Pool::load_reserve`, `pool/src/pool/pool.rs` 40-50 -/
def Cache.loadReserve (c : Cache) (ps : PoolState) (now : Nat) (asset : Address) (store : Bool) :
    R (Reserve × Cache) := do
  let c' := if store ∧ asset ∉ c.toStore then { c with toStore := c.toStore ++ [asset] } else c
  match c'.reserves.get asset with
  | some r => pure (r, c')
  | none => do
    let r ← Reserve.load ps c'.config.bstopRate now asset
    pure (r, c')

/-- `Pool::cache_reserve`, `pool/src/pool/pool.rs` 56-58 -/
def Cache.put (c : Cache) (r : Reserve) : Cache := { c with reserves := c.reserves.set r.asset r }

/-- `Pool::store_cached_reserves`, `pool/src/pool/pool.rs` 61-69 -/
def Cache.storeAll (c : Cache) (ps : PoolState) : R PoolState :=
  c.toStore.foldlM (fun ps a =>
    match c.reserves.get a with
    | some r => pure (r.store ps)
    | none => .error (.pool .internalReserveNotFound)) ps

/-- `Pool::require_action_allowed`, `pool/src/pool/pool.rs` 75-82 -/
def requireActionAllowed (cfg : PoolConfig) (actionType : Nat) : R Unit :=
  require (¬ ((cfg.status > 1 ∧ (actionType = 4 ∨ actionType = 9)) ∨
              (cfg.status > 3 ∧ (actionType = 2 ∨ actionType = 0))))
    (.pool .invalidPoolStatus)

/-- `Pool::require_under_max`, `pool/src/pool/pool.rs` 93-98 -/
def requireUnderMax (cfg : PoolConfig) (p : Positions) (prev : Nat) : R Unit :=
  require (¬ (p.effectiveCount > prev ∧ cfg.maxPositions < p.effectiveCount))
    (.pool .maxPositionsExceeded)

/-- `Pool::load_price_decimals`, `pool/src/pool/pool.rs` 102-110, and the `10i128.pow` its callers
apply to it -/
def oracleScalar (w : World) (cfg : PoolConfig) : R Int := pow10 (w.oracle cfg.oracle).decimals

/-- `Pool::load_price`, `pool/src/pool/pool.rs` 119-131: panics on a missing or stale price. -/
def loadPrice (w : World) (cfg : PoolConfig) (asset : Address) : R Int := do
  let (price, ts) ← unwrap ((w.oracle cfg.oracle).price asset)
  let lim ← chkU64 (ts + 24 * 60 * 60)
  require (¬ lim < w.time) (.pool .stalePrice)
  pure price

end Blend
