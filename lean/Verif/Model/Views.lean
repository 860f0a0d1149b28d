import Verif.Model.System
/-
  Return values of the entry points that change state (`exec`, which extends `step`) and the read-only entry points.
-/

namespace Blend

/-- What an entry point returns -/
inductive Ret
  | unit
  | int (x : Int)
  | nat (n : Nat)
  | pair (x y : Int)
  | addr (a : Address)
  | positions (pos : Positions)
  | auction (a : AuctionData)
  | q4w (q : Q4W)

namespace Pool

/-- `initialize_reserve` with its result, `pool/src/pool/config.rs` 111-165: the index that the reserve keeps (line 119) or gets
(line 136, the length of the list before, `pool/src/storage.rs` 478-494) -/
def initReserveRet (ps : PoolState) (now : Nat) (asset : Address) (c : ReserveConfig) : R (Nat × PoolState) := do
  match ps.resConfig asset with
  | some old => do
    let cache ← Cache.load ps
    let (r, _) ← cache.loadReserve ps now asset false
    require (old.decimals = c.decimals) (.pool .invalidReserveMetadata)
    let changed := old.rBase ≠ c.rBase ∨ old.rOne ≠ c.rOne ∨ old.rTwo ≠ c.rTwo ∨
      old.rThree ≠ c.rThree ∨ old.util ≠ c.util
    let r' := if changed then { r with data := { r.data with irMod := SCALAR_9 } } else r
    let ps' := r'.store ps
    pure (r.index, { ps' with resConfig := upd ps'.resConfig asset (some { c with index := r.index }) })
  | none => do
    require (ps.resList.length ≠ 32) (.pool .badRequest)
    let d : ReserveData := ⟨SCALAR_9, SCALAR_9, SCALAR_9, 0, 0, 0, now⟩
    pure (ps.resList.length, { ps with
      resList := ps.resList ++ [asset]
      resData := upd ps.resData asset (some d)
      resConfig := upd ps.resConfig asset (some { c with index := ps.resList.length }) })

/-- `execute_set_reserve` with its result, `pool/src/pool/config.rs` 96-108 -/
def setReserveRet (ps : PoolState) (now : Nat) (asset : Address) : R (Nat × PoolState) := do
  let q ← unwrap (ps.resInit asset)
  require (¬ q.unlockTime > now) (.pool .initNotUnlocked)
  initReserveRet { ps with resInit := upd ps.resInit asset none } now asset q.newConfig

/-- The pool entry points with what they return, `pool/src/contract.rs` 233-431; entry points that return nothing are those
of `call`. -/
def callRet (w : World) (p : Address) (auth : List Address) : Call → R (Ret × World)
  -- contract.rs 310-316
  | .setReserve asset => do
    let (i, ps) ← setReserveRet (w.pools p) w.time asset
    pure (.nat i, w.setPool p ps)
  -- contract.rs 322-336
  | .submit sender spender dst reqs => do
    requireAuth auth spender
    if sender ≠ spender then requireAuth auth sender else pure ()
    let (pos, w') ← executeSubmit w p auth sender spender dst reqs
    pure (.positions pos, w')
  -- contract.rs 342-349, status.rs 11-66
  | .updateStatus => do
    let i ← (w.pools p).getInst
    let d ← backstopData w p
    let s ← nextStatus i.config.status d
    pure (.nat s, w.setPool p { (w.pools p) with inst := some { i with config := { i.config with status := s } } })
  -- contract.rs 362-369
  | .gulpEmissions => do
    let (n, w') ← Pool.gulpEmissions w p
    pure (.int n, w')
  -- contract.rs 378-390
  | .claim sender ids dst => do
    requireAuth auth sender
    let (n, w') ← executeClaim w p sender ids dst
    pure (.int n, w')
  -- contract.rs 394-402, auction.rs 99-115
  | .newLiquidation user percent => do
    let i ← (w.pools p).getInst
    require (¬ (user = p ∨ user = i.backstop)) (.pool .invalidLiquidation)
    let (a, ps) ← createUserLiq w p user percent
    pure (.auction a, w.setPool p (setAuction ps 0 user (some a)))
  -- contract.rs 408-418, auction.rs 52-64
  | .newBadDebt => do
    let i ← (w.pools p).getInst
    let a ← createBadDebtData w p i.backstop
    pure (.auction a, w.setPool p (setAuction (w.pools p) 1 i.backstop (some a)))
  -- contract.rs 420-430, auction.rs 75-87
  | .newInterest assets => do
    let i ← (w.pools p).getInst
    let a ← createInterestData w p i.backstop assets
    pure (.auction a, w.setPool p (setAuction (w.pools p) 2 i.backstop (some a)))
  | c => do
    let w' ← call w p auth c
    pure (.unit, w')

/-- `get_positions`, `pool/src/contract.rs` 318-320 -/
def viewPositions (w : World) (p user : Address) : Positions := getPositions (w.pools p) user

/-- `get_auction`, `pool/src/contract.rs` 404-406: panics if there is none -/
def viewAuction (w : World) (p : Address) (t : Nat) (user : Address) : R AuctionData := unwrap ((w.pools p).auctions t user)

end Pool

namespace Backstop

/-- `execute_queue_withdrawal` with its result, `backstop/src/backstop/withdrawal.rs` 8-29 -/
def executeQueueRet (w : World) (sender pool : Address) (amount : Int) : R (Q4W × World) := do
  requireNonneg amount
  let pb := w.backstop.getPoolBal pool
  let ub := w.backstop.getUserBal pool sender
  let (_, b1) ← updateEmissions w.backstop w.time pool pb sender ub false
  let ub' ← queueShares ub w.time amount
  let pb' ← pbQueue pb amount
  let q ← unwrap ub'.q4w.getLast?
  pure (q, w.setBackstop ((b1.setUserBal pool sender ub').setPoolBal pool pb'))

/-- `execute_update_comet_token_value` with its result, `backstop/src/backstop/fund_management.rs` 44-65 -/
def updateTknValRet (w : World) : R (Int × Int × World) := do
  let i ← inst w
  let totalBlnd := w.balance i.blnd i.backstopToken
  let totalUsdc := w.balance i.usdc i.backstopToken
  let b ← fixedDivFloor totalBlnd w.cometShares SCALAR_7
  let u ← fixedDivFloor totalUsdc w.cometShares SCALAR_7
  pure (b, u, w.setBackstop { w.backstop with lpVal := some (b, u) })

/-- `user_balance`, `backstop/src/contract.rs` 266-268 -/
def viewUserBalance (w : World) (pool user : Address) : UserBalance := w.backstop.getUserBal pool user

/-- `pool_data`, `backstop/src/contract.rs` 270-272 -/
def viewPoolData (w : World) (pool : Address) : R PoolData := loadPoolData w pool

/-- `backstop_token`, `backstop/src/contract.rs` 274-276 -/
def viewToken (w : World) : R Address := do
  let i ← inst w
  pure i.backstopToken

end Backstop

/-- The backstop entry points with what they return, `backstop/src/contract.rs` 178-347 -/
def backstopRet (w : World) (auth : List Address) : BackstopCall → R (Ret × World)
  | .deposit s p a => do let (n, w') ← Backstop.deposit w auth s p a; pure (.int n, w')
  | .queueWithdrawal s p a => do
    requireAuth auth s
    let (q, w') ← Backstop.executeQueueRet w s p a
    pure (.q4w q, w')
  | .withdraw s p a => do let (n, w') ← Backstop.withdraw w auth s p a; pure (.int n, w')
  | .gulpPoolEmissions p => do let (n, w') ← Backstop.gulpPoolEmissionsAuth w auth p; pure (.int n, w')
  | .claim s ps d => do let (n, w') ← Backstop.claim w auth s ps d; pure (.int n, w')
  | .updateTknVal => do let (b, u, w') ← Backstop.updateTknValRet w; pure (.pair b u, w')
  | c => do let w' ← backstopCall w auth c; pure (.unit, w')

/-- `get_backstop`, `emitter/src/contract.rs` 108-110 -/
def Emitter.viewBackstop (w : World) : R Address := do
  let i ← Emitter.inst w
  pure i.backstop

/-- `get_queued_swap`, `emitter/src/contract.rs` 120-122 -/
def Emitter.viewQueuedSwap (w : World) : Option Swap := w.emitter.swap

/-- The emitter entry points with what they return, `emitter/src/contract.rs` 75-144 -/
def emitterRet (w : World) (auth : List Address) : EmitterCall → R (Ret × World)
  | .distribute => do let (n, w') ← Emitter.distribute w; pure (.int n, w')
  | c => do let w' ← emitterCall w auth c; pure (.unit, w')

/-- The factory entry points with what they return, `pool-factory/src/pool_factory.rs` 51-118 -/
def factoryRet (w : World) (auth : List Address) : FactoryCall → R (Ret × World)
  | .deploy a s o r m => do let (x, w') ← Factory.deploy w auth a s o r m; pure (.addr x, w')
  | c => do let w' ← factoryCall w auth c; pure (.unit, w')

/-- Execute one operation and return what the entry point returns. -/
def exec (w : World) : Op → R (Ret × World)
  | .pool p auth c => do
    require (w.poolAddr p = true) .notModelled
    require (∀ a ∈ auth, ¬ w.isProtocol a) .unauthorized
    Pool.callRet w p auth c
  | .backstop auth c => do
    require (∀ a ∈ auth, ¬ w.isProtocol a) .unauthorized
    backstopRet w auth c
  | .emitter auth c => do
    require (∀ a ∈ auth, ¬ w.isProtocol a) .unauthorized
    emitterRet w auth c
  | .factory auth c => do
    require (∀ a ∈ auth, ¬ w.isProtocol a) .unauthorized
    factoryRet w auth c
  | op => do
    let w' ← step w op
    pure (.unit, w')

end Blend
