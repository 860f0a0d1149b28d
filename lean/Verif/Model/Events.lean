import Verif.Model.Views
/-
  The events the contracts publish. `logOf w op` is the log of the operation `op` in the world `w`, in the order in which the
  code publishes it; it is meaningful if the operation succeeds (a failing transaction publishes nothing). Events of token
  contracts and of other external contracts are not part of it.
-/

namespace Blend

/-- The events of all four contracts, with topics and data. The first argument of the events of a pool is the pool. -/
inductive Event
  /-- `supply`, `pool/src/pool/actions.rs` 125-132 -/
  | supply (pool asset src : Address) (amount shares : Int)
  /-- `withdraw`, `pool/src/pool/actions.rs` 146-153 -/
  | withdraw (pool asset src : Address) (amount shares : Int)
  /-- `supply_collateral`, `pool/src/pool/actions.rs` 161-168 -/
  | supplyCollateral (pool asset src : Address) (amount shares : Int)
  /-- `withdraw_collateral`, `pool/src/pool/actions.rs` 183-190 -/
  | withdrawCollateral (pool asset src : Address) (amount shares : Int)
  /-- `borrow`, `pool/src/pool/actions.rs` 200-207 -/
  | borrow (pool asset src : Address) (amount shares : Int)
  /-- `repay`, `pool/src/pool/actions.rs` 220-227, 230-237 -/
  | repay (pool asset src : Address) (amount shares : Int)
  /-- `fill_auction`, `pool/src/pool/actions.rs` 252-259, 273-280, 292-299 -/
  | fillAuction (pool user : Address) (type : Nat) (filler : Address) (amount : Int)
  /-- `delete_liquidation_auction`, `pool/src/pool/actions.rs` 305-308 -/
  | deleteLiquidation (pool src : Address)
  /-- `bad_debt`, `pool/src/pool/bad_debt.rs` 43-46, `pool/src/auctions/bad_debt_auction.rs` 109-112 -/
  | badDebt (pool user asset : Address) (shares : Int)
  /-- `new_liquidation_auction`, `pool/src/contract.rs` 397-400 -/
  | newLiquidation (pool user : Address) (a : AuctionData)
  /-- `new_auction`, `pool/src/contract.rs` 412-415, 424-427 -/
  | newAuction (pool : Address) (type : Nat) (a : AuctionData)
  /-- `set_admin`, `pool/src/contract.rs` 269-270 -/
  | setAdmin (pool admin newAdmin : Address)
  /-- `update_pool`, `pool/src/contract.rs` 280-283 -/
  | updatePool (pool admin : Address) (rate maxPositions : Nat)
  /-- `queue_set_reserve`, `pool/src/contract.rs` 293-296 -/
  | queueSetReserve (pool admin asset : Address) (cfg : ReserveConfig)
  /-- `cancel_set_reserve`, `pool/src/contract.rs` 306-307 -/
  | cancelSetReserve (pool admin asset : Address)
  /-- `set_reserve`, `pool/src/contract.rs` 313-314 -/
  | setReserve (pool asset : Address) (index : Nat)
  /-- `set_status`, `pool/src/contract.rs` 346-347 (without admin), 356-357 (with admin) -/
  | setStatus (pool : Address) (admin : Option Address) (status : Nat)
  /-- `reserve_emission_update`, `pool/src/emissions/manager.rs` 137-140 -/
  | reserveEmission (pool : Address) (id eps expiration : Nat)
  /-- `update_emissions`, `pool/src/contract.rs` 366-367 -/
  | updateEmissions (pool : Address) (amount : Int)
  /-- `claim` of the pool, `pool/src/contract.rs` 384-387 -/
  | claim (pool src : Address) (ids : List Nat) (amount : Int)
  /-- `deposit`, `backstop/src/contract.rs` 221-224, `backstop/src/emissions/claim.rs` 70-73 -/
  | deposit (pool src : Address) (amount shares : Int)
  /-- `queue_withdrawal`, `backstop/src/contract.rs` 234-237 -/
  | queueWithdrawal (pool src : Address) (shares : Int) (exp : Nat)
  /-- `dequeue_withdrawal`, `backstop/src/contract.rs` 247-250 -/
  | dequeueWithdrawal (pool src : Address) (shares : Int)
  /-- `withdraw` of the backstop, `backstop/src/contract.rs` 259-262 -/
  | backstopWithdraw (pool src : Address) (shares amount : Int)
  /-- `gulp_emissions`, `backstop/src/contract.rs` 284-285 -/
  | gulpEmissions (amount : Int)
  /-- `rw_zone`, `backstop/src/contract.rs` 292-293 -/
  | rewardZone (toAdd toRemove : Address)
  /-- `claim` of the backstop, `backstop/src/contract.rs` 308 -/
  | backstopClaim (src : Address) (amount : Int)
  /-- `draw`, `backstop/src/contract.rs` 324-325 -/
  | draw (pool dst : Address) (amount : Int)
  /-- `donate`, `backstop/src/contract.rs` 334-335 -/
  | donate (pool src : Address) (amount : Int)
  /-- `distribute`, `emitter/src/contract.rs` 97-100 -/
  | distribute (backstop : Address) (amount : Int)
  /-- `q_swap`, `emitter/src/contract.rs` 117 -/
  | queueSwap (s : Swap)
  /-- `del_swap`, `emitter/src/contract.rs` 128 -/
  | cancelSwap (s : Swap)
  /-- `swap`, `emitter/src/contract.rs` 135 -/
  | swap (s : Swap)
  /-- `drop`, `emitter/src/contract.rs` 142 -/
  | drop (list : List (Address × Int))
  /-- `deploy`, `pool-factory/src/pool_factory.rs` 109-110 -/
  | deploy (pool : Address)

namespace Pool

/-- The `bad_debt` events for the liabilities `l` of `user`, by index in the reserve list:
`pool/src/pool/bad_debt.rs` 36-47 and `pool/src/auctions/bad_debt_auction.rs` 105-113 -/
def badDebtEvents (p user : Address) (resList : List Address) : List (Nat × Int) → R (List Event)
  | [] => pure []
  | (i, bal) :: t => do
    let asset ← unwrap (resList[i]?)
    let l ← badDebtEvents p user resList t
    pure (.badDebt p user asset bal :: l)

/-- The events published while a bad debt auction is filled, `pool/src/auctions/bad_debt_auction.rs` 72-120: that of the
backstop's `draw` (line 94-95), and one for every debt that is written off (line 109-112) -/
def fillBadDebtLog (fl : Flight) (p : Address) (a : AuctionData) : R (List Event) := do
  let now := fl.w.time
  let i ← (fl.w.pools p).getInst
  let c0 : UCtx := ⟨fl.w.pools p, fl.cache, User.load (fl.w.pools p) i.backstop⟩
  let c1 ← rmPositions now c0 .empty a.bid
  let c2 ← addPositions now ⟨c1.ps, c1.cache, fl.user⟩ .empty a.bid
  let w1 := fl.w.setPool p c2.ps
  let tokenAddr ← backstopToken w1 p
  let lot ← unwrap (a.lot.get tokenAddr)
  let w2 ← Backstop.draw w1 [p] p lot fl.user.addr
  if c1.user.pos.liabilities.isEmpty then pure [.draw p fl.user.addr lot]
  else
    let d ← backstopData w2 p
    if backstopThreshold d < 3 then do
      let l ← badDebtEvents p i.backstop (w2.pools p).resList c1.user.pos.liabilities.toList
      pure (.draw p fl.user.addr lot :: l)
    else pure [.draw p fl.user.addr lot]

/-- The events published while an interest auction is filled, `pool/src/auctions/backstop_interest_auction.rs` 73-105: that of
the backstop's `donate` (line 88-92) -/
def fillInterestLog (fl : Flight) (p : Address) (a : AuctionData) : R (List Event) := do
  let tokenAddr ← backstopToken fl.w p
  let bid ← unwrap (a.bid.get tokenAddr)
  pure [.donate p fl.user.addr bid]

/-- The events published by `fill`, `pool/src/auctions/auction.rs` 145-175, followed by `fill_auction` of the request -/
def fillLog (fl : Flight) (p : Address) (t : Nat) (user : Address) (amount : Int) : R (List Event) := do
  let a ← unwrap ((fl.w.pools p).auctions t user)
  let (toFill, _) ← scaleAuction fl.w.seq a (asU64 amount)
  let l ← if t = 0 then pure [] else if t = 1 then fillBadDebtLog fl p toFill else fillInterestLog fl p toFill
  pure (l ++ [.fillAuction p user t fl.user.addr amount])

/-- The events of one request, `pool/src/pool/actions.rs` 114-311 -/
def requestLog (p : Address) (s : SubmitState) (q : Request) : R (List Event) := do
  let ps := s.fl.w.pools p
  let now := s.fl.w.time
  let src := s.fl.user.addr
  match q.type with
  | 0 => do
    let (r, _) ← s.fl.cache.loadReserve ps now q.address true
    let minted ← r.data.toBDown q.amount
    pure [.supply p q.address src q.amount minted]
  | 1 => do
    let (r, _) ← s.fl.cache.loadReserve ps now q.address true
    let (burn, out) ← withdrawAmounts r.data (s.fl.user.pos.supply.bal r.index) q.amount
    pure [.withdraw p q.address src out burn]
  | 2 => do
    let (r, _) ← s.fl.cache.loadReserve ps now q.address true
    let minted ← r.data.toBDown q.amount
    pure [.supplyCollateral p q.address src q.amount minted]
  | 3 => do
    let (r, _) ← s.fl.cache.loadReserve ps now q.address true
    let (burn, out) ← withdrawAmounts r.data (s.fl.user.pos.collateral.bal r.index) q.amount
    pure [.withdrawCollateral p q.address src out burn]
  | 4 => do
    let (r, _) ← s.fl.cache.loadReserve ps now q.address true
    let minted ← r.data.toDUp q.amount
    pure [.borrow p q.address src q.amount minted]
  | 5 => do
    let (r, _) ← s.fl.cache.loadReserve ps now q.address true
    let cur := s.fl.user.pos.liabilities.bal r.index
    let burnt ← r.data.toDDown q.amount
    if burnt > cur then
      let owed ← r.data.toAssetFromD cur
      let refund ← chk (q.amount - owed)
      let kept ← chk (q.amount - refund)
      pure [.repay p q.address src kept cur]
    else pure [.repay p q.address src q.amount burnt]
  | 6 => fillLog s.fl p 0 q.address q.amount
  | 7 => fillLog s.fl p 1 q.address q.amount
  | 8 => fillLog s.fl p 2 q.address q.amount
  | 9 => pure [.deleteLiquidation p src]
  | _ => .error (.pool .badRequest)

/-- The events of the requests of a submit, one after the other, `pool/src/pool/actions.rs` 113-312 -/
def requestsLog (p : Address) (auth : List Address) : List Request → SubmitState → R (List Event)
  | [], _ => pure []
  | q :: l, s => do
    let ev ← requestLog p s q
    let s' ← processRequest p auth s q
    let evs ← requestsLog p auth l s'
    pure (ev ++ evs)

/-- The events of `do_gulp_emissions`, `pool/src/emissions/manager.rs` 70-85, one per reserve token (line 137-140) -/
def gulpLog (p : Address) (now : Nat) (n : Int) : List (Nat × Nat) → PoolState → R (List Event)
  | [], _ => pure []
  | (id, share) :: t, ps => do
    let asset ← unwrap (ps.resList[id / 2]?)
    let x ← fixedMulFloor (share : Int) n SCALAR_7
    let ps' ← updateReserveEmisConfig ps now asset id x
    let c ← unwrap (ps'.emisConfig id)
    let l ← gulpLog p now n t ps'
    pure (.reserveEmission p id c.eps c.expiration :: l)

/-- The events of the entry points of a pool, `pool/src/contract.rs` 233-431 -/
def callLog (w : World) (p : Address) (auth : List Address) : Call → R (List Event)
  | .initialize .. => pure []
  | .setAdmin newAdmin => do
    let i ← (w.pools p).getInst
    pure [.setAdmin p i.admin newAdmin]
  | .updatePool rate maxp => do
    let i ← (w.pools p).getInst
    pure [.updatePool p i.admin rate maxp]
  | .queueSetReserve asset cfg => do
    let i ← (w.pools p).getInst
    pure [.queueSetReserve p i.admin asset cfg]
  | .cancelSetReserve asset => do
    let i ← (w.pools p).getInst
    pure [.cancelSetReserve p i.admin asset]
  | .setReserve asset => do
    let (i, _) ← setReserveRet (w.pools p) w.time asset
    pure [.setReserve p asset i]
  | .submit sender _ _ reqs => do
    let cache ← Cache.load (w.pools p)
    requestsLog p auth reqs ⟨⟨w, cache, User.load (w.pools p) sender⟩, ⟨.empty, .empty⟩, false⟩
  -- bad_debt.rs 36-47
  | .badDebt user => badDebtEvents p user (w.pools p).resList (getPositions (w.pools p) user).liabilities.toList
  | .updateStatus => do
    let i ← (w.pools p).getInst
    let d ← backstopData w p
    let s ← nextStatus i.config.status d
    pure [.setStatus p none s]
  | .setStatus s => do
    let i ← (w.pools p).getInst
    pure [.setStatus p (some i.admin) s]
  | .gulpEmissions => do
    let (n, w1) ← Backstop.gulpPoolEmissionsAuth w [p] p
    let l ← gulpLog p w1.time n (w1.pools p).poolEmis.toList (w1.pools p)
    pure (l ++ [.updateEmissions p n])
  | .setEmissionsConfig _ => pure []
  | .claim sender ids dst => do
    let (n, _) ← executeClaim w p sender ids dst
    pure [.claim p sender ids n]
  | .newLiquidation user percent => do
    let (a, _) ← createUserLiq w p user percent
    pure [.newLiquidation p user a]
  | .newBadDebt => do
    let i ← (w.pools p).getInst
    let a ← createBadDebtData w p i.backstop
    pure [.newAuction p 1 a]
  | .newInterest assets => do
    let i ← (w.pools p).getInst
    let a ← createInterestData w p i.backstop assets
    pure [.newAuction p 2 a]

end Pool

namespace Backstop

/-- The `deposit` events of a claim, `backstop/src/emissions/claim.rs` 55-74 -/
def claimDepositLog (lpOut claimed : Int) (claims : SMap Int) (dst : Address) : List Address → BackstopState → R (List Event)
  | [], _ => pure []
  | p :: ps, b => do
    let amt ← unwrap (claims.get p)
    let dep ← fixedMulFloor lpOut amt claimed
    let pb := b.getPoolBal p
    let ub := b.getUserBal p dst
    let toMint ← toShares pb dep
    let pb' ← pbDeposit pb dep toMint
    let ub' ← addShares ub toMint
    let l ← claimDepositLog lpOut claimed claims dst ps ((b.setPoolBal p pb').setUserBal p dst ub')
    pure (.deposit p dst dep toMint :: l)

/-- The events of `claim`, `backstop/src/emissions/claim.rs` 11-79 and `backstop/src/contract.rs` 302-310 -/
def claimLog (w : World) (sender : Address) (pools : List Address) (dst : Address) : R (List Event) := do
  let (claimed, claims, b1) ← claimLoop w.time sender pools (0, .empty, w.backstop)
  let w1 := w.setBackstop b1
  if claimed > 0 then
    let i ← inst w1
    let (lpOut, w2) ← cometDeposit w1 i.backstopToken i.blnd claimed w.backstopAddr
    let l ← claimDepositLog lpOut claimed claims dst pools w2.backstop
    pure (l ++ [.backstopClaim sender claimed])
  else pure [.backstopClaim sender claimed]

end Backstop

/-- The events of the entry points of the backstop, `backstop/src/contract.rs` 178-347. `drop` publishes the event of the
emitter's `drop`. -/
def backstopLog (w : World) (auth : List Address) : BackstopCall → R (List Event)
  | .deposit s p a => do
    let (n, _) ← Backstop.deposit w auth s p a
    pure [.deposit p s a n]
  | .queueWithdrawal s p a => do
    let (q, _) ← Backstop.executeQueueRet w s p a
    pure [.queueWithdrawal p s a q.exp]
  | .dequeueWithdrawal s p a => pure [.dequeueWithdrawal p s a]
  | .withdraw s p a => do
    let (n, _) ← Backstop.withdraw w auth s p a
    pure [.backstopWithdraw p s a n]
  | .gulpEmissions => do
    let (n, _) ← Backstop.gulpEmissions w
    pure [.gulpEmissions n]
  | .addReward a r => pure [.rewardZone a r]
  | .claim s ps d => Backstop.claimLog w s ps d
  | .drop => do
    let l ← unwrap w.backstop.dropList
    pure [.drop l]
  | .draw p a d => pure [.draw p d a]
  | .donate s p a => pure [.donate p s a]
  | _ => pure []

/-- The events of the entry points of the emitter, `emitter/src/contract.rs` 75-144 -/
def emitterLog (w : World) : EmitterCall → R (List Event)
  | .distribute => do
    let i ← Emitter.inst w
    let (n, _) ← Emitter.distribute w
    pure [.distribute i.backstop n]
  | .queueSwap b t => do
    let w' ← Emitter.queueSwap w b t
    let s ← Emitter.queuedSwap w'
    pure [.queueSwap s]
  | .cancelSwap => do
    let s ← Emitter.queuedSwap w
    pure [.cancelSwap s]
  | .swapBackstop => do
    let s ← Emitter.queuedSwap w
    pure [.swap s]
  | .drop l => pure [.drop l]
  | .initialize .. => pure []

/-- The events of the entry points of the factory, `pool-factory/src/pool_factory.rs` 51-118 -/
def factoryLog (w : World) (auth : List Address) : FactoryCall → R (List Event)
  | .deploy a s o r m => do
    let (x, _) ← Factory.deploy w auth a s o r m
    pure [.deploy x]
  | .initialize _ => pure []

/-- The events of one operation. Changes of the environment publish none. -/
def logOf (w : World) : Op → R (List Event)
  | .pool p auth c => Pool.callLog w p auth c
  | .backstop auth c => backstopLog w auth c
  | .emitter _ c => emitterLog w c
  | .factory auth c => factoryLog w auth c
  | _ => pure []

end Blend
