import Verif.Model.Auctions
/-
  `pool/src/pool/actions.rs`, `submit.rs`, `bad_debt.rs`, `status.rs`, `config.rs` and the entry
  points of `pool/src/contract.rs`.
-/

namespace Blend
namespace Pool

/-- `Request`, `pool/src/pool/actions.rs` 12-16 -/
structure Request where
  type : Nat
  address : Address
  amount : Int
deriving DecidableEq, Repr

/-- `Actions`, `pool/src/pool/actions.rs` 57-60 -/
structure Actions where
  spender : SMap Int
  pool : SMap Int

/-- `add_for_spender_transfer`, `pool/src/pool/actions.rs` 72-77 -/
def Actions.addSpender (a : Actions) (asset : Address) (amount : Int) : R Actions := do
  let v ← chk (amount + a.spender.bal asset)
  pure { a with spender := a.spender.set asset v }

/-- `add_for_pool_transfer`, `pool/src/pool/actions.rs` 80-85 -/
def Actions.addPool (a : Actions) (asset : Address) (amount : Int) : R Actions := do
  let v ← chk (amount + a.pool.bal asset)
  pure { a with pool := a.pool.set asset v }

/-- State of the request loop: flight, actions, health flag -/
structure SubmitState where
  fl : Flight
  actions : Actions
  check : Bool

/-- `Supply` and `SupplyCollateral`, `pool/src/pool/actions.rs` 119-133, 155-169 -/
def reqSupply (p : Address) (coll : Bool) (s : SubmitState) (asset : Address) (amount : Int) :
    R SubmitState := do
  let ps := s.fl.w.pools p
  let now := s.fl.w.time
  let (r, cache) ← s.fl.cache.loadReserve ps now asset true
  let minted ← r.data.toBDown amount
  let (ps', u, r') ← (if coll then addCollateral else addSupply) ps now s.fl.user r minted
  let acts ← s.actions.addSpender r.asset amount
  pure ⟨⟨s.fl.w.setPool p ps', cache.put r', u⟩, acts, s.check⟩

/-- The shares burnt and tokens paid by a withdrawal, `pool/src/pool/actions.rs` 136-142, 172-178 -/
def withdrawAmounts (r : ReserveData) (cur amount : Int) : R (Int × Int) := do
  let burn ← r.toBUp amount
  if burn > cur then
    let out ← r.toAssetFromB cur
    pure (cur, out)
  else pure (burn, amount)

/-- `Withdraw`, `pool/src/pool/actions.rs` 134-154 -/
def reqWithdraw (p : Address) (s : SubmitState) (asset : Address) (amount : Int) :
    R SubmitState := do
  let ps := s.fl.w.pools p
  let now := s.fl.w.time
  let (r, cache) ← s.fl.cache.loadReserve ps now asset true
  let (burn, out) ← withdrawAmounts r.data (s.fl.user.pos.supply.bal r.index) amount
  let (ps', u, r') ← removeSupply ps now s.fl.user r burn
  let acts ← s.actions.addPool r.asset out
  pure ⟨⟨s.fl.w.setPool p ps', cache.put r', u⟩, acts, s.check⟩

/-- `WithdrawCollateral`, `pool/src/pool/actions.rs` 170-191 -/
def reqWithdrawColl (p : Address) (s : SubmitState) (asset : Address) (amount : Int) :
    R SubmitState := do
  let ps := s.fl.w.pools p
  let now := s.fl.w.time
  let (r, cache) ← s.fl.cache.loadReserve ps now asset true
  let (burn, out) ← withdrawAmounts r.data (s.fl.user.pos.collateral.bal r.index) amount
  let (ps', u, r') ← removeCollateral ps now s.fl.user r burn
  let acts ← s.actions.addPool r.asset out
  pure ⟨⟨s.fl.w.setPool p ps', cache.put r', u⟩, acts, true⟩

/-- `Borrow`, `pool/src/pool/actions.rs` 192-208 -/
def reqBorrow (p : Address) (s : SubmitState) (asset : Address) (amount : Int) :
    R SubmitState := do
  let ps := s.fl.w.pools p
  let now := s.fl.w.time
  let (r, cache) ← s.fl.cache.loadReserve ps now asset true
  let minted ← r.data.toDUp amount
  let (ps', u, r') ← addLiabilities ps now s.fl.user r minted
  r'.requireUtilBelowMax
  let acts ← s.actions.addPool r.asset amount
  pure ⟨⟨s.fl.w.setPool p ps', cache.put r', u⟩, acts, true⟩

/-- `Repay`, `pool/src/pool/actions.rs` 209-240 -/
def reqRepay (p : Address) (s : SubmitState) (asset : Address) (amount : Int) :
    R SubmitState := do
  let ps := s.fl.w.pools p
  let now := s.fl.w.time
  let (r, cache) ← s.fl.cache.loadReserve ps now asset true
  let cur := s.fl.user.pos.liabilities.bal r.index
  let burnt ← r.data.toDDown amount
  let acts ← s.actions.addSpender r.asset amount
  if burnt > cur then
    let owed ← r.data.toAssetFromD cur
    let refund ← chk (amount - owed)
    requireNonneg refund
    let (ps', u, r') ← removeLiabilities ps now s.fl.user r cur
    let acts' ← acts.addPool r.asset refund
    pure ⟨⟨s.fl.w.setPool p ps', cache.put r', u⟩, acts', s.check⟩
  else
    let (ps', u, r') ← removeLiabilities ps now s.fl.user r burnt
    pure ⟨⟨s.fl.w.setPool p ps', cache.put r', u⟩, acts, s.check⟩

/-- `request.amount as u64`, `pool/src/pool/actions.rs` 248, 268, 289: truncation -/
def asU64 (x : Int) : Nat := (x % 18446744073709551616).toNat

/-- auction fill requests (types 6, 7, 8), `pool/src/pool/actions.rs` 241-300 -/
def reqFill (p : Address) (auth : List Address) (t : Nat) (s : SubmitState) (user : Address)
    (amount : Int) : R SubmitState := do
  let fl ← fill s.fl p auth t user (asU64 amount)
  pure ⟨fl, s.actions, if t = 2 then s.check else true⟩

/-- `DeleteLiquidationAuction`, `pool/src/pool/actions.rs` 301-309 -/
def reqDelete (p : Address) (s : SubmitState) : R SubmitState := do
  let ps' ← deleteLiquidation (s.fl.w.pools p) s.fl.user.addr
  pure ⟨⟨s.fl.w.setPool p ps', s.fl.cache, s.fl.user⟩, s.actions, true⟩

/-- One iteration of the request loop, `pool/src/pool/actions.rs` 114-311, with
`RequestType::from_u32`, 39-53. -/
def processRequest (p : Address) (auth : List Address) (s : SubmitState) (q : Request) :
    R SubmitState := do
  requireNonneg q.amount
  requireActionAllowed s.fl.cache.config q.type
  match q.type with
  | 0 => reqSupply p false s q.address q.amount
  | 1 => reqWithdraw p s q.address q.amount
  | 2 => reqSupply p true s q.address q.amount
  | 3 => reqWithdrawColl p s q.address q.amount
  | 4 => reqBorrow p s q.address q.amount
  | 5 => reqRepay p s q.address q.amount
  | 6 => reqFill p auth 0 s q.address q.amount
  | 7 => reqFill p auth 1 s q.address q.amount
  | 8 => reqFill p auth 2 s q.address q.amount
  | 9 => reqDelete p s
  | _ => .error (.pool .badRequest)

/-- `build_actions_from_request`, `pool/src/pool/actions.rs` 104-317 -/
def buildActions (w : World) (p : Address) (auth : List Address) (cache : Cache) (sender : Address)
    (reqs : List Request) : R SubmitState := do
  let u := User.load (w.pools p) sender
  let s ← reqs.foldlM (processRequest p auth) ⟨⟨w, cache, u⟩, ⟨.empty, .empty⟩, false⟩
  requireUnderMax s.fl.cache.config s.fl.user.pos u.pos.effectiveCount
  pure s

/-- The health check of `execute_submit`, `pool/src/pool/submit.rs` 43-49. Returns the cache, which
the check may have extended. -/
def healthCheck (w : World) (ps : PoolState) (s : SubmitState) : R Cache :=
  if s.check = true ∧ s.fl.user.pos.liabilities.isEmpty = false then do
    let (pd, cache) ← calcPositionData w ps s.fl.cache s.fl.user.pos
    let under ← pd.isHfUnder 10000100
    require (¬ under = true) (.pool .invalidHf)
    pure cache
  else pure s.fl.cache

/-- `execute_submit`, `pool/src/pool/submit.rs` 23-66 -/
def executeSubmit (w : World) (p : Address) (auth : List Address) (sender spender dst : Address)
    (reqs : List Request) : R (Positions × World) := do
  require (¬ (sender = p ∨ spender = p ∨ dst = p)) (.pool .badRequest)
  let cache ← Cache.load (w.pools p)
  let s ← buildActions w p auth cache sender reqs
  let cache' ← healthCheck s.fl.w (s.fl.w.pools p) s
  let w1 ← s.actions.spender.toList.foldlM (fun w kv => transfer w kv.1 spender p kv.2) s.fl.w
  let ps1 ← cache'.storeAll (w1.pools p)
  let w2 := w1.setPool p (s.fl.user.store ps1)
  let w3 ← s.actions.pool.toList.foldlM (fun w kv => transfer w kv.1 p dst kv.2) w2
  pure (s.fl.user.pos, w3)

/-! ### `pool/src/pool/bad_debt.rs` -/

/-- The loop of `transfer_bad_debt_to_backstop`, `pool/src/pool/bad_debt.rs` 36-47. The state is
(ledger, cache, backstop, user). -/
def badDebtTransferLoop (now : Nat) :
    List (Nat × Int) → (PoolState × Cache × User × User) → R (PoolState × Cache × User × User)
  | [], s => pure s
  | (i, bal) :: t, (ps, cache, bs, u) => do
    let asset ← unwrap (ps.resList[i]?)
    let (r, cache') ← cache.loadReserve ps now asset true
    let (ps1, bs', r1) ← addLiabilities ps now bs r bal
    let (ps2, u', r2) ← removeLiabilities ps1 now u r1 bal
    badDebtTransferLoop now t (ps2, cache'.put r2, bs', u')

/-- `transfer_bad_debt_to_backstop`, `pool/src/pool/bad_debt.rs` 18-52 -/
def transferBadDebt (w : World) (p : Address) (user : Address) : R World := do
  let ps := w.pools p
  let i ← ps.getInst
  require (¬ user = i.backstop) (.pool .badRequest)
  let u := User.load ps user
  require (¬ (u.pos.collateral.isEmpty = false ∨ u.pos.liabilities.isEmpty = true))
    (.pool .badRequest)
  let cache ← Cache.load ps
  let bs := User.load ps i.backstop
  let (ps1, cache', bs', u') ← badDebtTransferLoop w.time u.pos.liabilities.toList (ps, cache, bs, u)
  let ps2 ← cache'.storeAll ps1
  pure (w.setPool p (u'.store (bs'.store ps2)))

/-! ### `pool/src/pool/status.rs` -/

/-- The status transition of `execute_update_pool_status`, `pool/src/pool/status.rs` 19-63 -/
def nextStatus (status : Nat) (d : BackstopData) : R Nat := do
  let met : Bool := ¬ backstopThreshold d < SCALAR_7
  if status = 6 then .error (.pool .statusNotAllowed)
  else if status = 4 then .error (.pool .statusNotAllowed)
  else if status = 2 then pure (if d.q4wPct ≥ 7500000 then 5 else 2)
  else if status = 0 then pure (if met = false ∨ d.q4wPct ≥ 5000000 then 3 else 0)
  else if d.q4wPct ≥ 6000000 then pure 5
  else if d.q4wPct ≥ 3000000 ∨ met = false then pure 3
  else pure 1

/-- `execute_update_pool_status`, `pool/src/pool/status.rs` 11-66 -/
def updateStatus (w : World) (p : Address) : R World := do
  let i ← (w.pools p).getInst
  let d ← backstopData w p
  let s ← nextStatus i.config.status d
  pure (w.setPool p { (w.pools p) with inst := some { i with config := { i.config with status := s } } })

/-- The conditions of `execute_set_pool_status`, `pool/src/pool/status.rs` 80-115 -/
def adminStatus (s : Nat) (d : BackstopData) : R Unit :=
  match s with
  | 0 => require (¬ (backstopThreshold d < SCALAR_7 ∨ d.q4wPct ≥ 5000000)) (.pool .statusNotAllowed)
  | 2 => require (¬ d.q4wPct ≥ 7500000) (.pool .statusNotAllowed)
  | 3 => require (¬ d.q4wPct ≥ 7500000) (.pool .statusNotAllowed)
  | 4 => pure ()
  | _ => .error (.pool .badRequest)

/-- `execute_set_pool_status`, `pool/src/pool/status.rs` 71-117 -/
def setStatus (w : World) (p : Address) (s : Nat) : R World := do
  let i ← (w.pools p).getInst
  let d ← backstopData w p
  adminStatus s d
  pure (w.setPool p { (w.pools p) with inst := some { i with config := { i.config with status := s } } })

/-! ### `pool/src/pool/config.rs` -/

/-- `execute_initialize`, `pool/src/pool/config.rs` 16-55 -/
def executeInit (ps : PoolState) (admin oracle : Address) (bstopRate maxPositions : Nat)
    (backstop blnd : Address) : R PoolState := do
  require (ps.inst.isNone) (.pool .alreadyInitialized)
  require (¬ bstopRate ≥ 10000000) (.pool .invalidPoolInitArgs)
  require (¬ maxPositions < 2) (.pool .invalidPoolInitArgs)
  pure { ps with inst := some ⟨admin, backstop, blnd, ⟨oracle, bstopRate, 6, maxPositions⟩⟩ }

/-- `execute_update_pool`, `pool/src/pool/config.rs` 58-67 -/
def executeUpdatePool (ps : PoolState) (rate maxPositions : Nat) : R PoolState := do
  require (¬ rate ≥ 10000000) (.pool .badRequest)
  let i ← ps.getInst
  pure { ps with inst := some { i with
    config := { i.config with bstopRate := rate, maxPositions := maxPositions } } }

/-- `require_valid_reserve_metadata`, `pool/src/pool/config.rs` 168-182 -/
def validMetadata (c : ReserveConfig) : Bool :=
  ¬ (c.decimals > 18 ∨ c.cFactor > 10000000 ∨ c.lFactor > 10000000 ∨ c.util > 9500000 ∨
     (c.maxUtil > 10000000 ∨ c.maxUtil ≤ c.util) ∨ c.rBase ≥ 10000000 ∨ c.rBase < 1000 ∨
     (c.rOne > c.rTwo ∨ c.rTwo > c.rThree) ∨ c.reactivity > 1000)

/-- `execute_queue_set_reserve`, `pool/src/pool/config.rs` 70-88 -/
def queueSetReserve (ps : PoolState) (now : Nat) (asset : Address) (c : ReserveConfig) :
    R PoolState := do
  require ((ps.resInit asset).isNone) (.pool .badRequest)
  require (validMetadata c) (.pool .invalidReserveMetadata)
  let i ← ps.getInst
  let unlock := if i.config.status ≠ 6 then now + SECONDS_PER_WEEK else now
  pure { ps with resInit := upd ps.resInit asset (some ⟨c, unlock⟩) }

/-- `execute_cancel_queued_set_reserve`, `pool/src/pool/config.rs` 91-93 -/
def cancelSetReserve (ps : PoolState) (asset : Address) : PoolState :=
  { ps with resInit := upd ps.resInit asset none }

/-- `initialize_reserve`, `pool/src/pool/config.rs` 111-165, with `push_res_list`,
`pool/src/storage.rs` 478-494 -/
def initReserve (ps : PoolState) (now : Nat) (asset : Address) (c : ReserveConfig) :
    R PoolState := do
  match ps.resConfig asset with
  | some old => do
    let cache ← Cache.load ps
    let (r, _) ← cache.loadReserve ps now asset false
    require (old.decimals = c.decimals) (.pool .invalidReserveMetadata)
    let changed := old.rBase ≠ c.rBase ∨ old.rOne ≠ c.rOne ∨ old.rTwo ≠ c.rTwo ∨
      old.rThree ≠ c.rThree ∨ old.util ≠ c.util
    let r' := if changed then { r with data := { r.data with irMod := SCALAR_9 } } else r
    let ps' := r'.store ps
    pure { ps' with resConfig := upd ps'.resConfig asset (some { c with index := r.index }) }
  | none => do
    require (ps.resList.length ≠ 32) (.pool .badRequest)
    let d : ReserveData := ⟨SCALAR_9, SCALAR_9, SCALAR_9, 0, 0, 0, now⟩
    pure { ps with
      resList := ps.resList ++ [asset]
      resData := upd ps.resData asset (some d)
      resConfig := upd ps.resConfig asset (some { c with index := ps.resList.length }) }

/-- `execute_set_reserve`, `pool/src/pool/config.rs` 96-108 -/
def setReserve (ps : PoolState) (now : Nat) (asset : Address) : R PoolState := do
  let q ← unwrap (ps.resInit asset)
  require (¬ q.unlockTime > now) (.pool .initNotUnlocked)
  initReserve { ps with resInit := upd ps.resInit asset none } now asset q.newConfig

/-! ### Entry points, `pool/src/contract.rs` -/

/-- the pool's admin must have authorized the call (`storage::get_admin(&e).require_auth()`) -/
def requireAdmin (ps : PoolState) (auth : List Address) : R Unit := do
  let i ← ps.getInst
  requireAuth auth i.admin

/-- A call of an entry point of the pool contract (the read-only `get_positions` and `get_auction`
are left out: they change nothing). -/
inductive Call
  | initialize (admin oracle : Address) (bstopRate maxPositions : Nat) (backstop blnd : Address)
  | setAdmin (newAdmin : Address)
  | updatePool (rate maxPositions : Nat)
  | queueSetReserve (asset : Address) (cfg : ReserveConfig)
  | cancelSetReserve (asset : Address)
  | setReserve (asset : Address)
  | submit (sender spender dst : Address) (reqs : List Request)
  | badDebt (user : Address)
  | updateStatus
  | setStatus (s : Nat)
  | gulpEmissions
  | setEmissionsConfig (l : List EmisMeta)
  | claim (sender : Address) (ids : List Nat) (dst : Address)
  | newLiquidation (user : Address) (percent : Nat)
  | newBadDebt
  | newInterest (assets : List Address)

/-- Dispatch of a pool entry point: `pool/src/contract.rs` 233-431. `auth` holds the addresses that
authorized the invocation. -/
def call (w : World) (p : Address) (auth : List Address) : Call → R World
  -- contract.rs 235-259
  | .initialize admin oracle rate maxp backstop blnd => do
    requireAuth auth admin
    let ps ← executeInit (w.pools p) admin oracle rate maxp backstop blnd
    pure (w.setPool p ps)
  -- contract.rs 261-271
  | .setAdmin newAdmin => do
    let i ← (w.pools p).getInst
    requireAuth auth i.admin
    requireAuth auth newAdmin
    pure (w.setPool p { (w.pools p) with inst := some { i with admin := newAdmin } })
  -- contract.rs 273-284
  | .updatePool rate maxp => do
    requireAdmin (w.pools p) auth
    let ps ← executeUpdatePool (w.pools p) rate maxp
    pure (w.setPool p ps)
  -- contract.rs 286-297
  | .queueSetReserve asset cfg => do
    requireAdmin (w.pools p) auth
    let ps ← Pool.queueSetReserve (w.pools p) w.time asset cfg
    pure (w.setPool p ps)
  -- contract.rs 299-308
  | .cancelSetReserve asset => do
    requireAdmin (w.pools p) auth
    pure (w.setPool p (Pool.cancelSetReserve (w.pools p) asset))
  -- contract.rs 310-316
  | .setReserve asset => do
    let ps ← Pool.setReserve (w.pools p) w.time asset
    pure (w.setPool p ps)
  -- contract.rs 322-336
  | .submit sender spender dst reqs => do
    requireAuth auth spender
    if sender ≠ spender then requireAuth auth sender else pure ()
    let (_, w') ← executeSubmit w p auth sender spender dst reqs
    pure w'
  -- contract.rs 338-340
  | .badDebt user => transferBadDebt w p user
  -- contract.rs 342-349
  | .updateStatus => Pool.updateStatus w p
  -- contract.rs 351-358
  | .setStatus s => do
    requireAdmin (w.pools p) auth
    Pool.setStatus w p s
  -- contract.rs 362-369
  | .gulpEmissions => do
    let (_, w') ← Pool.gulpEmissions w p
    pure w'
  -- contract.rs 371-376
  | .setEmissionsConfig l => do
    requireAdmin (w.pools p) auth
    let ps ← setPoolEmissions (w.pools p) l
    pure (w.setPool p ps)
  -- contract.rs 378-390
  | .claim sender ids dst => do
    requireAuth auth sender
    let (_, w') ← executeClaim w p sender ids dst
    pure w'
  -- contract.rs 394-402
  | .newLiquidation user percent => createLiquidation w p user percent
  -- contract.rs 408-418
  | .newBadDebt => createBadDebt w p
  -- contract.rs 420-430
  | .newInterest assets => createInterest w p assets

end Pool
end Blend
