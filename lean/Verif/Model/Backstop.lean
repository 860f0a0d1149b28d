import Verif.Model.Emitter
/-
  The backstop contract: `backstop/src/`.
-/

namespace Blend
namespace Backstop

/-- `BACKSTOP_EPOCH`, `backstop/src/constants.rs` 7 -/
def BACKSTOP_EPOCH : Nat := 1713139200
/-- `MAX_Q4W_SIZE`, `backstop/src/constants.rs` 11 -/
def MAX_Q4W_SIZE : Nat := 21
/-- `Q4W_LOCK_TIME`, `backstop/src/constants.rs` 14 -/
def Q4W_LOCK_TIME : Nat := 21 * 24 * 60 * 60
/-- `LEDGER_BUMP_USER`, `backstop/src/storage.rs` 10-18: 120 days of 17280 ledgers -/
def LEDGER_BUMP_USER : Nat := 120 * 17280

/-- the instance storage, unwrapped -/
def inst (w : World) : R BackstopInst := unwrap w.backstop.inst

/-- `require_nonnegative`, `backstop/src/contract.rs` 356-360 -/
def requireNonneg (x : Int) : R Unit := require (¬ x < 0) (.backstop .negativeAmount)

/-! ### `backstop/src/backstop/pool.rs` -/

/-- `PoolBackstopData`, `backstop/src/backstop/pool.rs` 9-14 -/
structure PoolData where
  tokens : Int
  q4wPct : Int
  blnd : Int
  usdc : Int

/-- `load_pool_backstop_data`, `backstop/src/backstop/pool.rs` 16-43 -/
def loadPoolData (w : World) (pool : Address) : R PoolData := do
  let pb := w.backstop.getPoolBal pool
  let q4wPct ← if pb.shares > 0 then fixedDivCeil pb.q4w pb.shares SCALAR_7 else pure 0
  let (blndPer, usdcPer) ← unwrap w.backstop.lpVal
  let blnd ← fixedMulFloor pb.tokens blndPer SCALAR_7
  let usdc ← fixedMulFloor pb.tokens usdcPer SCALAR_7
  pure ⟨pb.tokens, q4wPct, blnd, usdc⟩

/-- `require_is_from_pool_factory`, `backstop/src/backstop/pool.rs` 55-62; `is_pool` of the factory,
`pool-factory/src/pool_factory.rs` 114-117. -/
def requireIsFromFactory (w : World) (pool : Address) (balance : Int) : R Unit := do
  if balance = 0 then
    let i ← inst w
    require (i.poolFactory = w.factoryAddr) .notModelled
    require (w.factory.deployed pool = true) (.backstop .notPool)
  else pure ()

/-- `require_pool_above_threshold`, `backstop/src/backstop/pool.rs` 67-84 -/
def poolAboveThreshold (d : PoolData) : Bool :=
  let b := Int.tdiv d.blnd SCALAR_7
  let u := Int.tdiv d.usdc SCALAR_7
  satMul (satMul (satMul (satMul b b) b) b) u ≥ 320000000000000000000000000

/-- `convert_to_shares`, `backstop/src/backstop/pool.rs` 100-108 -/
def toShares (pb : PoolBalance) (tokens : Int) : R Int :=
  if pb.shares = 0 then pure tokens else fixedMulFloor tokens pb.shares pb.tokens

/-- `convert_to_tokens`, `backstop/src/backstop/pool.rs` 114-122 -/
def toTokens (pb : PoolBalance) (shares : Int) : R Int :=
  if pb.shares = 0 then pure shares else fixedMulFloor shares pb.tokens pb.shares

/-- `non_queued_tokens`, `backstop/src/backstop/pool.rs` 125-127 -/
def nonQueuedTokens (pb : PoolBalance) : R Int := do
  let q ← toTokens pb pb.q4w
  chk (pb.tokens - q)

/-- `PoolBalance::deposit`, `backstop/src/backstop/pool.rs` 134-137 -/
def pbDeposit (pb : PoolBalance) (tokens shares : Int) : R PoolBalance := do
  let t ← chk (pb.tokens + tokens)
  let s ← chk (pb.shares + shares)
  pure { pb with tokens := t, shares := s }

/-- `PoolBalance::withdraw`, `backstop/src/backstop/pool.rs` 144-151 -/
def pbWithdraw (pb : PoolBalance) (tokens shares : Int) : R PoolBalance := do
  require (¬ (tokens > pb.tokens ∨ shares > pb.shares ∨ shares > pb.q4w))
    (.backstop .insufficientFunds)
  let t ← chk (pb.tokens - tokens)
  let s ← chk (pb.shares - shares)
  let q ← chk (pb.q4w - shares)
  pure ⟨s, t, q⟩

/-- `PoolBalance::queue_for_withdraw`, `backstop/src/backstop/pool.rs` 157-159 -/
def pbQueue (pb : PoolBalance) (shares : Int) : R PoolBalance := do
  let q ← chk (pb.q4w + shares)
  pure { pb with q4w := q }

/-- `PoolBalance::dequeue_q4w`, `backstop/src/backstop/pool.rs` 165-170 -/
def pbDequeue (pb : PoolBalance) (shares : Int) : R PoolBalance := do
  require (¬ shares > pb.q4w) (.backstop .insufficientFunds)
  let q ← chk (pb.q4w - shares)
  pure { pb with q4w := q }

/-! ### `backstop/src/backstop/user.rs` -/

/-- `add_shares`, `backstop/src/backstop/user.rs` 38-40 -/
def addShares (ub : UserBalance) (amount : Int) : R UserBalance := do
  let s ← chk (ub.shares + amount)
  pure { ub with shares := s }

/-- `queue_shares_for_withdrawal`, `backstop/src/backstop/user.rs` 53-68 -/
def queueShares (ub : UserBalance) (now : Nat) (amount : Int) : R UserBalance := do
  require (¬ ub.shares < amount) (.backstop .balanceError)
  require (¬ ub.q4w.length ≥ MAX_Q4W_SIZE) (.backstop .tooManyQ4W)
  let s ← chk (ub.shares - amount)
  pure { shares := s, q4w := ub.q4w ++ [⟨amount, now + Q4W_LOCK_TIME⟩] }

/-- The loop of `dequeue_shares_for_withdrawal`, `backstop/src/backstop/user.rs` 89-110: the
remaining queue and what is left to dequeue. -/
def dequeueLoop (now : Nat) (requireExpired : Bool) : List Q4W → Int → R (List Q4W × Int)
  | [], left => pure ([], left)
  | q :: t, left =>
    if requireExpired = false ∨ q.exp ≤ now then
      if q.amount > left then do
        let a ← chk (q.amount - left)
        pure ({ q with amount := a } :: t, 0)
      else if q.amount = left then pure (t, 0)
      else do
        let l ← chk (left - q.amount)
        dequeueLoop now requireExpired t l
    else .error (.backstop .notExpired)

/-- `dequeue_shares_for_withdrawal`, `backstop/src/backstop/user.rs` 81-115 -/
def dequeueShares (ub : UserBalance) (now : Nat) (amount : Int) (requireExpired : Bool) :
    R UserBalance := do
  let (q, left) ← dequeueLoop now requireExpired ub.q4w amount
  require (¬ left > 0) (.backstop .balanceError)
  pure { ub with q4w := q }

/-! ### Emission distribution, `backstop/src/emissions/distributor.rs` -/

/-- `update_emission_data_with_config`, `backstop/src/emissions/distributor.rs` 72-106 -/
def updateEmisDataWith (b : BackstopState) (now : Nat) (pool : Address) (pb : PoolBalance)
    (cfg : EmisConfig) : R (EmisData × BackstopState) := do
  let d ← unwrap (b.emisData pool)
  if d.lastTime ≥ cfg.expiration ∨ now = d.lastTime ∨ cfg.eps = 0 ∨ pb.shares = 0 then
    pure (d, b)
  else
    let maxT := if now > cfg.expiration then cfg.expiration else now
    let unq ← chk (pb.shares - pb.q4w)
    requireNonneg unq
    let dt ← subU maxT d.lastTime
    let num ← chk ((dt : Int) * (cfg.eps : Int))
    let add ← fixedDivFloor num unq SCALAR_7
    let idx ← chk (add + d.index)
    let d' : EmisData := ⟨idx, now⟩
    pure (d', { b with emisData := upd b.emisData pool (some d') })

/-- `update_emission_data`, `backstop/src/emissions/distributor.rs` 50-64 -/
def updateEmisData (b : BackstopState) (now : Nat) (pool : Address) (pb : PoolBalance) :
    R (Option EmisData × BackstopState) :=
  match b.emisCfg pool with
  | some cfg => do
    let (d, b') ← updateEmisDataWith b now pool pb cfg
    pure (some d, b')
  | none => pure (none, b)

/-- `set_user_emissions`, `backstop/src/emissions/distributor.rs` 149-164 -/
def setUserEmis (b : BackstopState) (pool user : Address) (index accrued : Int) (claim : Bool) :
    Int × BackstopState :=
  if claim then
    (accrued, { b with userEmis := upd b.userEmis pool ((b.userEmis pool).set user ⟨index, 0⟩) })
  else
    (0, { b with userEmis := upd b.userEmis pool ((b.userEmis pool).set user ⟨index, accrued⟩) })

/-- `update_user_emissions`, `backstop/src/emissions/distributor.rs` 113-147 -/
def updateUserEmis (b : BackstopState) (pool user : Address) (d : EmisData) (ub : UserBalance)
    (claim : Bool) : R (Int × BackstopState) :=
  match (b.userEmis pool).get user with
  | some ud =>
    if ud.index ≠ d.index ∨ claim = true then do
      let accrual ←
        if ub.shares ≠ 0 then do
          let delta ← chk (d.index - ud.index)
          requireNonneg delta
          let acc ← fixedMulFloor ub.shares delta SCALAR_7
          chk (ud.accrued + acc)
        else pure ud.accrued
      pure (setUserEmis b pool user d.index accrual claim)
    else pure (0, b)
  | none =>
    if ub.shares = 0 then pure (setUserEmis b pool user d.index 0 claim)
    else do
      let acc ← fixedMulFloor ub.shares d.index SCALAR_7
      pure (setUserEmis b pool user d.index acc claim)

/-- `update_emissions` (claim = false), `backstop/src/emissions/distributor.rs` 16-26, and
`claim_emissions` (claim = true), 35-47. Returns the amount to claim. -/
def updateEmissions (b : BackstopState) (now : Nat) (pool : Address) (pb : PoolBalance)
    (user : Address) (ub : UserBalance) (claim : Bool) : R (Int × BackstopState) := do
  let (od, b1) ← updateEmisData b now pool pb
  match od with
  | some d => updateUserEmis b1 pool user d ub claim
  | none => pure (0, b1)

/-! ### Deposits and withdrawals -/

/-- `execute_deposit`, `backstop/src/backstop/deposit.rs` 8-33. Returns the shares minted. -/
def executeDeposit (w : World) (sender pool : Address) (amount : Int) : R (Int × World) := do
  requireNonneg amount
  require (¬ (sender = pool ∨ sender = w.backstopAddr)) (.backstop .badRequest)
  let pb := w.backstop.getPoolBal pool
  requireIsFromFactory w pool pb.shares
  let ub := w.backstop.getUserBal pool sender
  let (_, b1) ← updateEmissions w.backstop w.time pool pb sender ub false
  let w1 := w.setBackstop b1
  let i ← inst w1
  let w2 ← transfer w1 i.backstopToken sender w.backstopAddr amount
  let toMint ← toShares pb amount
  require (toMint ≠ 0) (.backstop .invalidShareMint)
  let pb' ← pbDeposit pb amount toMint
  let ub' ← addShares ub toMint
  pure (toMint, w2.setBackstop ((w2.backstop.setPoolBal pool pb').setUserBal pool sender ub'))

/-- `execute_queue_withdrawal`, `backstop/src/backstop/withdrawal.rs` 8-29 -/
def executeQueue (w : World) (sender pool : Address) (amount : Int) : R World := do
  requireNonneg amount
  let pb := w.backstop.getPoolBal pool
  let ub := w.backstop.getUserBal pool sender
  let (_, b1) ← updateEmissions w.backstop w.time pool pb sender ub false
  let ub' ← queueShares ub w.time amount
  let pb' ← pbQueue pb amount
  pure (w.setBackstop ((b1.setUserBal pool sender ub').setPoolBal pool pb'))

/-- `execute_dequeue_withdrawal`, `backstop/src/backstop/withdrawal.rs` 32-47 -/
def executeDequeue (w : World) (sender pool : Address) (amount : Int) : R World := do
  requireNonneg amount
  let pb := w.backstop.getPoolBal pool
  let ub := w.backstop.getUserBal pool sender
  let (_, b1) ← updateEmissions w.backstop w.time pool pb sender ub false
  let ub1 ← dequeueShares ub w.time amount false
  let ub' ← addShares ub1 amount
  let pb' ← pbDequeue pb amount
  pure (w.setBackstop ((b1.setUserBal pool sender ub').setPoolBal pool pb'))

/-- `execute_withdraw`, `backstop/src/backstop/withdrawal.rs` 50-71. Returns the tokens sent. -/
def executeWithdraw (w : World) (sender pool : Address) (amount : Int) : R (Int × World) := do
  requireNonneg amount
  let pb := w.backstop.getPoolBal pool
  let ub := w.backstop.getUserBal pool sender
  let ub' ← dequeueShares ub w.time amount true
  let toReturn ← toTokens pb amount
  require (toReturn ≠ 0) (.backstop .invalidTokenWithdraw)
  let pb' ← pbWithdraw pb toReturn amount
  let w1 := w.setBackstop ((w.backstop.setUserBal pool sender ub').setPoolBal pool pb')
  let i ← inst w1
  let w2 ← transfer w1 i.backstopToken w.backstopAddr sender toReturn
  pure (toReturn, w2)

/-! ### `backstop/src/backstop/fund_management.rs` -/

/-- `execute_draw`, `backstop/src/backstop/fund_management.rs` 14-24 -/
def executeDraw (w : World) (pool : Address) (amount : Int) (dst : Address) : R World := do
  requireNonneg amount
  let pb := w.backstop.getPoolBal pool
  let pb' ← pbWithdraw pb amount 0
  let w1 := w.setBackstop (w.backstop.setPoolBal pool pb')
  let i ← inst w1
  transfer w1 i.backstopToken w.backstopAddr dst amount

/-- `execute_donate`, `backstop/src/backstop/fund_management.rs` 27-41 -/
def executeDonate (w : World) (sender pool : Address) (amount : Int) : R World := do
  requireNonneg amount
  require (¬ (sender = pool ∨ sender = w.backstopAddr)) (.backstop .badRequest)
  let pb := w.backstop.getPoolBal pool
  requireIsFromFactory w pool pb.shares
  let i ← inst w
  let w1 ← transfer w i.backstopToken sender w.backstopAddr amount
  let pb' ← pbDeposit pb amount 0
  pure (w1.setBackstop (w1.backstop.setPoolBal pool pb'))

/-- `execute_update_comet_token_value`, `backstop/src/backstop/fund_management.rs` 44-65, with
`update_tkn_val`, `backstop/src/contract.rs` 338-346 -/
def updateTknVal (w : World) : R World := do
  let i ← inst w
  let totalBlnd := w.balance i.blnd i.backstopToken
  let totalUsdc := w.balance i.usdc i.backstopToken
  let b ← fixedDivFloor totalBlnd w.cometShares SCALAR_7
  let u ← fixedDivFloor totalUsdc w.cometShares SCALAR_7
  pure (w.setBackstop { w.backstop with lpVal := some (b, u) })

/-! ### Claims, `backstop/src/emissions/claim.rs` -/

/-- First loop of `execute_claim`, `backstop/src/emissions/claim.rs` 18-25 (the ghost `claimed` counts
what each pool paid) -/
def claimLoop (now : Nat) (sender : Address) :
    List Address → (Int × SMap Int × BackstopState) → R (Int × SMap Int × BackstopState)
  | [], s => pure s
  | p :: ps, (claimed, claims, b) => do
    let (amt, b') ← updateEmissions b now p (b.getPoolBal p) sender (b.getUserBal p sender) true
    let claimed' ← chk (claimed + amt)
    claimLoop now sender ps (claimed', claims.set p amt,
      { b' with claimed := upd b'.claimed p (b'.claimed p + amt) })

/-- Second loop of `execute_claim`, `backstop/src/emissions/claim.rs` 55-74 -/
def claimDepositLoop (lpOut claimed : Int) (claims : SMap Int) (dst : Address) :
    List Address → BackstopState → R BackstopState
  | [], b => pure b
  | p :: ps, b => do
    let amt ← unwrap (claims.get p)
    let dep ← fixedMulFloor lpOut amt claimed
    let pb := b.getPoolBal p
    let ub := b.getUserBal p dst
    let toMint ← toShares pb dep
    let pb' ← pbDeposit pb dep toMint
    let ub' ← addShares ub toMint
    claimDepositLoop lpOut claimed claims dst ps ((b.setPoolBal p pb').setUserBal p dst ub')

/-- Comet's `dep_tokn_amt_in_get_lp_tokns_out` (external; called in
`backstop/src/emissions/claim.rs` 49-54): takes `amountIn` BLND from `user` and mints LP tokens to
it. The amount of LP tokens is the environment's choice `cometOut`. -/
def cometDeposit (w : World) (lp blnd : Address) (amountIn : Int) (user : Address) :
    R (Int × World) := do
  let w1 ← transfer w blnd user lp amountIn
  let out := w.cometOut amountIn
  let w2 ← mint w1 lp user out
  let s ← chk (w2.cometShares + out)
  pure (out, { w2 with cometShares := s })

/-- `execute_claim`, `backstop/src/emissions/claim.rs` 11-78. The `approve` sub-invocation that lets
Comet pull the BLND is part of `cometDeposit`. Returns the BLND amount claimed. -/
def executeClaim (w : World) (sender : Address) (pools : List Address) (dst : Address) :
    R (Int × World) := do
  require (pools ≠ []) (.backstop .badRequest)
  let (claimed, claims, b1) ← claimLoop w.time sender pools (0, .empty, w.backstop)
  let w1 := w.setBackstop b1
  if claimed > 0 then
    let i ← inst w1
    let (lpOut, w2) ← cometDeposit w1 i.backstopToken i.blnd claimed w.backstopAddr
    let b2 ← claimDepositLoop lpOut claimed claims dst pools w2.backstop
    pure (claimed, w2.setBackstop b2)
  else pure (claimed, w1)

/-! ### `backstop/src/emissions/manager.rs` -/

/-- `max_rz_len` in `add_to_reward_zone`, `backstop/src/emissions/manager.rs` 20-24 -/
def maxRzLen (now : Nat) : Nat :=
  if now < BACKSTOP_EPOCH then 10 else 10 + (now - BACKSTOP_EPOCH) / 2 ^ 23

/-- `Vec::set` at the first index of `a` -/
def replaceFirst (l : List Address) (a b : Address) : List Address :=
  match l with
  | [] => []
  | x :: t => if x = a then b :: t else x :: replaceFirst t a b

/-- `add_to_reward_zone`, `backstop/src/emissions/manager.rs` 18-64 -/
def addReward (w : World) (toAdd toRemove : Address) : R World := do
  let rz := w.backstop.rewardZone
  require (toAdd ∉ rz) (.backstop .badRequest)
  let pd ← loadPoolData w toAdd
  require (poolAboveThreshold pd) (.backstop .invalidRewardZoneEntry)
  let rz' ←
    if maxRzLen w.time > rz.length then pure (toAdd :: rz)
    else do
      require (toRemove ∈ rz) (.backstop .invalidRewardZoneEntry)
      let lim ← subU w.time (24 * 60 * 60)
      require (¬ w.backstop.lastDistro < lim) (.backstop .badRequest)
      require (¬ pd.tokens ≤ (w.backstop.getPoolBal toRemove).tokens)
        (.backstop .invalidRewardZoneEntry)
      pure (replaceFirst rz toRemove toAdd)
  pure (w.setBackstop { w.backstop with rewardZone := rz' })

/-- `set_backstop_emission_config`, `backstop/src/emissions/manager.rs` 153-190 (the ghost `received`
counts `newTokens`) -/
def setEmisConfig (b : BackstopState) (now : Nat) (pool : Address) (pb : PoolBalance)
    (newTokens : Int) : R BackstopState := do
  let (left, b1) ←
    match b.emisCfg pool with
    | some cfg => do
      let (d, b1) ← updateEmisDataWith b now pool pb cfg
      let b2 :=
        if d.lastTime ≠ now then { b1 with emisData := upd b1.emisData pool (some { d with lastTime := now }) }
        else b1
      if cfg.expiration > now then do
        let rem ← chkU64 (cfg.eps * (cfg.expiration - now))
        let l ← chk (newTokens + (rem : Int))
        pure (l, b2)
      else pure (newTokens, b2)
    | none => pure (newTokens, { b with emisData := upd b.emisData pool (some ⟨0, now⟩) })
  let eps ← toU64 (Int.tdiv left (7 * 24 * 60 * 60))
  pure { b1 with
    emisCfg := upd b1.emisCfg pool (some ⟨now + 7 * 24 * 60 * 60, eps⟩)
    received := upd b1.received pool (b1.received pool + newTokens) }

/-- The first loop of `gulp_emissions`, `backstop/src/emissions/manager.rs` 96-103: total of
unqueued tokens. -/
def totalNonQueued (b : BackstopState) (rz : List Address) : R Int :=
  rz.foldlM (fun acc p => do
    let t ← nonQueuedTokens (b.getPoolBal p)
    chk (acc + t)) (0 : Int)

/-- One iteration of the second loop of `gulp_emissions`,
`backstop/src/emissions/manager.rs` 106-126. -/
def gulpPool (now : Nat) (totalNq totalPool totalBackstop : Int) (b : BackstopState)
    (pool : Address) : R BackstopState := do
  let pb := b.getPoolBal pool
  let nq ← nonQueuedTokens pb
  let share ← fixedDivFloor nq totalNq SCALAR_7
  let newPool ← fixedMulFloor share totalPool SCALAR_7
  let e ← chk (b.poolEmis pool + newPool)
  let b1 := { b with poolEmis := upd b.poolEmis pool e }
  let newBack ← fixedMulFloor share totalBackstop SCALAR_7
  setEmisConfig b1 now pool pb newBack

/-- `gulp_emissions`, `backstop/src/emissions/manager.rs` 68-128. (The balances read in the first
loop are read again in the second: nothing in between changes them.) -/
def gulpEmissions (w : World) : R (Int × World) := do
  let rz := w.backstop.rewardZone
  require (rz ≠ []) (.backstop .badRequest)
  let i ← inst w
  require (i.emitter = w.emitterAddr) .notModelled
  let el ← Emitter.getLastDistro w w.backstopAddr
  let last := w.backstop.lastDistro
  require (¬ el ≤ last + 60 * 60) (.backstop .badRequest)
  let b0 := { w.backstop with lastDistro := el }
  let newEm ← chk (((el - last : Nat) : Int) * SCALAR_7)
  let totalBackstop ← fixedMulFloor newEm 7000000 SCALAR_7
  let totalPool ← fixedMulFloor newEm 3000000 SCALAR_7
  let totalNq ← totalNonQueued b0 rz
  let b1 ← rz.foldlM (gulpPool w.time totalNq totalPool totalBackstop) b0
  pure (newEm, w.setBackstop b1)

/-- `gulp_pool_emissions`, `backstop/src/emissions/manager.rs` 131-150 (the caller has checked the
pool's authorization, `backstop/src/contract.rs` 296-300). -/
def gulpPoolEmissions (w : World) (pool : Address) : R (Int × World) := do
  let e := w.backstop.poolEmis pool
  require (e ≠ 0) (.backstop .badRequest)
  let i ← inst w
  let cur := w.allowance i.blnd w.backstopAddr pool
  let new ← chk (cur + e)
  let w1 ← approve w i.blnd w.backstopAddr pool new (w.seq + LEDGER_BUMP_USER)
  pure (e, w1.setBackstop { w1.backstop with poolEmis := upd w1.backstop.poolEmis pool 0 })

/-! ### Entry points, `backstop/src/contract.rs` -/

/-- `initialize`, `backstop/src/contract.rs` 180-211 (argument order of the implementation) -/
def init (w : World) (backstopToken emitter usdc blnd poolFactory : Address)
    (dropList : List (Address × Int)) : R World := do
  require (w.backstop.inst = none) (.backstop .alreadyInitialized)
  require (emitter = w.emitterAddr) .notModelled
  let last ← Emitter.getLastDistro w w.backstopAddr
  pure (w.setBackstop { w.backstop with
    inst := some ⟨backstopToken, emitter, blnd, usdc, poolFactory⟩
    dropList := some dropList
    lastDistro := last })

/-- `deposit`, `backstop/src/contract.rs` 215-226 -/
def deposit (w : World) (auth : List Address) (sender pool : Address) (amount : Int) :
    R (Int × World) := do
  requireAuth auth sender
  executeDeposit w sender pool amount

/-- `queue_withdrawal`, `backstop/src/contract.rs` 228-239 -/
def queueWithdrawal (w : World) (auth : List Address) (sender pool : Address) (amount : Int) :
    R World := do
  requireAuth auth sender
  executeQueue w sender pool amount

/-- `dequeue_withdrawal`, `backstop/src/contract.rs` 241-251 -/
def dequeueWithdrawal (w : World) (auth : List Address) (sender pool : Address) (amount : Int) :
    R World := do
  requireAuth auth sender
  executeDequeue w sender pool amount

/-- `withdraw`, `backstop/src/contract.rs` 253-264 -/
def withdraw (w : World) (auth : List Address) (sender pool : Address) (amount : Int) :
    R (Int × World) := do
  requireAuth auth sender
  executeWithdraw w sender pool amount

/-- `claim`, `backstop/src/contract.rs` 302-310 -/
def claim (w : World) (auth : List Address) (sender : Address) (pools : List Address)
    (dst : Address) : R (Int × World) := do
  requireAuth auth sender
  executeClaim w sender pools dst

/-- `gulp_pool_emissions`, `backstop/src/contract.rs` 296-300 -/
def gulpPoolEmissionsAuth (w : World) (auth : List Address) (pool : Address) : R (Int × World) := do
  requireAuth auth pool
  gulpPoolEmissions w pool

/-- `drop`, `backstop/src/contract.rs` 312-314: the backstop contract itself is the authorizing
invoker of the emitter's `drop`. -/
def drop (w : World) : R World := do
  let i ← inst w
  require (i.emitter = w.emitterAddr) .notModelled
  let l ← unwrap w.backstop.dropList
  Emitter.drop w [w.backstopAddr] l

/-- `draw`, `backstop/src/contract.rs` 318-326 -/
def draw (w : World) (auth : List Address) (pool : Address) (amount : Int) (dst : Address) :
    R World := do
  requireAuth auth pool
  executeDraw w pool amount dst

/-- `donate`, `backstop/src/contract.rs` 328-336 -/
def donate (w : World) (auth : List Address) (sender pool : Address) (amount : Int) : R World := do
  requireAuth auth sender
  requireAuth auth pool
  executeDonate w sender pool amount

end Backstop
end Blend
