import Verif.Model.Base
/-
  The state of the modelled system: one record per contract's storage, the token ledgers and the
  environment (ledger time, oracle, Comet LP).
-/

namespace Blend

/-! ### Pool contract storage (`pool/src/storage.rs`) -/

/-- `PoolConfig`, `pool/src/storage.rs` 24-31 -/
structure PoolConfig where
  oracle : Address
  bstopRate : Nat
  status : Nat
  maxPositions : Nat
deriving DecidableEq, Repr

/-- `ReserveConfig`, `pool/src/storage.rs` 42-56 -/
structure ReserveConfig where
  index : Nat
  decimals : Nat
  cFactor : Nat
  lFactor : Nat
  util : Nat
  maxUtil : Nat
  rBase : Nat
  rOne : Nat
  rTwo : Nat
  rThree : Nat
  reactivity : Nat
deriving DecidableEq, Repr

/-- `QueuedReserveInit`, `pool/src/storage.rs` 58-63 -/
structure QueuedReserveInit where
  newConfig : ReserveConfig
  unlockTime : Nat
deriving DecidableEq, Repr

/-- `ReserveData`, `pool/src/storage.rs` 65-76 -/
structure ReserveData where
  dRate : Int
  bRate : Int
  irMod : Int
  bSupply : Int
  dSupply : Int
  backstopCredit : Int
  lastTime : Nat
deriving DecidableEq, Repr

/-- `ReserveEmissionsConfig` (`pool/src/storage.rs` 78-86) and `BackstopEmissionConfig`
(`backstop/src/storage.rs` 22-28). -/
structure EmisConfig where
  expiration : Nat
  eps : Nat
deriving DecidableEq, Repr

/-- `ReserveEmissionsData` (`pool/src/storage.rs` 88-94) and `BackstopEmissionsData`
(`backstop/src/storage.rs` 30-36). -/
structure EmisData where
  index : Int
  lastTime : Nat
deriving DecidableEq, Repr

/-- `UserEmissionData`, `pool/src/storage.rs` 96-102, `backstop/src/storage.rs` 38-44 -/
structure UserEmis where
  index : Int
  accrued : Int
deriving DecidableEq, Repr

/-- `Positions`, `pool/src/pool/user.rs` 7-14: reserve index to share balance. -/
structure Positions where
  liabilities : SMap Int
  collateral : SMap Int
  supply : SMap Int

/-- `Positions::env_default`, `pool/src/pool/user.rs` 17-24 -/
def Positions.default : Positions := ⟨.empty, .empty, .empty⟩

/-- `Positions::effective_count`, `pool/src/pool/user.rs` 30-32 -/
def Positions.effectiveCount (p : Positions) : Nat := p.liabilities.len + p.collateral.len

/-- `AuctionData`, `pool/src/auctions/auction.rs` 38-44 -/
structure AuctionData where
  bid : SMap Int
  lot : SMap Int
  block : Nat

/-- The instance storage written by `execute_initialize` (`pool/src/pool/config.rs` 40-54). `none`
in `PoolState.inst` is "not initialized"; the pool name is not modelled. -/
structure PoolInst where
  admin : Address
  backstop : Address
  blnd : Address
  config : PoolConfig

/-- The storage of one pool contract, one field per key of `PoolDataKey`
(`pool/src/storage.rs` 121-155). Time-to-live / archival of entries is not modelled, except that
temporary entries may vanish (operation `expire*` in `System.lean`). -/
structure PoolState where
  inst : Option PoolInst := none
  resConfig : Address → Option ReserveConfig := fun _ => none
  resInit : Address → Option QueuedReserveInit := fun _ => none
  resData : Address → Option ReserveData := fun _ => none
  resList : List Address := []
  emisConfig : Nat → Option EmisConfig := fun _ => none
  emisData : Nat → Option EmisData := fun _ => none
  positions : SMap Positions := .empty
  /-- reserve token id, then user -/
  userEmis : Nat → SMap UserEmis := fun _ => .empty
  poolEmis : SMap Nat := .empty
  /-- auction type, then user -/
  auctions : Nat → Address → Option AuctionData := fun _ _ => none
  /-- ghost (never read by the modelled code): BLND allotted to a reserve token id so far -/
  received : Nat → Int := fun _ => 0
  /-- ghost: BLND claimed by users for a reserve token id so far -/
  claimed : Nat → Int := fun _ => 0
  /-- ghost: value of the debt of a reserve that was written off as bad debt so far -/
  writtenOff : Address → Int := fun _ => 0

/-! ### Backstop contract storage (`backstop/src/storage.rs`) -/

/-- `PoolBalance`, `backstop/src/backstop/pool.rs` 86-93 -/
structure PoolBalance where
  shares : Int
  tokens : Int
  q4w : Int
deriving DecidableEq, Repr

/-- `Q4W`, `backstop/src/backstop/user.rs` 8-14 -/
structure Q4W where
  amount : Int
  exp : Nat
deriving DecidableEq, Repr

/-- `UserBalance`, `backstop/src/backstop/user.rs` 16-22 -/
structure UserBalance where
  shares : Int
  q4w : List Q4W
deriving DecidableEq, Repr

/-- instance storage set in `initialize`, `backstop/src/contract.rs` 194-201 -/
structure BackstopInst where
  backstopToken : Address
  emitter : Address
  blnd : Address
  usdc : Address
  poolFactory : Address
deriving DecidableEq, Repr

/-- Backstop storage, `backstop/src/storage.rs` 66-76 and the named symbols 48-57. -/
structure BackstopState where
  inst : Option BackstopInst := none
  dropList : Option (List (Address × Int)) := none
  poolBal : SMap PoolBalance := .empty
  /-- pool, then user -/
  userBal : Address → SMap UserBalance := fun _ => .empty
  lastDistro : Nat := 0
  rewardZone : List Address := []
  poolEmis : Address → Int := fun _ => 0
  emisCfg : Address → Option EmisConfig := fun _ => none
  emisData : Address → Option EmisData := fun _ => none
  /-- pool, then user -/
  userEmis : Address → SMap UserEmis := fun _ => .empty
  lpVal : Option (Int × Int) := none
  /-- ghost (never read by the modelled code): BLND allotted to a pool's depositors so far -/
  received : Address → Int := fun _ => 0
  /-- ghost: BLND claimed by a pool's depositors so far -/
  claimed : Address → Int := fun _ => 0

/-- `get_pool_balance`, `backstop/src/storage.rs` 257-270 -/
def BackstopState.getPoolBal (b : BackstopState) (pool : Address) : PoolBalance :=
  (b.poolBal.get pool).getD ⟨0, 0, 0⟩
/-- `get_user_balance`, `backstop/src/storage.rs` 218-233 -/
def BackstopState.getUserBal (b : BackstopState) (pool user : Address) : UserBalance :=
  ((b.userBal pool).get user).getD ⟨0, []⟩
/-- `set_pool_balance`, `backstop/src/storage.rs` 277-285 -/
def BackstopState.setPoolBal (b : BackstopState) (pool : Address) (v : PoolBalance) :
    BackstopState := { b with poolBal := b.poolBal.set pool v }
/-- `set_user_balance`, `backstop/src/storage.rs` 241-249 -/
def BackstopState.setUserBal (b : BackstopState) (pool user : Address) (v : UserBalance) :
    BackstopState := { b with userBal := upd b.userBal pool ((b.userBal pool).set user v) }

/-! ### Emitter contract storage (`emitter/src/storage.rs`) -/

/-- `Swap`, `emitter/src/backstop_manager.rs` 6-12 -/
structure Swap where
  newBackstop : Address
  newBackstopToken : Address
  unlockTime : Nat
deriving DecidableEq, Repr

/-- instance storage set in `initialize`, `emitter/src/contract.rs` 83-85 -/
structure EmitterInst where
  blnd : Address
  backstop : Address
  backstopToken : Address
deriving DecidableEq, Repr

/-- Emitter storage, `emitter/src/storage.rs` 17-31 -/
structure EmitterState where
  inst : Option EmitterInst := none
  swap : Option Swap := none
  lastDistro : Address → Option Nat := fun _ => none
  dropped : Address → Bool := fun _ => false

/-! ### Pool factory storage (`pool-factory/src/storage.rs`) -/

/-- `PoolInitMeta`, `pool-factory/src/storage.rs` 21-27 (the wasm hash is not modelled: the factory
deploys the modelled pool). -/
structure PoolInitMeta where
  backstop : Address
  blnd : Address
deriving DecidableEq, Repr

/-- Factory storage, `pool-factory/src/storage.rs` 13-19 -/
structure FactoryState where
  meta? : Option PoolInitMeta := none
  deployed : Address → Bool := fun _ => false

/-! ### Environment -/

/-- One SEP-41 / Stellar asset token ledger (external contract, ideal behaviour assumed). -/
structure Token where
  bal : Address → Int := fun _ => 0
  /-- owner, spender: amount and last valid ledger sequence -/
  allow : Address → Address → Int × Nat := fun _ _ => (0, 0)
  /-- ghost: total amount ever minted (never read by the modelled code) -/
  minted : Int := 0

/-- One SEP-40 oracle (external contract): number of decimals, and last price with timestamp. -/
structure Oracle where
  decimals : Nat := 7
  price : Address → Option (Int × Nat) := fun _ => none

/-- The whole system. The protocol addresses never change. -/
structure World where
  /-- `e.ledger().timestamp()` -/
  time : Nat
  /-- `e.ledger().sequence()` -/
  seq : Nat
  tok : Address → Token
  oracle : Address → Oracle
  /-- Comet: total supply of LP tokens -/
  cometShares : Int
  /-- Comet: LP tokens minted for a single sided deposit of the given BLND amount -/
  cometOut : Int → Int
  emitterAddr : Address
  backstopAddr : Address
  factoryAddr : Address
  /-- the address the deployer gives to a pool deployed by `admin` with `salt` -/
  deployAddr : Address → Nat → Address
  /-- the addresses at which a pool contract is (or will be) deployed -/
  poolAddr : Address → Bool
  emitter : EmitterState
  backstop : BackstopState
  factory : FactoryState
  pools : Address → PoolState

/-- write a pool's storage back -/
def World.setPool (w : World) (p : Address) (s : PoolState) : World :=
  { w with pools := upd w.pools p s }

/-- write the backstop's storage back -/
def World.setBackstop (w : World) (b : BackstopState) : World := { w with backstop := b }

/-- `require_auth`: `auth` holds the addresses that authorized the invocation (transaction signers
and the directly invoking contract). -/
def requireAuth (auth : List Address) (a : Address) : R Unit := require (a ∈ auth) .unauthorized

/-! ### Tokens -/

/-- `TokenClient::balance` -/
def World.balance (w : World) (token holder : Address) : Int := (w.tok token).bal holder

/-- set one balance -/
def World.setBalance (w : World) (token holder : Address) (v : Int) : World :=
  let t : Token := { (w.tok token) with bal := upd (w.tok token).bal holder v }
  { w with tok := upd w.tok token t }

/-- `TokenClient::transfer`: panics on a negative amount or an insufficient balance. The
authorization of `src` is checked by the caller of this function. -/
def transfer (w : World) (token src dst : Address) (amount : Int) : R World := do
  require (0 ≤ amount) .token
  require (amount ≤ w.balance token src) .token
  let w1 := w.setBalance token src (w.balance token src - amount)
  let v ← chk (w1.balance token dst + amount)
  pure (w1.setBalance token dst v)

/-- `StellarAssetClient::mint` (the emitter is the admin of BLND). -/
def mint (w : World) (token dst : Address) (amount : Int) : R World := do
  require (0 ≤ amount) .token
  let v ← chk (w.balance token dst + amount)
  let w1 := w.setBalance token dst v
  let t : Token := { (w1.tok token) with minted := (w1.tok token).minted + amount }
  pure { w1 with tok := upd w1.tok token t }

/-- `TokenClient::allowance`: an expired allowance counts as zero. -/
def World.allowance (w : World) (token owner spender : Address) : Int :=
  let a := (w.tok token).allow owner spender
  if a.2 < w.seq then 0 else a.1

/-- set one allowance -/
def World.setAllowance (w : World) (token owner spender : Address) (amount : Int) (exp : Nat) :
    World :=
  let al := upd (w.tok token).allow owner (upd ((w.tok token).allow owner) spender (amount, exp))
  let t : Token := { (w.tok token) with allow := al }
  { w with tok := upd w.tok token t }

/-- `TokenClient::approve` -/
def approve (w : World) (token owner spender : Address) (amount : Int) (exp : Nat) : R World := do
  require (0 ≤ amount) .token
  pure (w.setAllowance token owner spender amount exp)

/-- `TokenClient::transfer_from` -/
def transferFrom (w : World) (token spender owner dst : Address) (amount : Int) : R World := do
  require (0 ≤ amount) .token
  require (amount ≤ w.allowance token owner spender) .token
  let w1 := w.setAllowance token owner spender (w.allowance token owner spender - amount)
    ((w.tok token).allow owner spender).2
  transfer w1 token owner dst amount

end Blend
