import Verif.Model.Submit
/-
  The pool factory and the composed system: operations, `step`, `Reachable`.
-/

namespace Blend
namespace Factory

/-- `initialize`, `pool-factory/src/pool_factory.rs` 53-62 -/
def init (w : World) (m : PoolInitMeta) : R World := do
  require (w.factory.meta?.isNone) (.factory .alreadyInitialized)
  pure { w with factory := { w.factory with meta? := some m } }

/-- `deploy`, `pool-factory/src/pool_factory.rs` 64-112. Deriving the address from admin and salt
(87-91, 101-104) is `deployAddr`; deploying to an address that already holds a contract fails. The
admin's authorization also covers the nested `initialize` (line 105). Returns the pool address. -/
def deploy (w : World) (auth : List Address) (admin : Address) (salt : Nat) (oracle : Address)
    (rate maxPositions : Nat) : R (Address × World) := do
  requireAuth auth admin
  let m ← unwrap w.factory.meta?
  require (¬ rate ≥ 10000000) (.factory .invalidPoolInitArgs)
  require (¬ maxPositions < 2) (.factory .invalidPoolInitArgs)
  let addr := w.deployAddr admin salt
  require (w.poolAddr addr = true) .notModelled
  require ((w.pools addr).inst.isNone) .notModelled
  let w1 ← Pool.call w addr [admin] (.initialize admin oracle rate maxPositions m.backstop m.blnd)
  pure (addr, { w1 with factory := { w1.factory with deployed := upd w1.factory.deployed addr true } })

/-- `is_pool`, `pool-factory/src/pool_factory.rs` 114-117 -/
def isPool (w : World) (a : Address) : Bool := w.factory.deployed a

end Factory

/-- Calls of the backstop contract's entry points, `backstop/src/contract.rs` 178-347. -/
inductive BackstopCall
  | initialize (backstopToken emitter usdc blnd poolFactory : Address) (drops : List (Address × Int))
  | deposit (sender pool : Address) (amount : Int)
  | queueWithdrawal (sender pool : Address) (amount : Int)
  | dequeueWithdrawal (sender pool : Address) (amount : Int)
  | withdraw (sender pool : Address) (amount : Int)
  | gulpEmissions
  | addReward (toAdd toRemove : Address)
  | gulpPoolEmissions (pool : Address)
  | claim (sender : Address) (pools : List Address) (dst : Address)
  | drop
  | draw (pool : Address) (amount : Int) (dst : Address)
  | donate (sender pool : Address) (amount : Int)
  | updateTknVal

/-- Dispatch of a backstop entry point. -/
def backstopCall (w : World) (auth : List Address) : BackstopCall → R World
  | .initialize t e u b f l => Backstop.init w t e u b f l
  | .deposit s p a => do let (_, w') ← Backstop.deposit w auth s p a; pure w'
  | .queueWithdrawal s p a => Backstop.queueWithdrawal w auth s p a
  | .dequeueWithdrawal s p a => Backstop.dequeueWithdrawal w auth s p a
  | .withdraw s p a => do let (_, w') ← Backstop.withdraw w auth s p a; pure w'
  | .gulpEmissions => do let (_, w') ← Backstop.gulpEmissions w; pure w'
  | .addReward a r => Backstop.addReward w a r
  | .gulpPoolEmissions p => do let (_, w') ← Backstop.gulpPoolEmissionsAuth w auth p; pure w'
  | .claim s ps d => do let (_, w') ← Backstop.claim w auth s ps d; pure w'
  | .drop => Backstop.drop w
  | .draw p a d => Backstop.draw w auth p a d
  | .donate s p a => Backstop.donate w auth s p a
  | .updateTknVal => Backstop.updateTknVal w

/-- Calls of the emitter's entry points, `emitter/src/contract.rs` 75-144. -/
inductive EmitterCall
  | initialize (blnd backstop backstopToken : Address)
  | distribute
  | queueSwap (newBackstop newToken : Address)
  | cancelSwap
  | swapBackstop
  | drop (list : List (Address × Int))

/-- Dispatch of an emitter entry point. -/
def emitterCall (w : World) (auth : List Address) : EmitterCall → R World
  | .initialize b s t => Emitter.init w b s t
  | .distribute => do let (_, w') ← Emitter.distribute w; pure w'
  | .queueSwap b t => Emitter.queueSwap w b t
  | .cancelSwap => Emitter.cancelSwap w
  | .swapBackstop => Emitter.swapBackstop w
  | .drop l => Emitter.drop w auth l

/-- Calls of the factory's entry points, `pool-factory/src/pool_factory.rs` 51-118. -/
inductive FactoryCall
  | initialize (m : PoolInitMeta)
  | deploy (admin : Address) (salt : Nat) (oracle : Address) (rate maxPositions : Nat)

/-- Dispatch of a factory entry point. -/
def factoryCall (w : World) (auth : List Address) : FactoryCall → R World
  | .initialize m => Factory.init w m
  | .deploy a s o r m => do let (_, w') ← Factory.deploy w auth a s o r m; pure w'

/-- The address belongs to one of the modelled contracts: it can authorize a call only by making it
itself, which the model does explicitly. -/
def World.isProtocol (w : World) (a : Address) : Prop :=
  a = w.emitterAddr ∨ a = w.backstopAddr ∨ a = w.factoryAddr ∨ w.poolAddr a = true

instance (w : World) (a : Address) : Decidable (w.isProtocol a) := by
  unfold World.isProtocol; infer_instance

/-- One transaction or one change of the environment. `auth` lists the accounts and foreign
contracts that authorized the transaction. -/
inductive Op
  /-- a pool entry point is invoked at pool `p` -/
  | pool (p : Address) (auth : List Address) (c : Pool.Call)
  | backstop (auth : List Address) (c : BackstopCall)
  | emitter (auth : List Address) (c : EmitterCall)
  | factory (auth : List Address) (c : FactoryCall)
  /-- a new ledger closes: time and sequence move forward -/
  | ledger (dt dseq : Nat)
  /-- the oracle contracts report new prices (and decimals) -/
  | oracles (o : Address → Oracle)
  /-- Comet's pool changes: other users join, exit or swap -/
  | comet (shares : Int) (out : Int → Int)
  /-- a foreign account moves tokens -/
  | tokenTransfer (token src dst : Address) (amount : Int)
  /-- a token issuer other than the emitter mints -/
  | tokenMint (token dst : Address) (amount : Int)
  /-- a foreign account burns tokens -/
  | tokenBurn (token src : Address) (amount : Int)
  /-- a foreign account grants an allowance -/
  | tokenApprove (token owner spender : Address) (amount : Int) (exp : Nat)
  /-- a temporary auction entry reaches the end of its time to live -/
  | expireAuction (p : Address) (t : Nat) (user : Address)
  /-- a temporary queued reserve entry reaches the end of its time to live -/
  | expireQueued (p : Address) (asset : Address)
  /-- the temporary drop list reaches the end of its time to live -/
  | expireDropList

/-- Execute one operation; `.error` means that the transaction reverts (nothing changes) or that the
environment change is not possible. -/
def step (w : World) : Op → R World
  | .pool p auth c => do
    require (w.poolAddr p = true) .notModelled
    require (∀ a ∈ auth, ¬ w.isProtocol a) .unauthorized
    Pool.call w p auth c
  | .backstop auth c => do
    require (∀ a ∈ auth, ¬ w.isProtocol a) .unauthorized
    backstopCall w auth c
  | .emitter auth c => do
    require (∀ a ∈ auth, ¬ w.isProtocol a) .unauthorized
    emitterCall w auth c
  | .factory auth c => do
    require (∀ a ∈ auth, ¬ w.isProtocol a) .unauthorized
    factoryCall w auth c
  | .ledger dt dseq => pure { w with time := w.time + dt, seq := w.seq + dseq }
  | .oracles o => pure { w with oracle := o }
  | .comet shares out => do
    require (0 ≤ shares) .token
    pure { w with cometShares := shares, cometOut := out }
  | .tokenTransfer token src dst amount => do
    require (¬ w.isProtocol src) .unauthorized
    transfer w token src dst amount
  | .tokenMint token dst amount => do
    require (∀ i ∈ w.emitter.inst, token ≠ i.blnd) .unauthorized
    mint w token dst amount
  | .tokenBurn token src amount => do
    require (¬ w.isProtocol src) .unauthorized
    require (0 ≤ amount ∧ amount ≤ w.balance token src) .token
    pure (w.setBalance token src (w.balance token src - amount))
  | .tokenApprove token owner spender amount exp => do
    require (¬ w.isProtocol owner) .unauthorized
    approve w token owner spender amount exp
  | .expireAuction p t user =>
    pure (w.setPool p (Pool.setAuction (w.pools p) t user none))
  | .expireQueued p asset =>
    pure (w.setPool p { (w.pools p) with resInit := upd (w.pools p).resInit asset none })
  | .expireDropList => pure (w.setBackstop { w.backstop with dropList := none })

/-- A deployment in which nothing is initialized: every contract's storage is empty, balances are
arbitrary non-negative amounts, the protocol addresses are distinct. -/
structure Genesis (w : World) : Prop where
  emitter : w.emitter = {}
  backstop : w.backstop = {}
  factory : w.factory = {}
  pools : ∀ p, w.pools p = {}
  balances : ∀ t a, 0 ≤ w.balance t a
  cometShares : 0 ≤ w.cometShares
  emitter_ne_backstop : w.emitterAddr ≠ w.backstopAddr
  emitter_ne_factory : w.emitterAddr ≠ w.factoryAddr
  backstop_ne_factory : w.backstopAddr ≠ w.factoryAddr
  emitter_not_pool : w.poolAddr w.emitterAddr = false
  backstop_not_pool : w.poolAddr w.backstopAddr = false
  factory_not_pool : w.poolAddr w.factoryAddr = false
  /-- contracts of the protocol have granted no token allowances yet -/
  allowances : ∀ t o s, w.isProtocol o → (w.tok t).allow o s = (0, 0)

/-- `w'` is reached from `w` by a successful operation. -/
def Step (w w' : World) : Prop := ∃ op, step w op = .ok w'

/-- `w'` is reached from `w` by any number of successful operations. -/
inductive Steps : World → World → Prop
  | refl (w) : Steps w w
  | tail {w w' w''} : Steps w w' → Step w' w'' → Steps w w''

/-- The worlds that occur in some history of some deployment. -/
def Reachable (w : World) : Prop := ∃ w0, Genesis w0 ∧ Steps w0 w

end Blend
