import Verif.Model.System
/-
  The time to live of the entries in temporary storage: auctions, queued reserves, drop list. `Model/System.lean` lets the ledger
  drop such an entry at any time. Here every entry gets the last ledger in which it exists, as the contracts set it, and the ledger
  may drop it only afterwards.
-/

namespace Blend

/-- The keys of the entries in temporary storage: `PoolDataKey::Auction`, `PoolDataKey::ResInit` (`pool/src/storage.rs` 122-150)
and `DROP_LIST_KEY` (`backstop/src/storage.rs` 56). -/
inductive TKey
  | auction (pool : Address) (type : Nat) (user : Address)
  | queued (pool asset : Address)
  | dropList
  deriving DecidableEq

/-- `ONE_DAY_LEDGERS`, `pool/src/storage.rs` 10, `backstop/src/storage.rs` 9 -/
def oneDayLedgers : Nat := 17280

/-- the arguments of `extend_ttl` for the entry: `pool/src/storage.rs` 15-19, 404-406, 674-676, `backstop/src/storage.rs` 17-18,
483-487 -/
def ttlArgs : TKey → Nat × Nat
  | .auction .. => (oneDayLedgers * 45, oneDayLedgers * 45 + oneDayLedgers)
  | .queued .. => (oneDayLedgers * 100, oneDayLedgers * 100 + 20 * oneDayLedgers)
  | .dropList => (oneDayLedgers * 100, oneDayLedgers * 100 + 20 * oneDayLedgers)

/-- `extend_ttl` of the host: if not more than `threshold` ledgers are left, `bump` ledgers are left from now on. -/
def extendTtl (seq live : Nat) (args : Nat × Nat) : Nat := if live - seq ≤ args.1 then seq + args.2 else live

/-- the entry is stored -/
def World.stored (w : World) : TKey → Bool
  | .auction p t u => ((w.pools p).auctions t u).isSome
  | .queued p a => ((w.pools p).resInit a).isSome
  | .dropList => w.backstop.dropList.isSome

/-- The transaction writes the entry (if it does not also remove it): `set_auction` is called when an auction is created
(`pool/src/auctions/auction.rs` 56, 79, 107) and when a part of it is filled (171);
`set_queued_reserve_set` when a change is queued (`pool/src/pool/config.rs` 80); `set_drop_list` when the backstop is set up
(`backstop/src/contract.rs` 200). -/
def World.writes (w : World) (op : Op) : TKey → Bool
  | .auction p t u =>
    match op with
    | .pool q _ (.newLiquidation v _) => decide (q = p ∧ t = 0 ∧ v = u)
    | .pool q _ .newBadDebt => decide (q = p ∧ t = 1 ∧ (w.pools p).inst.map (·.backstop) = some u)
    | .pool q _ (.newInterest _) => decide (q = p ∧ t = 2 ∧ (w.pools p).inst.map (·.backstop) = some u)
    | .pool q _ (.submit _ _ _ reqs) => decide (q = p ∧ t ≤ 2) && reqs.any fun r => decide (r.type = 6 + t ∧ r.address = u)
    | _ => false
  | .queued p a =>
    match op with
    | .pool q _ (.queueSetReserve b _) => decide (q = p ∧ b = a)
    | _ => false
  | .dropList =>
    match op with
    | .backstop _ (.initialize ..) => true
    | _ => false

/-- A world together with the last ledger in which each temporary entry exists (`live_until_ledger_seq` of the host). -/
structure TWorld where
  world : World
  live : TKey → Nat

/-- The ledger may drop the entry only when its time to live is over. -/
def TWorld.mayRun (T : TWorld) : Op → Prop
  | .expireAuction p t u => T.live (.auction p t u) < T.world.seq
  | .expireQueued p a => T.live (.queued p a) < T.world.seq
  | .expireDropList => T.live .dropList < T.world.seq
  | _ => True

instance (T : TWorld) (op : Op) : Decidable (T.mayRun op) := by
  unfold TWorld.mayRun
  split <;> infer_instance

/-- The times to live after a transaction from `w` to `w'`. A new entry starts with the network's minimum, which is less than the
threshold; the write of an entry that exists does not change its time to live, `extend_ttl` after it does. -/
def liveAfter (w w' : World) (op : Op) (live : TKey → Nat) (k : TKey) : Nat :=
  if w.writes op k = true ∧ w'.stored k = true then extendTtl w.seq (if w.stored k = true then live k else 0) (ttlArgs k) else live k

/-- One operation, with times to live. -/
inductive TStep (T : TWorld) (op : Op) : TWorld → Prop
  | mk {w'} : step T.world op = .ok w' → T.mayRun op → TStep T op ⟨w', liveAfter T.world w' op T.live⟩

/-- A sequence of operations, with times to live. -/
inductive THistory (T : TWorld) : List Op → TWorld → Prop
  | nil : THistory T [] T
  | snoc {l op T1 T2} : THistory T l T1 → TStep T1 op T2 → THistory T (l ++ [op]) T2

/-- The worlds with times to live that are reached from a deployment in which nothing is initialized. -/
def TReach (T : TWorld) : Prop := ∃ T0 l, Genesis T0.world ∧ THistory T0 l T

end Blend
