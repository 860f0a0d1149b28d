import Verif.Spec.Follow
import Verif.Spec.BackstopManage
/-
  Specification of an observer that follows the management of the protocol from the events (C80). It sees the published
  events and the time they were published at, nothing else.
-/

namespace Blend
namespace Spec

/-- `l` lists the events that are published, each with its time, along a run from `w` to `w'` -/
inductive Dated (w : World) : List (Nat × Event) → World → Prop
  | start : Dated w [] w
  | tail {l w1 w2 op ev} : Dated w l w1 → step w1 op = .ok w2 → logOf w1 op = .ok ev →
      Dated w (l ++ ev.map fun e => (w1.time, e)) w2

/-- What the observer of the management of a pool writes down: the admin, the take rate of the backstop, the maximum number of
positions and the status; the queued changes with the time from which they can be put into effect; the reserves in their order
and their parameters; for every reserve token the emissions per second and when they end. -/
structure SetupNotes where
  admin : Address
  rate : Nat
  maxPositions : Nat
  status : Nat
  queued : Address → Option (ReserveConfig × Nat) := fun _ => none
  reserves : List Address := []
  config : Address → Option ReserveConfig := fun _ => none
  emissions : Nat → Option (Nat × Nat) := fun _ => none

/-- How the observer of the pool `p` updates its notes on an event. -/
def SetupNotes.see (p : Address) (F : SetupNotes) (e : Nat × Event) : SetupNotes :=
  match e.2 with
  | .setAdmin q _ a => if q = p then { F with admin := a } else F
  | .updatePool q _ r m => if q = p then { F with rate := r, maxPositions := m } else F
  | .queueSetReserve q _ a c =>
    if q = p then { F with queued := upd F.queued a (some (c, if F.status = 6 then e.1 else e.1 + 7 * 24 * 60 * 60)) } else F
  | .cancelSetReserve q _ a => if q = p then { F with queued := upd F.queued a none } else F
  | .setReserve q a i =>
    if q = p then
      { F with
        queued := upd F.queued a none
        config := upd F.config a ((F.queued a).map fun c => { c.1 with index := i })
        reserves := if i = F.reserves.length then F.reserves ++ [a] else F.reserves }
    else F
  | .setStatus q _ s => if q = p then { F with status := s } else F
  | .reserveEmission q id eps exp => if q = p then { F with emissions := upd F.emissions id (some (eps, exp)) } else F
  | _ => F

/-- The notes `F` are right for the pool `ps`. (A queued change may be gone without an event, when its entry expires.) -/
structure SetupNotes.Right (ps : PoolState) (F : SetupNotes) : Prop where
  inst : ∃ i, ps.inst = some i ∧ F.admin = i.admin ∧ F.rate = i.config.bstopRate ∧ F.maxPositions = i.config.maxPositions ∧
    F.status = i.config.status
  queued : ∀ a q, ps.resInit a = some q → F.queued a = some (q.newConfig, q.unlockTime)
  reserves : F.reserves = ps.resList
  config : ∀ a, F.config a = ps.resConfig a
  emissions : ∀ id, F.emissions id = (ps.emisConfig id).map fun c => (c.eps, c.expiration)

/-- The event agrees with what the observer of the pool `p` knows: the admin it names is the admin; a reserve that is set was
queued and its waiting time is over; the index of a new reserve is the next one, that of an old one stays. -/
def SetupNotes.Agrees (p : Address) (F : SetupNotes) (e : Nat × Event) : Prop :=
  match e.2 with
  | .setAdmin q x _ => q = p → x = F.admin
  | .updatePool q x _ _ => q = p → x = F.admin
  | .queueSetReserve q x _ _ => q = p → x = F.admin
  | .cancelSetReserve q x _ => q = p → x = F.admin
  | .setStatus q (some x) _ => q = p → x = F.admin
  | .setReserve q a i => q = p → (∃ c t, F.queued a = some (c, t) ∧ t ≤ e.1) ∧
      ((F.config a = none ∧ i = F.reserves.length) ∨ ∃ c, F.config a = some c ∧ i = c.index ∧ F.reserves[i]? = some a)
  | _ => True

/-- What the observer of the other contracts writes down: the reward zone; the backstop the emitter serves with its token, and
the queued swap; the pools the factory has deployed. -/
structure SystemNotes where
  zone : List Address := []
  backstop : Address
  token : Address
  swap : Option Swap := none
  pools : Address → Prop := fun _ => False

/-- How the observer updates its notes on an event. -/
def SystemNotes.see (F : SystemNotes) (e : Nat × Event) : SystemNotes :=
  match e.2 with
  | .rewardZone a r =>
    { F with zone := if F.zone.length < rewardZoneMax e.1 then a :: F.zone else F.zone.map fun x => if x = r then a else x }
  | .queueSwap s => { F with swap := some s }
  | .cancelSwap _ => { F with swap := none }
  | .swap s => { F with backstop := s.newBackstop, token := s.newBackstopToken, swap := none }
  | .deploy p => { F with pools := upd F.pools p True }
  | _ => F

/-- The notes `F` are right for the world `w`. -/
structure SystemNotes.Right (w : World) (F : SystemNotes) : Prop where
  zone : F.zone = w.backstop.rewardZone
  emitter : ∃ i, w.emitter.inst = some i ∧ F.backstop = i.backstop ∧ F.token = i.backstopToken
  swap : F.swap = w.emitter.swap
  pools : ∀ p, F.pools p ↔ w.factory.deployed p = true

/-- The event agrees with what the observer knows: a swap that is cancelled or carried out is the queued one, and carried out only
when its waiting time is over; a swap is queued only if none is, with a month to wait; emissions go to the backstop
the emitter serves; no pool is deployed twice. -/
def SystemNotes.Agrees (F : SystemNotes) (e : Nat × Event) : Prop :=
  match e.2 with
  | .queueSwap s => F.swap = none ∧ s.unlockTime = e.1 + 31 * 24 * 60 * 60
  | .cancelSwap s => F.swap = some s
  | .swap s => F.swap = some s ∧ s.unlockTime ≤ e.1
  | .distribute b _ => b = F.backstop
  | .deploy p => ¬ F.pools p
  | .rewardZone a _ => a ∉ F.zone
  | _ => True

end Spec
end Blend
