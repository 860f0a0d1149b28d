import Verif.Props.BackstopEmissions
import Verif.Spec.EmitterTerms
/-
  Specification of the gulps of emissions (C71): when they are in order and what the pool's gulp does.
-/

namespace Blend
namespace Spec

/-- A gulp of the backstop is in order: the emitter has distributed more than an hour of emissions to it, the `secs` seconds since the
last gulp; some pool of the reward zone has unqueued tokens; and no pool of the zone has all its shares queued while its emissions run. -/
structure GulpReady (w : World) (secs : Nat) : Prop where
  inst : ∃ i, w.backstop.inst = some i ∧ i.emitter = w.emitterAddr
  distributed : w.emitter.lastDistro w.backstopAddr = some (w.backstop.lastDistro + secs)
  hour : 3600 < secs
  zone : ∃ p ∈ w.backstop.rewardZone, ∃ x, Unqueued w p x ∧ 0 < x
  free : ∀ p ∈ w.backstop.rewardZone, ¬ AllQueued w p

/-- A gulp of pool `p` is in order: the pool and the backstop are set up and at least one token is waiting for the pool. -/
structure PoolGulpReady (w : World) (p : Address) : Prop where
  inst : ∃ i, (w.pools p).inst = some i ∧ i.backstop = w.backstopAddr
  backstop : w.backstop.inst ≠ none
  waiting : ONE7 ≤ w.backstop.poolEmis p

/-- What a gulp of pool `p` does: every reserve token in the split gets its part of the waiting BLND, rounded down. It is emitted over
the next seven days, with what is left of the running schedule. The other reserve tokens get nothing. -/
structure PoolGulpOutcome (w w' : World) (p : Address) : Prop where
  taken : w'.backstop.poolEmis p = 0
  allowance : ∀ i, w.backstop.inst = some i →
    w'.allowance i.blnd w.backstopAddr p = w.allowance i.blnd w.backstopAddr p + w.backstop.poolEmis p
  split : ∀ id s, (w.pools p).poolEmis.get id = some s → ∃ (n : Int) (eps : Nat), IsFloor n ((s : Int) * w.backstop.poolEmis p) ONE7 ∧
    (w'.pools p).received id = (w.pools p).received id + n ∧ (w'.pools p).emisConfig id = some ⟨w.time + 604800, eps⟩ ∧
    IsFloor eps (n + remaining ((w.pools p).emisConfig id) w.time) 604800
  others : ∀ id, (w.pools p).poolEmis.get id = none → (w'.pools p).received id = (w.pools p).received id ∧
    (w'.pools p).emisConfig id = (w.pools p).emisConfig id ∧ (w'.pools p).emisData id = (w.pools p).emisData id
  tokens : ∀ t x, w'.balance t x = w.balance t x

end Spec
end Blend
