import Verif.Spec
import Verif.Props.RewardZone
/-
  Specification of the backstop's administrative calls (C73): setup, reward zone, value of the LP token.
-/

namespace Blend
namespace Spec

/-- the largest value of i128 -/
def maxI128 : Int := 2 ^ 127 - 1

/-- the numbers in the valuation of the backstop of pool `p` are in the range of i128 -/
def ValuationFits (w : World) (p : Address) : Prop :=
  (∀ vb vu, w.backstop.lpVal = some (vb, vu) →
    (w.backstop.getPoolBal p).tokens * vb ≤ maxI128 ∧ (w.backstop.getPoolBal p).tokens * vu ≤ maxI128) ∧
  (w.backstop.getPoolBal p).q4w * ONE7 ≤ maxI128

/-- The call is in order in `w` and leaves `b` as the state of the backstop. Nobody has to sign. -/
inductive BackstopManagePlan (w : World) : BackstopCall → BackstopState → Prop
  /-- once, when the emitter knows the backstop (the modelled emitter is the one given) -/
  | init {t u b f l last} : w.backstop.inst = none → w.emitter.lastDistro w.backstopAddr = some last →
      BackstopManagePlan w (.initialize t w.emitterAddr u b f l)
        { w.backstop with inst := some ⟨t, w.emitterAddr, b, u, f⟩, dropList := some l, lastDistro := last }
  /-- a pool of the minimum size that is not in the zone, while there is room -/
  | room {a r} : a ∉ w.backstop.rewardZone → BackstopAtLeast w a 1 1 → ValuationFits w a →
      w.backstop.rewardZone.length < rewardZoneMax w.time →
      BackstopManagePlan w (.addReward a r) { w.backstop with rewardZone := a :: w.backstop.rewardZone }
  /-- when the zone is full: in the place of a smaller pool, at most one day after the last distribution -/
  | replace {a r} : a ∉ w.backstop.rewardZone → BackstopAtLeast w a 1 1 → ValuationFits w a →
      w.backstop.rewardZone.length = rewardZoneMax w.time → r ∈ w.backstop.rewardZone →
      (w.backstop.getPoolBal r).tokens < (w.backstop.getPoolBal a).tokens →
      86400 ≤ w.time → w.time ≤ w.backstop.lastDistro + 86400 →
      BackstopManagePlan w (.addReward a r)
        { w.backstop with rewardZone := w.backstop.rewardZone.map fun x => if x = r then a else x }
  /-- the BLND and USDC of the LP token per share, with seven decimals, rounded down -/
  | value {i vb vu} : w.backstop.inst = some i → 0 < w.cometShares →
      w.balance i.blnd i.backstopToken * ONE7 ≤ maxI128 → w.balance i.usdc i.backstopToken * ONE7 ≤ maxI128 →
      IsFloor vb (w.balance i.blnd i.backstopToken * ONE7) w.cometShares →
      IsFloor vu (w.balance i.usdc i.backstopToken * ONE7) w.cometShares →
      BackstopManagePlan w .updateTknVal { w.backstop with lpVal := some (vb, vu) }

/-- the administrative calls -/
def BackstopManageCall : BackstopCall → Prop
  | .initialize .. | .addReward .. | .updateTknVal => True
  | _ => False

end Spec
end Blend
