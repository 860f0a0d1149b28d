import Verif.Model.Events
import Verif.Model.Views
/-
  Specification of whose signatures an operation needs (C90).
-/

namespace Blend
namespace Spec

/-- the same operation, signed by the accounts `l` -/
def signedBy (l : List Address) : Op → Op
  | .pool p _ c => .pool p l c
  | .backstop _ c => .backstop l c
  | .emitter _ c => .emitter l c
  | .factory _ c => .factory l c
  | op => op

/-- `x` is the admin of the pool `p` -/
def IsAdmin (w : World) (p x : Address) : Prop := ∃ i, (w.pools p).inst = some i ∧ i.admin = x

/-- whose signature a call of the pool `p` needs -/
def PoolNeeds (w : World) (p : Address) : Pool.Call → Address → Prop
  | .initialize admin _ _ _ _ _, x => x = admin
  | .setAdmin new, x => IsAdmin w p x ∨ x = new
  | .updatePool _ _, x => IsAdmin w p x
  | .queueSetReserve _ _, x => IsAdmin w p x
  | .cancelSetReserve _, x => IsAdmin w p x
  | .setStatus _, x => IsAdmin w p x
  | .setEmissionsConfig _, x => IsAdmin w p x
  | .submit sender spender _ _, x => x = sender ∨ x = spender
  | .claim sender _ _, x => x = sender
  | .setReserve _, _ => False
  | .badDebt _, _ => False
  | .updateStatus, _ => False
  | .gulpEmissions, _ => False
  | .newLiquidation _ _, _ => False
  | .newBadDebt, _ => False
  | .newInterest _, _ => False

/-- whose signature a call of the backstop needs -/
def BackstopNeeds : BackstopCall → Address → Prop
  | .deposit sender _ _, x => x = sender
  | .queueWithdrawal sender _ _, x => x = sender
  | .dequeueWithdrawal sender _ _, x => x = sender
  | .withdraw sender _ _, x => x = sender
  | .claim sender _ _, x => x = sender
  | .donate sender pool _, x => x = sender ∨ x = pool
  | .draw pool _ _, x => x = pool
  | .gulpPoolEmissions pool, x => x = pool
  | _, _ => False

/-- whose signature an operation needs: the owner's of what is spent or claimed, the admin's of a pool for its management, the
backstop's for the drop, the pool's for a draw or a donation from outside of a pool; nobody's for anything else -/
def Required (w : World) : Op → Address → Prop
  | .pool p _ c, x => PoolNeeds w p c x
  | .backstop _ c, x => BackstopNeeds c x
  | .emitter _ (.drop _), x => ∃ i, w.emitter.inst = some i ∧ i.backstop = x
  | .factory _ (.deploy admin _ _ _ _), x => x = admin
  | _, _ => False

end Spec
end Blend
