import Verif.Spec.Health
import Verif.Spec.FollowCash
/-
  Specification of what a pool is left with beyond what is owed to others (C86).
-/

namespace Blend
namespace Spec
open Pool

/-- What the pool has of a token beyond what is owed to others, in 10⁻⁹ units of the token: the balance `bal` it holds without the
part that belongs to the backstop, plus what is owed to it, minus what its suppliers may claim, by the data `d` of the reserve. -/
def leftover (bal : Int) (d : ReserveData) : Int :=
  (bal - d.backstopCredit) * ONE9 + d.dSupply * d.dRate - d.bSupply * d.bRate

/-- the number of requests of the list that supply, withdraw, borrow or repay the token `a` -/
def plainOn (a : Address) (l : List Request) : Nat := (l.filter fun q => decide (q.type ≤ 5 ∧ q.address = a)).length

/-- the number of requests to the pool `p`, in this operation, that supply, withdraw, borrow or repay the token `a` -/
def requestsOn (p a : Address) : Op → Nat
  | .pool q _ (.submit _ _ _ l) => if q = p then plainOn a l else 0
  | _ => 0

/-- 1 for a call of the pool `p`, 0 for any other operation -/
def callsOf (p : Address) : Op → Nat
  | .pool q _ _ => if q = p then 1 else 0
  | _ => 0

/-- the conditions on an operation of a history: no gifts to the pool, the token is not BLND, at most `M` shares are supplied and the
rates are at most `R` -/
def Within (p a : Address) (M R : Int) (w : World) (op : Op) : Prop :=
  ¬ Gives p op ∧ ¬ IsBlnd w a ∧ (∀ d, (w.pools p).resData a = some d → d.bSupply ≤ M) ∧
    ∀ dA, Current (w.pools p) w.time a dA → dA.bRate ≤ R ∧ dA.dRate ≤ R

end Spec
end Blend
