import Verif.Spec.Share
/-
  Specification of what a group of accounts earns of the backstop emissions of a pool (C102).
-/

namespace Blend
namespace Spec

/-- What an operation pays to the accounts `us` of the backstop emissions of the pool `p`: what the count of all that was ever paid to
the depositors of the pool grows by, if the operation is a claim of one of them from the backstop, and nothing otherwise. -/
def backstopPaid (us : List Address) (p : Address) (op : Op) (w w' : World) : Int :=
  match op with
  | .backstop _ (.claim s _ _) => if s ∈ us then w'.backstop.claimed p - w.backstop.claimed p else 0
  | _ => 0

/-- From a world, by any number of operations of anyone, to another one, while emissions to the depositors of the pool `p` in the
backstop run by the schedule `cfg`, there are unqueued shares, before each operation the accounts `us` together hold at most `a / b`
of them, and nobody credits the proceeds of a claim of his to another account of `us`. `P` is what they were paid on the way. -/
inductive BackstopSharePaid (us : List Address) (a b : Int) (p : Address) (cfg : EmisConfig) : World → Int → World → Prop
  | refl (w) : BackstopSharePaid us a b p cfg w 0 w
  | step {w w' w'' P op S S' ed ed'} : BackstopSharePaid us a b p cfg w P w' → BackstopEmitsAs w' p cfg S ed → 0 < S →
      b * (us.map fun u => (w'.backstop.getUserBal p u).shares).sum ≤ a * S →
      (∀ auth s ps d, op = .backstop auth (.claim s ps d) → d ∈ us → d = s) → Blend.step w' op = .ok w'' →
      BackstopEmitsAs w'' p cfg S' ed' →
      BackstopSharePaid us a b p cfg w (P + backstopPaid us p op w' w'') w''

/-- The same whatever the schedule: it may be restarted with new emissions on the way. -/
inductive BackstopSharePaidAny (us : List Address) (a b : Int) (p : Address) : World → Int → World → Prop
  | refl (w) : BackstopSharePaidAny us a b p w 0 w
  | step {w w' w'' P op S cfg ed} : BackstopSharePaidAny us a b p w P w' → BackstopEmitsAs w' p cfg S ed → 0 < S →
      b * (us.map fun u => (w'.backstop.getUserBal p u).shares).sum ≤ a * S →
      (∀ auth s ps d, op = .backstop auth (.claim s ps d) → d ∈ us → d = s) → Blend.step w' op = .ok w'' →
      BackstopSharePaidAny us a b p w (P + backstopPaid us p op w' w'') w''

end Spec
end Blend
