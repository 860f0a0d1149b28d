import Verif.Spec.Updates
/-
  Specification of what a group of accounts earns of the emissions of a reserve token (C101).
-/

namespace Blend
namespace Spec

/-- What an operation pays to the accounts `us` of the emissions of the reserve token `id` of the pool `p`: what the count of all that
was ever paid for the token grows by, if the operation is a claim of one of them from this pool, and nothing otherwise. -/
def tokenPaid (us : List Address) (p : Address) (id : Nat) (op : Op) (w w' : World) : Int :=
  match op with
  | .pool q _ (.claim u _ _) => if q = p ∧ u ∈ us then (w'.pools p).claimed id - (w.pools p).claimed id else 0
  | _ => 0

/-- From a world, by any number of operations of anyone, to another one, while the reserve token `id` of the pool `p` is emitted by the
schedule `cfg`, there is some of it, and before each operation the accounts `us` together hold at most `a / b` of it. `P` is what they
were paid on the way. -/
inductive SharePaid (us : List Address) (a b : Int) (p : Address) (id dec : Nat) (cfg : EmisConfig) : World → Int → World → Prop
  | refl (w) : SharePaid us a b p id dec cfg w 0 w
  | step {w w' w'' P op S S' ed ed'} : SharePaid us a b p id dec cfg w P w' → EmitsAs w' p id dec cfg S ed → 0 < S →
      b * (us.map (tokenBalance (w'.pools p) id)).sum ≤ a * S → Blend.step w' op = .ok w'' → EmitsAs w'' p id dec cfg S' ed' →
      SharePaid us a b p id dec cfg w (P + tokenPaid us p id op w' w'') w''

/-- The same whatever the schedule: it may be restarted with new emissions on the way. -/
inductive SharePaidAny (us : List Address) (a b : Int) (p : Address) (id dec : Nat) : World → Int → World → Prop
  | refl (w) : SharePaidAny us a b p id dec w 0 w
  | step {w w' w'' P op S cfg ed} : SharePaidAny us a b p id dec w P w' → EmitsAs w' p id dec cfg S ed → 0 < S →
      b * (us.map (tokenBalance (w'.pools p) id)).sum ≤ a * S → Blend.step w' op = .ok w'' →
      SharePaidAny us a b p id dec w (P + tokenPaid us p id op w' w'') w''

/-- what the schedule has not emitted yet -/
def unemitted (cfg : EmisConfig) (ed : EmisData) : Int := cfg.eps * ((cfg.expiration - ed.lastTime : Nat) : Int)

end Spec
end Blend
