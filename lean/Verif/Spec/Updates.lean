import Verif.Spec
import Verif.Props.PoolEmissions
import Verif.Props.BackstopEmissions
/-
  Specification of what rounding of the emission indices can take away (C83).
-/

namespace Blend
namespace Spec

/-- In `w` the reserve token `id` of the pool `p` is emitted by the schedule `cfg`, its supply is `S`, it has `dec` decimals, and
`ed` is recorded. -/
structure EmitsAs (w : World) (p : Address) (id dec : Nat) (cfg : EmisConfig) (S : Int) (ed : EmisData) : Prop where
  sched : (w.pools p).emisConfig id = some cfg
  data : (w.pools p).emisData id = some ed
  supply : ∃ asset c d, (w.pools p).resList[id / 2]? = some asset ∧ (w.pools p).resConfig asset = some c ∧
    c.decimals = dec ∧ (w.pools p).resData asset = some d ∧ tokenSupply d id = S

/-- the same for the depositors of the pool `p` in the backstop and their unqueued shares -/
structure BackstopEmitsAs (w : World) (p : Address) (cfg : EmisConfig) (S : Int) (ed : EmisData) : Prop where
  sched : w.backstop.emisCfg p = some cfg
  data : w.backstop.emisData p = some ed
  supply : unqueuedShares w p = S

/-- From a world, by any number of operations of anyone, to another one. `E w S ed` says that in `w` emissions run by a fixed
schedule, for a supply `S`, and that `ed` is recorded; this is so all along, with supplies between 1 and `M`. `n` counts the operations
that update what is recorded. -/
inductive Updates (E : World → Int → EmisData → Prop) (M : Int) : World → Nat → World → Prop
  | refl (w) : Updates E M w 0 w
  | same {w w' w'' n op S S' ed} : Updates E M w n w' → E w' S ed → step w' op = .ok w'' → E w'' S' ed → Updates E M w n w''
  | update {w w' w'' n op S S' ed ed'} : Updates E M w n w' → E w' S ed → 0 < S → S ≤ M → step w' op = .ok w'' → E w'' S' ed' →
      Updates E M w (n + 1) w''

end Spec
end Blend
