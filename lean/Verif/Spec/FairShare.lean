import Verif.Spec.Share
import Verif.Spec.BackstopShare
/-
  Specification of what a holder of a part of a reserve token earns of its emissions at least (C103), and a depositor in the
  backstop (C104).
-/

namespace Blend
namespace Spec

/-- From a world, by any number of operations of anyone, to another one, while the reserve token `id` of the pool `p` is emitted by the
schedule `cfg` and there is some of it. `n` counts the operations that update what is recorded of the emissions of the token, or of
those of the account `u`; before each of them there is at most `M` of the token, and `u` holds at least `a / b` of it. `P` is what `u`
was paid on the way. -/
inductive HoldsShare (u : Address) (a b M : Int) (p : Address) (id dec : Nat) (cfg : EmisConfig) : World → Nat → Int → World → Prop
  | refl (w) : HoldsShare u a b M p id dec cfg w 0 0 w
  | same {w w' w'' n P op S S' ed} : HoldsShare u a b M p id dec cfg w n P w' → EmitsAs w' p id dec cfg S ed → 0 < S →
      Blend.step w' op = .ok w'' → EmitsAs w'' p id dec cfg S' ed →
      ((w''.pools p).userEmis id).get u = ((w'.pools p).userEmis id).get u →
      HoldsShare u a b M p id dec cfg w n (P + tokenPaid [u] p id op w' w'') w''
  | update {w w' w'' n P op S S' ed ed'} : HoldsShare u a b M p id dec cfg w n P w' → EmitsAs w' p id dec cfg S ed → 0 < S → S ≤ M →
      a * S ≤ b * tokenBalance (w'.pools p) id u → Blend.step w' op = .ok w'' → EmitsAs w'' p id dec cfg S' ed' →
      HoldsShare u a b M p id dec cfg w (n + 1) (P + tokenPaid [u] p id op w' w'') w''

/-- The same for the emissions to the depositors of the pool `p` in the backstop and their unqueued shares. -/
inductive DepositsShare (u : Address) (a b M : Int) (p : Address) (cfg : EmisConfig) : World → Nat → Int → World → Prop
  | refl (w) : DepositsShare u a b M p cfg w 0 0 w
  | same {w w' w'' n P op S S' ed} : DepositsShare u a b M p cfg w n P w' → BackstopEmitsAs w' p cfg S ed → 0 < S →
      Blend.step w' op = .ok w'' → BackstopEmitsAs w'' p cfg S' ed →
      (w''.backstop.userEmis p).get u = (w'.backstop.userEmis p).get u →
      DepositsShare u a b M p cfg w n (P + backstopPaid [u] p op w' w'') w''
  | update {w w' w'' n P op S S' ed ed'} : DepositsShare u a b M p cfg w n P w' → BackstopEmitsAs w' p cfg S ed → 0 < S → S ≤ M →
      a * S ≤ b * (w'.backstop.getUserBal p u).shares → Blend.step w' op = .ok w'' → BackstopEmitsAs w'' p cfg S' ed' →
      DepositsShare u a b M p cfg w (n + 1) (P + backstopPaid [u] p op w' w'') w''

end Spec
end Blend
