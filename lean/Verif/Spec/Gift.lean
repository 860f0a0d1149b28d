import Verif.Spec
/-
  Specification for C84: two states that differ by a gift of tokens. Nothing here refers to the
  functions of the model other than `step`.
-/

namespace Blend.Spec

/-- `g` is the state `w` with `n` more tokens `t` in the hands of `x`: every other balance, every
allowance and everything else (prices, pools, backstop, emitter, factory, time) is the same. -/
structure WithExtra (t x : Address) (n : Int) (w g : World) : Prop where
  balances : ∀ u a, g.balance u a = w.balance u a + (if u = t ∧ a = x then n else 0)
  allowances : ∀ u o s, (g.tok u).allow o s = (w.tok u).allow o s
  rest : g = { w with tok := g.tok }

/-- The operation looks at the balance of `x` in tokens `t`: the value of the LP token is computed
from the BLND and USDC of Comet, and a swap of backstops compares the balances of the two. -/
def Measures (w : World) (t x : Address) : Op → Prop
  | .backstop _ .updateTknVal => ∃ i, w.backstop.inst = some i ∧ x = i.backstopToken ∧ (t = i.blnd ∨ t = i.usdc)
  | .emitter _ (.queueSwap b _) => ∃ i, w.emitter.inst = some i ∧ t = i.backstopToken ∧ (x = b ∨ x = i.backstop)
  | .emitter _ .cancelSwap => ∃ i s, w.emitter.inst = some i ∧ w.emitter.swap = some s ∧ t = i.backstopToken ∧
      (x = s.newBackstop ∨ x = i.backstop)
  | .emitter _ .swapBackstop => ∃ i s, w.emitter.inst = some i ∧ w.emitter.swap = some s ∧ t = i.backstopToken ∧
      (x = s.newBackstop ∨ x = i.backstop)
  | _ => False

/-- The operations of the list succeed one after the other, each in a state and for an operation
that `Q` allows. -/
inductive Played (Q : World → Op → Prop) : World → List Op → World → Prop
  | nil (w : World) : Played Q w [] w
  | cons {w w1 w2 : World} {op : Op} {l : List Op} (q : Q w op) (h : step w op = .ok w1) (t : Played Q w1 l w2) : Played Q w (op :: l) w2

end Blend.Spec
