import Verif.Model.System
/-
  The specification vocabulary: small definitions in terms of which the properties are stated. They do
  not use the helper functions of the model, only its data types.
-/

namespace Blend
namespace Spec

/-- one unit with 7 decimals -/
abbrev ONE7 : Int := 10000000
/-- one unit with 9 decimals -/
abbrev ONE9 : Int := 1000000000

/-- `v` is `x / y` rounded down -/
def IsFloor (v x y : Int) : Prop := v * y ≤ x ∧ x < (v + 1) * y
/-- `v` is `x / y` rounded up -/
def IsCeil (v x y : Int) : Prop := (v - 1) * y < x ∧ x ≤ v * y

/-- The documented bounds on a reserve's parameters (`pool/src/pool/config.rs` 168-182 and the doc
comments of `ReserveConfig`, `pool/src/storage.rs` 42-56). -/
structure ValidConfig (c : ReserveConfig) : Prop where
  decimals : c.decimals ≤ 18
  cFactor : c.cFactor ≤ 10000000
  lFactor : c.lFactor ≤ 10000000
  util : c.util ≤ 9500000
  maxUtil : c.maxUtil ≤ 10000000
  util_lt : c.util < c.maxUtil
  rBase_lo : 1000 ≤ c.rBase
  rBase_hi : c.rBase < 10000000
  r12 : c.rOne ≤ c.rTwo
  r23 : c.rTwo ≤ c.rThree
  reactivity : c.reactivity ≤ 1000

/-- The whole BLND and USDC tokens behind a pool's backstop deposit, at the stored value of an LP token. -/
def Underlying (w : World) (p : Address) (blnd usdc : Int) : Prop :=
  ∃ vb vu b u, w.backstop.lpVal = some (vb, vu) ∧
    IsFloor b ((w.backstop.getPoolBal p).tokens * vb) ONE7 ∧ IsFloor u ((w.backstop.getPoolBal p).tokens * vu) ONE7 ∧
    IsFloor blnd b ONE7 ∧ IsFloor usdc u ONE7

/-- The backstop of pool `p` reaches the fraction `n / d` of the minimum size: its product constant
`blnd⁴ * usdc` is at least `n / d * 200000⁵`. The documented minimum is `n / d = 1`. -/
def BackstopAtLeast (w : World) (p : Address) (n d : Int) : Prop :=
  ∃ blnd usdc, Underlying w p blnd usdc ∧ n * 200000 ^ 5 ≤ d * (blnd ^ 4 * usdc)

/-- a history all of whose operations satisfy `P` -/
inductive History (P : Op → Prop) : World → World → Prop
  | refl (w) : History P w w
  | tail {w w' w'' op} : History P w w' → P op → step w' op = .ok w'' → History P w w''

end Spec
end Blend
