import Verif.Spec.Gift
/-
  Specification for C87: two states that differ in another pool only. Nothing here refers to the functions of the model other
  than `step`.
-/

namespace Blend.Spec

/-- `g` is the state `w` with something else in the pool `q`: other positions, reserves, auctions, parameters, status, anything. -/
structure OtherPool (q : Address) (w g : World) : Prop where
  pools : ∀ p, p ≠ q → g.pools p = w.pools p
  rest : g = { w with pools := g.pools }

/-- The operation is a call of the pool `q`, its deployment, or an entry of its storage expires. -/
def CallsPool (w : World) (q : Address) : Op → Prop
  | .pool p _ _ => p = q
  | .factory _ (.deploy a s _ _ _) => w.deployAddr a s = q
  | .expireAuction p _ _ => p = q
  | .expireQueued p _ => p = q
  | _ => False

end Blend.Spec
