import Verif.Spec.Follow
/-
  Specification of what the events say about the tokens of a pool (C77).
-/

namespace Blend
namespace Spec

/-- The tokens `a` that go into the pool `p` (or, if negative, out of it) by the words of an event, for an observer with the
notes `F`: what is supplied and repaid goes in, what is withdrawn and borrowed goes out, and the filler of an interest auction
(type 2) gets the part of the lot that is due. -/
def PoolNotes.inflow (p : Address) (F : PoolNotes) (e : Nat × Event) (a : Address) : Int :=
  match e.2 with
  | .supply q x _ n _ => if q = p ∧ x = a then n else 0
  | .supplyCollateral q x _ n _ => if q = p ∧ x = a then n else 0
  | .repay q x _ n _ => if q = p ∧ x = a then n else 0
  | .withdraw q x _ n _ => if q = p ∧ x = a then -n else 0
  | .withdrawCollateral q x _ n _ => if q = p ∧ x = a then -n else 0
  | .borrow q x _ n _ => if q = p ∧ x = a then -n else 0
  | .fillAuction q u t _ n =>
    if q = p ∧ t = 2 then -(max 0 (F.lot 2 u a) * (n.toNat % 2 ^ 64 : Nat) / 100 * lotDue (e.1 - F.start 2 u) / 200) else 0
  | _ => 0

/-- what a list of events puts into the pool `p` with backstop `b`, for an observer that starts with the notes `F` -/
def PoolNotes.inflows (p b : Address) : PoolNotes → List (Nat × Event) → Address → Int
  | _, [], _ => 0
  | F, e :: l, a => F.inflow p e a + (F.see p b e).inflows p b l a

/-- the operation sends tokens to `p` by itself: a plain transfer, a new issue, a claim or a submit to another pool whose tokens
go to `p`, a draw for `p` -/
def Gives (p : Address) : Op → Prop
  | .tokenTransfer _ _ dst _ => dst = p
  | .tokenMint _ dst _ => dst = p
  | .pool _ _ (.submit _ _ dst _) => dst = p
  | .pool _ _ (.claim _ _ dst) => dst = p
  | .backstop _ (.draw _ _ dst) => dst = p
  | _ => False

/-- `a` is the BLND token, for the emitter or for the backstop -/
def IsBlnd (w : World) (a : Address) : Prop :=
  (∃ e, w.emitter.inst = some e ∧ e.blnd = a) ∨ ∃ i, w.backstop.inst = some i ∧ i.blnd = a

end Spec
end Blend
