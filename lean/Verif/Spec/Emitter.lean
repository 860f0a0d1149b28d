import Verif.Spec
/-
  Vocabulary of the emitter's properties (C39, C40, C41).
-/

namespace Blend
namespace Spec

/-- the tokens an operation asks the emitter to drop -/
def dropTotal (w : World) : Op → Int
  | .emitter _ (.drop l) => (l.map (·.2)).sum
  | .backstop _ .drop => ((w.backstop.dropList.getD []).map (·.2)).sum
  | _ => 0

/-- `DropHistory w w' D`: a history from `w` to `w'` in which drops of `D` tokens in total succeeded -/
inductive DropHistory : World → World → Int → Prop
  | refl (w) : DropHistory w w 0
  | tail {w w' w'' op D} : DropHistory w w' D → step w' op = .ok w'' → DropHistory w w'' (D + dropTotal w' op)

/-- BLND ever minted -/
def minted (w : World) (blnd : Address) : Int := (w.tok blnd).minted

/-- the operation is a drop of the list `l` -/
def IsDrop (w : World) (op : Op) (l : List (Address × Int)) : Prop :=
  (∃ auth, op = .emitter auth (.drop l)) ∨ ∃ auth, op = .backstop auth .drop ∧ w.backstop.dropList = some l

/-- what a list of payments gives to `x` -/
def paidTo (l : List (Address × Int)) (x : Address) : Int := ((l.filter (·.1 = x)).map (·.2)).sum

/-- the operation does not end a queued swap -/
def KeepsSwap (op : Op) : Prop := ∀ auth, op ≠ .emitter auth .cancelSwap ∧ op ≠ .emitter auth .swapBackstop

end Spec

end Blend
