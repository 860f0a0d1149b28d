import Verif.Spec.Emitter
import Verif.Model.Views
import Mathlib.Algebra.BigOperators.Group.Finset.Basic
import Mathlib.Algebra.BigOperators.Ring.Finset
/-
  Specification of the supply of a token (C79).
-/

namespace Blend
namespace Spec

/-- Between `w` and `w'` the number of tokens `t` in all hands grows by `n` (shrinks, if negative): only finitely many balances
change, and the changes add up to `n`. -/
def Issued (w w' : World) (t : Address) (n : Int) : Prop :=
  ∃ S : Finset Address, (∀ a, a ∉ S → w'.balance t a = w.balance t a) ∧ ∑ a ∈ S, (w'.balance t a - w.balance t a) = n

/-- What an operation that takes `w` to `w'` may create of the token `t`: what its issuer mints, less what holders burn; of BLND one
token for every second since the last distribution, and the drop; of the LP token what Comet gives for the BLND
of a backstop claim. Nothing else creates or destroys tokens. -/
def Created (w w' : World) (t : Address) (n : Int) (op : Op) : Prop :=
  match op with
  | .tokenMint t' _ k => n = if t' = t then k else 0
  | .tokenBurn t' _ k => n = if t' = t then -k else 0
  | .emitter _ .distribute => ∃ i last, w.emitter.inst = some i ∧ w.emitter.lastDistro i.backstop = some last ∧ last ≤ w.time ∧
      n = if i.blnd = t then ((w.time : Int) - last) * ONE7 else 0
  | .emitter _ .swapBackstop => ∃ i last, w.emitter.inst = some i ∧ w.emitter.lastDistro i.backstop = some last ∧ last ≤ w.time ∧
      n = if i.blnd = t then ((w.time : Int) - last) * ONE7 else 0
  | .emitter _ (.drop l) => ∃ i, w.emitter.inst = some i ∧ n = if i.blnd = t then (l.map (·.2)).sum else 0
  | .backstop _ .drop => ∃ i l, w.emitter.inst = some i ∧ w.backstop.dropList = some l ∧
      n = if i.blnd = t then (l.map (·.2)).sum else 0
  | .backstop auth (.claim s ps d) => ∃ amount, exec w (.backstop auth (.claim s ps d)) = .ok (.int amount, w') ∧
      (amount ≤ 0 → n = 0) ∧
      (0 < amount → ∃ i, w.backstop.inst = some i ∧ n = if i.backstopToken = t then w.cometOut amount else 0)
  | _ => n = 0

/-- a history in which `n` tokens `t` are created -/
inductive Supply (t : Address) : World → World → Int → Prop
  | refl (w) : Supply t w w 0
  | tail {w w' w'' op n k} : Supply t w w' n → step w' op = .ok w'' → Created w' w'' t k op → Supply t w w'' (n + k)

end Spec
end Blend
