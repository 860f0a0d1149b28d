import Verif.Spec.Health
import Verif.Examples.Demo
/-
  Executable checks used by the examples of the health properties.
-/

namespace Blend
namespace Demo
open Spec

/-- the pool's oracle reports no negative price for its reserves -/
def pricesOk (w : World) (ps : PoolState) : Bool :=
  optAnd ps.inst fun i => ps.resList.all fun a =>
    match (w.oracle i.config.oracle).price a with
    | some (x, _) => decide (0 ≤ x)
    | none => true

theorem pricesOk_iff {w : World} {ps : PoolState} (h : pricesOk w ps = true) : PricesOk w ps := by
  obtain ⟨i, hi, h⟩ := optAnd_iff.1 h
  intro j a x ts hj ha hx
  rw [hi] at hj; cases hj
  have := List.all_eq_true.1 h a ha
  rw [hx] at this
  exact of_decide_eq_true this

/-- an oracle with `n` decimals and the prices `u` of USDC and `x` of XLM at time `t` -/
def oracleWith (n t : Nat) (u x : Int) : Op :=
  .oracles (fun _ => { decimals := n, price := fun a =>
    if a = usdcA then some (u, t) else if a = xlmA then some (x, t) else none })

end Demo
end Blend
