import Verif.Lemmas.BadDebtView
import Verif.Props.Auctions
/-
  C21: bad debt.
-/

namespace Blend
namespace Props
open Spec Pool Demo

/-- **C21**: a transfer of the bad debt of `u` succeeds only if `u` is not the backstop, has no collateral and has debt. It moves
exactly the debt of `u` to the backstop: all debt of `u` is gone, the backstop has just that much more of each reserve. No other
debt, no supply, no collateral, no token balance and no auction changes, and neither does the total of debt shares and supply
shares of any reserve. -/
theorem C21_transfer {w w' : World} (hr : Reachable w) {p u : Address} {auth : List Address}
    (h : step w (.pool p auth (.badDebt u)) = .ok w') :
    (∀ k, (accountOf (w.pools p) u).collateral k = 0) ∧ (∃ k, 0 < (accountOf (w.pools p) u).debt k) ∧
    (∀ k, (accountOf (w'.pools p) u).debt k = 0) ∧
    (∃ i, (w.pools p).inst = some i ∧ u ≠ i.backstop ∧
      (∀ k, (accountOf (w'.pools p) i.backstop).debt k =
        (accountOf (w.pools p) i.backstop).debt k + (accountOf (w.pools p) u).debt k) ∧
      ∀ x, x ≠ u → x ≠ i.backstop → ∀ k, (accountOf (w'.pools p) x).debt k = (accountOf (w.pools p) x).debt k) ∧
    (∀ x k, (accountOf (w'.pools p) x).supplied k = (accountOf (w.pools p) x).supplied k ∧
      (accountOf (w'.pools p) x).collateral k = (accountOf (w.pools p) x).collateral k) ∧
    (∀ a d, (w.pools p).resData a = some d →
      ∃ d', (w'.pools p).resData a = some d' ∧ d'.dSupply = d.dSupply ∧ d'.bSupply = d.bSupply) ∧
    (w'.pools p).auctions = (w.pools p).auctions ∧ ∀ t x, w'.balance t x = w.balance t x := by
  simp only [step, bind_ok, require_ok, call] at h
  obtain ⟨_, hp, _, _, h⟩ := h
  have m := badDebt_moved (hr.base.cfg p) (hr.pinv hp) h
  refine ⟨m.collateral, m.debt, m.debt', m.inst, m.other, fun a d hd => ?_, m.auctions, m.balance⟩
  rcases m.data a with e | ⟨d', e, c, d0, i, _, hd0, _, hac⟩
  · exact ⟨d, by rw [e, hd], rfl, rfl⟩
  · rw [hd] at hd0
    cases hd0
    obtain ⟨e1, e2⟩ := accrue_supplies hac
    exact ⟨d', e, e2, e1⟩

/-- non-vacuity: bob's bad debt is moved to the backstop -/
example : ∃ w w', Reachable w ∧ step w (.pool poolA [] (.badDebt bob)) = .ok w' := by
  obtain ⟨w, w', _, hr, hs, _⟩ := Demo.reach_step
    (ops := setup ++ trade ++ emissions ++ claims ++ liquidation ++ queue ++ crash) (op := .pool poolA [] (.badDebt bob))
    (f := fun _ _ => true) (by decide +kernel)
  exact ⟨w, w', hr, hs⟩

/-- **C21**: if a fill of a bad debt auction takes more debt from the backstop than the filler takes over, the backstop's deposits for
the pool are then worth less than 0.00003 percent of the minimum. -/
theorem C21_write_off {w w' : World} (hr : Reachable w) {p u : Address} {auth : List Address} {sender spender dst : Address}
    {n : Int} (h : step w (.pool p auth (.submit sender spender dst [⟨7, u, n⟩])) = .ok w') {i : PoolInst}
    (hi : (w.pools p).inst = some i) {k : Nat}
    (hk : (accountOf (w.pools p) i.backstop).debt k - (accountOf (w'.pools p) i.backstop).debt k ≠
      (accountOf (w'.pools p) sender).debt k - (accountOf (w.pools p) sender).debt k) :
    BackstopLow w (w'.backstop.getPoolBal p).tokens := by
  obtain ⟨a, taken, inst, bi, hi', _, _, _, _, _, _, hs, hb, -⟩ := C16_badDebt_fill hr h
  rw [hi] at hi'
  cases hi'
  rcases hb with hb | ⟨_, hb⟩
  · exfalso
    apply hk
    rw [hb k, hs k]
    omega
  · exact hb

/-- non-vacuity: the backstop tokens lose (almost) all value, dave buys half of the bad debt and the rest is written off -/
example : ∃ w w' i, Reachable w ∧ step w (.pool poolA [dave] (.submit dave dave dave [⟨7, backstopA, 50⟩])) = .ok w' ∧
    (w.pools poolA).inst = some i ∧
    (accountOf (w.pools poolA) i.backstop).debt 0 - (accountOf (w'.pools poolA) i.backstop).debt 0 ≠
      (accountOf (w'.pools poolA) dave).debt 0 - (accountOf (w.pools poolA) dave).debt 0 := by
  obtain ⟨w, w', _, hr, hs, h⟩ := Demo.reach_step
    (ops := setup ++ trade ++ emissions ++ claims ++ liquidation ++ queue ++ crash ++ badDebt.take 1 ++
      [.comet 1000000000000000 (fun x => x / 10), .backstop [] .updateTknVal, .pool poolA [] .newBadDebt, .ledger 1000 201])
    (op := .pool poolA [dave] (.submit dave dave dave [⟨7, backstopA, 50⟩]))
    (f := fun w w' => optAnd (w.pools poolA).inst fun i => decide (
      (accountOf (w.pools poolA) i.backstop).debt 0 - (accountOf (w'.pools poolA) i.backstop).debt 0 ≠
      (accountOf (w'.pools poolA) dave).debt 0 - (accountOf (w.pools poolA) dave).debt 0)) (by decide +kernel)
  obtain ⟨i, hi, h⟩ := optAnd_iff.1 h
  exact ⟨w, w', i, hr, hs, hi, of_decide_eq_true h⟩

end Props
end Blend
