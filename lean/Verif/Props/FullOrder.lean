import Verif.Lemmas.LiveFullOrder
import Verif.Props.InOrder
import Verif.Examples.InterestDemo
/-
  C62: exactly the submits that are in order go through, for all ten kinds of requests.
-/

namespace Blend
namespace Props
open Spec Pool Demo

variable {w : World} {p : Address} {auth : List Address} {sender spender dst : Address} {i : PoolInst} {reqs : List Request} {B : Books}

/-- **C62** A submit of any requests that went through was in order and covered, and the world it left behind is the one that
the plan of its requests says: the positions of everybody, the auctions, the backstop's tokens and interest, all balances. -/
theorem C62_only_if {w' : World} (hr : Reachable w) (hs : step w (.pool p auth (.submit sender spender dst reqs)) = .ok w')
    (hi : (w.pools p).inst = some i) (hpr : PricesOk w (w.pools p)) :
    ∃ B, InOrder w p i sender reqs B ∧ FullyCovered p sender spender B ∧ Outcome w' p sender spender dst B :=
  inOrder_of_ok hr hs hi hpr

/-- **C62** The requests of a submit lead to one outcome only. -/
theorem C62_determined {B' : Books} (hr : Reachable w) (hp : w.poolAddr p = true) (h : InOrder w p i sender reqs B)
    (h' : InOrder w p i sender reqs B') : B = B' :=
  h.plan.unique (hr.ratesPos hp) h'.plan

/-- **C62** Conversely, a submit that is in order and covered is accepted, with that outcome, unless an amount overflows:
there is no other reason for which it could fail. -/
theorem C62_accepted (hr : Reachable w) (hp : w.poolAddr p = true) (hcall : Caller w p auth sender spender dst)
    (hi : (w.pools p).inst = some i) (hpr : PricesOk w (w.pools p)) (ho : InOrder w p i sender reqs B) (hc : FullyCovered p sender spender B) :
    step w (.pool p auth (.submit sender spender dst reqs)) = .error .overflow ∨
    ∃ w', step w (.pool p auth (.submit sender spender dst reqs)) = .ok w' ∧ Outcome w' p sender spender dst B := by
  cases hs : step w (.pool p auth (.submit sender spender dst reqs)) with
  | error e =>
    refine .inl ?_
    have := inOrder_live (E := Unexpected False) hr hp unexpected_overflow hcall hi (fun _ => hpr) ho (fun _ => hc.paid) (fun _ => hc.out)
    rcases of_unexpected this hs with h | ⟨_, h⟩
    · rw [h]
    · exact h.elim
  | ok w' =>
    obtain ⟨B', h1, _, h3⟩ := C62_only_if hr hs hi hpr
    have := C62_determined hr hp ho h1
    subst this
    exact .inr ⟨w', rfl, h3⟩

/-- **C62** A submit that is in order and not covered fails for lack of tokens (or because an amount overflows). -/
theorem C62_uncovered (hr : Reachable w) (hp : w.poolAddr p = true) (hcall : Caller w p auth sender spender dst)
    (hi : (w.pools p).inst = some i) (hpr : PricesOk w (w.pools p)) (ho : InOrder w p i sender reqs B) (hc : ¬ FullyCovered p sender spender B) :
    step w (.pool p auth (.submit sender spender dst reqs)) = .error .overflow ∨
    step w (.pool p auth (.submit sender spender dst reqs)) = .error .token := by
  cases hs : step w (.pool p auth (.submit sender spender dst reqs)) with
  | error e =>
    have := inOrder_live (E := Unexpected True) hr hp unexpected_overflow hcall hi (fun _ => hpr) ho
      (fun hE => (unexpected_token hE trivial).elim) (fun hE => (unexpected_token hE trivial).elim)
    rcases of_unexpected this hs with h | ⟨h, _⟩
    · rw [h]; exact .inl rfl
    · rw [h]; exact .inr rfl
  | ok w' =>
    obtain ⟨B', h1, h2, _⟩ := C62_only_if hr hs hi hpr
    have := C62_determined hr hp ho h1
    subst this
    exact (hc h2).elim

/-- **C62** A submit that is not in order is refused. -/
theorem C62_refused (hr : Reachable w) (hi : (w.pools p).inst = some i) (hpr : PricesOk w (w.pools p))
    (ho : ∀ B, ¬ InOrder w p i sender reqs B) : ∃ e, step w (.pool p auth (.submit sender spender dst reqs)) = .error e := by
  cases hs : step w (.pool p auth (.submit sender spender dst reqs)) with
  | error e => exact ⟨e, rfl⟩
  | ok w' =>
    obtain ⟨B', h1, _⟩ := C62_only_if hr hs hi hpr
    exact (ho B' h1).elim

/-- dave supplies collateral and takes over a half of bob's liquidation, then repays a part of the debt he got -/
def davesRequests : List Request := [⟨2, usdcA, 100000000000⟩, ⟨6, bob, 50⟩, ⟨5, usdcA, 100000000⟩]

/-- non-vacuity: there is a reachable world in which a submit with a liquidation is in order and covered, and goes through;
paid for by somebody without tokens it is in order and not covered, and it fails -/
example : ∃ w i B, Reachable w ∧ w.poolAddr poolA = true ∧ (w.pools poolA).inst = some i ∧ PricesOk w (w.pools poolA) ∧
    Caller w poolA [dave] dave dave dave ∧ InOrder w poolA i dave davesRequests B ∧ FullyCovered poolA dave dave B ∧
    (∃ k, (B.acct dave).debt k ≠ 0) ∧ (∃ w', step w (.pool poolA [dave] (.submit dave dave dave davesRequests)) = .ok w') ∧
    Caller w poolA [dave, 77] dave 77 dave ∧ ¬ FullyCovered poolA dave 77 B ∧
    step w (.pool poolA [dave, 77] (.submit dave 77 dave davesRequests)) = .error .token := by
  obtain ⟨w, w', _, hr, hs, h⟩ := Demo.reach_step (ops := setup ++ trade ++ emissions ++ liquidation.take 3 ++ [prices 1713151100 10000000 800000])
    (op := .pool poolA [dave] (.submit dave dave dave davesRequests))
    (f := fun w w' => pricesOk w (w.pools poolA) && decide ((accountOf (w'.pools poolA) dave).debt 0 ≠ 0) && w.poolAddr poolA &&
      (w.pools poolA).inst.isSome && errIs (step w (.pool poolA [dave, 77] (.submit dave 77 dave davesRequests))) .token &&
      decide (∀ x ∈ [dave, 77], ¬ w.isProtocol x)) (by decide +kernel)
  simp only [Bool.and_eq_true, decide_eq_true_eq] at h
  obtain ⟨⟨⟨⟨⟨h1, h2⟩, h3⟩, h4⟩, h5⟩, h6⟩ := h
  obtain ⟨i, hi⟩ := Option.isSome_iff_exists.1 h4
  have h5 := errIs_iff.1 h5
  obtain ⟨B, o, c, hout⟩ := C62_only_if hr hs hi (pricesOk_iff h1)
  have c1 : Caller w poolA [dave] dave dave dave := ⟨fun x hx => h6 x (by simp_all), by simp, by simp, by decide, by decide, by decide⟩
  have c2 : Caller w poolA [dave, 77] dave 77 dave := ⟨h6, by simp, by simp, by decide, by decide, by decide⟩
  refine ⟨w, i, B, hr, h3, hi, pricesOk_iff h1, c1, o, c, ⟨0, ?_⟩, ⟨w', hs⟩, c2, fun hc => ?_, h5⟩
  · rw [← (hout.positions dave 0).2.2]; exact h2
  · rcases C62_accepted hr h3 c2 hi (pricesOk_iff h1) o hc with h | ⟨_, h, _⟩
    · rw [h5] at h; cases h
    · rw [h5] at h; cases h

/-- non-vacuity of the refusal: without collateral dave's fill leaves him unhealthy, so that nothing makes it in order -/
example : ∃ w i, Reachable w ∧ (w.pools poolA).inst = some i ∧ PricesOk w (w.pools poolA) ∧
    (w.pools poolA).auctions 0 bob ≠ none ∧ ∀ B, ¬ InOrder w poolA i dave [⟨6, bob, 50⟩, ⟨4, usdcA, 100000000⟩] B := by
  obtain ⟨w, _, hr, h⟩ := Demo.reach (ops := setup ++ trade ++ emissions ++ liquidation.take 3 ++ [prices 1713151100 10000000 800000])
    (f := fun w => pricesOk w (w.pools poolA) && w.poolAddr poolA && ((w.pools poolA).auctions 0 bob).isSome &&
      (w.pools poolA).inst.isSome && errIs (step w (.pool poolA [dave] (.submit dave dave dave [⟨6, bob, 50⟩, ⟨4, usdcA, 100000000⟩]))) (.pool .invalidHf) &&
      decide (∀ x ∈ [dave], ¬ w.isProtocol x)) (by decide +kernel)
  simp only [Bool.and_eq_true, decide_eq_true_eq] at h
  obtain ⟨⟨⟨⟨⟨h1, h2⟩, h3⟩, h4⟩, h5⟩, h6⟩ := h
  obtain ⟨i, hi⟩ := Option.isSome_iff_exists.1 h4
  have h5 := errIs_iff.1 h5
  obtain ⟨a, ha⟩ := Option.isSome_iff_exists.1 h3
  refine ⟨w, i, hr, hi, pricesOk_iff h1, by rw [ha]; simp, fun B o => ?_⟩
  have c1 : Caller w poolA [dave] dave dave dave := ⟨h6, by simp, by simp, by decide, by decide, by decide⟩
  by_cases hc : FullyCovered poolA dave dave B
  · rcases C62_accepted hr h2 c1 hi (pricesOk_iff h1) o hc with h | ⟨_, h, _⟩ <;> rw [h5] at h <;> cases h
  · rcases C62_uncovered hr h2 c1 hi (pricesOk_iff h1) o hc with h | h <;> rw [h5] at h <;> cases h

/-- non-vacuity: the fill of a bad debt auction, in order and covered -/
example : ∃ w i B, Reachable w ∧ w.poolAddr poolA = true ∧ (w.pools poolA).inst = some i ∧ PricesOk w (w.pools poolA) ∧
    Caller w poolA [dave] dave dave dave ∧ InOrder w poolA i dave [⟨7, backstopA, 100⟩] B ∧ FullyCovered poolA dave dave B ∧
    B.lp < (w.backstop.getPoolBal poolA).tokens := by
  obtain ⟨w, w', _, hr, hs, h⟩ := Demo.reach_step (ops := setup ++ trade ++ emissions ++ claims ++ liquidation ++ queue ++ crash ++ badDebt.take 3 ++ [prices 1714967700 10000000 100000])
    (op := .pool poolA [dave] (.submit dave dave dave [⟨7, backstopA, 100⟩]))
    (f := fun w w' => pricesOk w (w.pools poolA) && decide ((w'.backstop.getPoolBal poolA).tokens < (w.backstop.getPoolBal poolA).tokens) && w.poolAddr poolA &&
      (w.pools poolA).inst.isSome && decide (∀ x ∈ [dave], ¬ w.isProtocol x)) (by decide +kernel)
  simp only [Bool.and_eq_true, decide_eq_true_eq] at h
  obtain ⟨⟨⟨⟨h1, h2⟩, h3⟩, h4⟩, h6⟩ := h
  obtain ⟨i, hi⟩ := Option.isSome_iff_exists.1 h4
  obtain ⟨B, o, c, hout⟩ := C62_only_if hr hs hi (pricesOk_iff h1)
  refine ⟨w, i, B, hr, h3, hi, pricesOk_iff h1, ⟨h6, by simp, by simp, by decide, by decide, by decide⟩, o, c, ?_⟩
  rw [← hout.lp]; exact h2

/-- non-vacuity: the fill of an interest auction, in order and covered -/
example : ∃ w i B, Reachable w ∧ w.poolAddr poolA = true ∧ (w.pools poolA).inst = some i ∧ PricesOk w (w.pools poolA) ∧
    InOrder w poolA i carol [⟨8, backstopA, 50⟩] B ∧ FullyCovered poolA carol carol B ∧ (w.backstop.getPoolBal poolA).tokens < B.lp := by
  obtain ⟨w, w', _, hr, hs, h⟩ := Demo.reach_step (ops := setup ++ trade ++ interest ++ [.ledger 1000 200, prices 2113139900 10000000 1000000])
    (op := .pool poolA [carol] (.submit carol carol carol [⟨8, backstopA, 50⟩]))
    (f := fun w w' => pricesOk w (w.pools poolA) && decide ((w.backstop.getPoolBal poolA).tokens < (w'.backstop.getPoolBal poolA).tokens) && w.poolAddr poolA &&
      (w.pools poolA).inst.isSome) (by decide +kernel)
  simp only [Bool.and_eq_true, decide_eq_true_eq] at h
  obtain ⟨⟨⟨h1, h2⟩, h3⟩, h4⟩ := h
  obtain ⟨i, hi⟩ := Option.isSome_iff_exists.1 h4
  obtain ⟨B, o, c, hout⟩ := C62_only_if hr hs hi (pricesOk_iff h1)
  refine ⟨w, i, B, hr, h3, hi, pricesOk_iff h1, o, c, ?_⟩
  rw [← hout.lp]; exact h2

end Props
end Blend
