import Verif.Props.RewardZone
import Verif.Lemmas.BFrame
import Verif.Props.Returns
import Verif.Spec.Valuation
import Verif.Examples.InterestDemo
/-
  C93: the value of the backstop's tokens is that of the last refresh, and anybody can refresh at any moment.
-/

namespace Blend
namespace Props
open Spec

variable {w w' : World}

/-- **C93** A refresh needs nobody's signature, and records what Comet holds per LP token at that moment. -/
theorem C93_refresh (hr : Reachable w) {auth : List Address} (h : step w (.backstop auth .updateTknVal) = .ok w') :
    (∃ blnd usdc, HoldsPerToken w blnd usdc ∧ w'.backstop.lpVal = some (blnd, usdc)) ∧
    step w (.backstop [] .updateTknVal) = .ok w' := by
  simp only [step, bind_ok, require_ok] at h
  obtain ⟨_, ha, h⟩ := h
  have h0 := h
  simp only [backstopCall, Backstop.updateTknVal, Backstop.inst, bind_ok, pure_ok, unwrap_ok] at h
  obtain ⟨i, hi, b, hb, u, hu, rfl⟩ := h
  have hc : 0 < w.cometShares := by
    have h0 := hr.lpOk.shares
    obtain ⟨_, hz, _⟩ := mulDivFloor_ok.1 hb
    omega
  have h1 := mulDivFloor_spec hb hc
  have h2 := mulDivFloor_spec hu hc
  simp only [SCALAR_7] at h1 h2
  refine ⟨⟨b, u, ⟨i, hi, hc, ⟨h1.1, by linarith [h1.2]⟩, ⟨h2.1, by linarith [h2.2]⟩⟩, rfl⟩, ?_⟩
  simp only [step, bind_ok, require_ok]
  exact ⟨(), by simp, by simpa [backstopCall] using h0⟩

/-- **C93** Nothing but a refresh changes the recorded value. -/
theorem C93_only_refresh (hr : Reachable w) {op : Op} (h : step w op = .ok w') (hn : ¬ Refresh op) :
    w'.backstop.lpVal = w.backstop.lpVal := by
  rcases Backstop.step_other h with ⟨p, auth, c, rfl, e⟩ | ⟨auth, c, rfl, hc⟩ | e | e
  · exact e.lpVal
  · cases Backstop.call_cases hr.ball.inv hc with
    | @deposit s p a m r =>
      obtain ⟨x, b1, i, w2, hu, _, _, hw⟩ := r.ex
      have hw := congrArg World.backstop hw
      have hs := Backstop.emis_same hu
      unfold Backstop.SameBals at hs
      rw [hw]; show b1.lpVal = _; rw [hs]
    | @queue s p a r =>
      obtain ⟨x, b1, hu, hw⟩ := r.ex
      have hw := congrArg World.backstop hw
      have hs := Backstop.emis_same hu
      unfold Backstop.SameBals at hs
      rw [hw]; show b1.lpVal = _; rw [hs]
    | @dequeue s p a r =>
      obtain ⟨x, b1, q', hu, hd, hw⟩ := r.ex
      have hw := congrArg World.backstop hw
      have hs := Backstop.emis_same hu
      unfold Backstop.SameBals at hs
      rw [hw]; show b1.lpVal = _; rw [hs]
    | @withdraw s p a tk r =>
      obtain ⟨q', i, hi, hd, hw, _⟩ := r.ex
      rw [hw]; rfl
    | @claim s ps d r =>
      obtain ⟨b1, hb1, cr⟩ := r.ex
      rw [cr.frame]; show b1.lpVal = _; rw [hb1]
    | @draw p a d hp r =>
      obtain ⟨i, hi, t⟩ := r.ex
      have hw := congrArg World.backstop t.frame
      rw [hw]; rfl
    | @donate s p a hs hp r =>
      obtain ⟨i, w1, hi, t, hw⟩ := r.ex
      have hw := congrArg World.backstop hw
      rw [hw]; rfl
    | @reward a r' r =>
      obtain ⟨_, _, r⟩ := r
      rcases r with ⟨_, e⟩ | ⟨_, _, _, _, e⟩ <;> rw [e] <;> rfl
    | gulp hne hb hq' => rw [hb]
    | init hn hb => rw [hb]
    | @gulpPool p hp hb => rw [hb]
    | lpVal hb => exact absurd ⟨auth, rfl⟩ hn
    | drop hb => rw [hb]
  · rw [e]
  · rw [e]
/-- a history goes through reachable worlds -/
theorem history_reach {P : Op → Prop} (h : History P w w') (hr : Reachable w) : Reachable w' := by
  induction h with
  | refl => exact hr
  | tail _ _ hs ih => exact ih.step hs

/-- **C93** What is recorded in any reachable world is what Comet held per LP token at the moment of the last refresh, whatever has
happened since. -/
theorem C93_last_refresh (hr : Reachable w) {blnd usdc : Int} (h : w.backstop.lpVal = some (blnd, usdc)) :
    ∃ w1 w2, Reachable w1 ∧ HoldsPerToken w1 blnd usdc ∧ step w1 (.backstop [] .updateTknVal) = .ok w2 ∧
      History (fun op => ¬ Refresh op) w2 w := by
  obtain ⟨w0, hg, st⟩ := hr
  induction st with
  | refl => rw [hg.backstop] at h; cases h
  | @tail w1 w2 st hs ih =>
    obtain ⟨op, hs⟩ := hs
    have hr1 : Reachable w1 := ⟨w0, hg, st⟩
    by_cases hn : Refresh op
    · obtain ⟨auth, rfl⟩ := hn
      obtain ⟨⟨b, u, hh, hv⟩, hs'⟩ := C93_refresh hr1 hs
      rw [hv] at h; cases h
      exact ⟨w1, w2, hr1, hh, hs', .refl _⟩
    · rw [C93_only_refresh hr1 hs hn] at h
      obtain ⟨v1, v2, h1, h2, h3, h4⟩ := ih h
      exact ⟨v1, v2, h1, h2, h3, .tail h4 hn hs⟩

open Demo in
/-- the moment at which the interest auction of `Demo.interest` is created -/
def dueInterest : List Op := setup ++ trade ++ [.ledger 400000000 1000000, prices 2113138900 10000000 1000000,
  .tokenMint usdcA dave 1000000000000]

open Demo in
/-- dave swaps USDC for BLND at Comet (the amounts are those of a pool with the weights 80:20), refreshes the value, creates the
auction and swaps back, all in one ledger -/
def swapAround : List Op := [
  .tokenTransfer usdcA dave lpA 1000000000000,
  .tokenTransfer blndA lpA dave 1591000000000,
  .backstop [] .updateTknVal,
  .pool poolA [] (.newInterest [usdcA, xlmA]),
  .tokenTransfer blndA dave lpA 1591000000000,
  .tokenTransfer usdcA lpA dave 994000000000,
  .backstop [] .updateTknVal]

open Demo in
/-- **C93**, the other side of it: the value is the one of a moment, so who trades with Comet just before the refresh chooses it. By a
swap and a swap back dave has the same interest auctioned for half of the backstop tokens; afterwards the recorded value is
(nearly) the old one. -/
theorem C93_spot_value : ∃ w w1 w2 a b x y v v', Reachable w ∧ step w (.pool poolA [] (.newInterest [usdcA, xlmA])) = .ok w1 ∧
    Steps w w2 ∧ w2.time = w.time ∧ w2.seq = w.seq ∧
    (w1.pools poolA).auctions 2 backstopA = some a ∧ (w2.pools poolA).auctions 2 backstopA = some b ∧
    a.lot.toList = b.lot.toList ∧ a.bid.get lpA = some x ∧ b.bid.get lpA = some y ∧ 0 < x ∧ 2 * y ≤ x + 2 ∧
    w.backstop.lpVal = some v ∧ w2.backstop.lpVal = some v' ∧ v.1 = v'.1 ∧ v.2 ≤ v'.2 := by
  have h : okAnd (Demo.run genesis dueInterest) (fun w =>
      okAnd (step w (.pool poolA [] (.newInterest [usdcA, xlmA]))) fun w1 => okAnd (Demo.run w swapAround) fun w2 =>
      optAnd ((w1.pools poolA).auctions 2 backstopA) fun a => optAnd ((w2.pools poolA).auctions 2 backstopA) fun b =>
      optAnd (a.bid.get lpA) fun x => optAnd (b.bid.get lpA) fun y => optAnd w.backstop.lpVal fun v =>
      optAnd w2.backstop.lpVal fun v' =>
      decide (w2.time = w.time ∧ w2.seq = w.seq ∧ a.lot.toList = b.lot.toList ∧ 0 < x ∧ 2 * y ≤ x + 2 ∧ v.1 = v'.1 ∧ v.2 ≤ v'.2)) = true := by
    decide +kernel
  obtain ⟨w, _, hr, h⟩ := Demo.reach h
  obtain ⟨w1, hw1, h⟩ := okAnd_iff.1 h
  obtain ⟨w2, hw2, h⟩ := okAnd_iff.1 h
  obtain ⟨a, ha, h⟩ := optAnd_iff.1 h
  obtain ⟨b, hb, h⟩ := optAnd_iff.1 h
  obtain ⟨x, hx, h⟩ := optAnd_iff.1 h
  obtain ⟨y, hy, h⟩ := optAnd_iff.1 h
  obtain ⟨v, hv, h⟩ := optAnd_iff.1 h
  obtain ⟨v', hv', h⟩ := optAnd_iff.1 h
  obtain ⟨e1, e2, e3, e4, e5, e6, e7⟩ := of_decide_eq_true h
  exact ⟨w, w1, w2, a, b, x, y, v, v', hr, hw1, run_steps hw2, e1, e2, ha, hb, e3, hx, hy, e4, e5, hv, hv', e6, e7⟩

open Demo in
/-- the hypotheses are met: after the demo's history, with many calls after the refresh, a value is recorded -/
example : ∃ w v, Reachable w ∧ w.backstop.lpVal = some v ∧ 0 < v.1 ∧ 0 < v.2 := by
  have h : okAnd (Demo.run genesis (setup ++ trade ++ emissions)) (fun w => optAnd w.backstop.lpVal fun v => decide (0 < v.1 ∧ 0 < v.2)) = true := by
    decide +kernel
  obtain ⟨w, _, hr, h⟩ := Demo.reach h
  obtain ⟨v, hv, h⟩ := optAnd_iff.1 h
  exact ⟨w, v, hr, hv, of_decide_eq_true h⟩

end Props
end Blend
