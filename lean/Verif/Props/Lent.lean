import Verif.Props.Leftover
import Verif.Props.Group
/-
  C89: a pool does not lend out more than it has.
-/

namespace Blend.Props
open Pool Spec

theorem played_reach {Q : World → Op → Prop} {l : List Op} {w w' : World} (h : Played Q w l w') (hr : Reachable w) : Reachable w' := by
  induction h with
  | nil => exact hr
  | cons q hs _ ih => exact ih (hr.step hs)

/-- A reserve that began empty: after any history without gifts, what is owed to the pool is at most what its suppliers and the
backstop may claim, up to rounding. -/
theorem C89_lent {p a : Address} {M R : Int} {l : List Op} {w w' : World} (hr : Reachable w) (hp : w.poolAddr p = true)
    (h : Played (Within p a M R) w l w') {d : ReserveData} (hd : (w.pools p).resData a = some d)
    (h0 : d.bSupply = 0 ∧ d.dSupply = 0 ∧ d.backstopCredit = 0 ∧ w.balance a p = 0) :
    ∃ d', (w'.pools p).resData a = some d' ∧ d'.dSupply * d'.dRate ≤ d'.bSupply * d'.bRate + d'.backstopCredit * ONE9
      + (l.map (callsOf p)).sum * (2 * ONE9 + M) + (l.map (requestsOn p a)).sum * R := by
  obtain ⟨d', hd', h1⟩ := C86_history hr hp h hd
  obtain ⟨e1, e2, e3, e4⟩ := h0
  have hr' := played_reach h hr
  have hb := hr'.base.balances a p
  refine ⟨d', hd', ?_⟩
  simp only [leftover, e1, e2, e3, e4] at h1
  have hm : 0 ≤ w'.balance a p * ONE9 := Int.mul_nonneg hb (by decide)
  have hx : (w'.balance a p - d'.backstopCredit) * ONE9 = w'.balance a p * ONE9 - d'.backstopCredit * ONE9 := Int.sub_mul ..
  rw [hx] at h1
  simp only [Int.zero_mul, Int.sub_zero, Int.zero_add] at h1
  omega

/-- the conditions of C89 on the tokens and the reserve -/
def withinOk (p a : Address) (M R : Int) (w : World) : Bool :=
  plainTok w a && Demo.optAnd ((w.pools p).resData a) (fun d => decide (d.bSupply ≤ M)) &&
    Demo.okAnd (currentOf w p a) fun d => decide (d.bRate ≤ R ∧ d.dRate ≤ R)

/-- plays the operations and checks the conditions of C89 on the way -/
def playWithin (p a : Address) (M R : Int) : World → List Op → Blend.R World
  | w, [] => pure w
  | w, op :: l => if withinOk p a M R w then step w op >>= fun w1 => playWithin p a M R w1 l else .error .overflow

theorem playWithin_ok {p a : Address} {M R : Int} {l : List Op} {w w' : World} (hg : ∀ op ∈ l, ¬ Gives p op)
    (h : playWithin p a M R w l = .ok w') : Played (Within p a M R) w l w' := by
  induction l generalizing w with
  | nil => simp only [playWithin] at h; cases h; exact .nil _
  | cons op l ih =>
    unfold playWithin at h
    split at h
    · rename_i hp
      simp only [withinOk, Bool.and_eq_true] at hp
      obtain ⟨⟨h1, h2⟩, h3⟩ := hp
      obtain ⟨d0, hd0, h2⟩ := Demo.optAnd_iff.1 h2
      obtain ⟨dc, hdc, h3⟩ := Demo.okAnd_iff.1 h3
      obtain ⟨w1, h4, h5⟩ := bind_ok.1 h
      refine .cons ⟨hg op List.mem_cons_self, fun hn => plainTok_iff h1 (.inl hn), fun d hd => ?_, fun dA hA => ?_⟩ h4
        (ih (fun o ho => hg o (List.mem_cons_of_mem _ ho)) h5)
      · rw [hd0] at hd; cases hd; exact of_decide_eq_true h2
      · obtain ⟨c, d, i, x1, x2, x3, x4⟩ := hA
        have : currentOf w p a = .ok dA := by simp only [currentOf, bind_ok, unwrap_ok]; exact ⟨c, x1, d, x2, i, x3, x4⟩
        rw [hdc] at this; cases this; exact of_decide_eq_true h3
    · exact absurd h (by simp)

open Demo in
/-- alice supplies, bob borrows, alice withdraws all that is left, and a year later the interest is accrued -/
def drained : List Op := trade.drop 1 ++ [
  .pool poolA [alice] (.submit alice alice alice [⟨1, usdcA, 440000000000⟩]),
  .ledger 31536000 6000000,
  .pool poolA [dave] (.submit dave dave dave [⟨0, usdcA, 1234567⟩]),
  .pool poolA [dave] (.submit dave dave dave [⟨1, usdcA, 1234567⟩]),
  .pool poolA [alice] (.submit alice alice alice [⟨1, usdcA, 2⟩])]

open Demo in
/-- non-vacuity, and the rounding cannot be left out: the USDC reserve begins empty; in the end nothing is left in it, and bob owes
two units more than alice and the backstop may claim. -/
theorem C89_rounding : ∃ w w' d d', Reachable w ∧ w.poolAddr poolA = true ∧
    Played (Within poolA usdcA (10 ^ 12) (10 ^ 11)) w drained w' ∧ (w.pools poolA).resData usdcA = some d ∧
    (d.bSupply = 0 ∧ d.dSupply = 0 ∧ d.backstopCredit = 0 ∧ w.balance usdcA poolA = 0) ∧
    (w'.pools poolA).resData usdcA = some d' ∧ 1000000000 < d'.bRate ∧
    d'.bSupply * d'.bRate + d'.backstopCredit * ONE9 + 2 * ONE9 < d'.dSupply * d'.dRate := by
  have h : okAnd (Demo.run genesis setup) (fun w => okAnd (playWithin poolA usdcA (10 ^ 12) (10 ^ 11) w drained) fun w' =>
      w.poolAddr poolA && optAnd ((w.pools poolA).resData usdcA) (fun d => optAnd ((w'.pools poolA).resData usdcA) fun d' =>
        decide ((d.bSupply = 0 ∧ d.dSupply = 0 ∧ d.backstopCredit = 0 ∧ w.balance usdcA poolA = 0) ∧ 1000000000 < d'.bRate ∧
          d'.bSupply * d'.bRate + d'.backstopCredit * ONE9 + 2 * ONE9 < d'.dSupply * d'.dRate))) = true := by decide +kernel
  obtain ⟨w, _, hr, h⟩ := Demo.reach h
  obtain ⟨w', hw', h⟩ := okAnd_iff.1 h
  rw [Bool.and_eq_true] at h
  obtain ⟨d, hd, h2⟩ := optAnd_iff.1 h.2
  obtain ⟨d', hd', h3⟩ := optAnd_iff.1 h2
  obtain ⟨h4, h5⟩ := of_decide_eq_true h3
  refine ⟨w, w', d, d', hr, h.1, playWithin_ok ?_ hw', hd, h4, hd', h5⟩
  intro op ho
  simp only [drained, trade, List.drop, List.cons_append, List.nil_append, List.mem_cons, List.not_mem_nil, or_false] at ho
  rcases ho with rfl | rfl | rfl | rfl | rfl | rfl | rfl <;> simp only [Gives, not_false_eq_true] <;> decide

end Blend.Props
