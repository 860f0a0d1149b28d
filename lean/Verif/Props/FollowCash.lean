import Verif.Lemmas.FollowCash
import Verif.Props.Follow
import Verif.Lemmas.EmitterInv
import Verif.Examples.InterestDemo
/-
  C77: the events tell the truth about the tokens of a pool.
-/

namespace Blend
namespace Props
open Spec

/-- who is BLND does not change -/
theorem isBlnd_step {w w' : World} (hr : Reachable w) {op : Op} (h : step w op = .ok w') {a : Address} (hb : IsBlnd w a) : IsBlnd w' a := by
  rcases hb with ⟨e, he, rfl⟩ | ⟨i, hi, rfl⟩
  · left
    rcases emitter_step hr.base h with ⟨e1, _⟩ | ch
    · exact ⟨e, by rw [e1]; exact he, rfl⟩
    · cases ch with
      | init _ _ _ _ _ hn => rw [hn] at he; cases he
      | distribute _ _ _ _ _ _ _ r => exact ⟨e, by rw [r.frame]; exact he, rfl⟩
      | queue _ _ _ _ _ _ _ _ hw => exact ⟨e, by rw [hw]; exact he, rfl⟩
      | cancel _ _ _ _ _ _ _ hw => exact ⟨e, by rw [hw]; exact he, rfl⟩
      | swap _ _ _ _ _ _ hi _ _ _ _ _ _ hw =>
        rw [hi] at he; cases he
        subst hw
        exact ⟨_, rfl, rfl⟩
      | drop _ _ _ _ _ _ _ _ _ _ hw => exact ⟨e, by rw [hw]; exact he, rfl⟩
  · exact .inr ⟨i, Backstop.inst_keep hr (.tail (.refl _) ⟨op, h⟩) hi, rfl⟩

/-- **C77** A submit moves into the pool, for every asset, exactly what its events say: what is supplied and repaid, less what is
withdrawn and borrowed, less the lots of interest auctions that are handed over. The observer has followed the events so far. -/
theorem C77_submit {w0 w w' : World} (h0 : Genesis w0) {l : List (Nat × Event)} (h : Logged (fun _ => True) w0 l w) {p b : Address}
    (hb : ∀ i, (w.pools p).inst = some i → i.backstop = b) {auth : List Address}
    {sender spender dst : Address} {reqs : List Pool.Request} (hs : step w (.pool p auth (.submit sender spender dst reqs)) = .ok w')
    {ev : List Event} (hev : logOf w (.pool p auth (.submit sender spender dst reqs)) = .ok ev) (a : Address) :
    w'.balance a p = w.balance a p + (l.foldl (PoolNotes.see p b) {}).inflows p b (ev.map fun e => (w.seq, e)) a := by
  have hp : w.poolAddr p = true := by
    simp only [step, bind_ok, require_ok] at hs; obtain ⟨_, hp, _⟩ := hs; exact hp
  exact Pool.submit_cash ⟨w0, h0, steps_of_logged h⟩ hb hs hev (follow_match h0 h hp hb) a

/-- **C77** At any time a pool holds at least the tokens that its events say it holds. -/
theorem C77_at_least {w0 w : World} (h0 : Genesis w0) {l : List (Nat × Event)} (h : Logged (fun _ => True) w0 l w) {p b : Address}
    (hp : w.poolAddr p = true) (hb : ∀ i, (w.pools p).inst = some i → i.backstop = b) (a : Address) :
    w0.balance a p + PoolNotes.inflows p b {} l a ≤ w.balance a p := by
  induction h with
  | start => simp [PoolNotes.inflows]
  | @tail l w1 w2 op ev hl hop hs hev ih =>
    have st := steps_of_logged hl
    have hr1 : Reachable w1 := ⟨w0, h0, st⟩
    have hp1 : w1.poolAddr p = true := by rw [← (step_res hr1.base hs).poolAddr]; exact hp
    have hb1 : ∀ i, (w1.pools p).inst = some i → i.backstop = b := by
      intro i hi
      obtain ⟨i', hi', e⟩ := inst_steps hr1.base (.tail (.refl _) ⟨op, hs⟩) hi
      rw [← hb i' hi']; exact e.backstop.symm
    have k := (Pool.cash_step hr1 hs hp1 hb1 hev (follow_match h0 hl hp1 hb1) a).1
    have := ih hp1 hb1
    rw [Pool.inflows_append]
    unfold Pool.inflowAll at k
    omega

/-- **C77** It holds exactly these tokens, of every asset but BLND, if nobody has sent it tokens outside of submits to it. -/
theorem C77_exactly {w0 w : World} (h0 : Genesis w0) {p : Address} {l : List (Nat × Event)} (h : Logged (fun op => ¬ Gives p op) w0 l w)
    {b : Address} (hp : w.poolAddr p = true) (hb : ∀ i, (w.pools p).inst = some i → i.backstop = b) {a : Address} (ha : ¬ IsBlnd w a) :
    w.balance a p = w0.balance a p + PoolNotes.inflows p b {} l a := by
  induction h with
  | start => simp [PoolNotes.inflows]
  | @tail l w1 w2 op ev hl hop hs hev ih =>
    have st := steps_of_logged hl
    have hr1 : Reachable w1 := ⟨w0, h0, st⟩
    have hp1 : w1.poolAddr p = true := by rw [← (step_res hr1.base hs).poolAddr]; exact hp
    have hb1 : ∀ i, (w1.pools p).inst = some i → i.backstop = b := by
      intro i hi
      obtain ⟨i', hi', e⟩ := inst_steps hr1.base (.tail (.refl _) ⟨op, hs⟩) hi
      rw [← hb i' hi']; exact e.backstop.symm
    have ha1 : ¬ IsBlnd w1 a := fun e => ha (isBlnd_step hr1 hs e)
    have k := (Pool.cash_step hr1 hs hp1 hb1 hev (follow_match h0 hl hp1 hb1) a).2 hop ha1
    have := ih hp1 hb1 ha1
    rw [Pool.inflows_append]
    unfold Pool.inflowAll at k
    omega

end Props

/-! ### the tokens of a history -/
namespace Demo
open Spec

/-- the operation does not send tokens to the pool -/
def givesNot (p : Address) : Op → Bool
  | .tokenTransfer _ _ dst _ => dst ≠ p
  | .tokenMint _ dst _ => dst ≠ p
  | .pool _ _ (.submit _ _ dst _) => dst ≠ p
  | .pool _ _ (.claim _ _ dst) => dst ≠ p
  | .backstop _ (.draw _ _ dst) => dst ≠ p
  | _ => true

theorem givesNot_ok {p : Address} {op : Op} (h : givesNot p op = true) : ¬ Gives p op := by
  unfold givesNot at h
  split at h <;> simp_all [Gives]

/-- alice has supplied USDC, bob has borrowed it, carol has bought half of the interest on the way: the events give the USDC and the
XLM of the pool -/
example : ∃ l w, Logged (fun op => ¬ Gives poolA op) genesis l w ∧ w.poolAddr poolA = true ∧
    (∀ i, (w.pools poolA).inst = some i → i.backstop = backstopA) ∧ ¬ IsBlnd w usdcA ∧ ¬ IsBlnd w xlmA ∧
    (∃ s u f n, (s, .fillAuction poolA u 2 f n) ∈ l) ∧
    PoolNotes.inflows poolA backstopA {} l usdcA < 440000000000 ∧ 0 < PoolNotes.inflows poolA backstopA {} l usdcA ∧
    PoolNotes.inflows poolA backstopA {} l xlmA = 1000000000000 := by
  let ops := setup ++ trade ++ interest ++ [.ledger 1100 221, .pool poolA [carol] (.submit carol carol carol [⟨8, backstopA, 50⟩])]
  have : okAnd (runLog genesis [] ops) (fun r =>
      r.2.poolAddr poolA && optAnd (r.2.pools poolA).inst (fun i => i.backstop == backstopA) &&
      optAnd r.2.emitter.inst (fun e => e.blnd == blndA) && optAnd r.2.backstop.inst (fun e => e.blnd == blndA) &&
      (r.1.any fun e => match e.2 with | .fillAuction q _ t _ _ => q == poolA && t == 2 | _ => false) &&
      decide (PoolNotes.inflows poolA backstopA {} r.1 usdcA < 440000000000) &&
      decide (0 < PoolNotes.inflows poolA backstopA {} r.1 usdcA) &&
      decide (PoolNotes.inflows poolA backstopA {} r.1 xlmA = 1000000000000)) = true := by decide +kernel
  obtain ⟨⟨l, w⟩, hr, h⟩ := okAnd_iff.1 this
  simp only [Bool.and_eq_true, decide_eq_true_eq, optAnd_iff, beq_iff_eq, List.any_eq_true] at h
  obtain ⟨⟨⟨⟨⟨⟨⟨h1, i, hi, h2⟩, e, he, h3⟩, j, hj, h4⟩, ⟨s, ev⟩, hm, h5⟩, h6⟩, h7⟩, h8⟩ := h
  have nb : ∀ a, a ≠ blndA → ¬ IsBlnd w a := by
    rintro a ha (⟨e', he', rfl⟩ | ⟨j', hj', rfl⟩)
    · rw [he] at he'; cases he'; exact ha h3
    · rw [hj] at hj'; cases hj'; exact ha h4
  refine ⟨l, w, runLog_logged .start (fun op ho => givesNot_ok ?_) hr, h1, fun k hk => by rw [hi] at hk; cases hk; exact h2,
    nb _ (by decide), nb _ (by decide), ?_, h6, h7, h8⟩
  · have : ops.all (givesNot poolA) = true := by decide
    exact List.all_eq_true.1 this op ho
  · cases ev with
    | fillAuction q u t f n =>
      simp only [Bool.and_eq_true, beq_iff_eq] at h5
      obtain ⟨rfl, rfl⟩ := h5
      exact ⟨s, u, f, n, hm⟩
    | _ => simp at h5

end Demo
end Blend
