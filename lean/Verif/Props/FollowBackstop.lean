import Verif.Lemmas.FollowBackstop
import Verif.Props.Follow
/-
  C76: the balances of the backstop can be followed from the events.
-/

namespace Blend
namespace Props
open Spec

/-- **C76** An observer that sees nothing but the published events has, at any time, the backstop tokens, the shares and the
queued shares of every pool, and the shares and the queue of every account. -/
theorem C76_follow {w0 w : World} (h0 : Genesis w0) {l : List (Nat × Event)} (h : Logged (fun _ => True) w0 l w) :
    ((l.map Prod.snd).foldl BackstopNotes.see {}).Right w.backstop := by
  induction h with
  | start =>
    rw [h0.backstop]
    exact ⟨fun _ => ⟨rfl, rfl, rfl⟩, fun _ _ => ⟨rfl, rfl⟩⟩
  | @tail l w1 w2 op ev hl _ hs hev ih =>
    have hr1 : Reachable w1 := ⟨w0, h0, steps_of_logged hl⟩
    rw [List.map_append, List.foldl_append, List.map_map]
    have : (Prod.snd ∘ fun e => (w1.seq, e)) = (id : Event → Event) := rfl
    rw [this, List.map_id]
    exact Backstop.follow_step hr1 hs hev ih

/-- **C76** The events determine the balances: after two histories with the same events, of whatever operations, every pool has
the same backstop tokens and shares, and every account the same shares and the same queue. -/
theorem C76_events_determine {w0 w w0' w' : World} (h0 : Genesis w0) (h0' : Genesis w0') {l : List (Nat × Event)}
    (h : Logged (fun _ => True) w0 l w) (h' : Logged (fun _ => True) w0' l w') :
    (∀ p, w.backstop.getPoolBal p = w'.backstop.getPoolBal p) ∧ ∀ p u, w.backstop.getUserBal p u = w'.backstop.getUserBal p u := by
  have r := C76_follow h0 h
  have r' := C76_follow h0' h'
  refine ⟨fun p => ?_, fun p u => ?_⟩
  · obtain ⟨a1, a2, a3⟩ := r.pool p
    obtain ⟨b1, b2, b3⟩ := r'.pool p
    have e1 := a1.symm.trans b1
    have e2 := a2.symm.trans b2
    have e3 := a3.symm.trans b3
    cases hx : w.backstop.getPoolBal p
    cases hy : w'.backstop.getPoolBal p
    rw [hx, hy] at e1 e2 e3
    simp only at e1 e2 e3
    subst e1; subst e2; subst e3; rfl
  · obtain ⟨a1, a2⟩ := r.user p u
    obtain ⟨b1, b2⟩ := r'.user p u
    have e1 := a1.symm.trans b1
    have e2 := a2.symm.trans b2
    cases hx : w.backstop.getUserBal p u
    cases hy : w'.backstop.getUserBal p u
    rw [hx, hy] at e1 e2
    simp only at e1 e2
    subst e1; subst e2; rfl

/-- what an event says about the backstop tokens of the pool `p`: deposits and donations come in, withdrawals and draws go out -/
def tokenChange (p : Address) : Event → Int
  | .deposit q _ a _ => if q = p then a else 0
  | .donate q _ a => if q = p then a else 0
  | .backstopWithdraw q _ _ a => if q = p then -a else 0
  | .draw q _ a => if q = p then -a else 0
  | _ => 0

/-- **C76** The backstop tokens of a pool are what the published deposits and donations bring in, less what the published
withdrawals and draws take out. -/
theorem C76_tokens_add_up {w0 w : World} (h0 : Genesis w0) {l : List (Nat × Event)} (h : Logged (fun _ => True) w0 l w) (p : Address) :
    (w.backstop.getPoolBal p).tokens = (l.map fun e => tokenChange p e.2).sum := by
  rw [← ((C76_follow h0 h).pool p).1]
  have key : ∀ (l : List Event) (F : BackstopNotes), (l.foldl BackstopNotes.see F).tokens p = F.tokens p + (l.map (tokenChange p)).sum := by
    intro l
    induction l with
    | nil => intro F; simp
    | cons e t ih =>
      intro F
      rw [List.foldl_cons, ih, List.map_cons, List.sum_cons, ← add_assoc]
      congr 1
      cases e with
      | deposit q _ a _ => simp only [BackstopNotes.see, tokenChange, upd_apply, eq_comm (a := p)]; split <;> simp_all
      | donate q _ a => simp only [BackstopNotes.see, tokenChange, upd_apply, eq_comm (a := p)]; split <;> simp_all
      | backstopWithdraw q _ _ a => simp only [BackstopNotes.see, tokenChange, upd_apply, eq_comm (a := p)]; split <;> simp_all <;> omega
      | draw q _ a => simp only [BackstopNotes.see, tokenChange, upd_apply, eq_comm (a := p)]; split <;> simp_all <;> omega
      | _ => simp [BackstopNotes.see, tokenChange]
  rw [key, List.map_map]
  simp only [zero_add]
  rfl

end Props

namespace Demo
open Spec

/-- carol has two entries in the queue, one of them used up in part by a withdrawal, and the backstop has lost tokens in a bad
debt auction: the events tell it all -/
example : ∃ l w, Logged (fun _ => True) genesis l w ∧ (w.backstop.getUserBal poolA carol).q4w.length = 2 ∧
    0 < (w.backstop.getUserBal poolA carol).shares ∧ 0 < (w.backstop.getPoolBal poolA).tokens ∧
    (∃ e ∈ l, ∃ a, e.2 = Event.draw poolA dave a ∧ 0 < a) := by
  have : okAnd (runLog genesis [] (setup ++ trade ++ emissions ++ claims ++ liquidation ++ queue ++ crash ++ badDebt)) (fun r =>
      decide ((r.2.backstop.getUserBal poolA carol).q4w.length = 2) && decide (0 < (r.2.backstop.getUserBal poolA carol).shares) &&
      decide (0 < (r.2.backstop.getPoolBal poolA).tokens) &&
      r.1.any fun e => match e.2 with | .draw p d a => decide (p = poolA ∧ d = dave ∧ 0 < a) | _ => false) = true := by decide +kernel
  obtain ⟨⟨l, w⟩, hr, h⟩ := okAnd_iff.1 this
  simp only [Bool.and_eq_true, decide_eq_true_eq, List.any_eq_true] at h
  obtain ⟨⟨⟨h1, h2⟩, h3⟩, e, he, h4⟩ := h
  refine ⟨l, w, runLog_logged .start (fun _ _ => trivial) hr, h1, h2, h3, e, he, ?_⟩
  split at h4
  · rename_i p d a hx
    simp only [decide_eq_true_eq] at h4
    obtain ⟨rfl, rfl, h5⟩ := h4
    exact ⟨a, hx, h5⟩
  · cases h4

end Demo
end Blend
