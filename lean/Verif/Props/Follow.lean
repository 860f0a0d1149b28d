import Verif.Lemmas.FollowStep
import Verif.Examples.Demo
/-
  C75: the positions and the auctions of a pool can be followed from its events.
-/

namespace Blend
namespace Props
open Spec

theorem steps_of_logged {P : Op → Prop} {w w' : World} {l : List (Nat × Event)} (h : Logged P w l w') : Steps w w' := by
  induction h with
  | start => exact .refl _
  | tail _ _ hs _ ih => exact .tail ih ⟨_, hs⟩

/-- every history has a log: an operation that succeeds publishes its events -/
theorem C75_every_history_has_a_log {P : Op → Prop} {w w' : World} (hr : Reachable w) (h : History P w w') : ∃ l, Logged P w l w' := by
  suffices h' : Reachable w' ∧ ∃ l, Logged P w l w' from h'.2
  induction h with
  | refl => exact ⟨hr, [], .start⟩
  | tail hh hop hs ih =>
    obtain ⟨hr', l, hl⟩ := ih
    obtain ⟨ev, hev⟩ := log_total hr' hs
    exact ⟨hr'.step hs, _, .tail hl hop hs hev⟩

theorem foldl_see {p b : Address} {seq : Nat} (ev : List Event) (F : PoolNotes) :
    (ev.map fun e => (seq, e)).foldl (PoolNotes.see p b) F = Pool.seeAll p b seq F ev := by
  rw [List.foldl_map]; rfl

/-- the observer that has seen all events has the right notes; if no auction has expired it knows exactly which are on -/
theorem follow_match {P : Op → Prop} {w0 w : World} (h0 : Genesis w0) {l : List (Nat × Event)} (h : Logged P w0 l w) {p b : Address}
    (hp : w.poolAddr p = true) (hb : ∀ i, (w.pools p).inst = some i → i.backstop = b) :
    Pool.Match (∀ op, P op → Pool.NoExpiry op) (w.pools p) (accountOf (w.pools p)) (w.pools p).auctions
      (l.foldl (PoolNotes.see p b) {}) := by
  induction h with
  | start =>
    rw [h0.pools p]
    refine ⟨fun u a c hc => ?_, fun u a _ => ⟨rfl, rfl, rfl⟩, fun t u => ⟨fun e => ?_, fun _ e => ?_, fun x hx => ?_⟩⟩
    · cases hc
    · cases e
    · cases e
    · cases hx
  | @tail l w1 w2 op ev hl hop hs hev ih =>
    have st := steps_of_logged hl
    have hr1 : Reachable w1 := ⟨w0, h0, st⟩
    have hp1 : w1.poolAddr p = true := by rw [← (step_res hr1.base hs).poolAddr]; exact hp
    have hb1 : ∀ i, (w1.pools p).inst = some i → i.backstop = b := by
      intro i hi
      obtain ⟨i', hi', e⟩ := inst_steps hr1.base (.tail (.refl _) ⟨op, hs⟩) hi
      rw [← hb i' hi']; exact e.backstop.symm
    rw [List.foldl_append, foldl_see]
    refine (Pool.follow_step hr1 hs hp1 hb1 hev (ih hp1 hb1)).weaken fun e => ⟨e, e op hop⟩

/-- **C75** An observer that sees nothing but the published events and the numbers of their ledgers has, at any time, the shares
of every account in every reserve of a pool, and the bid, the lot and the first ledger of every auction that is on. -/
theorem C75_follow {w0 w : World} (h0 : Genesis w0) {l : List (Nat × Event)} (h : Logged (fun _ => True) w0 l w) {p b : Address}
    (hp : w.poolAddr p = true) (hb : ∀ i, (w.pools p).inst = some i → i.backstop = b) :
    (l.foldl (PoolNotes.see p b) {}).Right (w.pools p) := by
  have m := follow_match h0 h hp hb
  exact ⟨m.pos, fun t u x hx => ⟨(m.auc t u).1 (by rw [hx]; rfl), (m.auc t u).2.2 x hx⟩⟩

/-- **C75** If no auction entry has expired, the observer also knows exactly which auctions are on. -/
theorem C75_auctions_on {w0 w : World} (h0 : Genesis w0) {l : List (Nat × Event)}
    (h : Logged (fun op => ∀ p t u, op ≠ .expireAuction p t u) w0 l w) {p b : Address}
    (hp : w.poolAddr p = true) (hb : ∀ i, (w.pools p).inst = some i → i.backstop = b) (t : Nat) (u : Address) :
    (l.foldl (PoolNotes.see p b) {}).on t u ↔ ∃ x, (w.pools p).auctions t u = some x := by
  have m := (follow_match h0 h hp hb).auc t u
  rw [← Option.isSome_iff_exists]
  exact ⟨m.2.1 fun _ e => e, m.1⟩

/-- **C75** The events determine the positions: after two histories with the same events, of whatever operations, every account
has the same shares in every reserve, and the auctions that are on in both agree. -/
theorem C75_events_determine {w0 w w0' w' : World} (h0 : Genesis w0) (h0' : Genesis w0') {l : List (Nat × Event)}
    (h : Logged (fun _ => True) w0 l w) (h' : Logged (fun _ => True) w0' l w') {p : Address} (hp : w.poolAddr p = true)
    (hp' : w'.poolAddr p = true) {i i' : PoolInst} (hi : (w.pools p).inst = some i) (hi' : (w'.pools p).inst = some i')
    (hb : i.backstop = i'.backstop) :
    (∀ u a c c', (w.pools p).resConfig a = some c → (w'.pools p).resConfig a = some c' →
      (Pool.getPositions (w.pools p) u).supply.bal c.index = (Pool.getPositions (w'.pools p) u).supply.bal c'.index ∧
      (Pool.getPositions (w.pools p) u).collateral.bal c.index = (Pool.getPositions (w'.pools p) u).collateral.bal c'.index ∧
      (Pool.getPositions (w.pools p) u).liabilities.bal c.index = (Pool.getPositions (w'.pools p) u).liabilities.bal c'.index) ∧
    (∀ t u x x', (w.pools p).auctions t u = some x → (w'.pools p).auctions t u = some x' →
      (∀ a, x.bid.bal a = x'.bid.bal a) ∧ (∀ a, x.lot.bal a = x'.lot.bal a) ∧ x.block = x'.block) := by
  have r := C75_follow h0 h (b := i.backstop) hp fun j hj => by rw [hi] at hj; cases hj; rfl
  have r' := C75_follow h0' h' (b := i.backstop) hp' fun j hj => by rw [hi'] at hj; cases hj; exact hb.symm
  refine ⟨fun u a c c' hc hc' => ?_, fun t u x x' hx hx' => ?_⟩
  · obtain ⟨a1, a2, a3⟩ := r.positions u a c hc
    obtain ⟨b1, b2, b3⟩ := r'.positions u a c' hc'
    exact ⟨a1.symm.trans b1, a2.symm.trans b2, a3.symm.trans b3⟩
  · obtain ⟨_, a1, a2, a3⟩ := r.auctions t u x hx
    obtain ⟨_, b1, b2, b3⟩ := r'.auctions t u x' hx'
    exact ⟨fun a => (a1 a).symm.trans (b1 a), fun a => (a2 a).symm.trans (b2 a), a3.symm.trans b3⟩

end Props

/-! ### a history with its log -/
namespace Demo
open Spec

/-- run operations and collect the log -/
def runLog (w : World) (l : List (Nat × Event)) : List Op → R (List (Nat × Event) × World)
  | [] => pure (l, w)
  | op :: ops => do
    let w' ← step w op
    let ev ← logOf w op
    runLog w' (l ++ ev.map fun e => (w.seq, e)) ops

theorem runLog_logged {w0 : World} {P : Op → Prop} : ∀ {ops : List Op} {w w' : World} {l l' : List (Nat × Event)},
    Logged P w0 l w → (∀ op ∈ ops, P op) → runLog w l ops = .ok (l', w') → Logged P w0 l' w' := by
  intro ops
  induction ops with
  | nil =>
    intro w w' l l' h _ e
    simp only [runLog, pure_ok, Prod.mk.injEq] at e
    obtain ⟨rfl, rfl⟩ := e; exact h
  | cons op t ih =>
    intro w w' l l' h hP e
    simp only [runLog, bind_ok] at e
    obtain ⟨w1, h1, ev, h2, e⟩ := e
    exact ih (.tail h (hP op (by simp)) h1 h2) (fun o ho => hP o (by simp [ho])) e

/-- bob's liquidation is half filled, dave has taken over debt and collateral: the events of the history give both positions
and what is left of the auction -/
example : ∃ l w, Logged (fun _ => True) genesis l w ∧ w.poolAddr poolA = true ∧
    (∀ i, (w.pools poolA).inst = some i → i.backstop = backstopA) ∧ 10 ≤ l.length ∧
    0 < (Pool.getPositions (w.pools poolA) dave).liabilities.bal 0 ∧ 0 < (Pool.getPositions (w.pools poolA) bob).liabilities.bal 0 ∧
    ((w.pools poolA).auctions 0 bob).isSome = true := by
  have : okAnd (runLog genesis [] (setup ++ trade ++ emissions ++ claims ++ liquidation)) (fun r =>
      r.2.poolAddr poolA && optAnd (r.2.pools poolA).inst (fun i => i.backstop == backstopA) && decide (10 ≤ r.1.length) &&
      decide (0 < (Pool.getPositions (r.2.pools poolA) dave).liabilities.bal 0) &&
      decide (0 < (Pool.getPositions (r.2.pools poolA) bob).liabilities.bal 0) &&
      ((r.2.pools poolA).auctions 0 bob).isSome) = true := by decide +kernel
  obtain ⟨⟨l, w⟩, hr, h⟩ := okAnd_iff.1 this
  simp only [Bool.and_eq_true, decide_eq_true_eq, optAnd_iff, beq_iff_eq] at h
  obtain ⟨⟨⟨⟨⟨h1, i, hi, h2⟩, h3⟩, h4⟩, h5⟩, h6⟩ := h
  exact ⟨l, w, runLog_logged .start (fun _ _ => trivial) hr, h1, fun j hj => by rw [hi] at hj; cases hj; exact h2, h3, h4, h5, h6⟩

/-- the observer notes the whole story: after the bad debt has been sold, dave has it and the backstop has none -/
example : okAnd (runLog genesis [] (setup ++ trade ++ emissions ++ claims ++ liquidation ++ queue ++ crash ++ badDebt)) (fun r =>
      let F := r.1.foldl (PoolNotes.see poolA backstopA) {}
      decide (F.debt dave usdcA = (Pool.getPositions (r.2.pools poolA) dave).liabilities.bal 0) &&
      decide (F.debt bob usdcA = 0) && decide (F.debt backstopA usdcA = 0) && decide (0 < F.debt dave usdcA) &&
      decide (F.collateral dave xlmA = (Pool.getPositions (r.2.pools poolA) dave).collateral.bal 1) &&
      decide (0 < F.collateral dave xlmA)) = true := by decide +kernel

end Demo
end Blend
