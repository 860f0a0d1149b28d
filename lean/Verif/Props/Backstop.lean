import Verif.Lemmas.BStep
import Verif.Examples.Demo
/-
  Properties of backstop deposits: C30 to C35.

  `w.backstop.getPoolBal p` is what the backstop reports as the balance of pool `p`
  (total shares, LP tokens, shares queued for withdrawal), `w.backstop.getUserBal p u` is the result of
  `user_balance(p, u)` (shares and queue of withdrawals).
-/

namespace Blend
namespace Spec

/-- sum of the amounts of a withdrawal queue -/
def queueTotal (l : List Q4W) : Int := (l.map fun e => e.amount).sum

/-- the amount of a queue that unlocks at time `t` or later -/
def queuedFrom (t : Nat) (l : List Q4W) : Int := ((l.filter fun e => t ≤ e.exp).map fun e => e.amount).sum

/-- Taking `a` shares from the front of a queue leaves the other queue; only entries that satisfy `P` are
touched. -/
inductive FifoTake (P : Q4W → Prop) : Int → List Q4W → List Q4W → Prop
  | nothing (l) : FifoTake P 0 l l
  | whole (e t a l') : P e → FifoTake P a t l' → FifoTake P (e.amount + a) (e :: t) l'
  | part (e t r) : P e → 0 ≤ r → r < e.amount → FifoTake P r (e :: t) ({ e with amount := e.amount - r } :: t)

/-- 21 days in seconds -/
def days21 : Nat := 1814400

end Spec

namespace Backstop
open Spec

theorem Dequeued.fifo {now : Nat} {req : Bool} {l l' : List Q4W} {a r : Int} {taken : List Q4W}
    (d : Dequeued now req l a l' 0 taken r) : FifoTake (fun e => req = true → e.exp ≤ now) a l l' := by
  obtain ⟨h1, h2, h3, h4⟩ := d
  induction taken generalizing l a with
  | nil =>
    simp only [qsum_nil] at h3
    rcases h4 with ⟨hr, hl, _⟩ | ⟨_, e, t, hl, hr, he, rfl⟩
    · have : a = 0 := by omega
      subst this
      simp only [List.nil_append] at hl
      subst hl
      exact .nothing _
    · have : a = r := by omega
      subst this
      simp only [List.nil_append] at hl
      subst hl
      exact .part _ _ _ he h2.2 hr
  | cons x taken ih =>
    simp only [qsum_cons] at h3
    have hx := h1 x (by simp)
    have e : a = x.amount + (Backstop.qsum taken + r) := by omega
    rw [e]
    rcases h4 with ⟨hr, hl, hz⟩ | ⟨hz, e, t, hl, hr, he, rfl⟩
    · subst hl
      exact .whole _ _ _ _ hx (ih (fun y hy => h1 y (by simp [hy])) (by omega) (.inl ⟨hr, rfl, hz⟩))
    · subst hl
      exact .whole _ _ _ _ hx (ih (fun y hy => h1 y (by simp [hy])) (by omega) (.inr ⟨hz, e, t, rfl, hr, he, rfl⟩))

theorem _root_.Blend.Spec.FifoTake.mono {P Q : Q4W → Prop} {a : Int} {l l' : List Q4W} (h : FifoTake P a l l')
    (hPQ : ∀ e, P e → Q e) : FifoTake Q a l l' := by
  induction h with
  | nothing l => exact .nothing l
  | whole e t a l' hp _ ih => exact .whole e t a l' (hPQ e hp) ih
  | part e t r hp h1 h2 => exact .part e t r (hPQ e hp) h1 h2

theorem queuedFrom_cons (T : Nat) (e : Q4W) (l : List Q4W) :
    queuedFrom T (e :: l) = (if T ≤ e.exp then e.amount else 0) + queuedFrom T l := by
  unfold queuedFrom
  by_cases h : T ≤ e.exp <;> simp [h]

theorem queuedFrom_append (T : Nat) (l l' : List Q4W) : queuedFrom T (l ++ l') = queuedFrom T l + queuedFrom T l' := by
  unfold queuedFrom; simp

theorem queuedFrom_nonneg {T : Nat} {l : List Q4W} (h : ∀ e ∈ l, 0 ≤ e.amount) : 0 ≤ queuedFrom T l := by
  induction l with
  | nil => simp [queuedFrom]
  | cons e l ih =>
    rw [queuedFrom_cons]
    have := h e (by simp)
    have := ih fun x hx => h x (by simp [hx])
    split <;> omega

theorem queuedFrom_le {T : Nat} {l : List Q4W} (h : ∀ e ∈ l, 0 ≤ e.amount) : queuedFrom T l ≤ queueTotal l := by
  induction l with
  | nil => simp [queuedFrom, queueTotal]
  | cons e l ih =>
    rw [queuedFrom_cons]
    have := h e (by simp)
    have := ih fun x hx => h x (by simp [hx])
    have : queueTotal (e :: l) = e.amount + queueTotal l := by simp [queueTotal]
    split <;> omega

theorem fifo_from {P : Q4W → Prop} {T : Nat} {a : Int} {l l' : List Q4W} (h : FifoTake P a l l') :
    (∀ e ∈ l, 0 ≤ e.amount) → queuedFrom T l - a ≤ queuedFrom T l' := by
  induction h with
  | nothing l => intro _; omega
  | whole e t a l' _ _ ih =>
    intro hn
    rw [queuedFrom_cons]
    have := hn e (by simp)
    have := ih fun x hx => hn x (by simp [hx])
    split <;> omega
  | part e t r _ h1 h2 =>
    intro hn
    rw [queuedFrom_cons, queuedFrom_cons]
    simp only
    split <;> omega

theorem fifo_keep {P : Q4W → Prop} {T : Nat} {a : Int} {l l' : List Q4W} (h : FifoTake P a l l')
    (hP : ∀ e, P e → e.exp < T) : queuedFrom T l' = queuedFrom T l := by
  induction h with
  | nothing l => rfl
  | whole e t a l' hp _ ih =>
    have := hP e hp
    rw [queuedFrom_cons, if_neg (by omega), ih]; omega
  | part e t r hp h1 h2 =>
    have := hP e hp
    rw [queuedFrom_cons, queuedFrom_cons]
    simp only
    rw [if_neg (by omega)]; rw [if_neg (by omega)]

theorem fifo_total {P : Q4W → Prop} {a : Int} {l l' : List Q4W} (h : FifoTake P a l l') :
    queueTotal l' = queueTotal l - a := by
  induction h with
  | nothing l => simp
  | whole e t a l' hp _ ih => simp only [queueTotal, List.map_cons, List.sum_cons] at ih ⊢; omega
  | part e t r hp h1 h2 => simp only [queueTotal, List.map_cons, List.sum_cons]; omega

end Backstop

namespace Props
open Spec Backstop

/-! ### C30 -/

/-- **C30** In every reachable state and for every pool: the total shares are the sum over all users of
their shares and queued shares; the total queued is the sum of all queues; nothing is negative. -/
theorem C30_share_accounting {w : World} (h : Reachable w) (p : Address) :
    (w.backstop.getPoolBal p).shares =
      (w.backstop.userBal p).sum (fun _ ub => ub.shares + queueTotal ub.q4w) ∧
    (w.backstop.getPoolBal p).q4w = (w.backstop.userBal p).sum (fun _ ub => queueTotal ub.q4w) ∧
    0 ≤ (w.backstop.getPoolBal p).tokens ∧ 0 ≤ (w.backstop.getPoolBal p).q4w ∧
    (w.backstop.getPoolBal p).q4w ≤ (w.backstop.getPoolBal p).shares ∧
    ∀ u, 0 ≤ (w.backstop.getUserBal p u).shares ∧ ∀ e ∈ (w.backstop.getUserBal p u).q4w, 0 ≤ e.amount := by
  have inv := h.ball.inv
  have h1 := inv.unq p
  have h2 := inv.queued p
  have h3 := inv.shares_nonneg p
  refine ⟨?_, h2, inv.pool p, ?_, ?_, fun u => ⟨(inv.user p u).shares, (inv.user p u).amounts⟩⟩
  · have e : (w.backstop.userBal p).sum (fun _ ub => ub.shares + queueTotal ub.q4w) =
        (w.backstop.userBal p).sum (fun _ ub => ub.shares) + (w.backstop.userBal p).sum (fun _ ub => qsum ub.q4w) := by
      unfold SMap.sum
      rw [← List.sum_map_add]; rfl
    rw [e]; omega
  · omega
  · omega

/-- two depositors, one of them with a queue, are reachable -/
example : ∃ w, Reachable w ∧ (w.backstop.getPoolBal Demo.poolA).shares ≠ 0 ∧ (w.backstop.getPoolBal Demo.poolA).q4w ≠ 0 ∧
    (w.backstop.getUserBal Demo.poolA Demo.carol).q4w.length = 2 := by
  obtain ⟨w, _, hr, h⟩ := Demo.reach (ops := Demo.setup ++ Demo.trade ++ Demo.queue)
    (f := fun w => decide ((w.backstop.getPoolBal Demo.poolA).shares ≠ 0 ∧ (w.backstop.getPoolBal Demo.poolA).q4w ≠ 0 ∧
      (w.backstop.getUserBal Demo.poolA Demo.carol).q4w.length = 2)) (by decide +kernel)
  exact ⟨w, hr, by simpa using h⟩

/-! ### C31 -/

/-- **C31** The LP tokens held by the backstop cover the deposits that it reports, over all pools. (The
backstop token is an LP token of the BLND:USDC pool and not BLND itself.) -/
theorem C31_backstop_funded {w : World} (h : Reachable w) {i : BackstopInst} (hi : w.backstop.inst = some i)
    (hne : i.blnd ≠ i.backstopToken) :
    w.backstop.poolBal.sum (fun _ pb => pb.tokens) ≤ w.balance i.backstopToken w.backstopAddr := by
  have := h.ball.funded.after i hi hne
  simpa [BS.of] using this

example : ∃ w i, Reachable w ∧ w.backstop.inst = some i ∧ i.blnd ≠ i.backstopToken ∧
    0 < w.backstop.poolBal.sum (fun _ pb => pb.tokens) := by
  obtain ⟨w, _, hr, h⟩ := Demo.reach (ops := Demo.setup ++ Demo.trade ++ Demo.emissions ++ Demo.claims)
    (f := fun w => Demo.optAnd w.backstop.inst fun i => decide (i.blnd ≠ i.backstopToken ∧
      0 < w.backstop.poolBal.sum (fun _ pb => pb.tokens))) (by decide +kernel)
  simp only [decide_eq_true_eq, Demo.optAnd_iff] at h
  obtain ⟨i, h1, h2⟩ := h
  exact ⟨w, i, hr, h1, h2⟩

/-! ### C32 -/

/-- **C32** A queue holds at most 21 entries, in the order in which they unlock, and no entry unlocks more
than 21 days from now. -/
theorem C32_queue_shape {w : World} (h : Reachable w) (p u : Address) :
    (w.backstop.getUserBal p u).q4w.length ≤ 21 ∧
    (w.backstop.getUserBal p u).q4w.Pairwise (fun a b => a.exp ≤ b.exp) ∧
    ∀ e ∈ (w.backstop.getUserBal p u).q4w, e.exp ≤ w.time + days21 := by
  have q := h.ball.inv.user p u
  exact ⟨q.len, q.sorted, q.exp⟩

/-- **C32** Queueing a withdrawal moves shares of the caller into a new last entry of the queue that unlocks
21 days later; the caller must hold the shares and have authorized the call. -/
theorem C32_queue {w w' : World} {auth : List Address} {s p : Address} {a : Int}
    (hs : step w (.backstop auth (.queueWithdrawal s p a)) = .ok w') :
    s ∈ auth ∧ 0 ≤ a ∧ a ≤ (w.backstop.getUserBal p s).shares ∧
    w'.backstop.getUserBal p s = ⟨(w.backstop.getUserBal p s).shares - a,
      (w.backstop.getUserBal p s).q4w ++ [⟨a, w.time + days21⟩]⟩ ∧
    w'.backstop.getPoolBal p = { w.backstop.getPoolBal p with q4w := (w.backstop.getPoolBal p).q4w + a } := by
  have hs' := hs
  simp only [step, bind_ok, require_ok] at hs'
  obtain ⟨_, _, hc⟩ := hs'
  have r := queue_res hc
  obtain ⟨x, b1, hu, rfl⟩ := r.ex
  refine ⟨r.auth, r.nonneg, r.le, ?_, ?_⟩
  · show (Backstop.setBal _ _ _ _ _).getUserBal _ _ = _
    rw [getUserBal_set, if_pos ⟨rfl, rfl⟩]; rfl
  · show (Backstop.setBal _ _ _ _ _).getPoolBal _ = _
    rw [getPoolBal_set, if_pos rfl]

/-- **C32** Dequeueing takes from the front of the queue and gives the shares back to the caller. -/
theorem C32_dequeue {w w' : World} (h : Reachable w) {auth : List Address} {s p : Address} {a : Int}
    (hs : step w (.backstop auth (.dequeueWithdrawal s p a)) = .ok w') :
    s ∈ auth ∧ 0 ≤ a ∧
    (w'.backstop.getUserBal p s).shares = (w.backstop.getUserBal p s).shares + a ∧
    FifoTake (fun _ => True) a (w.backstop.getUserBal p s).q4w (w'.backstop.getUserBal p s).q4w ∧
    w'.backstop.getPoolBal p = { w.backstop.getPoolBal p with q4w := (w.backstop.getPoolBal p).q4w - a } := by
  have hs' := hs
  simp only [step, bind_ok, require_ok] at hs'
  obtain ⟨_, _, hc⟩ := hs'
  have r := dequeue_res hc
  obtain ⟨x, b1, q, hu, hd, rfl⟩ := r.ex
  obtain ⟨tk, r', hd⟩ := hd (h.ball.inv.user p s).amounts
  have e : (setBal b1 p s { w.backstop.getPoolBal p with q4w := (w.backstop.getPoolBal p).q4w - a }
        ⟨(w.backstop.getUserBal p s).shares + a, q⟩).getUserBal p s = ⟨(w.backstop.getUserBal p s).shares + a, q⟩ := by
    rw [getUserBal_set, if_pos ⟨rfl, rfl⟩]
  refine ⟨r.auth, r.nonneg, ?_, ?_, ?_⟩
  · show ((Backstop.setBal _ _ _ _ _).getUserBal _ _).shares = _; rw [e]
  · show FifoTake _ _ _ ((Backstop.setBal _ _ _ _ _).getUserBal _ _).q4w
    rw [e]
    exact hd.fifo.mono fun _ _ => trivial
  · show (Backstop.setBal _ _ _ _ _).getPoolBal _ = _
    rw [getPoolBal_set, if_pos rfl]

/-- **C32** A withdrawal takes the shares from the front of the caller's queue and only from entries that
have unlocked. It pays their value rounded down, at least 1, to the caller, and reduces the totals. -/
theorem C32_withdraw {w w' : World} (h : Reachable w) {auth : List Address} {s p : Address} {a : Int}
    (hs : step w (.backstop auth (.withdraw s p a)) = .ok w') :
    s ∈ auth ∧ 0 ≤ a ∧
    (w'.backstop.getUserBal p s).shares = (w.backstop.getUserBal p s).shares ∧
    FifoTake (fun e => e.exp ≤ w.time) a (w.backstop.getUserBal p s).q4w (w'.backstop.getUserBal p s).q4w ∧
    ∃ i tk, w.backstop.inst = some i ∧ 0 < tk ∧
      IsFloor tk (a * (w.backstop.getPoolBal p).tokens) (w.backstop.getPoolBal p).shares ∧
      w'.backstop.getPoolBal p = ⟨(w.backstop.getPoolBal p).shares - a, (w.backstop.getPoolBal p).tokens - tk,
        (w.backstop.getPoolBal p).q4w - a⟩ ∧
      w'.balance i.backstopToken s = w.balance i.backstopToken s + tk ∧
      w'.balance i.backstopToken w.backstopAddr = w.balance i.backstopToken w.backstopAddr - tk := by
  have hs' := hs
  simp only [step, bind_ok, require_ok, backstopCall, pure_ok, Prod.exists] at hs'
  obtain ⟨_, ha, tk, w2, hc, e2⟩ := hs'
  rw [e2] at hc
  have r := withdraw_res hc
  have hsne : s ≠ w.backstopAddr := by
    rintro rfl; exact ha _ r.auth (.inr (.inl rfl))
  obtain ⟨q, i, hi, hd, hb, t⟩ := r.ex
  obtain ⟨taken, r', hd⟩ := hd (h.ball.inv.user p s).amounts
  have e : w'.backstop.getUserBal p s = { w.backstop.getUserBal p s with q4w := q } := by
    rw [hb, getUserBal_set, if_pos ⟨rfl, rfl⟩]
  refine ⟨r.auth, r.nonneg, by rw [e], ?_, i, tk, hi, r.pos, ?_, by rw [hb, getPoolBal_set, if_pos rfl], ?_, ?_⟩
  · rw [e]
    exact hd.fifo.mono fun e he => he rfl
  · have hp := r.paid
    have hpos := r.pos
    obtain ⟨l1, l2, l3⟩ := r.le
    have h0 : 0 < (w.backstop.getPoolBal p).shares := by
      rcases lt_or_eq_of_le (show 0 ≤ (w.backstop.getPoolBal p).shares from by have := r.nonneg; omega) with h0 | h0
      · exact h0
      · exfalso
        unfold toTokens at hp
        rw [if_pos h0.symm] at hp
        simp only [pure_ok] at hp
        omega
    unfold toTokens at hp
    rw [if_neg (by omega)] at hp
    have := mulDivFloor_spec hp h0
    exact ⟨this.1, by have := this.2; linarith⟩
  · have := t.bal i.backstopToken s
    change _ = w.balance i.backstopToken s + _ at this
    simpa [moved, hsne] using this
  · have := t.bal i.backstopToken w.backstopAddr
    change _ = w.balance i.backstopToken w.backstopAddr + _ at this
    simpa [moved, hsne.symm, sub_eq_add_neg] using this

/-- carol withdraws part of an entry that has unlocked, after queueing twice -/
example : ∃ w w', Reachable w ∧
    step w (.backstop [Demo.carol] (.withdraw Demo.carol Demo.poolA 120000000000)) = .ok w' ∧
    (w.backstop.getUserBal Demo.poolA Demo.carol).q4w.length = 2 := by
  obtain ⟨w, w', _, hr, hs, h⟩ := Demo.reach_step (ops := Demo.setup ++ Demo.queue.take 4)
    (op := .backstop [Demo.carol] (.withdraw Demo.carol Demo.poolA 120000000000))
    (f := fun w _ => decide ((w.backstop.getUserBal Demo.poolA Demo.carol).q4w.length = 2)) (by decide +kernel)
  exact ⟨w, w', hr, hs, by simpa using h⟩

/-- carol dequeues more than the first entry holds -/
example : ∃ w w', Reachable w ∧
    step w (.backstop [Demo.carol] (.dequeueWithdrawal Demo.carol Demo.poolA 160000000000)) = .ok w' ∧
    (w'.backstop.getUserBal Demo.poolA Demo.carol).q4w.length = 1 := by
  obtain ⟨w, w', _, hr, hs, h⟩ := Demo.reach_step (ops := Demo.setup ++ Demo.queue.take 3)
    (op := .backstop [Demo.carol] (.dequeueWithdrawal Demo.carol Demo.poolA 160000000000))
    (f := fun _ w => decide ((w.backstop.getUserBal Demo.poolA Demo.carol).q4w.length = 1)) (by decide +kernel)
  exact ⟨w, w', hr, hs, by simpa using h⟩

/-- **C32** What a depositor owns (shares and queued shares) shrinks only by a withdrawal that he authorized. -/
theorem C32_only_withdraw {w w' : World} (h : Reachable w) {op : Op} (hs : step w op = .ok w') (p u : Address)
    (hlt : (w'.backstop.getUserBal p u).shares + queueTotal (w'.backstop.getUserBal p u).q4w <
      (w.backstop.getUserBal p u).shares + queueTotal (w.backstop.getUserBal p u).q4w) :
    ∃ auth a, op = .backstop auth (.withdraw u p a) ∧ u ∈ auth := by
  cases h.balCase hs p with
  | same h1 h2 => rw [h2 u] at hlt; omega
  | pool _ _ _ _ _ h2 => rw [h2 u] at hlt; omega
  | @claim auth s ps d _ _ cr _ =>
    exfalso
    obtain ⟨c1, c2, _⟩ := cr.users p u
    change (w'.backstop.getUserBal p u).q4w = _ at c1
    change _ ≤ (w'.backstop.getUserBal p u).shares at c2
    rw [c1] at hlt; omega
  | @deposit auth s a m _ r _ _ h1 h2 =>
    exfalso
    by_cases e : u = s
    · subst e
      rw [h1] at hlt
      simp only at hlt
      have inv := h.ball.inv
      have := (toShares_price r.minted r.nonneg (inv.pool p) (by have := inv.shares_nonneg p; omega)).1
      omega
    · rw [h2 u e] at hlt; omega
  | @queue auth s a _ r _ h1 h2 =>
    exfalso
    by_cases e : u = s
    · subst e
      rw [h1] at hlt
      simp only [queueTotal, List.map_append, List.sum_append, List.map_cons, List.sum_cons, List.map_nil, List.sum_nil] at hlt
      omega
    · rw [h2 u e] at hlt; omega
  | @dequeue auth s a l taken r' _ r d _ h1 h2 =>
    exfalso
    by_cases e : u = s
    · subst e
      rw [h1] at hlt
      have := fifo_total d.fifo
      simp only at hlt
      omega
    · rw [h2 u e] at hlt; omega
  | @withdraw auth s a tk l taken r' ho r d _ h1 h2 =>
    by_cases e : u = s
    · subst e
      exact ⟨auth, a, ho, r.auth⟩
    · rw [h2 u e] at hlt; omega

/-- one operation keeps the shares that are not queued or that unlock at `T` or later, before `T` -/
theorem lock_step {w w' : World} (h : Reachable w) {op : Op} (hs : step w op = .ok w') (p u : Address) {T : Nat}
    (hT : w.time < T) (hT' : T ≤ w.time + days21) :
    (w.backstop.getUserBal p u).shares + queuedFrom T (w.backstop.getUserBal p u).q4w ≤
      (w'.backstop.getUserBal p u).shares + queuedFrom T (w'.backstop.getUserBal p u).q4w := by
  cases h.balCase hs p with
  | same h1 h2 => rw [h2 u]
  | pool _ _ _ _ _ h2 => rw [h2 u]
  | @claim auth s ps d _ _ cr _ =>
    obtain ⟨c1, c2, _⟩ := cr.users p u
    change (w'.backstop.getUserBal p u).q4w = _ at c1
    change _ ≤ (w'.backstop.getUserBal p u).shares at c2
    rw [c1]; omega
  | @deposit auth s a m _ r _ _ h1 h2 =>
    by_cases e : u = s
    · subst e
      rw [h1]
      have inv := h.ball.inv
      have := (toShares_price r.minted r.nonneg (inv.pool p) (by have := inv.shares_nonneg p; omega)).1
      simp only
      omega
    · rw [h2 u e]
  | @queue auth s a _ r _ h1 h2 =>
    by_cases e : u = s
    · subst e
      rw [h1]
      simp only [queuedFrom_append, queuedFrom_cons]
      unfold days21 at hT'
      rw [if_pos (by omega)]
      simp [queuedFrom]
    · rw [h2 u e]
  | @dequeue auth s a l taken r' _ r d _ h1 h2 =>
    by_cases e : u = s
    · subst e
      rw [h1]
      have := fifo_from (T := T) d.fifo (h.ball.inv.user p u).amounts
      simp only
      omega
    · rw [h2 u e]
  | @withdraw auth s a tk l taken r' ho r d _ h1 h2 =>
    by_cases e : u = s
    · subst e
      rw [h1]
      have := fifo_keep (T := T) d.fifo fun e he => by have := he rfl; omega
      simp only [this]
      omega
    · rw [h2 u e]

/-- **C32** Whatever happens in less than 21 days: the shares that a depositor had not queued at the start are
still in the backstop at the end, as shares or in his queue. Hence leaving takes at least 21 days. -/
theorem C32_lock {w w' : World} (h : Reachable w) (hs : Steps w w') (ht : w'.time < w.time + days21) (p u : Address) :
    (w.backstop.getUserBal p u).shares ≤
      (w'.backstop.getUserBal p u).shares + queueTotal (w'.backstop.getUserBal p u).q4w := by
  have key : (w.backstop.getUserBal p u).shares + queuedFrom (w.time + days21) (w.backstop.getUserBal p u).q4w ≤
      (w'.backstop.getUserBal p u).shares + queuedFrom (w.time + days21) (w'.backstop.getUserBal p u).q4w := by
    induction hs with
    | refl => exact le_refl _
    | @tail a b hab hst ih =>
      obtain ⟨op, hst⟩ := hst
      have ha := h.steps hab
      have h1 := (step_res ha.base hst).time
      have h2 := (Steps.poolAddr h.base hab).2.2.2.2
      exact le_trans (ih (by omega)) (lock_step ha hst p u (by omega) (by omega))
  have h1 := queuedFrom_nonneg (T := w.time + days21) (h.ball.inv.user p u).amounts
  have h2 := queuedFrom_le (T := w.time + days21) ((h.steps hs).ball.inv.user p u).amounts
  omega

/-- a history in which shares are queued and withdrawn after unlocking; the queue of carol is full of
shares that she held 20 days earlier -/
example : ∃ w w', Reachable w ∧ Steps w w' ∧ w'.time < w.time + days21 ∧
    (w'.backstop.getUserBal Demo.poolA Demo.carol).shares < (w.backstop.getUserBal Demo.poolA Demo.carol).shares := by
  obtain ⟨w, w', hr, hs, h⟩ := Demo.reach_run (ops := Demo.setup)
    (ops' := Demo.queue.take 3 ++ [.ledger 1500000 300000])
    (f := fun w w' => decide (w'.time < w.time + days21 ∧
      (w'.backstop.getUserBal Demo.poolA Demo.carol).shares < (w.backstop.getUserBal Demo.poolA Demo.carol).shares))
    (by decide +kernel)
  exact ⟨w, w', hr, hs, by simpa using h⟩

/-! ### C33 -/

/-- **C33** The value of a share of a pool's backstop, tokens / shares, is never lowered by an operation,
except by filling a bad debt auction (request type 7) in that pool. -/
theorem C33_share_price {w w' : World} (h : Reachable w) {op : Op} (hs : step w op = .ok w') (p : Address)
    (hpos : 0 < (w.backstop.getPoolBal p).shares)
    (hno : ∀ auth s sp d reqs, op = .pool p auth (.submit s sp d reqs) → ∀ r ∈ reqs, r.type ≠ 7) :
    (w.backstop.getPoolBal p).tokens * (w'.backstop.getPoolBal p).shares ≤
      (w'.backstop.getPoolBal p).tokens * (w.backstop.getPoolBal p).shares := by
  have inv := h.ball.inv
  cases h.balCase hs p with
  | same h1 h2 => rw [h1]
  | @pool auth c ho h1 h2 h3 h4 h5 =>
    rw [h1]
    refine mul_le_mul_of_nonneg_right (h3 fun hd => ?_) hpos.le
    cases c with
    | submit s sp d reqs =>
      obtain ⟨r, hr, h7⟩ := hd
      exact hno auth s sp d reqs ho r hr h7
    | _ => first | exact hd.elim | cases hd
  | @claim auth s ps d _ _ cr _ => exact cr.price p (by omega)
  | @deposit auth s a m _ r _ h0 h1 h2 =>
    rw [h0]
    obtain ⟨_, k, _⟩ := toShares_price r.minted r.nonneg (inv.pool p) (by omega)
    obtain ⟨k1, k2, k3⟩ := k (by omega)
    simp only
    linarith
  | @queue auth s a _ r h0 h1 h2 => rw [h0]
  | @dequeue auth s a l taken r' _ r d h0 h1 h2 => rw [h0]
  | @withdraw auth s a tk l taken r' ho r d h0 h1 h2 =>
    rw [h0]
    have hp := r.paid
    unfold toTokens at hp
    rw [if_neg (by omega)] at hp
    have := (mulDivFloor_spec hp hpos).1
    simp only
    linarith

/-- a withdrawal that does not divide evenly -/
example : ∃ w w', Reachable w ∧
    step w (.backstop [Demo.carol] (.withdraw Demo.carol Demo.poolA 120000000000)) = .ok w' ∧
    0 < (w.backstop.getPoolBal Demo.poolA).shares := by
  obtain ⟨w, w', _, hr, hs, h⟩ := Demo.reach_step (ops := Demo.setup ++ Demo.queue.take 4)
    (op := .backstop [Demo.carol] (.withdraw Demo.carol Demo.poolA 120000000000))
    (f := fun w _ => decide (0 < (w.backstop.getPoolBal Demo.poolA).shares)) (by decide +kernel)
  exact ⟨w, w', hr, hs, by simpa using h⟩

/-- the exception is needed: the bad debt auction in the demo lowers the share price -/
example : ∃ w w' auth s sp d reqs, Reachable w ∧ step w (.pool Demo.poolA auth (.submit s sp d reqs)) = .ok w' ∧
    0 < (w.backstop.getPoolBal Demo.poolA).shares ∧
    (w'.backstop.getPoolBal Demo.poolA).tokens * (w.backstop.getPoolBal Demo.poolA).shares <
      (w.backstop.getPoolBal Demo.poolA).tokens * (w'.backstop.getPoolBal Demo.poolA).shares := by
  obtain ⟨w, w', _, hr, hs, h⟩ := Demo.reach_step (ops := Demo.story.take (Demo.story.length - 1))
    (op := .pool Demo.poolA [Demo.dave] (.submit Demo.dave Demo.dave Demo.dave [⟨7, Demo.backstopA, 100⟩]))
    (f := fun w w' => decide (0 < (w.backstop.getPoolBal Demo.poolA).shares ∧
      (w'.backstop.getPoolBal Demo.poolA).tokens * (w.backstop.getPoolBal Demo.poolA).shares <
      (w.backstop.getPoolBal Demo.poolA).tokens * (w'.backstop.getPoolBal Demo.poolA).shares)) (by decide +kernel)
  exact ⟨w, w', _, _, _, _, _, hr, hs, by simpa using h⟩

/-! ### C34 -/

/-- **C34** A deposit mints shares that are worth at most the deposit right after it: `minted * tokens / shares ≤ amount`.
(If the pool has no shares, it must not hold donated tokens either.) -/
theorem C34_no_profit {w w' : World} (h : Reachable w) {auth : List Address} {s p : Address} {a : Int}
    (hs : step w (.backstop auth (.deposit s p a)) = .ok w')
    (h0 : (w.backstop.getPoolBal p).shares = 0 → (w.backstop.getPoolBal p).tokens = 0) :
    let minted := (w'.backstop.getUserBal p s).shares - (w.backstop.getUserBal p s).shares
    0 < minted ∧ (w'.backstop.getPoolBal p).tokens = (w.backstop.getPoolBal p).tokens + a ∧
      minted * (w'.backstop.getPoolBal p).tokens ≤ a * (w'.backstop.getPoolBal p).shares := by
  have inv := h.ball.inv
  simp only [step, bind_ok, require_ok, backstopCall, pure_ok, Prod.exists] at hs
  obtain ⟨_, _, m, w2, hc, e2⟩ := hs
  rw [e2] at hc
  have r := deposit_res hc
  obtain ⟨x, b1, i, w3, hu, _, _, hw⟩ := r.ex
  have hw := congrArg World.backstop hw
  change w'.backstop = setBal _ _ _ _ _ at hw
  have e1 : w'.backstop.getUserBal p s =
      { w.backstop.getUserBal p s with shares := (w.backstop.getUserBal p s).shares + m } := by
    rw [hw, getUserBal_set, if_pos ⟨rfl, rfl⟩]
  have e2 : w'.backstop.getPoolBal p = { w.backstop.getPoolBal p with
        tokens := (w.backstop.getPoolBal p).tokens + a, shares := (w.backstop.getPoolBal p).shares + m } := by
    rw [hw, getPoolBal_set, if_pos rfl]
  rw [e1, e2]
  simp only
  have hn := inv.shares_nonneg p
  obtain ⟨k0, k1, k2⟩ := toShares_price r.minted r.nonneg (inv.pool p) (by omega)
  have := r.nonzero
  refine ⟨by omega, trivial, ?_⟩
  by_cases hz : (w.backstop.getPoolBal p).shares = 0
  · rw [hz, h0 hz, k2 hz]; linarith
  · obtain ⟨_, q2, _⟩ := k1 hz
    linarith

example : ∃ w w', Reachable w ∧
    step w (.backstop [Demo.carol] (.deposit Demo.carol Demo.poolA 77777777)) = .ok w' ∧
    0 < (w.backstop.getPoolBal Demo.poolA).shares ∧ (w.backstop.getPoolBal Demo.poolA).shares ≠ (w.backstop.getPoolBal Demo.poolA).tokens := by
  obtain ⟨w, w', _, hr, hs, h⟩ := Demo.reach_step (ops := Demo.story)
    (op := .backstop [Demo.carol] (.deposit Demo.carol Demo.poolA 77777777))
    (f := fun w _ => decide (0 < (w.backstop.getPoolBal Demo.poolA).shares ∧ (w.backstop.getPoolBal Demo.poolA).shares ≠ (w.backstop.getPoolBal Demo.poolA).tokens)) (by decide +kernel)
  exact ⟨w, w', hr, hs, by simpa using h⟩

/-! ### C35 -/

/-- **C35** The `draw` entry point takes tokens only from the pool that authorized it, never more than it has. -/
theorem C35_draw_entry {w w' : World} {auth : List Address} {p d : Address} {a : Int}
    (h : backstopCall w auth (.draw p a d) = .ok w') :
    p ∈ auth ∧ 0 ≤ a ∧ a ≤ (w.backstop.getPoolBal p).tokens ∧
    (w'.backstop.getPoolBal p).tokens = (w.backstop.getPoolBal p).tokens - a ∧
    ∀ q, q ≠ p → w'.backstop.getPoolBal q = w.backstop.getPoolBal q := by
  simp only [backstopCall, draw, bind_ok, requireAuth_ok] at h
  obtain ⟨_, hm, h⟩ := h
  have r := executeDraw_res h
  obtain ⟨i, _, t⟩ := r.ex
  have e := congrArg World.backstop t.frame
  change w'.backstop = w.backstop.setPoolBal p _ at e
  refine ⟨hm, r.nonneg, r.le, ?_, fun q hq => ?_⟩
  · rw [e, getPoolBal_setPoolBal, if_pos rfl]
  · rw [e, getPoolBal_setPoolBal, if_neg hq]

/-- **C35** In any history, the tokens of a pool's backstop shrink only when the pool itself draws them to
pay the filler of its bad debt auction, or when a depositor withdraws. -/
theorem C35_only_own_draws {w w' : World} (h : Reachable w) {op : Op} (hs : step w op = .ok w') (p : Address)
    (hlt : (w'.backstop.getPoolBal p).tokens < (w.backstop.getPoolBal p).tokens) :
    (∃ auth s sp d reqs, op = .pool p auth (.submit s sp d reqs) ∧ ∃ r ∈ reqs, r.type = 7) ∨
    ∃ auth s a, op = .backstop auth (.withdraw s p a) ∧ s ∈ auth := by
  have inv := h.ball.inv
  cases h.balCase hs p with
  | same h1 h2 => rw [h1] at hlt; omega
  | @pool auth c ho h1 h2 h3 h4 h5 =>
    left
    by_contra hn
    have := h3 fun hd => hn ?_
    · omega
    cases c with
    | submit s sp d reqs => exact ⟨auth, s, sp, d, reqs, ho, hd⟩
    | _ => first | exact hd.elim | cases hd
  | @claim auth s ps d _ _ cr _ =>
    have := cr.tokens p
    change _ ≤ (w'.backstop.getPoolBal p).tokens at this
    omega
  | @deposit auth s a m _ r _ h0 h1 h2 => rw [h0] at hlt; have := r.nonneg; simp only at hlt; omega
  | @queue auth s a _ r h0 h1 h2 => rw [h0] at hlt; simp at hlt
  | @dequeue auth s a l taken r' _ r d h0 h1 h2 => rw [h0] at hlt; simp at hlt
  | @withdraw auth s a tk l taken r' ho r d h0 h1 h2 => exact .inr ⟨auth, s, a, ho, r.auth⟩

/-- **C35** The backstop never holds tokens or shares for anything but a pool deployed by the factory. -/
theorem C35_only_factory_pools {w : World} (h : Reachable w) {p : Address}
    (hp : (w.backstop.getPoolBal p).shares ≠ 0 ∨ (w.backstop.getPoolBal p).tokens ≠ 0 ∨
      w.backstop.emisCfg p ≠ none ∨ p ∈ w.backstop.rewardZone ∨ w.backstop.poolEmis p ≠ 0) :
    Factory.isPool w p = true := h.dep.known p hp

/-- the hypotheses of the two theorems occur: see the bad debt auction in the demo -/
example : ∃ w w', Reachable w ∧
    step w (.pool Demo.poolA [Demo.dave] (.submit Demo.dave Demo.dave Demo.dave [⟨7, Demo.backstopA, 100⟩])) = .ok w' ∧
    (w'.backstop.getPoolBal Demo.poolA).tokens < (w.backstop.getPoolBal Demo.poolA).tokens := by
  obtain ⟨w, w', _, hr, hs, h⟩ := Demo.reach_step (ops := Demo.story.take (Demo.story.length - 1))
    (op := .pool Demo.poolA [Demo.dave] (.submit Demo.dave Demo.dave Demo.dave [⟨7, Demo.backstopA, 100⟩]))
    (f := fun w w' => decide ((w'.backstop.getPoolBal Demo.poolA).tokens < (w.backstop.getPoolBal Demo.poolA).tokens))
    (by decide +kernel)
  exact ⟨w, w', hr, hs, by simpa using h⟩

end Props
end Blend
