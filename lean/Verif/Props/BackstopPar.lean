import Verif.Spec.BackstopPar
import Verif.Lemmas.BStep
import Verif.Lemmas.BDeployed
import Verif.Props.Backstop
import Verif.Props.SameLedger
import Verif.Examples.InterestDemo
/-
  C94: a share of the backstop is worth at most one backstop token, unless an interest auction has been filled.

  The statements use `Verif/Spec/BackstopPar.lean`.
-/

namespace Blend
namespace Backstop
open Spec

theorem mint_ge {pb : PoolBalance} {a m : Int} (h : toShares pb a = .ok m) (ha : 0 ≤ a) (h0 : 0 ≤ pb.tokens)
    (hp : pb.tokens ≤ pb.shares) : a ≤ m := by
  obtain ⟨_, k, k0⟩ := toShares_price h ha h0 (by omega)
  by_cases hz : pb.shares = 0
  · rw [k0 hz]
  · obtain ⟨t0, _, t2⟩ := k hz
    by_contra hlt
    have h1 : (m + 1) * pb.tokens ≤ a * pb.tokens := mul_le_mul_of_nonneg_right (by omega) h0
    have h2 : a * pb.tokens ≤ a * pb.shares := mul_le_mul_of_nonneg_left hp ha
    nlinarith

theorem creditLoop_par {lp c : Int} {cl : SMap Int} {dst : Address} (hlp : 0 ≤ lp) (hc : 0 < c)
    (hcl : ∀ p x, cl.get p = some x → 0 ≤ x) (q : Address) : ∀ {ps : List Address} {b b' : BackstopState},
    (∀ p, 0 ≤ (b.getPoolBal p).tokens ∧ 0 ≤ (b.getPoolBal p).shares) →
    (b.getPoolBal q).tokens ≤ (b.getPoolBal q).shares →
    claimDepositLoop lp c cl dst ps b = .ok b' → (b'.getPoolBal q).tokens ≤ (b'.getPoolBal q).shares := by
  intro ps
  induction ps with
  | nil =>
    intro b b' _ hq h
    simp only [claimDepositLoop, pure_ok] at h
    subst h
    exact hq
  | cons p ps ih =>
    intro b b' h0 hq h
    simp only [claimDepositLoop, bind_ok, unwrap_ok, pbDeposit, addShares, chk_ok, pure_ok] at h
    obtain ⟨x, hx, dep, hd, m, hm, _, ⟨_, ⟨_, rfl⟩, _, ⟨_, rfl⟩, rfl⟩, _, ⟨_, ⟨_, rfl⟩, rfl⟩, h⟩ := h
    have hx0 := hcl p x hx
    have hdep : 0 ≤ dep := mulDivFloor_nonneg hd hc (mul_nonneg hlp hx0)
    have m0 := (toShares_price hm hdep (h0 p).1 (h0 p).2).1
    rw [setBal_eq] at h
    set b1 := setBal b p dst _ _ with hb1
    have pb1 : ∀ q, b1.getPoolBal q = if q = p then
        { b.getPoolBal p with tokens := (b.getPoolBal p).tokens + dep, shares := (b.getPoolBal p).shares + m } else b.getPoolBal q :=
      fun q => getPoolBal_set _ _ _ _ _ _
    refine ih (b := b1) (fun q => ?_) ?_ h
    · rw [pb1]; split
      · have := h0 p; constructor <;> simp only <;> omega
      · exact h0 q
    · rw [pb1]; split
      · rename_i e; subst e
        have := mint_ge hm hdep (h0 q).1 hq
        simp only; omega
      · exact hq

theorem claim_par {w w' : World} {auth : List Address} {s d : Address} {ps : List Address} {n : Int} (q : Address)
    (inv : BInv w.time w.backstop) (hq : (w.backstop.getPoolBal q).tokens ≤ (w.backstop.getPoolBal q).shares)
    (h : claim w auth s ps d = .ok (n, w')) : (w'.backstop.getPoolBal q).tokens ≤ (w'.backstop.getPoolBal q).shares := by
  simp only [claim, executeClaim, cometDeposit, bind_ok, pure_ok, Prod.exists, ite_ok, inst, unwrap_ok, requireAuth_ok,
    Prod.mk.injEq, chk_ok] at h
  obtain ⟨_, hm, _, _, c, cl, b1, hl, ⟨hc, i, hi, lp, w2, ⟨w3, ht, w4, hmt, s', ⟨_, rfl⟩, rfl, rfl⟩, b2, hd, _, rfl⟩ |
      ⟨_, _, rfl⟩⟩ := h
  · obtain ⟨l1, l2⟩ := claimLoop_same hl
    have l2 := l2 (by simp)
    obtain ⟨_, k2, k3, _⟩ :=
      claimLoop_ok (F := True) (U := fun _ => True) trivial (S := BS.of w) inv hl
    have mt := mint_res hmt
    have hw4 : w4.backstop = b1 := by rw [mt.frame]; show w3.backstop = b1; rw [(transfer_res ht).frame]; rfl
    have hcl : ∀ p x, cl.get p = some x → 0 ≤ x := by
      intro p x hx
      by_cases hp : p ∈ ps
      · obtain ⟨y, hy, hy0⟩ := k3 p hp
        rw [hx] at hy; cases hy; exact hy0
      · rw [claimLoop_keep hl p hp] at hx; simp at hx
    have e : b1.getPoolBal q = w.backstop.getPoolBal q := by rw [l1]; rfl
    have := creditLoop_par (b' := b2) mt.nonneg hc hcl q (b := b1)
      (fun p => ⟨k2.pool p, le_trans (k2.shares_nonneg p).1 (k2.shares_nonneg p).2⟩) (by rw [e]; exact hq)
      (by simpa [hw4, World.setBackstop] using hd)
    simpa [World.setBackstop] using this
  · obtain ⟨l1, _⟩ := claimLoop_same hl
    have e : b1.getPoolBal q = w.backstop.getPoolBal q := by rw [l1]; rfl
    simpa [World.setBackstop, e] using hq

end Backstop

namespace Props
open Spec Backstop

/-- **C94** No operation except filling an interest auction of the pool makes a share worth more than one token. -/
theorem C94_step {w w' : World} (hr : Reachable w) {op : Op} (hs : step w op = .ok w') (p : Address)
    (hno : ¬ FillsInterest p op) (hp : AtMostPar w p) : AtMostPar w' p := by
  have inv := hr.ball.inv
  unfold AtMostPar at *
  cases hr.balCase hs p with
  | same h1 h2 => rw [h1]; exact hp
  | @pool auth c ho h1 h2 h3 h4 h5 =>
    rw [h1]
    refine le_trans (h4 fun hd => ?_) hp
    cases c with
    | submit s sp d reqs => exact hno ⟨auth, s, sp, d, reqs, ho, hd⟩
    | _ => first | exact hd.elim | cases hd
  | @claim auth s ps d ho _ _ _ =>
    subst ho
    simp only [step, bind_ok, require_ok] at hs
    obtain ⟨_, ha, hs⟩ := hs
    simp only [backstopCall, bind_ok, pure_ok, Prod.exists] at hs
    obtain ⟨n, w1, hc, rfl⟩ := hs
    exact claim_par p inv hp hc
  | @deposit auth s a m _ r _ h0 h1 h2 =>
    rw [h0]
    have := mint_ge r.minted r.nonneg (inv.pool p) hp
    simp only; omega
  | @queue auth s a _ r h0 h1 h2 => rw [h0]; exact hp
  | @dequeue auth s a l taken r' _ r d h0 h1 h2 => rw [h0]; exact hp
  | @withdraw auth s a tk l taken r' ho r d h0 h1 h2 =>
    rw [h0]
    obtain ⟨l1, l2, _⟩ := r.le
    have pos := r.pos
    have hpd := r.paid
    unfold toTokens at hpd
    rw [if_neg (by omega)] at hpd
    have k := mulDivFloor_spec hpd (by omega)
    simp only
    generalize (w.backstop.getPoolBal p).tokens = T at *
    generalize (w.backstop.getPoolBal p).shares = S at *
    by_contra hlt
    have h1 : (S - T) * a ≤ (S - T) * S := mul_le_mul_of_nonneg_left l2 (by omega)
    have h2 : (tk + 1) * S ≤ (T - S + a) * S := mul_le_mul_of_nonneg_right (by omega) (by omega)
    nlinarith

/-- **C94** Started with no more tokens than shares (as every pool does), without a fill of an interest auction of the pool there are
never more tokens than shares. -/
theorem C94_at_most_par {w w' : World} (hr : Reachable w) {p : Address}
    (h : History (fun op => ¬ FillsInterest p op) w w') (hp : AtMostPar w p) : Reachable w' ∧ AtMostPar w' p := by
  induction h with
  | refl => exact ⟨hr, hp⟩
  | tail _ ho hs ih => exact ⟨ih.1.step hs, C94_step ih.1 hs p ho ih.2⟩

/-- **C94** in a new deployment -/
theorem C94_from_genesis {w w' : World} (g : Genesis w) {p : Address}
    (h : History (fun op => ¬ FillsInterest p op) w w') : AtMostPar w' p :=
  (C94_at_most_par ⟨w, g, .refl _⟩ h (by unfold AtMostPar BackstopState.getPoolBal; rw [g.backstop]; exact le_refl _)).2

/-- **C94** While a share is worth at most one token, a deposit mints at least as many shares as it pays tokens, and the shares
minted are worth more than the deposit less one unit: nothing that others did before makes a deposit round to nothing. -/
theorem C94_deposit {w w' : World} (hr : Reachable w) {auth : List Address} {s p : Address} {a : Int}
    (hs : step w (.backstop auth (.deposit s p a)) = .ok w') (hp : AtMostPar w p) :
    let minted := (w'.backstop.getPoolBal p).shares - (w.backstop.getPoolBal p).shares
    a ≤ minted ∧
    (w'.backstop.getUserBal p s).shares = (w.backstop.getUserBal p s).shares + minted ∧
    (a - 1) * (w'.backstop.getPoolBal p).shares < minted * (w'.backstop.getPoolBal p).tokens := by
  have inv := hr.ball.inv
  have hc := hs
  simp only [step, bind_ok, require_ok] at hs
  obtain ⟨_, ha, hs⟩ := hs
  simp only [backstopCall, bind_ok, pure_ok, Prod.exists] at hs
  obtain ⟨m, w1, hd, rfl⟩ := hs
  have r := deposit_res hd
  obtain ⟨x, b1, i, w2, hu, hi, ht, hw⟩ := r.ex
  have e1 : w1.backstop.getPoolBal p = { w.backstop.getPoolBal p with
      tokens := (w.backstop.getPoolBal p).tokens + a
      shares := (w.backstop.getPoolBal p).shares + m } := by
    rw [hw]; simp only [World.setBackstop]; rw [getPoolBal_set, if_pos rfl]
  have e2 : w1.backstop.getUserBal p s =
      { w.backstop.getUserBal p s with shares := (w.backstop.getUserBal p s).shares + m } := by
    rw [hw]; simp only [World.setBackstop]; rw [getUserBal_set, if_pos ⟨rfl, rfl⟩]
  have hge := mint_ge r.minted r.nonneg (inv.pool p) hp
  obtain ⟨m0, k, k0⟩ := toShares_price r.minted r.nonneg (inv.pool p) (le_trans (inv.pool p) hp)
  unfold AtMostPar at hp
  have ht0 := inv.pool p
  have hne := r.nonzero
  rw [e1, e2]
  simp only
  generalize (w.backstop.getPoolBal p).tokens = T at *
  generalize (w.backstop.getPoolBal p).shares = S at *
  refine ⟨by omega, by omega, ?_⟩
  by_cases hz : S = 0
  · have hm := k0 hz
    have : T = 0 := by omega
    subst this hz hm
    have hpos : 0 < m := by omega
    simp only [Int.zero_add, Int.sub_zero]
    nlinarith
  · obtain ⟨t0, t1, t2⟩ := k hz
    have : S + m - S = m := by omega
    rw [this]
    nlinarith

end Props

namespace Demo
open Pool Spec

/-- decidable form of `¬ FillsInterest p` -/
def notFill (p : Address) (op : Op) : Bool :=
  match op with
  | .pool q _ (.submit _ _ _ reqs) => q != p || reqs.all fun r => r.type != 8
  | _ => true

theorem notFill_ok {p : Address} {op : Op} (h : notFill p op = true) : ¬ FillsInterest p op := by
  rintro ⟨auth, s, sp, d, reqs, rfl, r, hr, h8⟩
  simp only [notFill, bne_self_eq_false, Bool.false_or, List.all_eq_true] at h
  exact absurd h8 (by simpa using h r hr)

/-- the history of the demo with its bad debt auction: shares end up worth less than one token, and a deposit mints more shares
than it pays tokens -/
example : ∃ w w' w'', Genesis w ∧ History (fun op => ¬ FillsInterest poolA op) w w' ∧
    0 < (w'.backstop.getPoolBal poolA).tokens ∧
    (w'.backstop.getPoolBal poolA).tokens < (w'.backstop.getPoolBal poolA).shares ∧
    step w' (.backstop [carol] (.deposit carol poolA 1000)) = .ok w'' ∧
    1000 < (w''.backstop.getPoolBal poolA).shares - (w'.backstop.getPoolBal poolA).shares := by
  obtain ⟨w', w'', hrun, _, hs, h⟩ := Demo.reach_step (ops := story) (op := .backstop [carol] (.deposit carol poolA 1000))
    (f := fun w' w'' => decide (0 < (w'.backstop.getPoolBal poolA).tokens ∧
    (w'.backstop.getPoolBal poolA).tokens < (w'.backstop.getPoolBal poolA).shares ∧
    1000 < (w''.backstop.getPoolBal poolA).shares - (w'.backstop.getPoolBal poolA).shares)) (by decide +kernel)
  obtain ⟨h1, h2, h3⟩ := of_decide_eq_true h
  refine ⟨genesis, w', w'', genesis_ok, Props.run_history hrun (fun op ho => notFill_ok ?_), h1, h2, hs, h3⟩
  have : story.all (notFill poolA) = true := by decide
  exact List.all_eq_true.1 this op ho

/-- the exception is needed: after the fill of an interest auction a share is worth more than one token -/
example : ∃ w w', Reachable w ∧ AtMostPar w poolA ∧
    step w (.pool poolA [carol] (.submit carol carol carol [⟨8, backstopA, 50⟩])) = .ok w' ∧ ¬ AtMostPar w' poolA := by
  obtain ⟨w, w', _, hr, hs, h⟩ := Demo.reach_step (ops := setup ++ trade ++ interest ++ [.ledger 1100 221])
    (op := .pool poolA [carol] (.submit carol carol carol [⟨8, backstopA, 50⟩]))
    (f := fun w w' => decide ((w.backstop.getPoolBal poolA).tokens ≤ (w.backstop.getPoolBal poolA).shares ∧
      ¬ (w'.backstop.getPoolBal poolA).tokens ≤ (w'.backstop.getPoolBal poolA).shares)) (by decide +kernel)
  obtain ⟨h1, h2⟩ := of_decide_eq_true h
  exact ⟨w, w', hr, h1, hs, h2⟩

end Demo

namespace Props
open Spec Demo

/-- FINDING (C32): dequeueing does not undo queueing. It takes from the oldest entries: carol's 150000 queued shares have waited 21 days
and could be withdrawn; she queues 50000 more and dequeues 50000, and now only 100000 can be withdrawn, the rest has to wait again. -/
theorem C32_dequeue_is_no_undo : ∃ w w1 w2 t, Reachable w ∧
    (w.backstop.getUserBal poolA carol).q4w = [⟨150000000000, t⟩] ∧ t ≤ w.time ∧
    (∃ v, step w (.backstop [carol] (.withdraw carol poolA 150000000000)) = .ok v) ∧
    step w (.backstop [carol] (.queueWithdrawal carol poolA 50000000000)) = .ok w1 ∧
    step w1 (.backstop [carol] (.dequeueWithdrawal carol poolA 50000000000)) = .ok w2 ∧
    (w2.backstop.getUserBal poolA carol).shares = (w.backstop.getUserBal poolA carol).shares ∧
    (w2.backstop.getUserBal poolA carol).q4w = [⟨100000000000, t⟩, ⟨50000000000, w.time + 1814400⟩] ∧
    step w2 (.backstop [carol] (.withdraw carol poolA 150000000000)) = .error (.backstop .notExpired) := by
  obtain ⟨w, w1, _, hr, hs, h⟩ := Demo.reach_step (ops := setup ++ [queue[0], .ledger 1814400 362880])
    (op := .backstop [carol] (.queueWithdrawal carol poolA 50000000000))
    (f := fun w w1 => okAnd (step w1 (.backstop [carol] (.dequeueWithdrawal carol poolA 50000000000))) fun w2 =>
      optAnd ((w.backstop.getUserBal poolA carol).q4w[0]?) fun e => decide (
        (w.backstop.getUserBal poolA carol).q4w = [⟨150000000000, e.exp⟩] ∧ e.exp ≤ w.time ∧
        (w2.backstop.getUserBal poolA carol).shares = (w.backstop.getUserBal poolA carol).shares ∧
        (w2.backstop.getUserBal poolA carol).q4w = [⟨100000000000, e.exp⟩, ⟨50000000000, w.time + 1814400⟩]) &&
      okAnd (step w (.backstop [carol] (.withdraw carol poolA 150000000000))) (fun _ => true) &&
      errIs (step w2 (.backstop [carol] (.withdraw carol poolA 150000000000))) (.backstop .notExpired)) (by decide +kernel)
  obtain ⟨w2, h2, h⟩ := okAnd_iff.1 h
  obtain ⟨e, _, h⟩ := optAnd_iff.1 h
  simp only [Bool.and_eq_true, decide_eq_true_eq, okAnd_iff, errIs_iff] at h
  obtain ⟨⟨⟨k1, k2, k3, k4⟩, v, k5, _⟩, k6⟩ := h
  exact ⟨w, w1, w2, e.exp, hr, k1, k2, ⟨v, k5⟩, hs, h2, k3, k4, k6⟩

end Props
end Blend
