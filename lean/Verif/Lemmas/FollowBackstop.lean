import Verif.Lemmas.BStep
import Verif.Lemmas.FollowStep
import Verif.Spec.FollowBackstop
/-
  The observer of the backstop can follow every operation (C76).
-/

namespace Blend
open Spec
namespace Backstop

theorem put_apply {α : Type} (f : Address → Address → α) (p u q v : Address) (x : α) :
    put f p u x q v = if q = p ∧ v = u then x else f q v := by
  unfold put
  by_cases hq : q = p
  · subst hq
    simp only [upd_apply, if_true, true_and]
  · simp only [upd_apply, hq, if_false, false_and]

theorem _root_.Blend.Spec.BackstopNotes.Right.congr {b b' : BackstopState} {F : BackstopNotes} (m : F.Right b)
    (h1 : ∀ q, b'.getPoolBal q = b.getPoolBal q) (h2 : ∀ q u, b'.getUserBal q u = b.getUserBal q u) : F.Right b' :=
  ⟨fun p => by rw [h1]; exact m.pool p, fun p u => by rw [h2]; exact m.user p u⟩

/-- one pool balance and one user balance change -/
theorem _root_.Blend.Spec.BackstopNotes.Right.set {b b1 : BackstopState} {F : BackstopNotes} (m : F.Right b)
    (h1 : ∀ q, b1.getPoolBal q = b.getPoolBal q) (h2 : ∀ q u, b1.getUserBal q u = b.getUserBal q u) {p u : Address} {pb : PoolBalance}
    {ub : UserBalance} : BackstopNotes.Right (setBal b1 p u pb ub)
      { tokens := upd F.tokens p pb.tokens, shares := upd F.shares p pb.shares, queued := upd F.queued p pb.q4w
        own := put F.own p u ub.shares, queue := put F.queue p u ub.q4w } := by
  refine ⟨fun q => ?_, fun q v => ?_⟩
  · rw [getPoolBal_set, h1]
    simp only [upd_apply]
    split
    · exact ⟨rfl, rfl, rfl⟩
    · exact m.pool q
  · rw [getUserBal_set, h2]
    simp only [put_apply]
    split
    · exact ⟨rfl, rfl⟩
    · exact m.user q v

/-- the tokens of one pool change -/
theorem _root_.Blend.Spec.BackstopNotes.Right.tok {b : BackstopState} {F : BackstopNotes} (m : F.Right b) {p : Address} {n : Int} :
    BackstopNotes.Right (b.setPoolBal p { b.getPoolBal p with tokens := n }) { F with tokens := upd F.tokens p n } := by
  refine ⟨fun q => ?_, m.user⟩
  rw [getPoolBal_setPoolBal]
  simp only [upd_apply]
  split
  · rename_i h; subst h; exact ⟨rfl, (m.pool q).2⟩
  · exact m.pool q

theorem _root_.Blend.Spec.BackstopNotes.Right.noQ {b : BackstopState} {F : BackstopNotes} (m : F.Right b) (p : Address) :
    upd F.queued p (b.getPoolBal p).q4w = F.queued := by
  funext q; rw [upd_apply]; split
  · rename_i h; subst h; exact (m.pool q).2.2.symm
  · rfl

theorem _root_.Blend.Spec.BackstopNotes.Right.noS {b : BackstopState} {F : BackstopNotes} (m : F.Right b) (p : Address) :
    upd F.shares p (b.getPoolBal p).shares = F.shares := by
  funext q; rw [upd_apply]; split
  · rename_i h; subst h; exact (m.pool q).2.1.symm
  · rfl

theorem _root_.Blend.Spec.BackstopNotes.Right.noT {b : BackstopState} {F : BackstopNotes} (m : F.Right b) (p : Address) :
    upd F.tokens p (b.getPoolBal p).tokens = F.tokens := by
  funext q; rw [upd_apply]; split
  · rename_i h; subst h; exact (m.pool q).1.symm
  · rfl

theorem _root_.Blend.Spec.BackstopNotes.Right.noO {b : BackstopState} {F : BackstopNotes} (m : F.Right b) (p u : Address) :
    put F.own p u (b.getUserBal p u).shares = F.own := by
  funext q v; rw [put_apply]; split
  · rename_i h; obtain ⟨rfl, rfl⟩ := h; exact (m.user q v).1.symm
  · rfl

theorem _root_.Blend.Spec.BackstopNotes.Right.noE {b : BackstopState} {F : BackstopNotes} (m : F.Right b) (p u : Address) :
    put F.queue p u (b.getUserBal p u).q4w = F.queue := by
  funext q v; rw [put_apply]; split
  · rename_i h; obtain ⟨rfl, rfl⟩ := h; exact (m.user q v).2.symm
  · rfl

/-- events that do not concern the balances of the backstop -/
def quiet : Event → Bool
  | .deposit .. | .queueWithdrawal .. | .dequeueWithdrawal .. | .backstopWithdraw .. | .draw .. | .donate .. => false
  | _ => true

theorem see_quiet {F : BackstopNotes} {e : Event} (h : quiet e = true) : F.see e = F := by
  cases e <;> first | rfl | simp [quiet] at h

theorem fold_quiet {l : List Event} (h : ∀ e ∈ l, quiet e = true) (F : BackstopNotes) : l.foldl BackstopNotes.see F = F := by
  induction l generalizing F with
  | nil => rfl
  | cons e l ih =>
    show l.foldl BackstopNotes.see (F.see e) = F
    rw [see_quiet (h e (by simp))]
    exact ih (fun x hx => h x (by simp [hx])) F

theorem takeOldest_loop {now : Nat} {req : Bool} : ∀ {l l' : List Q4W} {n left : Int},
    dequeueLoop now req l n = .ok (l', left) → l' = takeOldest n l := by
  intro l
  induction l with
  | nil =>
    intro l' n left h
    simp only [dequeueLoop, pure_ok, Prod.mk.injEq] at h
    exact h.1.symm
  | cons e t ih =>
    intro l' n left h
    simp only [dequeueLoop, ite_ok, bind_ok, chk_ok, pure_ok, Prod.mk.injEq, error_ok, and_false, or_false] at h
    obtain ⟨_, ⟨h1, _, ⟨_, rfl⟩, rfl, _⟩ | ⟨h1, ⟨h2, rfl, _⟩ | ⟨h2, _, ⟨_, rfl⟩, h⟩⟩⟩ := h
    · simp [takeOldest, h1]
    · simp [takeOldest, h2]
    · rw [ih h, takeOldest, if_neg h1, if_neg h2]

/-! ### operations of the backstop -/

theorem deposits_follow {lp n : Int} {claims : SMap Int} {d : Address} : ∀ {ps : List Address} {b b' : BackstopState} {l : List Event}
    {F : BackstopNotes}, F.Right b → claimDepositLoop lp n claims d ps b = .ok b' → claimDepositLog lp n claims d ps b = .ok l →
    BackstopNotes.Right b' (l.foldl BackstopNotes.see F) := by
  intro ps
  induction ps with
  | nil =>
    intro b b' l F m h hl
    simp only [claimDepositLoop, pure_ok] at h
    simp only [claimDepositLog, pure_ok] at hl
    subst h; subst hl; exact m
  | cons p t ih =>
    intro b b' l F m h hl
    simp only [claimDepositLoop, bind_ok] at h
    obtain ⟨a, ha, dep, hd, sh, hm, pb, hpb, ub, hub, h⟩ := h
    simp only [claimDepositLog, bind_ok, pure_ok] at hl
    obtain ⟨a', ha', dep', hd', sh', hm', pb', hpb', ub', hub', l', hl', rfl⟩ := hl
    rw [ha] at ha'; cases ha'
    rw [hd] at hd'; cases hd'
    rw [hm] at hm'; cases hm'
    rw [hpb] at hpb'; cases hpb'
    rw [hub] at hub'; cases hub'
    rw [List.foldl_cons]
    refine ih ?_ h hl'
    simp only [pbDeposit, bind_ok, chk_ok, pure_ok] at hpb
    obtain ⟨_, ⟨_, rfl⟩, _, ⟨_, rfl⟩, rfl⟩ := hpb
    simp only [addShares, bind_ok, chk_ok, pure_ok] at hub
    obtain ⟨_, ⟨_, rfl⟩, rfl⟩ := hub
    have k := m.set (b1 := b) (fun _ => rfl) (fun _ _ => rfl) (p := p) (u := d)
      (pb := { b.getPoolBal p with tokens := (b.getPoolBal p).tokens + dep, shares := (b.getPoolBal p).shares + sh })
      (ub := { b.getUserBal p d with shares := (b.getUserBal p d).shares + sh })
    dsimp only at k
    rw [m.noQ, m.noE] at k
    simp only [BackstopNotes.see, (m.pool p).1, (m.pool p).2.1, (m.user p d).1]
    exact k

/-- calls of the backstop that leave all balances as they are -/
def _root_.Blend.BackstopCall.isQuiet : BackstopCall → Bool
  | .deposit .. | .queueWithdrawal .. | .dequeueWithdrawal .. | .withdraw .. | .claim .. | .draw .. | .donate .. => false
  | _ => true

/-- the observer follows an operation of the backstop -/
theorem backstop_follow {w w' : World} {auth : List Address} {c : BackstopCall} (hs : backstopCall w auth c = .ok w') {l : List Event}
    (hl : backstopLog w auth c = .ok l) (hbal : ∀ q, BalCase w (.backstop auth c) w' q) {F : BackstopNotes} (m : F.Right w.backstop) :
    BackstopNotes.Right w'.backstop (l.foldl BackstopNotes.see F) := by
  have noQ := m.noQ
  have noS := m.noS
  have noT := m.noT
  have noO := m.noO
  have noE := m.noE
  have rest : c.isQuiet = true → (∀ e ∈ l, quiet e = true) → BackstopNotes.Right w'.backstop (l.foldl BackstopNotes.see F) := fun hc hq => by
    rw [fold_quiet hq]
    have key : ∀ q, w'.backstop.getPoolBal q = w.backstop.getPoolBal q ∧ ∀ u, w'.backstop.getUserBal q u = w.backstop.getUserBal q u := by
      intro q
      cases hbal q with
      | same h1 h2 => exact ⟨h1, h2⟩
      | pool e => cases e
      | claim e => cases e; simp [BackstopCall.isQuiet] at hc
      | deposit e => cases e; simp [BackstopCall.isQuiet] at hc
      | queue e => cases e; simp [BackstopCall.isQuiet] at hc
      | dequeue e => cases e; simp [BackstopCall.isQuiet] at hc
      | withdraw e => cases e; simp [BackstopCall.isQuiet] at hc
    exact m.congr (fun q => (key q).1) fun q => (key q).2
  cases c with
  | deposit s p a =>
    simp only [backstopCall, bind_ok, Prod.exists, pure_ok] at hs
    obtain ⟨n, w1, hd, rfl⟩ := hs
    simp only [backstopLog, bind_ok, Prod.exists, pure_ok] at hl
    obtain ⟨n', w1', hd', rfl⟩ := hl
    rw [hd] at hd'; cases hd'
    obtain ⟨x, b1, i, w2, hu, _, _, rfl⟩ := (deposit_res hd).ex
    have k := m.set (emis_same hu).poolBal (emis_same hu).userBal (p := p) (u := s)
      (pb := { w.backstop.getPoolBal p with tokens := (w.backstop.getPoolBal p).tokens + a, shares := (w.backstop.getPoolBal p).shares + n })
      (ub := { w.backstop.getUserBal p s with shares := (w.backstop.getUserBal p s).shares + n })
    dsimp only at k
    rw [noQ, noE] at k
    simp only [List.foldl, BackstopNotes.see, (m.pool p).1, (m.pool p).2.1, (m.user p s).1]
    exact k
  | queueWithdrawal s p a =>
    simp only [backstopCall] at hs
    simp only [backstopLog, bind_ok, Prod.exists, pure_ok] at hl
    obtain ⟨q, w1, hq, rfl⟩ := hl
    obtain ⟨x, b1, hu, rfl⟩ := (queue_res hs).ex
    have hexp : q.exp = w.time + 21 * 24 * 60 * 60 := by
      simp only [executeQueueRet, bind_ok, pure_ok, Prod.exists, unwrap_ok, Prod.mk.injEq] at hq
      obtain ⟨_, _, _, _, _, ub, hub, _, _, q', hq', rfl, _⟩ := hq
      obtain ⟨_, _, rfl⟩ := queueShares_ok hub
      simp only [List.getLast?_append, List.getLast?_singleton, Option.some_or, Option.some.injEq] at hq'
      rw [← hq']
    have k := m.set (emis_same hu).poolBal (emis_same hu).userBal (p := p) (u := s)
      (pb := { w.backstop.getPoolBal p with q4w := (w.backstop.getPoolBal p).q4w + a })
      (ub := ⟨(w.backstop.getUserBal p s).shares - a, (w.backstop.getUserBal p s).q4w ++ [⟨a, w.time + 21 * 24 * 60 * 60⟩]⟩)
    dsimp only at k
    rw [noT, noS] at k
    simp only [List.foldl, BackstopNotes.see, (m.pool p).2.2, (m.user p s).1, (m.user p s).2, hexp]
    exact k
  | dequeueWithdrawal s p a =>
    simp only [backstopLog, pure_ok] at hl
    subst hl
    simp only [backstopCall, dequeueWithdrawal, executeDequeue, bind_ok, pure_ok, Prod.exists, requireAuth_ok,
      pbDequeue, addShares, chk_ok] at hs
    obtain ⟨_, _, _, _, x, b1, hu, ub, hq, _, ⟨_, ⟨_, rfl⟩, rfl⟩, _, ⟨_, _, _, ⟨_, rfl⟩, rfl⟩, rfl⟩ := hs
    simp only [dequeueShares, bind_ok, pure_ok, Prod.exists] at hq
    obtain ⟨q, left, hloop, _, _, rfl⟩ := hq
    rw [takeOldest_loop hloop]
    have k := m.set (emis_same hu).poolBal (emis_same hu).userBal (p := p) (u := s)
      (pb := { w.backstop.getPoolBal p with q4w := (w.backstop.getPoolBal p).q4w - a })
      (ub := ⟨(w.backstop.getUserBal p s).shares + a, takeOldest a (w.backstop.getUserBal p s).q4w⟩)
    dsimp only at k
    rw [noT, noS] at k
    simp only [List.foldl, BackstopNotes.see, (m.pool p).2.2, (m.user p s).1, (m.user p s).2]
    exact k
  | withdraw s p a =>
    simp only [backstopCall, bind_ok, Prod.exists, pure_ok] at hs
    obtain ⟨n, w1, hd, rfl⟩ := hs
    simp only [backstopLog, bind_ok, Prod.exists, pure_ok] at hl
    obtain ⟨n', w1', hd', rfl⟩ := hl
    rw [hd] at hd'; cases hd'
    obtain ⟨q, i, _, _, hb, _⟩ := (withdraw_res hd).ex
    have hq : q = takeOldest a (w.backstop.getUserBal p s).q4w := by
      simp only [withdraw, executeWithdraw, bind_ok, pure_ok, Prod.exists, Prod.mk.injEq, inst, unwrap_ok] at hd
      obtain ⟨_, _, _, _, ub, hq, tk, htk, _, hnz, pb', hpb, i, hi, w2, ht, rfl, rfl⟩ := hd
      simp only [dequeueShares, bind_ok, pure_ok, Prod.exists] at hq
      obtain ⟨q', left, hloop, _, _, rfl⟩ := hq
      have e := congrArg (fun b => (BackstopState.getUserBal b p s).q4w) hb
      rw [(transfer_res ht).frame] at e
      simp only [getUserBal_set, and_self, if_true] at e
      rw [← e, ← takeOldest_loop hloop]
      change (BackstopState.getUserBal (setBal w.backstop p s _ _) p s).q4w = _
      rw [getUserBal_set, if_pos ⟨rfl, rfl⟩]
    subst hq
    rw [hb]
    have k := m.set (b1 := w.backstop) (fun _ => rfl) (fun _ _ => rfl) (p := p) (u := s)
      (pb := ⟨(w.backstop.getPoolBal p).shares - a, (w.backstop.getPoolBal p).tokens - n, (w.backstop.getPoolBal p).q4w - a⟩)
      (ub := { w.backstop.getUserBal p s with q4w := takeOldest a (w.backstop.getUserBal p s).q4w })
    dsimp only at k
    rw [noO] at k
    simp only [List.foldl, BackstopNotes.see, (m.pool p).1, (m.pool p).2.1, (m.pool p).2.2, (m.user p s).2]
    exact k
  | claim s ps d =>
    simp only [backstopCall, bind_ok, Prod.exists, pure_ok, claim, executeClaim, ite_ok, Prod.mk.injEq] at hs
    obtain ⟨n, w1, ⟨_, _, _, _, n1, cl, b1, h1, hs⟩, rfl⟩ := hs
    simp only [backstopLog, claimLog, bind_ok, pure_ok, Prod.exists, ite_ok] at hl
    obtain ⟨n1', cl', b1', h1', hl⟩ := hl
    rw [h1] at h1'; cases h1'
    obtain ⟨e1, _⟩ := claimLoop_same h1
    have m1 : F.Right b1 := m.congr (fun q => by rw [e1]; rfl) fun q u => by rw [e1]; rfl
    rcases hs with ⟨hpos, i, hi, lp, w2, h2, b2, h3, _, rfl⟩ | ⟨hpos, _, rfl⟩
    · rcases hl with ⟨_, i', hi', lp', w2', h2', ev, hev, rfl⟩ | ⟨hn, _⟩
      · rw [hi] at hi'; cases hi'
        rw [h2] at h2'; cases h2'
        have hb2 : w2.backstop = b1 := by
          simp only [cometDeposit, bind_ok, pure_ok, Prod.mk.injEq, chk_ok] at h2
          obtain ⟨w3, ht, w4, hm, _, _, _, rfl⟩ := h2
          change w4.backstop = b1
          rw [(mint_res hm).frame, (transfer_res ht).frame]; rfl
        rw [hb2] at h3 hev
        have k := deposits_follow m1 h3 hev
        rw [List.foldl_append]
        exact k
      · exact absurd hpos hn
    · rcases hl with ⟨hn, _⟩ | ⟨_, rfl⟩
      · exact absurd hn hpos
      · exact m1
  | draw p a d =>
    simp only [backstopLog, pure_ok] at hl
    subst hl
    simp only [backstopCall, draw, bind_ok] at hs
    obtain ⟨_, _, hd⟩ := hs
    obtain ⟨i, _, t⟩ := (executeDraw_res hd).ex
    rw [t.frame]
    have k := m.tok (p := p) (n := (w.backstop.getPoolBal p).tokens - a)
    simp only [List.foldl, BackstopNotes.see, (m.pool p).1]
    exact k
  | donate s p a =>
    simp only [backstopLog, pure_ok] at hl
    subst hl
    simp only [backstopCall, donate, bind_ok] at hs
    obtain ⟨_, _, _, _, hd⟩ := hs
    obtain ⟨i, w1, _, t, rfl⟩ := (executeDonate_res hd).ex
    have k := m.tok (p := p) (n := (w.backstop.getPoolBal p).tokens + a)
    simp only [List.foldl, BackstopNotes.see, (m.pool p).1]
    exact k
  | gulpEmissions =>
    simp only [backstopLog, bind_ok, Prod.exists, pure_ok] at hl
    obtain ⟨_, _, _, rfl⟩ := hl
    exact rest rfl (by simp [quiet])
  | drop =>
    simp only [backstopLog, bind_ok, pure_ok] at hl
    obtain ⟨_, _, rfl⟩ := hl
    exact rest rfl (by simp [quiet])
  | _ =>
    simp only [backstopLog, pure_ok] at hl
    subst hl
    exact rest rfl (by simp [quiet])

/-! ### operations of pools -/

/-- an effect of a pool call that neither draws nor donates -/
theorem _root_.Blend.Spec.BackstopNotes.Right.eff {p : Address} {D : Pool.Eff → Prop} {b b' : BackstopState} (e : PoolEff p D b b')
    (h1 : ¬ D .draw) (h2 : ¬ D .donate) {F : BackstopNotes} (m : F.Right b) : F.Right b' := by
  refine m.congr (fun q => ?_) fun q u => getUserBal_congr e.userBal q u
  by_cases hq : q = p
  · subst hq
    have e1 := e.shares
    have e2 := e.q4w
    have e3 := le_antisymm (e.donate h2) (e.draw h1)
    cases hx : b'.getPoolBal q
    cases hy : b.getPoolBal q
    rw [hx, hy] at e1 e2 e3
    simp only at e1 e2 e3
    subst e1; subst e2; subst e3; rfl
  · exact e.other q hq

theorem badDebtEvents_quiet {p u : Address} {L : List Address} : ∀ {kvs : List (Nat × Int)} {l : List Event},
    Pool.badDebtEvents p u L kvs = .ok l → ∀ e ∈ l, quiet e = true := by
  intro kvs
  induction kvs with
  | nil => intro l h; simp only [Pool.badDebtEvents, pure_ok] at h; subst h; simp
  | cons kv t ih =>
    intro l h
    simp only [Pool.badDebtEvents, bind_ok, pure_ok] at h
    obtain ⟨a, _, l', hl, rfl⟩ := h
    intro e he
    rcases List.mem_cons.1 he with rfl | he
    · rfl
    · exact ih hl e he

/-- the observer follows a fill -/
theorem fill_follow {p : Address} {auth : List Address} {fl fl' : Pool.Flight} {t : Nat} {u : Address} {n : Int}
    (h : Pool.fill fl p auth t u (Pool.asU64 n) = .ok fl') {l : List Event} (hl : Pool.fillLog fl p t u n = .ok l) {F : BackstopNotes}
    (m : F.Right fl.w.backstop) : BackstopNotes.Right fl'.w.backstop (l.foldl BackstopNotes.see F) := by
  obtain ⟨_, a, tk, rest, fl1, ha, hsc, hf, rfl⟩ := Pool.fill_ok h
  simp only [Pool.fillLog, bind_ok, Prod.exists, pure_ok, unwrap_ok, ite_ok] at hl
  obtain ⟨a', ha', tk', _, hsc', hl⟩ := hl
  rw [ha] at ha'; cases ha'
  rw [hsc] at hsc'; cases hsc'
  change BackstopNotes.Right fl1.w.backstop _
  rcases hf with ⟨ht, hf⟩ | ⟨ht, hf⟩ | ⟨ht0, ht1, hf⟩
  · obtain ⟨_, _, rfl, rfl⟩ | ⟨h0, _⟩ := hl
    · unfold Pool.fillUserLiq at hf
      simp only [bind_ok, pure_ok] at hf
      obtain ⟨c1, _, c2, _, rfl⟩ := hf
      exact m
    · exact absurd ht h0
  · subst ht
    obtain ⟨h0, _⟩ | ⟨_, ⟨_, l1, hlog, rfl⟩ | ⟨h0, _⟩⟩ := hl
    · omega
    · unfold Pool.fillBadDebt draw at hf
      simp only [bind_ok, pure_ok, ite_ok, requireAuth_ok] at hf
      obtain ⟨i, hi, _, _, c1, h1, c2, h2, tok, htok, lot, hlot, w2, hd, hf⟩ := hf
      simp only [Pool.fillBadDebtLog, draw, bind_ok, pure_ok, ite_ok, requireAuth_ok] at hlog
      obtain ⟨i', hi', c1', h1', c2', h2', tok', htok', lot', hlot', w2', hd', hlog⟩ := hlog
      rw [hi] at hi'; cases hi'
      rw [h1] at h1'; cases h1'
      rw [h2] at h2'; cases h2'
      rw [htok] at htok'; cases htok'
      rw [hlot] at hlot'; cases hlot'
      obtain ⟨_, _, hd⟩ := hd
      obtain ⟨_, _, hd'⟩ := hd'
      rw [hd] at hd'; cases hd'
      have k1 : fl1.w.backstop = w2.backstop := by
        rcases hf with ⟨_, rfl⟩ | ⟨_, d, _, ⟨_, rm, _, c3, _, rfl⟩ | ⟨_, rfl⟩⟩ <;> rfl
      have k2 : ∃ l2, l1 = .draw p fl.user.addr lot :: l2 ∧ ∀ e ∈ l2, quiet e = true := by
        rcases hlog with ⟨_, rfl⟩ | ⟨_, d, _, ⟨_, l2, h2, rfl⟩ | ⟨_, rfl⟩⟩
        · exact ⟨[], rfl, by simp⟩
        · exact ⟨l2, rfl, badDebtEvents_quiet h2⟩
        · exact ⟨[], rfl, by simp⟩
      obtain ⟨l2, rfl, hq⟩ := k2
      obtain ⟨j, _, tr⟩ := (executeDraw_res hd).ex
      rw [k1, tr.frame]
      simp only [List.foldl_append, List.foldl_cons, List.foldl_nil, fold_quiet hq]
      have k := m.tok (p := p) (n := (fl.w.backstop.getPoolBal p).tokens - lot)
      simp only [BackstopNotes.see, (m.pool p).1]
      exact k
    · omega
  · obtain ⟨h0, _⟩ | ⟨_, ⟨h0, _⟩ | ⟨_, l1, hlog, rfl⟩⟩ := hl
    · exact absurd h0 ht0
    · exact absurd h0 ht1
    · unfold Pool.fillInterest donate at hf
      simp only [bind_ok, pure_ok, Prod.exists, requireAuth_ok] at hf
      obtain ⟨i, _, _, _, tok, htok, bid, hbid, w1, ⟨_, _, _, _, hd⟩, w2, c, hloop, rfl⟩ := hf
      simp only [Pool.fillInterestLog, bind_ok, pure_ok] at hlog
      obtain ⟨tok', htok', bid', hbid', rfl⟩ := hlog
      rw [htok] at htok'; cases htok'
      rw [hbid] at hbid'; cases hbid'
      obtain ⟨j, w0, _, tr, rfl⟩ := (executeDonate_res hd).ex
      have hp := psteps_eff (Pool.interestLoop_psteps (p := p) (auth := auth) (D := fun _ => False) _ _ _ _ _ hloop)
      have k := m.tok (p := p) (n := (fl.w.backstop.getPoolBal p).tokens + bid)
      simp only [List.foldl, List.cons_append, List.nil_append, BackstopNotes.see, (m.pool p).1]
      exact BackstopNotes.Right.eff hp id id k

/-- the observer follows a request -/
theorem request_follow {p : Address} {auth : List Address} {s s' : Pool.SubmitState} {q : Pool.Request} (h : Pool.processRequest p auth s q = .ok s')
    {l : List Event} (hl : Pool.requestLog p s q = .ok l) {F : BackstopNotes} (m : F.Right s.fl.w.backstop) :
    BackstopNotes.Right s'.fl.w.backstop (l.foldl BackstopNotes.see F) := by
  have plain : q.type ≠ 7 → q.type ≠ 8 → (∀ e ∈ l, quiet e = true) → BackstopNotes.Right s'.fl.w.backstop (l.foldl BackstopNotes.see F) := by
    intro h7 h8 hq
    rw [fold_quiet hq]
    exact BackstopNotes.Right.eff (psteps_eff (Pool.request_psteps (D := fun _ => False) (fun e => h7 e) (fun e => h8 e) h)) id id m
  obtain ⟨_, _, h⟩ := Pool.processRequest_ok h
  rcases h with ⟨hq, h⟩ | ⟨hq, h⟩ | ⟨hq, h⟩ | ⟨hq, h⟩ | ⟨hq, h⟩ | ⟨hq, h⟩ | ⟨hq, h⟩ | ⟨hq, h⟩ | ⟨hq, h⟩ | ⟨hq, h⟩
  · refine plain (by omega) (by omega) ?_
    simp only [Pool.requestLog, hq, bind_ok, Prod.exists, pure_ok] at hl
    obtain ⟨_, _, _, _, _, rfl⟩ := hl; simp [quiet]
  · refine plain (by omega) (by omega) ?_
    simp only [Pool.requestLog, hq, bind_ok, Prod.exists, pure_ok] at hl
    obtain ⟨_, _, _, _, _, _, rfl⟩ := hl; simp [quiet]
  · refine plain (by omega) (by omega) ?_
    simp only [Pool.requestLog, hq, bind_ok, Prod.exists, pure_ok] at hl
    obtain ⟨_, _, _, _, _, rfl⟩ := hl; simp [quiet]
  · refine plain (by omega) (by omega) ?_
    simp only [Pool.requestLog, hq, bind_ok, Prod.exists, pure_ok] at hl
    obtain ⟨_, _, _, _, _, _, rfl⟩ := hl; simp [quiet]
  · refine plain (by omega) (by omega) ?_
    simp only [Pool.requestLog, hq, bind_ok, Prod.exists, pure_ok] at hl
    obtain ⟨_, _, _, _, _, rfl⟩ := hl; simp [quiet]
  · refine plain (by omega) (by omega) ?_
    simp only [Pool.requestLog, hq, bind_ok, Prod.exists, pure_ok, ite_ok] at hl
    obtain ⟨_, _, _, _, _, ⟨_, _, _, _, _, _, _, rfl⟩ | ⟨_, rfl⟩⟩ := hl <;> simp [quiet]
  · obtain ⟨fl, hf, rfl⟩ := Pool.reqFill_ok h
    simp only [Pool.requestLog, hq] at hl
    exact fill_follow hf hl m
  · obtain ⟨fl, hf, rfl⟩ := Pool.reqFill_ok h
    simp only [Pool.requestLog, hq] at hl
    exact fill_follow hf hl m
  · obtain ⟨fl, hf, rfl⟩ := Pool.reqFill_ok h
    simp only [Pool.requestLog, hq] at hl
    exact fill_follow hf hl m
  · refine plain (by omega) (by omega) ?_
    simp only [Pool.requestLog, hq, pure_ok] at hl
    subst hl; simp [quiet]

theorem requests_follow {p : Address} {auth : List Address} : ∀ {reqs : List Pool.Request} {s s' : Pool.SubmitState} {l : List Event} {F : BackstopNotes},
    reqs.foldlM (Pool.processRequest p auth) s = .ok s' → Pool.requestsLog p auth reqs s = .ok l → F.Right s.fl.w.backstop →
    BackstopNotes.Right s'.fl.w.backstop (l.foldl BackstopNotes.see F) := by
  intro reqs
  induction reqs with
  | nil =>
    intro s s' l F h hl m
    rw [foldlM_nil] at h
    simp only [Pool.requestsLog, pure_ok] at hl
    subst h; subst hl; exact m
  | cons q t ih =>
    intro s s' l F h hl m
    rw [foldlM_cons] at h
    obtain ⟨s1, h1, h⟩ := h
    simp only [Pool.requestsLog, bind_ok, pure_ok] at hl
    obtain ⟨ev, hev, s1', h1', evs, hevs, rfl⟩ := hl
    rw [h1] at h1'; cases h1'
    rw [List.foldl_append]
    exact ih h hevs (request_follow h1 hev m)

theorem gulpLog_quiet {p : Address} {now : Nat} {n : Int} : ∀ {l : List (Nat × Nat)} {ps : PoolState} {ev : List Event},
    Pool.gulpLog p now n l ps = .ok ev → ∀ e ∈ ev, quiet e = true := by
  intro l
  induction l with
  | nil => intro ps ev h; simp only [Pool.gulpLog, pure_ok] at h; subst h; simp
  | cons kv t ih =>
    intro ps ev h
    simp only [Pool.gulpLog, bind_ok, pure_ok] at h
    obtain ⟨_, _, _, _, _, _, _, _, l2, h2, rfl⟩ := h
    intro e he
    rcases List.mem_cons.1 he with rfl | he
    · rfl
    · exact ih h2 e he

/-- the observer follows an operation of a pool -/
theorem pool_follow {w w' : World} {p : Address} {auth : List Address} {c : Pool.Call} (hs : Pool.call w p auth c = .ok w') {l : List Event}
    (hl : Pool.callLog w p auth c = .ok l) {F : BackstopNotes} (m : F.Right w.backstop) :
    BackstopNotes.Right w'.backstop (l.foldl BackstopNotes.see F) := by
  have plain : ¬ Pool.CallEff c .draw → ¬ Pool.CallEff c .donate → (∀ e ∈ l, quiet e = true) →
      BackstopNotes.Right w'.backstop (l.foldl BackstopNotes.see F) := by
    intro h1 h2 hq
    rw [fold_quiet hq]
    exact BackstopNotes.Right.eff (poolCall_eff hs) h1 h2 m
  cases c with
  | submit sender spender dst reqs =>
    simp only [Pool.callLog, bind_ok] at hl
    obtain ⟨cache, hc, hl⟩ := hl
    have key : ∀ {pos}, Pool.executeSubmit w p auth sender spender dst reqs = .ok (pos, w') → spender ∈ auth →
        BackstopNotes.Right w'.backstop (l.foldl BackstopNotes.see F) := by
      intro pos h hsp
      obtain ⟨_, cache', s, cache2, w1, ps1, hc', hf, _, _, ht, _, hp, _⟩ := Pool.executeSubmit_ok h
      rw [hc] at hc'; cases hc'
      have m1 := requests_follow hf hl m
      have k2 := Pool.transfers_psteps (p := p) (D := fun _ => False) (.inr hsp) _ _ _ ht
      have k3 := Pool.transfers_psteps (p := p) (auth := auth) (D := fun _ => False) (.inl rfl) _ _ _ hp
      exact BackstopNotes.Right.eff (psteps_eff ((k2.trans (.setPool _ _)).trans k3)) id id m1
    simp only [Pool.call, bind_ok, pure_ok, requireAuth_ok, ite_ok, Prod.exists] at hs
    obtain ⟨_, hsp, ⟨_, _, _, pos, w1, h, rfl⟩ | ⟨_, pos, w1, h, rfl⟩⟩ := hs
    · exact key h hsp
    · exact key h hsp
  | badDebt u =>
    simp only [Pool.callLog] at hl
    exact plain id id (badDebtEvents_quiet hl)
  | gulpEmissions =>
    refine plain (by simp [Pool.CallEff]) (by simp [Pool.CallEff]) ?_
    simp only [Pool.callLog, bind_ok, pure_ok, Prod.exists] at hl
    obtain ⟨n, w1, _, l2, h2, rfl⟩ := hl
    intro e he
    rcases List.mem_append.1 he with he | he
    · exact gulpLog_quiet h2 e he
    · rw [List.mem_singleton] at he; subst he; rfl
  | updateStatus =>
    simp only [Pool.callLog, bind_ok, pure_ok] at hl
    obtain ⟨_, _, _, _, _, _, rfl⟩ := hl
    exact plain id id (by simp [quiet])
  | newBadDebt =>
    simp only [Pool.callLog, bind_ok, pure_ok] at hl
    obtain ⟨_, _, _, _, rfl⟩ := hl
    exact plain id id (by simp [quiet])
  | newInterest =>
    simp only [Pool.callLog, bind_ok, pure_ok] at hl
    obtain ⟨_, _, _, _, rfl⟩ := hl
    exact plain id id (by simp [quiet])
  | newLiquidation =>
    simp only [Pool.callLog, bind_ok, pure_ok, Prod.exists] at hl
    obtain ⟨_, _, _, rfl⟩ := hl
    exact plain id id (by simp [quiet])
  | setReserve =>
    simp only [Pool.callLog, bind_ok, pure_ok, Prod.exists] at hl
    obtain ⟨_, _, _, rfl⟩ := hl
    exact plain id id (by simp [quiet])
  | claim =>
    simp only [Pool.callLog, bind_ok, pure_ok, Prod.exists] at hl
    obtain ⟨_, _, _, rfl⟩ := hl
    exact plain (by simp [Pool.CallEff]) (by simp [Pool.CallEff]) (by simp [quiet])
  | «initialize» => simp only [Pool.callLog, pure_ok] at hl; subst hl; exact plain id id (by simp)
  | setEmissionsConfig => simp only [Pool.callLog, pure_ok] at hl; subst hl; exact plain id id (by simp)
  | _ =>
    simp only [Pool.callLog, bind_ok, pure_ok] at hl
    obtain ⟨_, _, rfl⟩ := hl
    exact plain id id (by simp [quiet])

/-- **the observer of the backstop follows one operation** -/
theorem follow_step {w w' : World} (hr : Reachable w) {op : Op} (h : step w op = .ok w') {l : List Event} (hl : logOf w op = .ok l)
    {F : BackstopNotes} (m : F.Right w.backstop) : BackstopNotes.Right w'.backstop (l.foldl BackstopNotes.see F) := by
  have hbal := hr.balCase h
  have same : (∀ p auth c, op ≠ .pool p auth c) → (∀ auth c, op ≠ .backstop auth c) → F.Right w'.backstop := by
    intro h1 h2
    rcases step_other h with ⟨p, auth, c, rfl, e⟩ | ⟨auth, c, rfl, hc⟩ | e | e
    · exact absurd rfl (h1 _ _ _)
    · exact absurd rfl (h2 _ _)
    · rw [e]; exact m
    · rw [e]; exact m.congr (fun _ => rfl) fun _ _ => rfl
  cases op with
  | pool p auth c =>
    simp only [step, bind_ok, require_ok] at h
    obtain ⟨_, _, _, _, h⟩ := h
    exact pool_follow h hl m
  | backstop auth c =>
    simp only [step, bind_ok, require_ok] at h
    obtain ⟨_, _, h⟩ := h
    exact backstop_follow h hl hbal m
  | emitter auth c =>
    have hq : ∀ e ∈ l, quiet e = true := by
      simp only [logOf] at hl
      cases c with
      | distribute => simp only [emitterLog, bind_ok, pure_ok, Prod.exists] at hl; obtain ⟨_, _, _, _, _, rfl⟩ := hl; simp [quiet]
      | queueSwap => simp only [emitterLog, bind_ok, pure_ok] at hl; obtain ⟨_, _, _, _, rfl⟩ := hl; simp [quiet]
      | cancelSwap => simp only [emitterLog, bind_ok, pure_ok] at hl; obtain ⟨_, _, rfl⟩ := hl; simp [quiet]
      | swapBackstop => simp only [emitterLog, bind_ok, pure_ok] at hl; obtain ⟨_, _, rfl⟩ := hl; simp [quiet]
      | _ => simp only [emitterLog, pure_ok] at hl; subst hl; simp [quiet]
    rw [fold_quiet hq]
    exact same (fun _ _ _ => by simp) fun _ _ => by simp
  | factory auth c =>
    have hq : ∀ e ∈ l, quiet e = true := by
      cases c with
      | deploy => simp only [logOf, factoryLog, bind_ok, pure_ok, Prod.exists] at hl; obtain ⟨_, _, _, rfl⟩ := hl; simp [quiet]
      | «initialize» => simp only [logOf, factoryLog, pure_ok] at hl; subst hl; simp
    rw [fold_quiet hq]
    exact same (fun _ _ _ => by simp) fun _ _ => by simp
  | _ =>
    simp only [logOf, pure_ok] at hl
    subst hl
    exact same (fun _ _ _ => by simp) fun _ _ => by simp

end Backstop
end Blend
