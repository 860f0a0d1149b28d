import Verif.Props.Backstop
import Verif.Props.BackstopEmissions
import Verif.Props.Exits
/-
  C54: backstop depositors cannot be locked in. What was queued can be withdrawn 21 days later, whatever others do.
-/

namespace Blend
namespace Spec

/-- the amount of a withdrawal queue that is unlocked at time `t` -/
def unlockedTotal (t : Nat) (l : List Q4W) : Int := ((l.filter fun e => e.exp ≤ t).map fun e => e.amount).sum

/-- the account `u` gives up (part of) its place in the withdrawal queue of pool `p` -/
def LeavesQueue (p u : Address) (op : Op) : Prop :=
  ∃ auth a, op = .backstop auth (.dequeueWithdrawal u p a) ∨ op = .backstop auth (.withdraw u p a)

/-- Sizes that stay far from the limits of 128-bit arithmetic: at most `10¹¹` shares (7 decimals), at most `10⁸` BLND emitted
per second, an emission index of at most `10¹⁹` and a last update at most `10¹²` seconds ago. -/
structure ModerateBackstop (w : World) (p u : Address) : Prop where
  shares : (w.backstop.getPoolBal p).shares ≤ 10 ^ 18
  emissions : ∀ cfg d, w.backstop.emisCfg p = some cfg → w.backstop.emisData p = some d →
    (cfg.eps : Int) ≤ 10 ^ 15 ∧ (w.time : Int) ≤ d.lastTime + 10 ^ 12 ∧ d.index ≤ 10 ^ 19
  accrued : ∀ x, (w.backstop.userEmis p).get u = some x → x.accrued ≤ 10 ^ 37

end Spec

namespace Backstop
open Spec Pool

/-- the part of a queue the loop may touch -/
def openTotal (now : Nat) (req : Bool) (l : List Q4W) : Int :=
  ((l.filter fun e => req = false ∨ e.exp ≤ now).map fun e => e.amount).sum

theorem openTotal_nonneg {now : Nat} {req : Bool} {l : List Q4W} (h : ∀ e ∈ l, 0 ≤ e.amount) : 0 ≤ openTotal now req l := by
  unfold openTotal
  refine List.sum_nonneg fun x hx => ?_
  obtain ⟨e, he, rfl⟩ := List.mem_map.1 hx
  exact h e (List.mem_filter.1 he).1

theorem openTotal_le {now : Nat} {req : Bool} {l : List Q4W} (h : ∀ e ∈ l, 0 ≤ e.amount) : openTotal now req l ≤ qsum l := by
  induction l with
  | nil => simp [openTotal]
  | cons e t ih =>
    have ih := ih fun x hx => h x (by simp [hx])
    have := h e (by simp)
    unfold openTotal at ih ⊢
    rw [List.filter_cons, qsum_cons]
    split
    · simp only [List.map_cons, List.sum_cons]; omega
    · omega

/-- the loop succeeds exactly when enough is open -/
theorem dequeueLoop_iff {now : Nat} {req : Bool} : ∀ (l : List Q4W) (a : Int), (∀ e ∈ l, 0 ≤ e.amount ∧ InI128 e.amount) →
    l.Pairwise (fun a b => a.exp ≤ b.exp) → 0 < a → InI128 a →
    ((∃ q, dequeueLoop now req l a = .ok (q, 0)) ↔ a ≤ openTotal now req l) := by
  intro l
  induction l with
  | nil =>
    intro a _ _ ha _
    simp only [dequeueLoop, pure_ok, Prod.mk.injEq, openTotal, List.filter_nil, List.map_nil, List.sum_nil]
    constructor
    · rintro ⟨q, _, h⟩; omega
    · intro h; omega
  | cons e t ih =>
    intro a hl hs ha hI
    have hs' := List.pairwise_cons.1 hs
    have ht : ∀ x ∈ t, 0 ≤ x.amount ∧ InI128 x.amount := fun x hx => hl x (by simp [hx])
    have h0 := openTotal_nonneg (now := now) (req := req) fun x hx => (ht x hx).1
    obtain ⟨e0, e1⟩ := hl e (by simp)
    unfold dequeueLoop
    by_cases hc : req = false ∨ e.exp ≤ now
    · have htot : openTotal now req (e :: t) = e.amount + openTotal now req t := by
        unfold openTotal
        rw [List.filter_cons, if_pos (by simpa using hc)]
        simp
      rw [if_pos hc, htot]
      by_cases h1 : e.amount > a
      · rw [if_pos h1]
        refine ⟨fun _ => by omega, fun _ => ⟨{ e with amount := e.amount - a } :: t, ?_⟩⟩
        have : InI128 (e.amount - a) := by unfold InI128 at *; omega
        simp only [bind_ok, chk_ok, pure_ok]
        exact ⟨_, ⟨this, rfl⟩, rfl⟩
      · rw [if_neg h1]
        by_cases h2 : e.amount = a
        · rw [if_pos h2]
          exact ⟨fun _ => by omega, fun _ => ⟨t, rfl⟩⟩
        · rw [if_neg h2]
          have hI' : InI128 (a - e.amount) := by unfold InI128 at *; omega
          have := ih (a - e.amount) ht hs'.2 (by omega) hI'
          constructor
          · rintro ⟨q, h⟩
            simp only [bind_ok, chk_ok] at h
            obtain ⟨_, ⟨_, rfl⟩, h⟩ := h
            have := this.1 ⟨q, h⟩
            omega
          · intro h
            obtain ⟨q, h⟩ := this.2 (by omega)
            refine ⟨q, ?_⟩
            simp only [bind_ok, chk_ok]
            exact ⟨_, ⟨hI', rfl⟩, h⟩
    · have htot : openTotal now req (e :: t) = 0 := by
        push Not at hc
        unfold openTotal
        rw [List.filter_eq_nil_iff.2]
        · rfl
        · intro x hx
          have : e.exp ≤ x.exp := by
            rcases List.mem_cons.1 hx with rfl | hx
            · exact le_refl _
            · exact hs'.1 x hx
          simp only [decide_eq_true_eq, not_or]
          exact ⟨hc.1, by omega⟩
      rw [if_neg hc, htot]
      constructor
      · rintro ⟨q, h⟩; cases h
      · intro h; omega

theorem dequeueShares_iff {ub : UserBalance} {now : Nat} {req : Bool} {a : Int} (hl : ∀ e ∈ ub.q4w, 0 ≤ e.amount ∧ InI128 e.amount)
    (hs : ub.q4w.Pairwise (fun a b => a.exp ≤ b.exp)) (ha : 0 < a) (hI : InI128 a) :
    (∃ ub', dequeueShares ub now a req = .ok ub') ↔ a ≤ openTotal now req ub.q4w := by
  rw [← dequeueLoop_iff ub.q4w a hl hs ha hI]
  unfold dequeueShares
  simp only [bind_ok, Prod.exists, require_ok, pure_ok]
  constructor
  · rintro ⟨ub', q, left, h, _, h0, rfl⟩
    have : 0 ≤ left := by
      clear hs
      generalize ub.q4w = l at h hl
      clear hI
      induction l generalizing a with
      | nil => simp only [dequeueLoop, pure_ok, Prod.mk.injEq] at h; omega
      | cons e t ih =>
        unfold dequeueLoop at h
        simp only [ite_ok, bind_ok, chk_ok, pure_ok, Prod.mk.injEq] at h
        rcases h with ⟨_, ⟨_, _, _, _, rfl⟩ | ⟨h1, ⟨_, _, rfl⟩ | ⟨h2, _, ⟨_, rfl⟩, h⟩⟩⟩ | ⟨_, h⟩
        · exact le_refl _
        · exact le_refl _
        · exact ih (by omega) h (fun x hx => hl x (by simp [hx]))
        · cases h
    have : left = 0 := by omega
    subst this
    exact ⟨q, h⟩
  · rintro ⟨q, h⟩
    exact ⟨_, q, 0, h, (), by omega, rfl⟩

theorem tokens_le_funds {w : World} (hr : Reachable w) {i : BackstopInst} (hi : w.backstop.inst = some i)
    (hne : i.blnd ≠ i.backstopToken) (p : Address) : (w.backstop.getPoolBal p).tokens ≤ w.balance i.backstopToken w.backstopAddr := by
  have h1 := Props.C31_backstop_funded hr hi hne
  have h0 := fun q => hr.ball.inv.pool q
  refine le_trans ?_ h1
  have hn : ∀ k v, w.backstop.poolBal.get k = some v → 0 ≤ v.tokens := fun k v hk => by
    have := h0 k; unfold BackstopState.getPoolBal at this; rw [hk] at this; exact this
  unfold BackstopState.getPoolBal
  cases hk : w.backstop.poolBal.get p with
  | none => exact SMap.sum_nonneg hn
  | some v => exact SMap.le_sum (f := fun _ (pb : PoolBalance) => pb.tokens) hn hk

theorem user_le_unq {w : World} (hr : Reachable w) (p u : Address) :
    (w.backstop.getUserBal p u).shares + qsum (w.backstop.getUserBal p u).q4w ≤ (w.backstop.getPoolBal p).shares ∧
    (w.backstop.getUserBal p u).shares ≤ (w.backstop.getPoolBal p).shares - (w.backstop.getPoolBal p).q4w ∧
    qsum (w.backstop.getUserBal p u).q4w ≤ (w.backstop.getPoolBal p).q4w := by
  have inv := hr.ball.inv
  have h1 := inv.unq p
  have h2 := inv.queued p
  have e : ∀ v ub, (w.backstop.userBal p).get v = some ub → w.backstop.getUserBal p v = ub := by
    intro v ub hv; unfold BackstopState.getUserBal; rw [hv]; rfl
  have n1 : ∀ v ub, (w.backstop.userBal p).get v = some ub → 0 ≤ ub.shares := fun v ub hv => by
    have := (inv.user p v).shares; rwa [e v ub hv] at this
  have n2 : ∀ v ub, (w.backstop.userBal p).get v = some ub → 0 ≤ qsum ub.q4w := fun v ub hv => by
    have := (inv.user p v).amounts; rw [e v ub hv] at this; exact qsum_nonneg this
  have := inv.shares_nonneg p
  cases hk : (w.backstop.userBal p).get u with
  | none =>
    have : w.backstop.getUserBal p u = ⟨0, []⟩ := by unfold BackstopState.getUserBal; rw [hk]; rfl
    rw [this]
    exact ⟨by simp only [qsum_nil]; omega, by show (0:Int) ≤ _; omega, by simp only [qsum_nil]; omega⟩
  | some ub =>
    rw [e u ub hk]
    have a1 := SMap.le_sum (f := fun _ (ub : UserBalance) => ub.shares) n1 hk
    have a2 := SMap.le_sum (f := fun _ (ub : UserBalance) => qsum ub.q4w) n2 hk
    omega

theorem openTotal_true (t : Nat) (l : List Q4W) : openTotal t true l = unlockedTotal t l := by
  unfold openTotal unlockedTotal; simp

theorem openTotal_false (t : Nat) (l : List Q4W) : openTotal t false l = queueTotal l := by
  unfold openTotal queueTotal
  rw [List.filter_eq_self.2 (by simp)]

theorem queue_inI {w : World} (hr : Reachable w) {p u : Address} (hS : (w.backstop.getPoolBal p).shares ≤ 10 ^ 38) :
    ∀ e ∈ (w.backstop.getUserBal p u).q4w, 0 ≤ e.amount ∧ InI128 e.amount := by
  intro e he
  have q := hr.ball.inv.user p u
  have h1 := user_le_unq hr p u
  have h2 : e.amount ≤ qsum (w.backstop.getUserBal p u).q4w :=
    List.single_le_sum (fun x hx => by obtain ⟨y, hy, rfl⟩ := List.mem_map.1 hx; exact q.amounts y hy) _
      (List.mem_map.2 ⟨e, he, rfl⟩)
  exact ⟨q.amounts e he, inI (q.amounts e he) (by have := q.shares; omega)⟩

theorem emis_arith {dt eps : Nat} {unq sh : Int} (hdt2 : (dt : Int) ≤ 10 ^ 12) (heps : (eps : Int) ≤ 10 ^ 15) (hpos : 0 < unq) (hle : sh ≤ unq) :
    0 ≤ (dt : Int) * eps ∧ (dt : Int) * eps ≤ 10 ^ 27 ∧
    ∃ add, fixedDivFloor ((dt : Int) * eps) unq SCALAR_7 = .ok add ∧ 0 ≤ add ∧ add ≤ 10 ^ 34 ∧ sh * add ≤ 10 ^ 34 := by
  obtain ⟨n0, n1⟩ := prod_le (x := dt) (y := eps) (by omega) hdt2 (by omega) heps
  generalize (dt : Int) * eps = n at *
  have hz : (SCALAR_7 : Int) = 10000000 := rfl
  unfold fixedDivFloor
  rw [hz]
  have ho := fun v => mulDivFloor_ok (x := n) (y := 10000000) (z := unq) (v := v)
  obtain ⟨q1, q2⟩ := fdiv_spec (a := n * 10000000) hpos
  generalize Int.fdiv (n * 10000000) unq = add at *
  have ha0 : 0 ≤ add := by
    by_contra hneg
    have : add * unq ≤ -1 * unq := mul_le_mul_of_nonneg_right (by omega) (by omega)
    omega
  have g1 : add * 1 ≤ add * unq := mul_le_mul_of_nonneg_left (by omega) ha0
  have g2 : sh * add ≤ unq * add := mul_le_mul_of_nonneg_right (by omega) ha0
  rw [mul_comm unq] at g2
  norm_num at n1
  exact ⟨n0, by omega, add, (ho add).2 ⟨inI (by omega) (by omega), by omega, inI ha0 (by omega), rfl⟩, ha0, by omega, by omega⟩

/-- updating the emissions of a depositor succeeds for ordinary sizes -/
theorem emis_live {w : World} (hr : Reachable w) {p u : Address} (m : ModerateBackstop w p u) (hq : ¬ AllQueued w p) :
    ∃ x b1, updateEmissions w.backstop w.time p (w.backstop.getPoolBal p) u (w.backstop.getUserBal p u) false = .ok (x, b1) := by
  have inv := hr.ball.inv
  obtain ⟨s0, s1⟩ := inv.shares_nonneg p
  obtain ⟨_, u1, _⟩ := user_le_unq hr p u
  have hS := m.shares
  have u0 := (inv.user p u).shares
  unfold updateEmissions updateEmisData
  cases hc : w.backstop.emisCfg p with
  | none => exact ⟨0, _, rfl⟩
  | some cfg =>
    obtain ⟨d, hd, ht, hi, hu⟩ := inv.isSet p cfg hc
    obtain ⟨m1, m2, m3⟩ := m.emissions cfg d hc hd
    -- the pool data
    have key : ∃ d' b', updateEmisDataWith w.backstop w.time p (w.backstop.getPoolBal p) cfg = .ok (d', b') ∧
        b'.userEmis = w.backstop.userEmis ∧ d.index ≤ d'.index ∧ d'.index ≤ 2 * 10 ^ 34 ∧
        (w.backstop.getUserBal p u).shares * d'.index ≤ 2 * 10 ^ 37 := by
      have b0 : (w.backstop.getUserBal p u).shares * d.index ≤ 10 ^ 18 * 10 ^ 19 :=
        (prod_le u0 (by omega) hi m3).2
      unfold updateEmisDataWith
      by_cases hif : d.lastTime ≥ cfg.expiration ∨ w.time = d.lastTime ∨ cfg.eps = 0 ∨ (w.backstop.getPoolBal p).shares = 0
      · refine ⟨d, w.backstop, ?_, rfl, le_refl _, by omega, by omega⟩
        simp only [bind_ok, unwrap_ok]
        exact ⟨d, hd, by rw [if_pos hif]; rfl⟩
      · push Not at hif
        obtain ⟨f1, f2, f3, f4⟩ := hif
        have hpos : 0 < (w.backstop.getPoolBal p).shares - (w.backstop.getPoolBal p).q4w := by
          by_contra hcon
          exact hq ⟨by omega, f4, cfg, d, hc, hd, f3, f1, fun h => f2 h.symm⟩
        obtain ⟨M, hM⟩ : ∃ M, M = (if w.time > cfg.expiration then cfg.expiration else w.time) := ⟨_, rfl⟩
        have hM1 : d.lastTime ≤ M := by subst hM; split <;> omega
        have hM2 : M ≤ w.time := by subst hM; split <;> omega
        obtain ⟨dt, hdt⟩ : ∃ dt : Nat, dt = M - d.lastTime := ⟨_, rfl⟩
        obtain ⟨n0, n1, add, hadd, ha0, ha1, ha2⟩ := emis_arith (dt := dt) (eps := cfg.eps) (by omega) m1 hpos u1
        refine ⟨⟨add + d.index, w.time⟩, { w.backstop with emisData := upd w.backstop.emisData p (some ⟨add + d.index, w.time⟩) }, ?_, rfl, by
          show d.index ≤ add + d.index; omega, by
          show add + d.index ≤ _; omega, by
          show (w.backstop.getUserBal p u).shares * (add + d.index) ≤ _
          rw [mul_add]; omega⟩
        simp only [bind_ok, unwrap_ok]
        refine ⟨d, hd, ?_⟩
        rw [if_neg (by push Not; exact ⟨f1, f2, f3, f4⟩), ← hM]
        unfold requireNonneg
        simp only [bind_ok, chk_ok, require_ok, pure_ok]
        refine ⟨_, ⟨inI (by omega) (by omega), rfl⟩, (), by omega, dt, ?_, (dt : Int) * cfg.eps, ⟨inI n0 (by omega), rfl⟩,
          add, hadd, add + d.index, ⟨inI (by omega) (by omega), rfl⟩, rfl⟩
        unfold subU
        rw [if_pos hM1, hdt]
    obtain ⟨d', b', k1, k2, k3, k5, k4⟩ := key
    simp only [bind_ok, pure_ok, Prod.exists, k1, Prod.mk.injEq]
    have hfl : ∀ y, 0 ≤ y → y ≤ d'.index → ∃ v, fixedMulFloor (w.backstop.getUserBal p u).shares y SCALAR_7 = .ok v ∧ 0 ≤ v ∧ v ≤ 2 * 10 ^ 37 := by
      intro y y0 y1
      obtain ⟨p0, p1⟩ := prod_le (x := (w.backstop.getUserBal p u).shares) u0 (le_refl _) y0 y1
      obtain ⟨q1, q2⟩ := fdiv_spec (a := (w.backstop.getUserBal p u).shares * y) (z := SCALAR_7) (by decide)
      have hz : (SCALAR_7 : Int) = 10000000 := rfl
      rw [hz] at q1 q2
      refine ⟨Int.fdiv ((w.backstop.getUserBal p u).shares * y) SCALAR_7, ?_, by rw [hz]; omega, by rw [hz]; omega⟩
      unfold fixedMulFloor
      rw [mulDivFloor_ok]
      exact ⟨inI p0 (by omega), by decide, by rw [hz]; exact inI (by omega) (by omega), rfl⟩
    have main : ∃ x b1, updateUserEmis b' p u d' (w.backstop.getUserBal p u) false = .ok (x, b1) := by
      unfold updateUserEmis
      rw [k2]
      cases hx : (w.backstop.userEmis p).get u with
      | none =>
        simp only
        split
        · exact ⟨_, _, rfl⟩
        · obtain ⟨v, hv, _⟩ := hfl d'.index (by omega) (le_refl _)
          simp only [bind_ok, hv, Except.ok.injEq]
          exact ⟨_, _, v, rfl, rfl⟩
      | some ud =>
        obtain ⟨e0, e1, e2⟩ := hu u ud hx
        simp only
        split
        · split
          · obtain ⟨v, hv, v0, v1⟩ := hfl (d'.index - ud.index) (by omega) (by omega)
            have := m.accrued ud hx
            unfold requireNonneg
            simp only [bind_ok, chk_ok, require_ok]
            have hI : InI128 (d'.index - ud.index) := inI (by omega) (by omega)
            exact ⟨_, _, _, ⟨hI, rfl⟩, (), by omega, v, hv, _, ⟨inI (by omega) (by omega), rfl⟩, rfl⟩
          · exact ⟨_, _, rfl⟩
        · exact ⟨_, _, rfl⟩
    obtain ⟨x, b1, hm⟩ := main
    exact ⟨x, b1, some d', b', ⟨d', b', rfl, rfl, rfl⟩, hm⟩

/-- the amount unlocked is the caller's own and covered by the pool's queue -/
theorem unlocked_le {w : World} (hr : Reachable w) (p u : Address) (t : Nat) :
    unlockedTotal t (w.backstop.getUserBal p u).q4w ≤ (w.backstop.getPoolBal p).q4w := by
  rw [← openTotal_true]
  exact le_trans (openTotal_le (hr.ball.inv.user p u).amounts) (user_le_unq hr p u).2.2

end Backstop

namespace Props
open Spec Backstop

/-- **C54** A withdrawal from the backstop succeeds exactly when the caller has unlocked that many shares and their value is
at least one unit of the token (and no number leaves the range of 128-bit integers). Neither the pool, its admin, other
depositors nor the emissions have a say: the tokens are always there. -/
theorem C54_withdraw_iff {w : World} (hr : Reachable w) {i : BackstopInst} (hi : w.backstop.inst = some i)
    (hne : i.blnd ≠ i.backstopToken) {auth : List Address} (hauth : ∀ x ∈ auth, ¬ w.isProtocol x) {s p : Address} (hs : s ∈ auth)
    (hS : (w.backstop.getPoolBal p).shares ≤ 10 ^ 38) (a : Int) :
    (∃ w', step w (.backstop auth (.withdraw s p a)) = .ok w') ↔
      0 < a ∧ a ≤ unlockedTotal w.time (w.backstop.getUserBal p s).q4w ∧
      InI128 (a * (w.backstop.getPoolBal p).tokens) ∧
      ∃ tk, 0 < tk ∧ IsFloor tk (a * (w.backstop.getPoolBal p).tokens) (w.backstop.getPoolBal p).shares ∧
        InI128 (w.balance i.backstopToken s + tk) := by
  have inv := hr.ball.inv
  have hq := queue_inI hr (u := s) hS
  have hsne : s ≠ w.backstopAddr := by rintro rfl; exact hauth _ hs (.inr (.inl rfl))
  obtain ⟨s0, s1⟩ := inv.shares_nonneg p
  have hul := unlocked_le hr p s w.time
  constructor
  · rintro ⟨w', h⟩
    obtain ⟨_, a0, _, _, i', tk, hi', tk0, fl, _, hb, _⟩ := C32_withdraw hr h
    rw [hi] at hi'; cases hi'
    simp only [step, bind_ok, require_ok, backstopCall, pure_ok, Prod.exists, Backstop.withdraw, executeWithdraw, requireAuth_ok,
      Backstop.inst, unwrap_ok, Prod.mk.injEq] at h
    obtain ⟨_, _, tk', w2, ⟨_, _, _, _, ub, hd, t, ht, _, h0, pb', hpb, i', hi', w3, htr, rfl, rfl⟩, rfl⟩ := h
    have hp := (pbWithdraw_ok hpb)
    have ha : 0 < a := by
      rcases lt_or_eq_of_le a0 with h | h
      · exact h
      · subst h
        exfalso
        obtain ⟨f1, f2⟩ := fl
        rw [zero_mul] at f1 f2
        have := hp.2.1
        by_cases hz : (w.backstop.getPoolBal p).shares = 0
        · rw [hz] at f2; omega
        · have : 1 * (w.backstop.getPoolBal p).shares ≤ tk * (w.backstop.getPoolBal p).shares :=
            mul_le_mul_of_nonneg_right (by omega) (by omega)
          omega
    have hsh : (w.backstop.getPoolBal p).shares ≠ 0 := by have := hp.2.1; omega
    have hle := (dequeueShares_iff (now := w.time) (req := true) hq (inv.user p s).sorted ha
      (inI a0 (by have := hp.2.1; omega))).1 ⟨ub, hd⟩
    rw [openTotal_true] at hle
    refine ⟨ha, hle, ?_, tk, tk0, fl, ?_⟩
    · unfold toTokens fixedMulFloor at ht
      rw [if_neg hsh, mulDivFloor_ok] at ht
      exact ht.1
    · have e : t = tk := by
        unfold toTokens fixedMulFloor at ht
        rw [if_neg hsh] at ht
        have := mulDivFloor_spec ht (by omega)
        exact Pool.floor_unique ⟨this.1, by linarith [this.2]⟩ fl (by omega)
      rw [← e]
      change w.backstop.inst = some i' at hi'
      rw [hi] at hi'; cases hi'
      unfold transfer at htr
      simp only [bind_ok, require_ok, chk_ok] at htr
      obtain ⟨_, _, _, _, v, ⟨hv, _⟩, _⟩ := htr
      have hbal : ((w.setBackstop ((w.backstop.setUserBal p s ub).setPoolBal p pb')).setBalance i.backstopToken w.backstopAddr
          ((w.setBackstop ((w.backstop.setUserBal p s ub).setPoolBal p pb')).balance i.backstopToken w.backstopAddr - t)).balance
            i.backstopToken s = w.balance i.backstopToken s := by
        unfold World.balance World.setBalance World.setBackstop
        simp [upd_apply, hsne]
      rwa [hbal] at hv
  · rintro ⟨ha, hle, hm, tk, tk0, fl, hb⟩
    have hsh : 0 < (w.backstop.getPoolBal p).shares := by omega
    obtain ⟨ub, hd⟩ := (dequeueShares_iff (now := w.time) (req := true) hq (inv.user p s).sorted ha (inI (by omega) (by omega))).2
      (by rw [openTotal_true]; exact hle)
    have htk : tk ≤ (w.backstop.getPoolBal p).tokens := by
      by_contra hcon
      have h1 : ((w.backstop.getPoolBal p).tokens + 1) * (w.backstop.getPoolBal p).shares ≤ tk * (w.backstop.getPoolBal p).shares :=
        mul_le_mul_of_nonneg_right (by omega) (by omega)
      have h2 : a * (w.backstop.getPoolBal p).tokens ≤ (w.backstop.getPoolBal p).shares * (w.backstop.getPoolBal p).tokens :=
        mul_le_mul_of_nonneg_right (by omega) (inv.pool p)
      have := fl.1
      nlinarith
    have hfund := tokens_le_funds hr hi hne p
    have hT : InI128 ((w.backstop.getPoolBal p).tokens) := by
      have := inv.pool p
      refine ⟨by omega, ?_⟩
      have h2 : 1 * (w.backstop.getPoolBal p).tokens ≤ a * (w.backstop.getPoolBal p).tokens :=
        mul_le_mul_of_nonneg_right (by omega) (inv.pool p)
      have := hm.2
      omega
    have key : ∃ w', Backstop.withdraw w auth s p a = .ok (tk, w') := by
      unfold Backstop.withdraw executeWithdraw requireNonneg pbWithdraw toTokens fixedMulFloor Backstop.inst transfer
      simp only [bind_ok, requireAuth_ok, require_ok, chk_ok, pure_ok, unwrap_ok, Prod.mk.injEq]
      rw [if_neg (by omega)]
      simp only [mulDivFloor_ok]
      have hfd : tk = Int.fdiv (a * (w.backstop.getPoolBal p).tokens) (w.backstop.getPoolBal p).shares := by
        have := fdiv_spec (a := a * (w.backstop.getPoolBal p).tokens) hsh
        exact Pool.floor_unique fl ⟨this.1, by linarith [this.2]⟩ hsh
      have i1 : InI128 ((w.backstop.getPoolBal p).tokens - tk) := by unfold InI128 at *; have := inv.pool p; omega
      have i2 : InI128 tk := by unfold InI128 at *; omega
      refine ⟨_, (), hs, (), by omega, ub, hd, tk, ⟨hm, by omega, i2, hfd⟩, (), by omega, _,
        ⟨(), by omega, _, ⟨i1, rfl⟩, _, ⟨inI (by omega) (by omega), rfl⟩, _, ⟨inI (by omega) (by omega), rfl⟩, rfl⟩, i, hi, _,
        ⟨(), by omega, (), by exact le_trans htk hfund, _, ⟨?_, rfl⟩, rfl⟩, rfl, rfl⟩
      have hbal : ∀ (b : BackstopState) (v : Int), ((w.setBackstop b).setBalance i.backstopToken w.backstopAddr v).balance
            i.backstopToken s = w.balance i.backstopToken s := by
        intro b v
        unfold World.balance World.setBalance World.setBackstop
        simp [upd_apply, hsne]
      rw [hbal]
      exact hb
    obtain ⟨w', hw⟩ := key
    refine ⟨w', ?_⟩
    simp only [step, bind_ok, require_ok, backstopCall, pure_ok, Prod.exists]
    exact ⟨(), hauth, tk, w', hw, rfl⟩

/-- an account that does not dequeue or withdraw keeps all its queue entries, in place -/
theorem queue_prefix {w w' : World} (hr : Reachable w) {op : Op} (hs : step w op = .ok w') {p u : Address}
    (hno : ¬ LeavesQueue p u op) : (w.backstop.getUserBal p u).q4w <+: (w'.backstop.getUserBal p u).q4w := by
  cases hr.balCase hs p with
  | same h1 h2 => rw [h2 u]
  | pool _ _ _ _ _ h2 => rw [h2 u]
  | @claim auth s ps d _ _ cr _ =>
    obtain ⟨c1, _⟩ := cr.users p u
    change (w'.backstop.getUserBal p u).q4w = _ at c1
    rw [c1]
  | @deposit auth s a m _ r _ _ h1 h2 =>
    by_cases e : u = s
    · subst e; rw [h1]
    · rw [h2 u e]
  | @queue auth s a _ r _ h1 h2 =>
    by_cases e : u = s
    · subst e; rw [h1]; exact List.prefix_append _ _
    · rw [h2 u e]
  | @dequeue auth s a l taken r' ho r d _ h1 h2 =>
    by_cases e : u = s
    · subst e; exact absurd ⟨auth, a, .inl ho⟩ hno
    · rw [h2 u e]
  | @withdraw auth s a tk l taken r' ho r d _ h1 h2 =>
    by_cases e : u = s
    · subst e; exact absurd ⟨auth, a, .inr ho⟩ hno
    · rw [h2 u e]

theorem unlocked_prefix {t : Nat} {l l' : List Q4W} (h : l <+: l') (h0 : ∀ e ∈ l', 0 ≤ e.amount) (ht : ∀ e ∈ l, e.exp ≤ t) :
    queueTotal l ≤ unlockedTotal t l' := by
  obtain ⟨r, rfl⟩ := h
  unfold unlockedTotal queueTotal
  rw [List.filter_append, List.map_append, List.sum_append, List.filter_eq_self.2 (by simpa using ht)]
  have : 0 ≤ ((r.filter fun e => decide (e.exp ≤ t)).map fun e => e.amount).sum :=
    List.sum_nonneg fun x hx => by
      obtain ⟨e, he, rfl⟩ := List.mem_map.1 hx
      exact h0 e (by have := (List.mem_filter.1 he).1; simp [this])
  omega

theorem history_prefix {w w' : World} (hr : Reachable w) {p u : Address} (hh : History (fun op => ¬ LeavesQueue p u op) w w') :
    Reachable w' ∧ (w.backstop.getUserBal p u).q4w <+: (w'.backstop.getUserBal p u).q4w := by
  induction hh with
  | refl => exact ⟨hr, List.prefix_refl _⟩
  | tail _ hno hs ih => exact ⟨ih.1.step hs, ih.2.trans (queue_prefix ih.1 hs hno)⟩

/-- **C54** Whatever an account has queued is unlocked 21 days later, whatever anybody (including the account itself, unless
it takes shares out of the queue) does in between. -/
theorem C54_unlocks {w w' : World} (hr : Reachable w) (p u : Address) (hh : History (fun op => ¬ LeavesQueue p u op) w w')
    (ht : w.time + days21 ≤ w'.time) :
    queueTotal (w.backstop.getUserBal p u).q4w ≤ unlockedTotal w'.time (w'.backstop.getUserBal p u).q4w := by
  obtain ⟨hr', hp⟩ := history_prefix hr hh
  exact unlocked_prefix hp (hr'.ball.inv.user p u).amounts fun e he => le_trans ((hr.ball.inv.user p u).exp e he) ht

/-- **C54** A depositor who queues `a` shares and waits 21 days can withdraw them, whatever anybody has done in between: the
only conditions are that they are worth a unit of the token by then and that the sizes are ordinary. -/
theorem C54_after_21_days {w w1 w2 : World} (hr : Reachable w) {auth auth' : List Address} {s p : Address} {a : Int} (ha : 0 < a)
    (hq : step w (.backstop auth (.queueWithdrawal s p a)) = .ok w1)
    (hh : History (fun op => ¬ LeavesQueue p s op) w1 w2) (ht : w.time + days21 ≤ w2.time)
    {i : BackstopInst} (hi : w2.backstop.inst = some i) (hne : i.blnd ≠ i.backstopToken)
    (hauth : ∀ x ∈ auth', ¬ w2.isProtocol x) (hs : s ∈ auth')
    (hS : (w2.backstop.getPoolBal p).shares ≤ 10 ^ 19) (hT : (w2.backstop.getPoolBal p).tokens ≤ 10 ^ 19)
    (hB : w2.balance i.backstopToken s ≤ 10 ^ 37)
    (hv : (w2.backstop.getPoolBal p).shares ≤ a * (w2.backstop.getPoolBal p).tokens) :
    ∃ w3, step w2 (.backstop auth' (.withdraw s p a)) = .ok w3 := by
  have hr1 := hr.step hq
  obtain ⟨hr2, hp⟩ := history_prefix hr1 hh
  obtain ⟨_, _, _, hub, _⟩ := C32_queue hq
  have ht1 : w1.time = w.time := by
    simp only [step, bind_ok, require_ok] at hq
    obtain ⟨_, _, hc⟩ := hq
    obtain ⟨x, b1, _, rfl⟩ := (queue_res hc).ex
    rfl
  have hun := unlocked_prefix (t := w2.time) hp (hr2.ball.inv.user p s).amounts fun e he => by
    have := (hr1.ball.inv.user p s).exp e he
    unfold days21 at ht; omega
  have hge : a ≤ queueTotal (w1.backstop.getUserBal p s).q4w := by
    rw [hub]
    unfold queueTotal
    rw [List.map_append, List.sum_append]
    have : 0 ≤ (((w.backstop.getUserBal p s).q4w).map fun e => e.amount).sum := List.sum_nonneg fun x hx => by
      obtain ⟨e, he, rfl⟩ := List.mem_map.1 hx
      exact (hr.ball.inv.user p s).amounts e he
    simpa using this
  have inv := hr2.ball.inv
  have hul := unlocked_le hr2 p s w2.time
  obtain ⟨s0, s1⟩ := inv.shares_nonneg p
  have t0 := inv.pool p
  have b0 := hr2.base.balances i.backstopToken s
  obtain ⟨m0, m1⟩ := prod_le (x := a) (y := (w2.backstop.getPoolBal p).tokens) ha.le (show a ≤ 10 ^ 19 by omega) t0 hT
  refine (C54_withdraw_iff hr2 hi hne hauth hs (by omega) a).2 ⟨ha, by omega, inI m0 (by omega), ?_⟩
  have hsh : 0 < (w2.backstop.getPoolBal p).shares := by omega
  obtain ⟨q1, q2⟩ := fdiv_spec (a := a * (w2.backstop.getPoolBal p).tokens) hsh
  generalize Int.fdiv (a * (w2.backstop.getPoolBal p).tokens) (w2.backstop.getPoolBal p).shares = tk at q1 q2
  have tk0 : 0 < tk := by
    by_contra hcon
    have : tk * (w2.backstop.getPoolBal p).shares ≤ 0 * (w2.backstop.getPoolBal p).shares :=
      mul_le_mul_of_nonneg_right (by omega) hsh.le
    omega
  have tk1 : tk ≤ 10 ^ 38 - 10 ^ 37 := by
    have h1 : tk * 1 ≤ tk * (w2.backstop.getPoolBal p).shares := mul_le_mul_of_nonneg_left (by omega) tk0.le
    by_cases h2 : tk ≤ (w2.backstop.getPoolBal p).tokens
    · omega
    · exfalso
      have h3 : ((w2.backstop.getPoolBal p).tokens + 1) * (w2.backstop.getPoolBal p).shares ≤ tk * (w2.backstop.getPoolBal p).shares :=
        mul_le_mul_of_nonneg_right (by omega) hsh.le
      have h4 : a * (w2.backstop.getPoolBal p).tokens ≤ (w2.backstop.getPoolBal p).shares * (w2.backstop.getPoolBal p).tokens :=
        mul_le_mul_of_nonneg_right (by omega) t0
      nlinarith
  exact ⟨tk, tk0, ⟨q1, by linarith⟩, inI (by omega) (by omega)⟩

/-- **C54** Queueing a withdrawal of one's shares succeeds unless 21 entries are already queued (for ordinary sizes). -/
theorem C54_queue_iff {w : World} (hr : Reachable w) {auth : List Address} (hauth : ∀ x ∈ auth, ¬ w.isProtocol x) {s p : Address}
    (hs : s ∈ auth) (m : ModerateBackstop w p s) {a : Int} (ha : 0 < a) :
    (∃ w', step w (.backstop auth (.queueWithdrawal s p a)) = .ok w') ↔
      a ≤ (w.backstop.getUserBal p s).shares ∧ (w.backstop.getUserBal p s).q4w.length < 21 := by
  constructor
  · rintro ⟨w', h⟩
    simp only [step, bind_ok, require_ok] at h
    obtain ⟨_, _, hc⟩ := h
    have r := queue_res hc
    exact ⟨r.le, r.len⟩
  · rintro ⟨h1, h2⟩
    have u := user_le_unq hr p s
    have hS := m.shares
    have sn := hr.ball.inv.shares_nonneg p
    obtain ⟨x, b1, he⟩ := emis_live hr m fun hq => by have := hq.queued; omega
    have key : ∃ w', Backstop.queueWithdrawal w auth s p a = .ok w' := by
      unfold Backstop.queueWithdrawal executeQueue requireNonneg queueShares pbQueue
      simp only [bind_ok, requireAuth_ok, require_ok, chk_ok, pure_ok, Prod.exists, he, Except.ok.injEq, Prod.mk.injEq]
      exact ⟨_, (), hs, (), by omega, x, b1, ⟨rfl, rfl⟩, _, ⟨(), by omega, (), by unfold MAX_Q4W_SIZE; omega, _,
        ⟨inI (by omega) (by omega), rfl⟩, rfl⟩, _, ⟨_, ⟨inI (by omega) (by omega), rfl⟩, rfl⟩, rfl⟩
    obtain ⟨w', hw⟩ := key
    refine ⟨w', ?_⟩
    simp only [step, bind_ok, require_ok, backstopCall]
    exact ⟨(), hauth, hw⟩

/-- **C54** Taking shares back out of the queue succeeds exactly when that many are queued, unless all shares of the pool are
queued while emissions are due (the known problem C44; for ordinary sizes). -/
theorem C54_dequeue_iff {w : World} (hr : Reachable w) {auth : List Address} (hauth : ∀ x ∈ auth, ¬ w.isProtocol x) {s p : Address}
    (hs : s ∈ auth) (m : ModerateBackstop w p s) {a : Int} (ha : 0 < a) :
    (∃ w', step w (.backstop auth (.dequeueWithdrawal s p a)) = .ok w') ↔
      a ≤ queueTotal (w.backstop.getUserBal p s).q4w ∧ ¬ AllQueued w p := by
  have u := user_le_unq hr p s
  have hS := m.shares
  have sn := hr.ball.inv.shares_nonneg p
  have hq := queue_inI hr (u := s) (p := p) (by omega)
  have inv := hr.ball.inv
  have u0 := (inv.user p s).shares
  have e0 : qsum (w.backstop.getUserBal p s).q4w = queueTotal (w.backstop.getUserBal p s).q4w := rfl
  constructor
  · rintro ⟨w', h⟩
    refine ⟨?_, fun hA => (C44_all_queued_reverts hA auth).2.2.1 s a w' h⟩
    obtain ⟨_, _, _, hf, _⟩ := C32_dequeue hr h
    have h1 := fifo_total hf
    have h2 := qsum_nonneg ((hr.step h).ball.inv.user p s).amounts
    have e1 : qsum (w'.backstop.getUserBal p s).q4w = queueTotal (w'.backstop.getUserBal p s).q4w := rfl
    omega
  · rintro ⟨h1, h2⟩
    obtain ⟨x, b1, he⟩ := emis_live hr m h2
    obtain ⟨ub, hd⟩ := (dequeueShares_iff (now := w.time) (req := false) hq (inv.user p s).sorted ha (inI (by omega) (by omega))).2
      (by rw [openTotal_false]; exact h1)
    have hub : ub.shares = (w.backstop.getUserBal p s).shares := by
      unfold dequeueShares at hd
      simp only [bind_ok, Prod.exists, pure_ok] at hd
      obtain ⟨_, _, _, _, _, rfl⟩ := hd
      rfl
    have key : ∃ w', Backstop.dequeueWithdrawal w auth s p a = .ok w' := by
      unfold Backstop.dequeueWithdrawal executeDequeue requireNonneg addShares pbDequeue
      simp only [bind_ok, requireAuth_ok, require_ok, chk_ok, pure_ok, Prod.exists, he, hd, Except.ok.injEq, Prod.mk.injEq]
      exact ⟨_, (), hs, (), by omega, x, b1, ⟨rfl, rfl⟩, ub, rfl, _, ⟨_, ⟨inI (by omega) (by omega), rfl⟩, rfl⟩, _,
        ⟨(), by omega, _, ⟨inI (by omega) (by omega), rfl⟩, rfl⟩, rfl⟩
    obtain ⟨w', hw⟩ := key
    refine ⟨w', ?_⟩
    simp only [step, bind_ok, require_ok, backstopCall]
    exact ⟨(), hauth, hw⟩

/-! ### concrete cases -/

theorem history_of_run {P : Op → Prop} : ∀ {ops : List Op} {w w' : World}, Demo.run w ops = .ok w' → (∀ op ∈ ops, P op) →
    ∀ w0, History P w0 w → History P w0 w'
  | [], w, w', h, _, w0, h0 => by simp only [Demo.run, pure_ok] at h; exact h ▸ h0
  | op :: ops, w, w', h, hP, w0, h0 => by
    simp only [Demo.run, bind_ok] at h
    obtain ⟨w1, h1, h2⟩ := h
    exact history_of_run h2 (fun o ho => hP o (by simp [ho])) w0 (.tail h0 (hP op (by simp)) h1)

/-- carol has unlocked 15000 shares and can withdraw exactly up to that amount -/
example : ∃ w i, Reachable w ∧ w.backstop.inst = some i ∧ i.blnd ≠ i.backstopToken ∧ (∀ x ∈ [Demo.carol], ¬ w.isProtocol x) ∧
    (w.backstop.getPoolBal Demo.poolA).shares ≤ 10 ^ 38 ∧
    unlockedTotal w.time (w.backstop.getUserBal Demo.poolA Demo.carol).q4w = 150000000000 ∧
    queueTotal (w.backstop.getUserBal Demo.poolA Demo.carol).q4w = 200000000000 ∧
    (∃ w', step w (.backstop [Demo.carol] (.withdraw Demo.carol Demo.poolA 150000000000)) = .ok w') ∧
    ¬ ∃ w', step w (.backstop [Demo.carol] (.withdraw Demo.carol Demo.poolA 150000000001)) = .ok w' := by
  obtain ⟨w, _, hr, h⟩ := Demo.reach (ops := Demo.setup ++ Demo.queue.take 3 ++ [.ledger 1814300 362800])
    (f := fun w => (match w.backstop.inst with | some i => decide (i.blnd ≠ i.backstopToken) | none => false) &&
      decide ((w.emitterAddr ≠ Demo.carol ∧ w.backstopAddr ≠ Demo.carol ∧ w.factoryAddr ≠ Demo.carol ∧ w.poolAddr Demo.carol = false) ∧
        (w.backstop.getPoolBal Demo.poolA).shares ≤ 10 ^ 38 ∧
        unlockedTotal w.time (w.backstop.getUserBal Demo.poolA Demo.carol).q4w = 150000000000 ∧
        queueTotal (w.backstop.getUserBal Demo.poolA Demo.carol).q4w = 200000000000) &&
      Demo.okAnd (step w (.backstop [Demo.carol] (.withdraw Demo.carol Demo.poolA 150000000000))) fun _ => true)
    (by decide +kernel)
  simp only [Bool.and_eq_true, decide_eq_true_eq] at h
  obtain ⟨⟨h1, ⟨a1, a2, a3, a4⟩, h3, h4, h5⟩, h6⟩ := h
  cases hi : w.backstop.inst with
  | none => rw [hi] at h1; simp at h1
  | some i =>
    rw [hi] at h1
    have hne : i.blnd ≠ i.backstopToken := by simpa using h1
    have hauth : ∀ x ∈ [Demo.carol], ¬ w.isProtocol x := by
      intro x hx
      rw [List.mem_singleton] at hx
      subst hx
      unfold World.isProtocol
      rintro (h | h | h | h)
      · exact a1 h.symm
      · exact a2 h.symm
      · exact a3 h.symm
      · rw [a4] at h; cases h
    obtain ⟨w', h6, _⟩ := Demo.okAnd_iff.1 h6
    refine ⟨w, i, hr, hi, hne, hauth, h3, h4, h5, ⟨w', h6⟩, fun h => ?_⟩
    have := ((C54_withdraw_iff hr hi hne hauth (s := Demo.carol) (by simp) h3 _).1 h).2.1
    omega

/-- carol queues shares, others trade for 22 days, she withdraws -/
example : ∃ w w1 w2 i, Reachable w ∧
    step w (.backstop [Demo.carol] (.queueWithdrawal Demo.carol Demo.poolA 150000000000)) = .ok w1 ∧
    History (fun op => ¬ LeavesQueue Demo.poolA Demo.carol op) w1 w2 ∧ w.time + days21 ≤ w2.time ∧
    w2.backstop.inst = some i ∧ i.blnd ≠ i.backstopToken ∧
    (w2.backstop.getPoolBal Demo.poolA).shares ≤ 10 ^ 19 ∧ (w2.backstop.getPoolBal Demo.poolA).tokens ≤ 10 ^ 19 ∧
    w2.balance i.backstopToken Demo.carol ≤ 10 ^ 37 ∧
    (w2.backstop.getPoolBal Demo.poolA).shares ≤ 150000000000 * (w2.backstop.getPoolBal Demo.poolA).tokens ∧
    ModerateBackstop w Demo.poolA Demo.carol ∧ ¬ AllQueued w2 Demo.poolA := by
  obtain ⟨w, w1, _, hr, hs, h⟩ := Demo.reach_step (ops := Demo.setup)
    (op := .backstop [Demo.carol] (.queueWithdrawal Demo.carol Demo.poolA 150000000000))
    (f := fun w w1 => decide ((w.backstop.getPoolBal Demo.poolA).shares ≤ 10 ^ 18 ∧
        (∀ x ∈ (w.backstop.userEmis Demo.poolA).get Demo.carol, x.accrued ≤ 10 ^ 37) ∧
        (∀ cfg ∈ w.backstop.emisCfg Demo.poolA, ∀ d ∈ w.backstop.emisData Demo.poolA,
          (cfg.eps : Int) ≤ 10 ^ 15 ∧ (w.time : Int) ≤ d.lastTime + 10 ^ 12 ∧ d.index ≤ 10 ^ 19)) &&
      Demo.okAnd (Demo.run w1 (Demo.trade ++ [.ledger 1900800 380160])) fun w2 =>
      (match w2.backstop.inst with
        | some i => decide (i.blnd ≠ i.backstopToken ∧ w2.balance i.backstopToken Demo.carol ≤ 10 ^ 37)
        | none => false) &&
      decide (w.time + days21 ≤ w2.time ∧
        (w2.backstop.getPoolBal Demo.poolA).shares ≤ 10 ^ 19 ∧ (w2.backstop.getPoolBal Demo.poolA).tokens ≤ 10 ^ 19 ∧
        (w2.backstop.getPoolBal Demo.poolA).shares ≤ 150000000000 * (w2.backstop.getPoolBal Demo.poolA).tokens ∧
        (w2.backstop.getPoolBal Demo.poolA).q4w ≠ (w2.backstop.getPoolBal Demo.poolA).shares))
    (by decide +kernel)
  simp only [Bool.and_eq_true, decide_eq_true_eq] at h
  obtain ⟨⟨g1, g2, g3⟩, h⟩ := h
  obtain ⟨w2, h2, h⟩ := Demo.okAnd_iff.1 h
  simp only [Bool.and_eq_true, decide_eq_true_eq] at h
  obtain ⟨h1, h3, h4, h5, h6, h7⟩ := h
  have hh : History (fun op => ¬ LeavesQueue Demo.poolA Demo.carol op) w1 w2 := by
    refine history_of_run h2 (fun op hop => ?_) w1 (.refl _)
    rintro ⟨auth, a, rfl | rfl⟩ <;> simp [Demo.trade] at hop
  cases hi : w2.backstop.inst with
  | none => rw [hi] at h1; simp at h1
  | some i =>
    rw [hi] at h1
    simp only [decide_eq_true_eq] at h1
    exact ⟨w, w1, w2, i, hr, hs, hh, h3, hi, h1.1, h4, h5, h1.2, h6,
      ⟨g1, fun cfg d hc hd => g3 cfg hc d hd, fun x hx => g2 x hx⟩, fun hA => h7 hA.queued⟩

end Props
end Blend
