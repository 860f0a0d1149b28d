import Verif.Lemmas.BackstopLive
/-
  C67: exactly the calls of backstop depositors that are in order go through, and do exactly what is planned.
-/

namespace Blend
namespace Spec

/-- a call by the depositor `s` concerning the pool `p` -/
def DepositorCall (s p : Address) (c : BackstopCall) : Prop :=
  ∃ a, c = .deposit s p a ∨ c = .queueWithdrawal s p a ∨ c = .dequeueWithdrawal s p a ∨ c = .withdraw s p a

end Spec

namespace Backstop
open Spec Pool

theorem emis_frame {b b1 : BackstopState} {now : Nat} {p u : Address} {pb : PoolBalance} {ub : UserBalance}
    {claim : Bool} {x : Int} (h : updateEmissions b now p pb u ub claim = .ok (x, b1)) :
    (∀ q, q ≠ p → b1.emisData q = b.emisData q ∧ b1.userEmis q = b.userEmis q) ∧
    ∀ v, v ≠ u → (b1.userEmis p).get v = (b.userEmis p).get v := by
  rcases updateEmissions_ok h with ⟨_, rfl, _⟩ | ⟨cfg, ed, d, y, r⟩
  · exact ⟨fun _ _ => ⟨rfl, rfl⟩, fun _ _ => rfl⟩
  · rw [r.eq]
    refine ⟨fun q hq => ⟨upd_ne hq, upd_ne hq⟩, fun v hv => ?_⟩
    simp only [upd_same, SMap.get_set, if_neg hv]

theorem floor_of {x y z v : Int} (h : mulDivFloor x y z = .ok v) (hz : 0 < z) : IsFloor v (x * y) z := by
  have := mulDivFloor_spec h hz
  exact ⟨this.1, by have := this.2; linarith⟩

/-- the balances are written and the emissions updated: that is the outcome -/
theorem outcome_of {w : World} {tok s p : Address} {b1 : BackstopState} {pb : PoolBalance} {ub : UserBalance}
    (hb : SameBals w.backstop b1) (hf : (∀ q, q ≠ p → b1.emisData q = w.backstop.emisData q ∧ b1.userEmis q = w.backstop.userEmis q) ∧
      ∀ v, v ≠ s → (b1.userEmis p).get v = (w.backstop.userEmis p).get v) :
    BackstopOutcome w (w.setBackstop (setBal b1 p s pb ub)) tok s p pb ub 0 where
  pool q := by
    show (setBal b1 p s pb ub).getPoolBal q = _
    rw [getPoolBal_set, hb.poolBal]
  user q u := by
    show (setBal b1 p s pb ub).getUserBal q u = _
    rw [getUserBal_set, hb.userBal]
  tokens t a := by
    show w.balance t a = _
    simp
  allow t := rfl
  rest := by
    unfold SameBals at hb
    unfold World.setBackstop setBal
    rw [hb]
  emisPool := hf.1
  emisUser := hf.2

/-- afterwards tokens are moved -/
theorem outcome_pay {w w1 w2 : World} {tok s p : Address} {pb : PoolBalance} {ub : UserBalance} {x : Int}
    (h : BackstopOutcome w w1 tok s p pb ub 0) (hf : w2 = { w1 with tok := w2.tok }) (ha : ∀ t, (w2.tok t).allow = (w1.tok t).allow)
    (hb : ∀ t a, w2.balance t a = w1.balance t a + (if t = tok ∧ a = w.backstopAddr then x else 0) - if t = tok ∧ a = s then x else 0) :
    BackstopOutcome w w2 tok s p pb ub x where
  pool q := by rw [hf]; exact h.pool q
  user q u := by rw [hf]; exact h.user q u
  tokens t a := by
    rw [hb t a, h.tokens t a]
    simp
  allow t := by rw [ha, h.allow]
  rest := by
    have e1 : w2.backstop = w1.backstop := by rw [hf]
    have h1 := h.rest
    rw [e1]
    conv_lhs => rw [hf]
    conv_lhs => rw [h1]
  emisPool := by rw [hf]; exact h.emisPool
  emisUser := by rw [hf]; exact h.emisUser

end Backstop

namespace Props
open Spec Backstop Pool
variable {w w' : World} {i : BackstopInst} {auth : List Address} {s p : Address} {c : BackstopCall} {pb : PoolBalance} {ub : UserBalance} {x : Int}

/-- **C67** A call of a backstop depositor that goes through was authorized by him and in order, and does what is planned and
nothing else. -/
theorem C67_only_if (hr : Reachable w) (hi : w.backstop.inst = some i) (hd : DepositorCall s p c)
    (hs : step w (.backstop auth c) = .ok w') :
    s ∈ auth ∧ ∃ pb ub x, BackstopPlan w i.backstopToken s p c pb ub x ∧ BackstopOutcome w w' i.backstopToken s p pb ub x := by
  have hs' := hs
  simp only [step, bind_ok, require_ok] at hs
  obtain ⟨_, hauth, hc⟩ := hs
  obtain ⟨a, rfl | rfl | rfl | rfl⟩ := hd
  · simp only [backstopCall, bind_ok, pure_ok, Prod.exists] at hc
    obtain ⟨m, w2, hc, rfl⟩ := hc
    have r := deposit_res hc
    obtain ⟨e, b1, i', w3, hu, hi', t, hw⟩ := r.ex
    rw [hi] at hi'; cases hi'
    have hmint : Minted (w.backstop.getPoolBal p) a m := by
      have hm := r.minted
      have := r.nonneg
      have := r.nonzero
      have sn := hr.ball.inv.shares_nonneg p
      have tn := hr.ball.inv.pool p
      unfold toShares at hm
      by_cases h0 : (w.backstop.getPoolBal p).shares = 0
      · rw [if_pos h0] at hm
        simp only [pure_ok] at hm
        exact ⟨by omega, .inl ⟨h0, by omega⟩⟩
      · rw [if_neg h0] at hm
        have hz := (mulDivFloor_ok.1 hm).2.1
        have hn := mulDivFloor_nonneg hm (by omega) (mul_nonneg r.nonneg (by omega))
        exact ⟨by omega, .inr ⟨h0, by omega, floor_of hm (by omega)⟩⟩
    have hk : w.factory.deployed p = true := by
      by_cases h0 : (w.backstop.getPoolBal p).shares = 0
      · exact r.known h0
      · exact hr.dep.known p (.inl h0)
    refine ⟨r.auth, _, _, _, .deposit hk hmint (fun hA => (C44_all_queued_reverts hA auth).1 s a _ hs') t.enough, ?_⟩
    have h1 := outcome_of (tok := i.backstopToken) (pb := ⟨(w.backstop.getPoolBal p).shares + m, (w.backstop.getPoolBal p).tokens + a, (w.backstop.getPoolBal p).q4w⟩)
      (ub := ⟨(w.backstop.getUserBal p s).shares + m, (w.backstop.getUserBal p s).q4w⟩) (emis_same hu) (emis_frame hu)
    refine outcome_pay h1 ?_ ?_ ?_
    · rw [hw, t.frame]; rfl
    · intro tt; rw [hw]; exact t.allow tt
    · intro tt x
      rw [hw]
      have := t.bal tt x
      unfold moved at this
      show w3.balance tt x = (w.setBackstop _).balance tt x + _ - _
      rw [this]
      show w.balance tt x + _ = w.balance tt x + _ - _
      ring
  · have r := queue_res hc
    obtain ⟨e, b1, hu, hw⟩ := r.ex
    refine ⟨r.auth, _, _, _, .queue r.nonneg r.le r.len (fun hA => (C44_all_queued_reverts hA auth).2.1 s a _ hs'), ?_⟩
    rw [hw]
    exact outcome_of (emis_same hu) (emis_frame hu)
  · have r := dequeue_res hc
    obtain ⟨e, b1, q, hu, hdq, hw⟩ := r.ex
    obtain ⟨tk, r', hdq⟩ := hdq (hr.ball.inv.user p s).amounts
    refine ⟨r.auth, _, _, _, .dequeue r.nonneg (hdq.fifo.mono fun _ _ => trivial) (fun hA => (C44_all_queued_reverts hA auth).2.2.1 s a _ hs'), ?_⟩
    rw [hw]
    exact outcome_of (emis_same hu) (emis_frame hu)
  · obtain ⟨_, _, _, _, i', tk, hi', tk0, fl, _⟩ := C32_withdraw hr hs'
    simp only [backstopCall, bind_ok, pure_ok, Prod.exists] at hc
    obtain ⟨tk', w2, hc, rfl⟩ := hc
    have r := withdraw_res hc
    obtain ⟨q, i', hi', hdq, hw, t⟩ := r.ex
    rw [hi] at hi'; cases hi'
    obtain ⟨_, r', hdq⟩ := hdq (hr.ball.inv.user p s).amounts
    have hsh : 0 < (w.backstop.getPoolBal p).shares := by
      have hp := r.paid
      have := r.pos
      have := r.nonneg
      have := r.le
      have sn := hr.ball.inv.shares_nonneg p
      by_contra hcon
      unfold toTokens at hp
      rw [if_pos (by omega)] at hp
      simp only [pure_ok] at hp
      omega
    have hfl : IsFloor tk' (a * (w.backstop.getPoolBal p).tokens) (w.backstop.getPoolBal p).shares := by
      have hp := r.paid
      unfold toTokens at hp
      rw [if_neg (by omega)] at hp
      exact floor_of hp hsh
    refine ⟨r.auth, _, _, _, .withdraw r.nonneg (hdq.fifo.mono fun e he => he rfl) r.pos hfl, ?_⟩
    have h1 := outcome_of (w := w) (s := s) (p := p) (b1 := w.backstop) (tok := i.backstopToken)
      (pb := ⟨(w.backstop.getPoolBal p).shares - a, (w.backstop.getPoolBal p).tokens - tk', (w.backstop.getPoolBal p).q4w - a⟩)
      (ub := ⟨(w.backstop.getUserBal p s).shares, q⟩) rfl ⟨fun _ _ => ⟨rfl, rfl⟩, fun _ _ => rfl⟩
    rw [hw] at t
    refine outcome_pay h1 t.frame t.allow fun tt x => ?_
    have := t.bal tt x
    unfold moved at this
    rw [this]
    show (w.setBackstop _).balance tt x + _ = _
    split <;> split <;> ring

/-- **C67** Conversely, a call that is in order goes through, unless an amount overflows: there is no other reason for which it
could fail. -/
theorem C67_accepted (hr : Reachable w) (hi : w.backstop.inst = some i) (hfac : i.poolFactory = w.factoryAddr) (hne : i.blnd ≠ i.backstopToken)
    (hauth : ∀ x ∈ auth, ¬ w.isProtocol x) (hsa : s ∈ auth) (h : BackstopPlan w i.backstopToken s p c pb ub x) :
    step w (.backstop auth c) = .error .overflow ∨
    ∃ w' ub', step w (.backstop auth c) = .ok w' ∧ BackstopPlan w i.backstopToken s p c pb ub' x ∧
      BackstopOutcome w w' i.backstopToken s p pb ub' x := by
  have hov : Unexpected False .overflow = false := unexpected_overflow
  have hsne : s ≠ w.backstopAddr := by rintro rfl; exact hauth _ hsa (.inr (.inl rfl))
  have inv := hr.ball.inv
  have sn := inv.shares_nonneg p
  have tn := inv.pool p
  have ule := user_le_unq hr p s
  have un := (inv.user p s).shares
  have key : NoErr (Unexpected False) (step w (.backstop auth c)) := by
    unfold step
    refine NoErr.bind (NoErr.req hauth) fun _ _ => ?_
    cases h with
    | @deposit a m hk hm hA hf =>
      have ha : 0 ≤ x := by
        obtain ⟨h0, ⟨_, h1⟩ | ⟨h1, h2, h3, h4⟩⟩ := hm
        · omega
        · by_contra hcon
          have : x * (w.backstop.getPoolBal p).shares ≤ 0 := mul_nonpos_of_nonpos_of_nonneg (by omega) (by omega)
          have : 0 < m * (w.backstop.getPoolBal p).tokens := mul_pos h0 h2
          omega
      have hsp : s ≠ p := by
        rintro rfl
        exact hauth _ hsa (.inr (.inr (.inr (hr.dep.pool _ hk).1)))
      show NoErr _ (Backstop.deposit w auth s p x >>= _)
      refine NoErr.bind ?_ fun _ _ => NoErr.pure
      unfold Backstop.deposit executeDeposit
      refine NoErr.bind (NoErr.req hsa) fun _ _ => NoErr.bind (NoErr.req (by omega)) fun _ _ => NoErr.bind (NoErr.req (by
        push Not; exact ⟨hsp, hsne⟩)) fun _ _ => NoErr.bind ?_ fun _ _ => NoErr.bind (emis_noErr hov hr hA) ?_
      · unfold requireIsFromFactory Backstop.inst
        split
        · refine NoErr.bind (NoErr.unwrap hi) fun i' hi' => ?_
          rw [hi] at hi'; simp only [unwrap_ok, Option.some.injEq] at hi'; subst hi'
          exact NoErr.bind (NoErr.req hfac) fun _ _ => NoErr.req hk
        · exact NoErr.pure
      · rintro ⟨_, b1⟩ hu
        have hb := emis_same hu
        have hi1 : b1.inst = some i := by unfold SameBals at hb; rw [hb]; exact hi
        refine NoErr.bind (NoErr.unwrap (a := i) hi1) fun i' hi' => ?_
        have hi' : some i' = some i := by
          simp only [Backstop.inst, unwrap_ok] at hi'
          exact hi'.symm.trans hi1
        cases hi'
        refine NoErr.bind (transfer_live ha hsne.symm (fun _ => hf) fun hE => by rw [hov] at hE; cases hE) fun w2 _ => NoErr.bind ?_ fun m' hm' => ?_
        · unfold toShares
          split
          · exact NoErr.pure
          · obtain ⟨h0, ⟨_, h1⟩ | ⟨h1, h2, h3, h4⟩⟩ := hm
            · contradiction
            · exact mulDiv_live hov (by omega)
        · have hmm : m' = m := by
            unfold toShares at hm'
            obtain ⟨h0, ⟨h1, h2⟩ | ⟨h1, h2, h3⟩⟩ := hm
            · rw [if_pos h1] at hm'; simp only [pure_ok] at hm'; omega
            · rw [if_neg h1] at hm'
              exact floor_unique (floor_of hm' h2) h3 h2
          subst hmm
          refine NoErr.bind (NoErr.req (by have := hm.1; omega)) fun _ _ => NoErr.bind ?_ fun _ _ => NoErr.bind ?_ fun _ _ => NoErr.pure
          · exact NoErr.bind (chk_live hov) fun _ _ => NoErr.bind (chk_live hov) fun _ _ => NoErr.pure
          · exact NoErr.bind (chk_live hov) fun _ _ => NoErr.pure
    | @queue a h0 h1 h2 h3 =>
      show NoErr _ (Backstop.queueWithdrawal w auth s p a)
      unfold Backstop.queueWithdrawal executeQueue queueShares pbQueue
      exact NoErr.bind (NoErr.req hsa) fun _ _ => NoErr.bind (NoErr.req (by omega)) fun _ _ => NoErr.bind (emis_noErr hov hr h3) fun _ _ =>
        NoErr.bind (NoErr.bind (NoErr.req (by omega)) fun _ _ => NoErr.bind (NoErr.req (by unfold MAX_Q4W_SIZE; omega)) fun _ _ =>
          NoErr.bind (chk_live hov) fun _ _ => NoErr.pure) fun _ _ => NoErr.bind (NoErr.bind (chk_live hov) fun _ _ => NoErr.pure) fun _ _ => NoErr.pure
    | @dequeue a q h0 h1 h2 =>
      have hq0 := (inv.user p s).amounts
      have hle := fifo_open (now := w.time) (req := false) (h1.mono fun _ _ h => by cases h) hq0
      have hpq := openTotal_le (now := w.time) (req := false) hq0
      show NoErr _ (Backstop.dequeueWithdrawal w auth s p a)
      unfold Backstop.dequeueWithdrawal executeDequeue addShares pbDequeue
      exact NoErr.bind (NoErr.req hsa) fun _ _ => NoErr.bind (NoErr.req (by omega)) fun _ _ => NoErr.bind (emis_noErr hov hr h2) fun _ _ =>
        NoErr.bind (dequeueShares_live hov hq0 (inv.user p s).sorted (.inr ⟨h0, rfl⟩) hle) fun _ _ =>
        NoErr.bind (NoErr.bind (chk_live hov) fun _ _ => NoErr.pure) fun _ _ => NoErr.bind (NoErr.bind (NoErr.req (by omega)) fun _ _ =>
          NoErr.bind (chk_live hov) fun _ _ => NoErr.pure) fun _ _ => NoErr.pure
    | @withdraw a tk q h0 h1 h2 h3 =>
      have hq0 := (inv.user p s).amounts
      have hle := fifo_open (now := w.time) (req := true) (h1.mono fun _ h _ => h) hq0
      have hpq := openTotal_le (now := w.time) (req := true) hq0
      have hf := tokens_le_funds hr hi hne p
      have ha : 0 < a := by
        rcases lt_or_eq_of_le h0 with h | h
        · exact h
        · subst h
          have : 0 ≤ tk * (w.backstop.getPoolBal p).shares := mul_nonneg h2.le (by omega)
          obtain ⟨f1, f2⟩ := h3
          rw [zero_mul] at f1 f2
          rcases lt_or_eq_of_le (show 0 ≤ (w.backstop.getPoolBal p).shares by omega) with hs | hs
          · nlinarith
          · have : (w.backstop.getPoolBal p).shares = 0 := by omega
            rw [this] at f2; omega
      have hsh : 0 < (w.backstop.getPoolBal p).shares := by omega
      have htk : tk ≤ (w.backstop.getPoolBal p).tokens := by
        by_contra hcon
        have h4 : ((w.backstop.getPoolBal p).tokens + 1) * (w.backstop.getPoolBal p).shares ≤ tk * (w.backstop.getPoolBal p).shares :=
          mul_le_mul_of_nonneg_right (by omega) hsh.le
        have h5 : a * (w.backstop.getPoolBal p).tokens ≤ (w.backstop.getPoolBal p).shares * (w.backstop.getPoolBal p).tokens :=
          mul_le_mul_of_nonneg_right (by omega) tn
        have := h3.1
        nlinarith
      show NoErr _ (Backstop.withdraw w auth s p a >>= _)
      refine NoErr.bind ?_ fun _ _ => NoErr.pure
      unfold Backstop.withdraw executeWithdraw
      refine NoErr.bind (NoErr.req hsa) fun _ _ => NoErr.bind (NoErr.req (by omega)) fun _ _ =>
        NoErr.bind (dequeueShares_live hov hq0 (inv.user p s).sorted (.inl ha) hle) fun _ _ => NoErr.bind ?_ fun tk' htk' => ?_
      · unfold toTokens
        rw [if_neg (by omega)]
        exact mulDiv_live hov (by omega)
      · have : tk' = tk := by
          unfold toTokens at htk'
          rw [if_neg (by omega)] at htk'
          exact floor_unique (floor_of htk' hsh) h3 hsh
        subst this
        refine NoErr.bind (NoErr.req (by omega)) fun _ _ => NoErr.bind ?_ fun _ _ => NoErr.bind (NoErr.unwrap (a := i) hi) fun i' hi' => ?_
        · unfold pbWithdraw
          exact NoErr.bind (NoErr.req (by push Not; omega)) fun _ _ => NoErr.bind (chk_live hov) fun _ _ => NoErr.bind (chk_live hov) fun _ _ =>
            NoErr.bind (chk_live hov) fun _ _ => NoErr.pure
        · have hi' : some i' = some i := by
            simp only [Backstop.inst, unwrap_ok] at hi'
            exact hi'.symm.trans hi
          cases hi'
          exact NoErr.bind (transfer_live h2.le hsne (fun _ => by
            show _ ≤ w.balance _ _
            omega) fun hE => by rw [hov] at hE; cases hE) fun _ _ => NoErr.pure
  cases hs : step w (.backstop auth c) with
  | error e =>
    rcases of_unexpected key hs with h | ⟨_, h⟩
    · rw [h]; exact .inl rfl
    · exact h.elim
  | ok w' =>
    refine .inr ?_
    have hd : DepositorCall s p c := by
      cases h with
      | deposit => exact ⟨_, .inl rfl⟩
      | queue => exact ⟨_, .inr (.inl rfl)⟩
      | dequeue => exact ⟨_, .inr (.inr (.inl rfl))⟩
      | withdraw => exact ⟨_, .inr (.inr (.inr rfl))⟩
    obtain ⟨_, pb', ub', x', h1, h2⟩ := C67_only_if hr hi hd hs
    have : pb' = pb ∧ x' = x := by
      cases h with
      | @deposit a m hk hm hA hf =>
        cases h1 with
        | @deposit _ m' hk' hm' hA' hf' =>
          have : m' = m := by
            obtain ⟨_, ⟨e1, e2⟩ | ⟨e1, e2, e3⟩⟩ := hm
            · obtain ⟨_, ⟨g1, g2⟩ | ⟨g1, g2, g3⟩⟩ := hm'
              · omega
              · contradiction
            · obtain ⟨_, ⟨g1, g2⟩ | ⟨g1, g2, g3⟩⟩ := hm'
              · contradiction
              · exact floor_unique g3 e3 e2
          subst this
          exact ⟨rfl, rfl⟩
      | queue => cases h1; exact ⟨rfl, rfl⟩
      | dequeue => cases h1; exact ⟨rfl, rfl⟩
      | @withdraw a tk q g0 g1 g2 g3 =>
        cases h1 with
        | @withdraw _ tk' q' e0 e1 e2 e3 =>
          have hsh : 0 < (w.backstop.getPoolBal p).shares := by
            by_contra hcon
            have : (w.backstop.getPoolBal p).shares = 0 := by omega
            rw [this] at g3
            obtain ⟨f1, f2⟩ := g3
            have := fifo_open (now := w.time) (req := true) (g1.mono fun _ h _ => h) (inv.user p s).amounts
            have := openTotal_le (now := w.time) (req := true) (inv.user p s).amounts
            have : a = 0 := by omega
            subst this
            omega
          have : tk' = tk := floor_unique e3 g3 hsh
          subst this
          exact ⟨rfl, rfl⟩
    obtain ⟨rfl, rfl⟩ := this
    exact ⟨w', ub', rfl, h1, h2⟩

/-- the hypotheses of the two theorems are met: carol's deposit and a withdrawal of unlocked shares are in order -/
example : ∃ w i pb ub x, Reachable w ∧ w.backstop.inst = some i ∧ i.poolFactory = w.factoryAddr ∧ i.blnd ≠ i.backstopToken ∧
    (∀ x ∈ [Demo.carol], ¬ w.isProtocol x) ∧
    BackstopPlan w i.backstopToken Demo.carol Demo.poolA (.deposit Demo.carol Demo.poolA 30000000) pb ub x := by
  obtain ⟨w, w', _, hr, hs, h⟩ := Demo.reach_step (ops := Demo.setup ++ Demo.trade ++ Demo.emissions)
    (op := .backstop [Demo.carol] (.deposit Demo.carol Demo.poolA 30000000))
    (f := fun w _ => Demo.optAnd w.backstop.inst fun i => decide (i.poolFactory = w.factoryAddr ∧ i.blnd ≠ i.backstopToken))
    (by decide +kernel)
  obtain ⟨i, hi, h⟩ := Demo.optAnd_iff.1 h
  simp only [decide_eq_true_eq] at h
  have hs' := hs
  simp only [step, bind_ok, require_ok] at hs'
  obtain ⟨_, pb, ub, x, h1, _⟩ := C67_only_if hr hi ⟨_, .inl rfl⟩ hs
  obtain ⟨_, ha, _⟩ := hs'
  exact ⟨w, i, pb, ub, x, hr, hi, h.1, h.2, ha, h1⟩

example : ∃ w i pb ub x, Reachable w ∧ w.backstop.inst = some i ∧ i.poolFactory = w.factoryAddr ∧ i.blnd ≠ i.backstopToken ∧
    (∀ x ∈ [Demo.carol], ¬ w.isProtocol x) ∧
    BackstopPlan w i.backstopToken Demo.carol Demo.poolA (.withdraw Demo.carol Demo.poolA 120000000000) pb ub x := by
  obtain ⟨w, w', _, hr, hs, h⟩ := Demo.reach_step (ops := Demo.setup ++ Demo.queue.take 4)
    (op := .backstop [Demo.carol] (.withdraw Demo.carol Demo.poolA 120000000000))
    (f := fun w _ => Demo.optAnd w.backstop.inst fun i => decide (i.poolFactory = w.factoryAddr ∧ i.blnd ≠ i.backstopToken))
    (by decide +kernel)
  obtain ⟨i, hi, h⟩ := Demo.optAnd_iff.1 h
  simp only [decide_eq_true_eq] at h
  have hs' := hs
  simp only [step, bind_ok, require_ok] at hs'
  obtain ⟨_, pb, ub, x, h1, _⟩ := C67_only_if hr hi ⟨_, .inr (.inr (.inr rfl))⟩ hs
  obtain ⟨_, ha, _⟩ := hs'
  exact ⟨w, i, pb, ub, x, hr, hi, h.1, h.2, ha, h1⟩

end Props
end Blend
