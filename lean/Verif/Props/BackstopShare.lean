import Verif.Spec.BackstopShare
import Verif.Props.Share
/-
  C102: no backstop depositor earns more than his share of the emissions.
-/

namespace Blend
namespace Backstop
open Spec

/-- what the depositor can claim exactly, without rounding, times `SCALAR_7`, if the index were `J` -/
def bexactAt (b : BackstopState) (p u : Address) (J : Int) : Int :=
  SCALAR_7 * (userEntry (b.userEmis p) u).accrued + (b.getUserBal p u).shares * (J - (userEntry (b.userEmis p) u).index)

theorem bexactAt_bounds (b : BackstopState) (p u : Address) (J : Int) :
    SCALAR_7 * bentAt b p u J ≤ bexactAt b p u J ∧ bexactAt b p u J < SCALAR_7 * (bentAt b p u J + 1) := by
  have h7 : (0 : Int) < SCALAR_7 := by norm_num [SCALAR_7]
  have hf := fdiv_spec (a := (b.getUserBal p u).shares * (J - (userEntry (b.userEmis p) u).index)) h7
  unfold bentAt bexactAt
  generalize SCALAR_7 = s at *
  constructor <;> nlinarith [hf.1, hf.2]

theorem bexactAt_congr {b b' : BackstopState} {p u : Address} {J : Int} (h1 : (b'.userEmis p).get u = (b.userEmis p).get u)
    (h2 : (b'.getUserBal p u).shares = (b.getUserBal p u).shares) : bexactAt b' p u J = bexactAt b p u J := by
  unfold bexactAt userEntry
  rw [h1, h2]

/-- when the record is at the index, what can be claimed is not rounded -/
theorem bexactAt_eq {b : BackstopState} {p u : Address} {J : Int} (h : (userEntry (b.userEmis p) u).index = J) :
    bexactAt b p u J = SCALAR_7 * bentAt b p u J := by
  unfold bexactAt bentAt
  rw [h]; simp

/-- an update before the shares change gains nothing -/
theorem update_bexactAt {b b1 : BackstopState} {now : Nat} {p u : Address} {amt : Int} {pb : PoolBalance} {ub : UserBalance} {d : EmisData}
    (h : updateEmissions b now p (b.getPoolBal p) u (b.getUserBal p u) false = .ok (amt, b1))
    (hd : (setBal b1 p u pb ub).emisData p = some d) {cfg : EmisConfig} (hc : b.emisCfg p = some cfg) :
    bexactAt (setBal b1 p u pb ub) p u d.index ≤ bexactAt b p u d.index := by
  have hq := update_bentAt h hd hc (pb := pb) (ub := ub)
  obtain ⟨d', x, e1, e2, e3, e4, _, e6, _⟩ := update_entitle h hc
  have hd' := hd
  change b1.emisData p = some d at hd'
  rw [e1] at hd'; cases hd'
  rw [bexactAt_eq, hq]
  · exact (bexactAt_bounds _ _ _ _).1
  · unfold userEntry
    rw [show (setBal b1 p u pb ub).userEmis = b1.userEmis from rfl, e2, SMap.get_set, if_pos rfl]
    exact e3

end Backstop

namespace Props
open Spec Pool Backstop Demo

/-- what a claim does to the depositors of a pool -/
theorem bclaim_facts {w w' : World} {auth : List Address} {s dst : Address} {pools : List Address}
    (hs : step w (.backstop auth (.claim s pools dst)) = .ok w') {p : Address} :
    (p ∉ pools → w'.backstop.userEmis p = w.backstop.userEmis p ∧ w'.backstop.claimed p = w.backstop.claimed p ∧
      ∀ u, w'.backstop.getUserBal p u = w.backstop.getUserBal p u) ∧
    (∀ u, u ≠ dst → w'.backstop.getUserBal p u = w.backstop.getUserBal p u) ∧
    (p ∈ pools → ∀ cfg, w.backstop.emisCfg p = some cfg → ∀ ed', w'.backstop.emisData p = some ed' →
      bexactAt w'.backstop p s ed'.index = 0 ∧ w'.backstop.claimed p - w.backstop.claimed p = bentAt w.backstop p s ed'.index ∧
      w'.backstop.userEmis p = (w.backstop.userEmis p).set s ⟨ed'.index, 0⟩) := by
  simp only [step, bind_ok, require_ok] at hs
  obtain ⟨_, _, h⟩ := hs
  simp only [backstopCall, claim, Backstop.executeClaim, cometDeposit, bind_ok, pure_ok, Prod.exists, ite_ok, Prod.mk.injEq, requireAuth_ok,
    inst, unwrap_ok] at h
  obtain ⟨_, w1, ⟨_, hm, _, _, n, cl, b1, hl, h⟩, rfl⟩ := h
  have L := bclaimLoop_exact _ _ _ _ _ _ _ hl
  have hub : b1.userBal = w.backstop.userBal := by rw [L.same]
  have hgu : ∀ p u, b1.getUserBal p u = w.backstop.getUserBal p u := fun p u => getUserBal_congr hub p u
  have hw4 : ∀ {w3 w4 : World} {i' : BackstopInst}, transfer (w.setBackstop b1) i'.blnd w.backstopAddr i'.backstopToken n = .ok w3 →
      mint w3 i'.backstopToken w.backstopAddr ((w.setBackstop b1).cometOut n) = .ok w4 → w4.backstop = b1 := by
    intro w3 w4 i' ht hmt
    rw [(mint_res hmt).frame, (transfer_res ht).frame]; rfl
  have hfin : w1.backstop.emisData = b1.emisData ∧ w1.backstop.userEmis = b1.userEmis ∧ w1.backstop.claimed = b1.claimed ∧
      (∀ p, p ∉ pools → ∀ u, w1.backstop.getUserBal p u = b1.getUserBal p u) ∧
      (∀ p u, u ≠ dst → w1.backstop.getUserBal p u = b1.getUserBal p u) := by
    rcases h with ⟨hn0, i', hi', lpOut, w2, ⟨w3, ht, w4, hmt, s', _, rfl, rfl⟩, b2, hd, _, rfl⟩ | ⟨hn0, _, rfl⟩
    · have D := depositLoop_exact _ _ _ hd
      have e := hw4 ht hmt
      have e' : ({ w4 with cometShares := s' } : World).backstop = b1 := e
      rw [e'] at D
      show b2.emisData = _ ∧ b2.userEmis = _ ∧ b2.claimed = _ ∧ (∀ p, p ∉ pools → ∀ u, b2.getUserBal p u = _) ∧ _
      refine ⟨by rw [D.same], by rw [D.same], by rw [D.same], fun p hp => (D.other p hp).2, fun p u hu => D.users p u hu⟩
    · exact ⟨rfl, rfl, rfl, fun _ _ _ => rfl, fun _ _ _ => rfl⟩
  obtain ⟨f1, f2, f3, f4, f5⟩ := hfin
  refine ⟨fun hp => ⟨by rw [f2, (L.other p (.inl hp)).2.1], by rw [f3, (L.other p (.inl hp)).2.2], fun u => by rw [f4 p hp, hgu]⟩,
    fun u hu => by rw [f5 p u hu, hgu], fun hp cfg hcf ed' he => ?_⟩
  obtain ⟨ed1, k1, k2, k3⟩ := L.claimed p hp cfg hcf
  rw [f1, k1] at he; cases he
  refine ⟨?_, by rw [f3]; omega, by rw [f2, k2]⟩
  unfold bexactAt userEntry
  rw [f2, k2, SMap.get_set, if_pos rfl]
  simp

/-- what one operation pays to one depositor, and what he can claim after, exactly -/
theorem bshare_one {w w' : World} {op : Op} (hr : Reachable w) (hs : step w op = .ok w') {p u : Address}
    {cfg : EmisConfig} {ed' : EmisData} (hcf : w.backstop.emisCfg p = some cfg) (hed' : w'.backstop.emisData p = some ed')
    (hop : ∀ auth s ps d, op = .backstop auth (.claim s ps d) → u = d → u = s) :
    SCALAR_7 * backstopPaid [u] p op w w' + bexactAt w'.backstop p u ed'.index ≤ bexactAt w.backstop p u ed'.index := by
  have ba := hr.ball
  have bal : ∀ {q v : Address} {x : Int} {b1 : BackstopState} {pb : PoolBalance} {ub : UserBalance},
      updateEmissions w.backstop w.time q (w.backstop.getPoolBal q) v (w.backstop.getUserBal q v) false = .ok (x, b1) →
      w'.backstop = setBal b1 q v pb ub → bexactAt w'.backstop p u ed'.index ≤ bexactAt w.backstop p u ed'.index := by
    intro q v x b1 pb ub h hw
    by_cases h' : p = q ∧ u = v
    · obtain ⟨rfl, rfl⟩ := h'
      rw [hw] at hed' ⊢
      exact update_bexactAt h hed' hcf
    · apply le_of_eq
      apply bexactAt_congr
      · rw [hw]
        show (b1.userEmis p).get u = _
        by_cases hv : u = v
        · have hpq : p ≠ q := fun e => h' ⟨e, hv⟩
          rcases updateEmissions_ok h with ⟨_, rfl, _⟩ | ⟨_, _, _, _, r⟩
          · rfl
          · rw [r.eq]; simp only [upd_apply, if_neg hpq]
        · exact updateEmissions_user hv h p
      · rw [hw, getUserBal_set, if_neg h', (emis_same h).userBal]
  have same : w'.backstop.userEmis = w.backstop.userEmis → w'.backstop.userBal = w.backstop.userBal →
      bexactAt w'.backstop p u ed'.index ≤ bexactAt w.backstop p u ed'.index := fun h1 h2 =>
    le_of_eq (bexactAt_congr (by rw [h1]) (by rw [getUserBal_congr h2]))
  by_cases hcl : ∃ auth s ps d, op = .backstop auth (.claim s ps d)
  · obtain ⟨auth, s, ps, d, rfl⟩ := hcl
    have hud := hop auth s ps d rfl
    obtain ⟨c1, c2, c3⟩ := bclaim_facts hs (p := p)
    simp only [backstopPaid, List.mem_singleton]
    by_cases hus : u = s
    · subst hus
      rw [if_pos rfl]
      by_cases hp : p ∈ ps
      · obtain ⟨q1, q2, _⟩ := c3 hp cfg hcf ed' hed'
        rw [q1, q2, add_zero]
        exact (bexactAt_bounds _ _ _ _).1
      · obtain ⟨q1, q2, q3⟩ := c1 hp
        rw [q2, sub_self, mul_zero, zero_add]
        exact le_of_eq (bexactAt_congr (by rw [q1]) (by rw [q3]))
    · have hd : u ≠ d := fun e => hus (hud e)
      rw [if_neg fun e => hus e.symm, mul_zero, zero_add]
      refine le_of_eq (bexactAt_congr (userEmis_step hr hs (fun hx => ?_) p) (by rw [c2 u hd]))
      rcases hx.1 with h | h
      · exact hus h
      · exact hd h
  · have hz : backstopPaid [u] p op w w' = 0 := by
      unfold backstopPaid
      split
      · rename_i auth s ps d
        exact absurd ⟨auth, s, ps, d, rfl⟩ hcl
      · rfl
    rw [hz, mul_zero, zero_add]
    rcases step_other hs with ⟨q, auth, c, rfl, e⟩ | ⟨auth, c, rfl, hc⟩ | e | e
    · exact same e.userEmis e.userBal
    · cases call_cases ba.inv hc with
      | @deposit s p a m r =>
        obtain ⟨x, b1, i, w2, hu, _, _, hw⟩ := r.ex
        exact bal hu (congrArg World.backstop hw)
      | @queue s p a r =>
        obtain ⟨x, b1, hu, hw⟩ := r.ex
        exact bal hu (congrArg World.backstop hw)
      | @dequeue s p a r =>
        obtain ⟨x, b1, q', hu, hd, hw⟩ := r.ex
        exact bal hu (congrArg World.backstop hw)
      | @withdraw s q a tk r =>
        obtain ⟨q', i, hi, hd, hw, _⟩ := r.ex
        refine le_of_eq (bexactAt_congr (by rw [hw]; rfl) ?_)
        rw [hw, getUserBal_set]
        split
        · rename_i e; obtain ⟨rfl, rfl⟩ := e; rfl
        · rfl
      | @claim s ps d r => exact absurd ⟨auth, s, ps, d, rfl⟩ hcl
      | @draw q a d hp r =>
        obtain ⟨i, hi, t⟩ := r.ex
        have hw := congrArg World.backstop t.frame
        change w'.backstop = w.backstop.setPoolBal q _ at hw
        exact same (by rw [hw]; rfl) (by rw [hw]; rfl)
      | @donate s q a hs hp r =>
        obtain ⟨i, w1, hi, t, hw⟩ := r.ex
        have hw := congrArg World.backstop hw
        change w'.backstop = w.backstop.setPoolBal q _ at hw
        exact same (by rw [hw]; rfl) (by rw [hw]; rfl)
      | @reward a r' r =>
        rcases r.ex with ⟨_, rfl⟩ | ⟨_, _, _, _, rfl⟩
        · exact same rfl rfl
        · exact same rfl rfl
      | gulp hne hb hq' =>
        exact same (by rw [hb]) (by rw [hb])
      | init hn hb => exact same (by rw [hb]) (by rw [hb])
      | @gulpPool p hp hb => exact same (by rw [hb]) (by rw [hb])
      | lpVal hb => exact same (by rw [hb]) (by rw [hb])
      | drop hb => exact same (by rw [hb]) (by rw [hb])
    · exact same (by rw [e]) (by rw [e])
    · exact same (by rw [e]) (by rw [e])

theorem backstopPaid_sum {us : List Address} (hn : us.Nodup) (p : Address) (op : Op) (w w' : World) :
    (us.map fun u => backstopPaid [u] p op w w').sum = backstopPaid us p op w w' := by
  by_cases h : ∃ auth v l dst, op = .backstop auth (.claim v l dst)
  · obtain ⟨auth, v, l, dst, rfl⟩ := h
    simp only [backstopPaid, List.mem_singleton]
    rw [← sum_map_single hn]
    simp only [eq_comm]
  · push Not at h
    have hz : ∀ us, backstopPaid us p op w w' = 0 := by
      intro us
      unfold backstopPaid
      split
      · exact absurd rfl (h _ _ _ _)
      · rfl
    simp only [hz, sum_map_const, mul_zero]

private theorem bshare_reach {us : List Address} {a b : Int} {p : Address} {cfg : EmisConfig} {w w' : World} {P : Int}
    (h : BackstopSharePaid us a b p cfg w P w') : Steps w w' := by
  induction h with
  | refl => exact Steps.refl _
  | step _ _ _ _ _ hs _ ih => exact Steps.tail ih ⟨_, hs⟩

private theorem bshare_exact {us : List Address} (hn : us.Nodup) {a b : Int} (ha : 0 ≤ a) (hb : 0 ≤ b) {p : Address}
    {cfg : EmisConfig} {w w' : World} {P : Int} (hr : Reachable w)
    (h : BackstopSharePaid us a b p cfg w P w') {S S' : Int} {ed ed' : EmisData}
    (h0 : BackstopEmitsAs w p cfg S ed) (h1 : BackstopEmitsAs w' p cfg S' ed') :
    b * (SCALAR_7 * P + (us.map fun u => bexactAt w'.backstop p u ed'.index).sum -
        (us.map fun u => bexactAt w.backstop p u ed.index).sum) ≤
      a * ((((min ed'.lastTime cfg.expiration : Nat) : Int) - (min ed.lastTime cfg.expiration : Nat)) * cfg.eps * SCALAR_7) := by
  induction h generalizing S' ed' with
  | refl =>
    have := h0.data.symm.trans h1.data
    cases this
    simp
  | @step w1 w2 P1 op S1 S2 ed1 ed2 hh e1 hS hB hop hs e2 ih =>
    obtain rfl : ed' = ed2 := Option.some.inj (h1.data.symm.trans e2.data)
    have ih := ih e1
    have st := bshare_reach hh
    have hstep : SCALAR_7 * backstopPaid us p op w1 w2 + (us.map fun u => bexactAt w2.backstop p u ed'.index).sum ≤
        (us.map fun u => bexactAt w1.backstop p u ed1.index).sum +
          (ed'.index - ed1.index) * (us.map fun u => (w1.backstop.getUserBal p u).shares).sum := by
      rw [← backstopPaid_sum hn, ← sum_map_mul_left, ← sum_map_mul_left, ← sum_map_add, ← sum_map_add]
      refine sum_le_sum_map fun u hu => ?_
      have := bshare_one (hr.steps st) hs e1.sched h1.data (u := u) fun auth s ps d e hd => by
        subst hd; exact hop auth s ps u e hu
      refine this.trans (le_of_eq ?_)
      unfold bexactAt
      ring
    have hgrow : b * ((ed'.index - ed1.index) * (us.map fun u => (w1.backstop.getUserBal p u).shares).sum) ≤
        a * ((((min ed'.lastTime cfg.expiration : Nat) : Int) - (min ed1.lastTime cfg.expiration : Nat)) * cfg.eps * SCALAR_7) := by
      rcases bemits_step (hr.steps st) hs e1 h1 hS with ⟨q1, q2⟩ | ⟨q0, q1, q2⟩
      · rw [q1]
        rcases q2 with q2 | q2
        · rw [q2]; simp
        · rw [q2]; simp
      · have hle : min ed1.lastTime cfg.expiration ≤ min ed'.lastTime cfg.expiration := by omega
        have hc : (((min ed'.lastTime cfg.expiration - min ed1.lastTime cfg.expiration : Nat) : Int)) =
            ((min ed'.lastTime cfg.expiration : Nat) : Int) - (min ed1.lastTime cfg.expiration : Nat) := by omega
        have q3' : 0 ≤ ed'.index - ed1.index := by
          by_contra hlt
          have hlt : ed'.index - ed1.index + 1 ≤ 0 := by omega
          have h2 : (ed'.index - ed1.index + 1) * S1 ≤ 0 := Int.mul_nonpos_of_nonpos_of_nonneg hlt hS.le
          have h3 : (0 : Int) ≤ ((min ed'.lastTime cfg.expiration - min ed1.lastTime cfg.expiration : Nat) : Int) * cfg.eps * ONE7 := by
            have : (0 : Int) ≤ ONE7 := by norm_num [ONE7]
            positivity
          have := q2.2
          linarith
        rw [← hc]
        have k1 := Int.mul_le_mul_of_nonneg_left hB q3'
        have k2 := Int.mul_le_mul_of_nonneg_left q2.1 ha
        rw [show ONE7 = SCALAR_7 from rfl] at k2
        linarith
    have k := Int.mul_le_mul_of_nonneg_left hstep hb
    linarith

/-- **C102** Over any history of operations of anyone, while emissions to the depositors of a pool in the backstop run by one schedule
and there are unqueued shares: accounts that together never hold more than `a / b` of the unqueued shares, and to which nobody credits
the proceeds of another account's claim, are together paid, and can claim at the end more than at the start, at most `a / b` of what
is emitted between the first and the last update, up to the expiration, plus less than one unit of BLND for each account. -/
theorem C102_share {us : List Address} (hn : us.Nodup) {a b : Int} (ha : 0 ≤ a) (hb : 0 ≤ b) {p : Address}
    {cfg : EmisConfig} {w w' : World} {P : Int} (hr : Reachable w) (h : BackstopSharePaid us a b p cfg w P w') {S S' : Int}
    {ed ed' : EmisData} (h0 : BackstopEmitsAs w p cfg S ed) (h1 : BackstopEmitsAs w' p cfg S' ed') {e e' : Address → Int}
    (he : ∀ u ∈ us, BEntitled w p ed.index u (e u)) (he' : ∀ u ∈ us, BEntitled w' p ed'.index u (e' u)) :
    b * (P + (us.map e').sum - (us.map e).sum - us.length) ≤
      a * ((((min ed'.lastTime cfg.expiration : Nat) : Int) - (min ed.lastTime cfg.expiration : Nat)) * cfg.eps) := by
  have h7 : (0 : Int) < SCALAR_7 := by norm_num [SCALAR_7]
  have hx := bshare_exact hn ha hb hr h h0 h1
  have k1 : SCALAR_7 * (us.map e').sum ≤ (us.map fun u => bexactAt w'.backstop p u ed'.index).sum := by
    rw [← sum_map_mul_left]
    refine sum_le_sum_map fun u hu => ?_
    rw [bentitled_iff.1 (he' u hu)]
    exact (bexactAt_bounds _ _ _ _).1
  have k2 : (us.map fun u => bexactAt w.backstop p u ed.index).sum ≤ SCALAR_7 * ((us.map e).sum + us.length) := by
    have : (us.map e).sum + us.length = (us.map fun u => e u + 1).sum := by rw [sum_map_add, sum_map_const]; ring
    rw [this, ← sum_map_mul_left]
    refine sum_le_sum_map fun u hu => ?_
    rw [bentitled_iff.1 (he u hu)]
    exact (bexactAt_bounds _ _ _ _).2.le
  have k3 : b * (SCALAR_7 * (P + (us.map e').sum - (us.map e).sum - us.length)) ≤
      b * (SCALAR_7 * P + (us.map fun u => bexactAt w'.backstop p u ed'.index).sum -
        (us.map fun u => bexactAt w.backstop p u ed.index).sum) :=
    Int.mul_le_mul_of_nonneg_left (by linarith) hb
  refine le_of_mul_le_mul_left ?_ h7
  linarith

/-- **C102** In one operation, and whatever the schedule does: what a depositor is paid and can claim after the operation, without any
rounding, is at most what he could claim before at the new index, unless the proceeds of somebody else's claim are credited to him. All
is times `ONE7`. -/
theorem C102_step {w w' : World} {op : Op} (hr : Reachable w) (hs : step w op = .ok w') {p u : Address}
    {cfg : EmisConfig} {ed' : EmisData} (hcf : w.backstop.emisCfg p = some cfg) (hed' : w'.backstop.emisData p = some ed')
    (hop : ∀ auth s ps d, op = .backstop auth (.claim s ps d) → u = d → u = s) :
    ONE7 * backstopPaid [u] p op w w' + (ONE7 * (emisRecord (w'.backstop.userEmis p) u).accrued +
        (w'.backstop.getUserBal p u).shares * (ed'.index - (emisRecord (w'.backstop.userEmis p) u).index)) ≤
      ONE7 * (emisRecord (w.backstop.userEmis p) u).accrued +
        (w.backstop.getUserBal p u).shares * (ed'.index - (emisRecord (w.backstop.userEmis p) u).index) := by
  have h := bshare_one hr hs hcf hed' hop
  unfold bexactAt at h
  rw [← emisRecord_eq, ← emisRecord_eq] at h
  exact h

private def emitsD (w : World) : Bool :=
  decide (w.backstop.emisCfg poolA = some ⟨1713754000, 115740⟩) && (w.backstop.emisData poolA).isSome

private def sixth (w : World) : Bool :=
  decide (unqueuedShares w poolA = 600000000000) && decide ((w.backstop.getUserBal poolA dave).shares = 100000000000) &&
  decide ((w.backstop.getUserBal poolA alice).shares = 0)

private theorem emitsD_ok {w : World} (h : emitsD w = true) :
    ∃ ed, BackstopEmitsAs w poolA ⟨1713754000, 115740⟩ (unqueuedShares w poolA) ed := by
  simp only [emitsD, Bool.and_eq_true, decide_eq_true_eq, Option.isSome_iff_exists] at h
  obtain ⟨h1, ed, h6⟩ := h
  exact ⟨ed, h1, h6, rfl⟩

private theorem sixth_ok {w : World} (h : sixth w = true) : 0 < unqueuedShares w poolA ∧
    6 * ([dave, alice].map fun u => (w.backstop.getUserBal poolA u).shares).sum ≤ 1 * unqueuedShares w poolA := by
  simp only [sixth, Bool.and_eq_true, decide_eq_true_eq] at h
  obtain ⟨⟨h1, h2⟩, h3⟩ := h
  constructor
  · omega
  · simp only [List.map_cons, List.map_nil, List.sum_cons, List.sum_nil, h1, h2, h3]; norm_num

/-- the hypotheses are met by dave and alice, when dave has a sixth of the shares: 1000 seconds later he claims and is paid -/
example : ∃ w w' P S S' ed ed', Reachable w ∧ BackstopSharePaid [dave, alice] 1 6 poolA ⟨1713754000, 115740⟩ w P w' ∧
    BackstopEmitsAs w poolA ⟨1713754000, 115740⟩ S ed ∧ BackstopEmitsAs w' poolA ⟨1713754000, 115740⟩ S' ed' ∧
    [dave, alice].Nodup ∧ 0 < P := by
  obtain ⟨w, hw, hr, h⟩ := Demo.reach (ops := setup ++ trade ++ [.tokenTransfer lpA carol dave 100000000000,
      .backstop [dave] (.deposit dave poolA 100000000000)] ++ emissions)
    (f := fun w => emitsD w && sixth w && okAnd (step w (.ledger 1000 200)) fun w1 => emitsD w1 && sixth w1 &&
      okAnd (step w1 (.backstop [dave] (.claim dave [poolA] dave))) fun w2 => emitsD w2 &&
        decide (0 < 0 + backstopPaid [dave, alice] poolA (.ledger 1000 200) w w1 +
          backstopPaid [dave, alice] poolA (.backstop [dave] (.claim dave [poolA] dave)) w1 w2)) (by decide +kernel)
  simp only [Bool.and_eq_true, okAnd_iff, decide_eq_true_eq] at h
  obtain ⟨⟨b0, g0⟩, w1, s1, ⟨b1, g1⟩, w2, s2, b2, hP⟩ := h
  obtain ⟨ed0, E0⟩ := emitsD_ok b0
  obtain ⟨ed1, E1⟩ := emitsD_ok b1
  obtain ⟨ed2, E2⟩ := emitsD_ok b2
  obtain ⟨p0, q0⟩ := sixth_ok g0
  obtain ⟨p1, q1⟩ := sixth_ok g1
  refine ⟨w, w2, _, _, _, ed0, ed2, hr, .step (.step (.refl w) E0 p0 q0 ?_ s1 E1) E1 p1 q1 ?_ s2 E2, E0, E2, by decide, hP⟩
  · intro auth s ps d h _
    cases h
  · intro auth s ps d h _
    cases h
    rfl

/-- **C102** The condition on claims credited to others is needed: a depositor whose record is behind the index and to whom the
proceeds of another account's claim are credited can claim more at the same index than before, although no time passes. -/
theorem C102_credited : ∃ w w' p u cfg ed' e e', Reachable w ∧ step w (.backstop [carol] (.claim carol [p] u)) = .ok w' ∧ u ≠ carol ∧
    w.backstop.emisCfg p = some cfg ∧ w'.backstop.emisData p = some ed' ∧ BEntitled w p ed'.index u e ∧ BEntitled w' p ed'.index u e' ∧
    e < e' := by
  obtain ⟨w, w', _, hr, hs, h⟩ := Demo.reach_step (ops := setup ++ trade ++ emissions)
    (op := .backstop [carol] (.claim carol [poolA] dave))
    (f := fun w w' => (w.backstop.emisCfg poolA).isSome && optAnd (w'.backstop.emisData poolA) fun ed' =>
      decide (bentAt w.backstop poolA dave ed'.index < bentAt w'.backstop poolA dave ed'.index)) (by decide +kernel)
  simp only [Bool.and_eq_true, optAnd_iff, decide_eq_true_eq, Option.isSome_iff_exists] at h
  obtain ⟨⟨cfg, h1⟩, ed', h2, h3⟩ := h
  exact ⟨w, w', poolA, dave, cfg, ed', _, _, hr, hs, by decide, h1, h2, bentitled_iff.2 rfl, bentitled_iff.2 rfl, h3⟩

end Props
end Blend
