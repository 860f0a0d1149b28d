import Verif.Props.BackstopShare
/-
  C102, through restarts of the schedule: no backstop depositor earns more than his share of what is allotted.
-/

namespace Blend
namespace Props
open Spec Pool Backstop Demo

/-- what is allotted to the depositors of a pool only grows -/
private theorem received_mono {w w' : World} {op : Op} (hr : Reachable w) (hs : step w op = .ok w') (p : Address) :
    w.backstop.received p ≤ w'.backstop.received p := by
  by_cases hop : ∃ auth, op = .backstop auth .gulpEmissions
  · obtain ⟨auth, rfl⟩ := hop
    obtain ⟨secs, x, _, _, _, h1, h2, h3, h4, _⟩ := C37_gulp hr hs
    by_cases hp : p ∈ w.backstop.rewardZone
    · obtain ⟨s, k1, k2, _⟩ := h3 p hp
      have hs0 : 0 ≤ s := by
        by_contra hlt
        have hlt : s + 1 ≤ 0 := by omega
        have a1 : (s + 1) * (w.backstop.rewardZone.map x).sum ≤ 0 := Int.mul_nonpos_of_nonpos_of_nonneg hlt h2.le
        have a2 : 0 ≤ x p * ONE7 := Int.mul_nonneg (h1 p hp).2 (by decide)
        have := k1.2
        linarith
      by_contra hlt
      have hlt : w'.backstop.received p - w.backstop.received p + 1 ≤ 0 := by omega
      have a1 : (w'.backstop.received p - w.backstop.received p + 1) * ONE7 ≤ 0 :=
        Int.mul_nonpos_of_nonpos_of_nonneg hlt (by decide)
      have a2 : 0 ≤ s * ((secs : Int) * 7000000) := Int.mul_nonneg hs0 (by positivity)
      have := k2.2
      linarith
    · rw [(h4 p hp).1]
  · rw [(C37_only_gulp hr hs (fun auth e => hop ⟨auth, e⟩) p).1]

/-- what one operation gives out and leaves to be emitted is no more than what was left and what is allotted -/
private theorem bstream_step {w w' : World} {op : Op} (hr : Reachable w) (hs : step w op = .ok w') {p : Address}
    {cfg cfg' : EmisConfig} {S S' : Int} {ed ed' : EmisData}
    (he : BackstopEmitsAs w p cfg S ed) (he' : BackstopEmitsAs w' p cfg' S' ed') :
    ed.index ≤ ed'.index ∧ (ed'.index - ed.index) * S + ONE7 * unemitted cfg' ed' ≤
      ONE7 * unemitted cfg ed + ONE7 * (w'.backstop.received p - w.backstop.received p) := by
  obtain ⟨c1, d1, k1, k2, k3, k4, k5⟩ := C25_backstop_index_step hr hs he.sched he.data
  rw [he'.sched] at k1; cases k1
  rw [he'.data] at k2; cases k2
  refine ⟨k3, ?_⟩
  have hS := he.supply
  subst hS
  have h7 : (0 : Int) ≤ ONE7 := by decide
  have hmono := Int.mul_le_mul_of_nonneg_left (sub_nonneg.2 (received_mono hr hs p)) h7
  have upd : ∀ {T : Nat}, ed.lastTime < min w.time cfg.expiration → T = w.time → ∀ {J : Int},
      IsFloor (J - ed.index) (((min w.time cfg.expiration - ed.lastTime : Nat) : Int) * cfg.eps * ONE7) (unqueuedShares w p) →
      (J - ed.index) * unqueuedShares w p + ONE7 * (cfg.eps * ((cfg.expiration - T : Nat) : Int)) ≤ ONE7 * unemitted cfg ed := by
    intro T hlt hT J hf
    subst hT
    have e : ((cfg.expiration - ed.lastTime : Nat) : Int) =
        ((min w.time cfg.expiration - ed.lastTime : Nat) : Int) + ((cfg.expiration - w.time : Nat) : Int) := by omega
    unfold unemitted
    rw [e]
    have := hf.1
    linarith
  rcases k5 with ⟨rfl, ⟨rfl, _⟩ | ⟨q1, q2, _, _, q5⟩⟩ | ⟨⟨auth, rfl⟩, q1, q2, mid, q3, q4⟩
  · simp only [sub_self, zero_mul, mul_zero] at hmono ⊢
    linarith
  · have := upd q2 q1 q5
    unfold unemitted at this ⊢
    linarith
  · have hidx : (ed'.index - ed.index) * unqueuedShares w p + ONE7 * (cfg.eps * ((cfg.expiration - w.time : Nat) : Int)) ≤
        ONE7 * unemitted cfg ed := by
      rcases q4 (unqueuedShares w p + 1) with ⟨rfl, _⟩ | ⟨_, r2, _, _, r5⟩
      · rw [q3]
        have hle : ((cfg.expiration - w.time : Nat) : Int) ≤ ((cfg.expiration - mid.lastTime : Nat) : Int) := by omega
        have := Int.mul_le_mul_of_nonneg_left (Int.mul_le_mul_of_nonneg_left hle (Int.natCast_nonneg cfg.eps)) h7
        unfold unemitted
        simp only [sub_self, zero_mul, zero_add]
        exact this
      · rw [← q3]
        exact upd r2 rfl r5
    have hnew : (cfg'.eps : Int) * 604800 ≤
        (w'.backstop.received p - w.backstop.received p) + cfg.eps * ((cfg.expiration - w.time : Nat) : Int) := by
      obtain ⟨secs, x, _, _, _, h1, h2, h3, h4, _⟩ := C37_gulp hr hs
      by_cases hp : p ∈ w.backstop.rewardZone
      · obtain ⟨s, _, _, _, eps, e1, e2⟩ := h3 p hp
        rw [he'.sched] at e1
        cases e1
        have := e2.1
        rw [he.sched] at this
        unfold remaining at this
        simpa using this
      · have e := (h4 p hp).2.2
        rw [he'.sched, he.sched] at e
        cases e
        rw [(h4 p hp).1, q1]
        simp
    have hu : unemitted cfg' ed' = cfg'.eps * 604800 := by
      unfold unemitted
      rw [q1, q2]
      simp
    rw [hu]
    have := Int.mul_le_mul_of_nonneg_left hnew h7
    linarith

private theorem bany_reach {us : List Address} {a b : Int} {p : Address} {w w' : World} {P : Int}
    (h : BackstopSharePaidAny us a b p w P w') : Steps w w' := by
  induction h with
  | refl => exact Steps.refl _
  | step _ _ _ _ _ hs ih => exact Steps.tail ih ⟨_, hs⟩

private theorem bany_exact {us : List Address} (hn : us.Nodup) {a b : Int} (ha : 0 ≤ a) (hb : 0 ≤ b) {p : Address}
    {cfg cfg' : EmisConfig} {w w' : World} {P : Int} (hr : Reachable w)
    (h : BackstopSharePaidAny us a b p w P w') {S S' : Int} {ed ed' : EmisData}
    (h0 : BackstopEmitsAs w p cfg S ed) (h1 : BackstopEmitsAs w' p cfg' S' ed') :
    b * (SCALAR_7 * P + (us.map fun u => bexactAt w'.backstop p u ed'.index).sum -
        (us.map fun u => bexactAt w.backstop p u ed.index).sum) ≤
      a * (SCALAR_7 * (unemitted cfg ed + (w'.backstop.received p - w.backstop.received p) - unemitted cfg' ed')) := by
  induction h generalizing S' ed' cfg' with
  | refl =>
    have := h0.data.symm.trans h1.data
    cases this
    have := h0.sched.symm.trans h1.sched
    cases this
    simp
  | @step w1 w2 P1 op S1 cfg1 ed1 hh e1 hS hB hop hs ih =>
    have ih := ih e1
    have st := bany_reach hh
    have hstep : SCALAR_7 * backstopPaid us p op w1 w2 + (us.map fun u => bexactAt w2.backstop p u ed'.index).sum ≤
        (us.map fun u => bexactAt w1.backstop p u ed1.index).sum +
          (ed'.index - ed1.index) * (us.map fun u => (w1.backstop.getUserBal p u).shares).sum := by
      rw [← backstopPaid_sum hn, ← sum_map_mul_left, ← sum_map_mul_left, ← sum_map_add, ← sum_map_add]
      refine sum_le_sum_map fun u hu => ?_
      have := bshare_one (hr.steps st) hs e1.sched h1.data (u := u) fun auth s ps d e hd => by
        subst hd; exact hop auth s ps u e hu
      refine this.trans (le_of_eq ?_)
      unfold bexactAt
      ring
    obtain ⟨q0, q1⟩ := bstream_step (hr.steps st) hs e1 h1
    rw [show ONE7 = SCALAR_7 from rfl] at q1
    have k0 := Int.mul_le_mul_of_nonneg_left hB (sub_nonneg.2 q0)
    have k1 := Int.mul_le_mul_of_nonneg_left q1 ha
    have k2 := Int.mul_le_mul_of_nonneg_left hstep hb
    simp only [mul_add, mul_sub] at k0 k1 k2 ih ⊢
    have f1 : ed'.index * (b * (us.map fun u => (w1.backstop.getUserBal p u).shares).sum) =
      b * (ed'.index * (us.map fun u => (w1.backstop.getUserBal p u).shares).sum) := by ring
    have f2 : ed1.index * (b * (us.map fun u => (w1.backstop.getUserBal p u).shares).sum) =
      b * (ed1.index * (us.map fun u => (w1.backstop.getUserBal p u).shares).sum) := by ring
    simp only [sub_mul, mul_sub] at k0 k1 k2
    nlinarith

/-- **C102** Over any history of operations of anyone, through any restarts of the schedule by `gulp_emissions`, while there are unqueued
shares: accounts that together never hold more than `a / b` of the unqueued shares, and to which nobody credits the proceeds of another
account's claim, are together paid, and can claim at the end more than at the start, at most `a / b` of what was left to be emitted at
the start and was allotted to the depositors of the pool since, less what is left to be emitted at the end, plus less than one unit of
BLND for each account. -/
theorem C102_any_schedule {us : List Address} (hn : us.Nodup) {a b : Int} (ha : 0 ≤ a) (hb : 0 ≤ b) {p : Address}
    {cfg cfg' : EmisConfig} {w w' : World} {P : Int} (hr : Reachable w) (h : BackstopSharePaidAny us a b p w P w') {S S' : Int}
    {ed ed' : EmisData} (h0 : BackstopEmitsAs w p cfg S ed) (h1 : BackstopEmitsAs w' p cfg' S' ed') {e e' : Address → Int}
    (he : ∀ u ∈ us, BEntitled w p ed.index u (e u)) (he' : ∀ u ∈ us, BEntitled w' p ed'.index u (e' u)) :
    b * (P + (us.map e').sum - (us.map e).sum - us.length) ≤
      a * (unemitted cfg ed + (w'.backstop.received p - w.backstop.received p) - unemitted cfg' ed') := by
  have h7 : (0 : Int) < SCALAR_7 := by norm_num [SCALAR_7]
  have hx := bany_exact hn ha hb hr h h0 h1
  have k1 : SCALAR_7 * (us.map e').sum ≤ (us.map fun u => bexactAt w'.backstop p u ed'.index).sum := by
    rw [← sum_map_mul_left]
    refine sum_le_sum_map fun u hu => ?_
    rw [bentitled_iff.1 (he' u hu)]
    exact (bexactAt_bounds _ _ _ _).1
  have k2 : (us.map fun u => bexactAt w.backstop p u ed.index).sum ≤ SCALAR_7 * ((us.map e).sum + us.length) := by
    have : (us.map e).sum + us.length = (us.map fun u => e u + 1).sum := by rw [sum_map_add, sum_map_const]; ring
    rw [this, ← sum_map_mul_left]
    refine sum_le_sum_map fun u hu => ?_
    rw [bentitled_iff.1 (he u hu)]
    exact (bexactAt_bounds _ _ _ _).2.le
  have k3 : b * (SCALAR_7 * (P + (us.map e').sum - (us.map e).sum - us.length)) ≤
      b * (SCALAR_7 * P + (us.map fun u => bexactAt w'.backstop p u ed'.index).sum -
        (us.map fun u => bexactAt w.backstop p u ed.index).sum) :=
    Int.mul_le_mul_of_nonneg_left (by linarith) hb
  refine le_of_mul_le_mul_left ?_ h7
  linarith

private def emitsH (w : World) : Bool :=
  (w.backstop.emisCfg poolA).isSome && (w.backstop.emisData poolA).isSome && decide (unqueuedShares w poolA = 600000000000) &&
  decide ((w.backstop.getUserBal poolA dave).shares = 100000000000) && decide ((w.backstop.getUserBal poolA alice).shares = 0)

private theorem emitsH_ok {w : World} (h : emitsH w = true) :
    (∃ cfg ed, w.backstop.emisCfg poolA = some cfg ∧ BackstopEmitsAs w poolA cfg 600000000000 ed) ∧
    6 * ([dave, alice].map fun u => (w.backstop.getUserBal poolA u).shares).sum ≤ 1 * (600000000000 : Int) := by
  simp only [emitsH, Bool.and_eq_true, decide_eq_true_eq, Option.isSome_iff_exists] at h
  obtain ⟨⟨⟨⟨⟨cfg, h1⟩, ed, h2⟩, h3⟩, h4⟩, h5⟩ := h
  exact ⟨⟨cfg, ed, h1, h1, h2, h3⟩, by simp [h4, h5]⟩

/-- the hypotheses are met by dave and alice through a gulp that restarts the schedule, after which dave claims and is paid -/
example : ∃ w w' P cfg cfg' ed ed' S', Reachable w ∧ BackstopSharePaidAny [dave, alice] 1 6 poolA w P w' ∧
    BackstopEmitsAs w poolA cfg 600000000000 ed ∧ BackstopEmitsAs w' poolA cfg' S' ed' ∧ cfg ≠ cfg' ∧ 0 < P := by
  obtain ⟨w, hw, hr, h⟩ := Demo.reach (ops := setup ++ trade ++ [.tokenTransfer lpA carol dave 100000000000,
      .backstop [dave] (.deposit dave poolA 100000000000)] ++ emissions ++ [.ledger 4000 800, .emitter [] .distribute])
    (f := fun w => emitsH w && okAnd (step w (.backstop [] .gulpEmissions)) fun w1 => emitsH w1 &&
      okAnd (step w1 (.backstop [dave] (.claim dave [poolA] dave))) fun w2 =>
        (w2.backstop.emisCfg poolA).isSome && (w2.backstop.emisData poolA).isSome &&
        decide (w.backstop.emisCfg poolA ≠ w2.backstop.emisCfg poolA) &&
        decide (0 < 0 + backstopPaid [dave, alice] poolA (.backstop [] .gulpEmissions) w w1 +
          backstopPaid [dave, alice] poolA (.backstop [dave] (.claim dave [poolA] dave)) w1 w2)) (by decide +kernel)
  simp only [Bool.and_eq_true, okAnd_iff, decide_eq_true_eq, Option.isSome_iff_exists] at h
  obtain ⟨b0, w1, s1, b1, w2, s2, ⟨⟨⟨cfg', c2⟩, ed', d2⟩, hne⟩, hP⟩ := h
  obtain ⟨⟨cfg0, ed0, c0, E0⟩, q0⟩ := emitsH_ok b0
  obtain ⟨⟨cfg1, ed1, c1, E1⟩, q1⟩ := emitsH_ok b1
  refine ⟨w, w2, _, cfg0, cfg', ed0, ed', _, hr, .step (.step (.refl w) E0 (by norm_num) q0 ?_ s1) E1 (by norm_num) q1 ?_ s2, E0,
    ⟨c2, d2, rfl⟩, fun e => hne (by rw [c0, c2, e]), hP⟩
  · intro auth s ps d h _
    cases h
  · intro auth s ps d h _
    cases h
    rfl

end Props
end Blend
