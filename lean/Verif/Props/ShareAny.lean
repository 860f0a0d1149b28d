import Verif.Props.Share
import Verif.Lemmas.Stream
/-
  C101, through restarts of the schedule: nobody earns more than his share of what is allotted.
-/

namespace Blend
namespace Props
open Spec Pool Demo

private theorem stream_step {w w' : World} {op : Op} (hr : Reachable w) (hs : step w op = .ok w') {p : Address}
    (hp : w.poolAddr p = true) {id dec : Nat} {cfg cfg' : EmisConfig} {S S' : Int} {ed ed' : EmisData}
    (he : EmitsAs w p id dec cfg S ed) (he' : EmitsAs w' p id dec cfg' S' ed') :
    ed.index ≤ ed'.index ∧ (ed'.index - ed.index) * S + 10 ^ dec * unemitted cfg' ed' ≤
      10 ^ dec * unemitted cfg ed + 10 ^ dec * ((w'.pools p).received id - (w.pools p).received id) := by
  obtain ⟨asset, c, d, ha, hc, rfl, hd, rfl⟩ := he.supply
  have r := step_res hr.base hs
  rw [tokenSupply_etot hr hp ha hc hd]
  constructor
  · have rel := (micros_index (hr.base.cfg p) (hr.einv hp) ((r.micros p hp).mono (U' := fun _ => True) fun _ _ => trivial)).1
    obtain ⟨_, ed2, _, r2, r3, _⟩ := rel.rel id cfg ed asset c he.sched he.data ha hc
    have : (w'.pools p).emisData id = some ed2 := r2
    rw [he'.data] at this; cases this
    exact r3
  · exact micros_stream (hr.base.cfg p) (hr.einv hp) (r.micros p hp) he.sched ha hc cfg ed cfg' ed' he.sched he.data
      he'.sched he'.data

private theorem share_reach {us : List Address} {a b : Int} {p : Address} {id dec : Nat} {w w' : World} {P : Int}
    (h : SharePaidAny us a b p id dec w P w') : Steps w w' := by
  induction h with
  | refl => exact Steps.refl _
  | step _ _ _ _ hs ih => exact Steps.tail ih ⟨_, hs⟩

private theorem share_exact {us : List Address} (hn : us.Nodup) {a b : Int} (ha : 0 ≤ a) (hb : 0 ≤ b) {p : Address}
    {id dec : Nat} {cfg cfg' : EmisConfig} {w w' : World} {P : Int} (hr : Reachable w) (hp : w.poolAddr p = true)
    (h : SharePaidAny us a b p id dec w P w') {S S' : Int} {ed ed' : EmisData}
    (h0 : EmitsAs w p id dec cfg S ed) (h1 : EmitsAs w' p id dec cfg' S' ed') :
    b * (10 ^ dec * P + (us.map fun u => exactAt (w'.pools p) id (10 ^ dec) u ed'.index).sum -
        (us.map fun u => exactAt (w.pools p) id (10 ^ dec) u ed.index).sum) ≤
      a * (10 ^ dec * (unemitted cfg ed + ((w'.pools p).received id - (w.pools p).received id) - unemitted cfg' ed')) := by
  induction h generalizing S' ed' cfg' with
  | refl =>
    have := h0.data.symm.trans h1.data
    cases this
    have := h0.sched.symm.trans h1.sched
    cases this
    simp
  | @step w1 w2 P1 op S1 cfg1 ed1 hh e1 hS hB hs ih =>
    have ih := ih e1
    have st := share_reach hh
    have hp1 : w1.poolAddr p = true := by rw [(Steps.poolAddr hr.base st).1]; exact hp
    have hstep : 10 ^ dec * tokenPaid us p id op w1 w2 + (us.map fun u => exactAt (w2.pools p) id (10 ^ dec) u ed'.index).sum ≤
        (us.map fun u => exactAt (w1.pools p) id (10 ^ dec) u ed1.index).sum +
          (ed'.index - ed1.index) * (us.map (tokenBalance (w1.pools p) id)).sum := by
      rw [← tokenPaid_sum hn, ← sum_map_mul_left, ← sum_map_mul_left, ← sum_map_add, ← sum_map_add]
      refine sum_le_sum_map fun u _ => ?_
      have := share_one (hr.steps st) hs hp1 e1 hS h1.data u
      rw [mul_comm (ed'.index - ed1.index)]
      exact this
    obtain ⟨q0, q1⟩ := stream_step (hr.steps st) hs hp1 e1 h1
    have k1 := Int.mul_le_mul_of_nonneg_left hB (show 0 ≤ ed'.index - ed1.index by omega)
    have k2 := Int.mul_le_mul_of_nonneg_left q1 ha
    have k := Int.mul_le_mul_of_nonneg_left hstep hb
    linarith

/-- **C101** Over any history of operations of anyone, through any restarts of the schedule: accounts that together never hold more
than `a / b` of a reserve token, of which some exists all along, are together paid, and can claim at the end more than at the start, at
most `a / b` of what was left to be emitted at the start and was allotted to the token since, less what is left to be emitted at the
end, plus less than one unit of BLND for each account. -/
theorem C101_any_schedule {us : List Address} (hn : us.Nodup) {a b : Int} (ha : 0 ≤ a) (hb : 0 ≤ b) {p : Address} {id dec : Nat}
    {cfg cfg' : EmisConfig} {w w' : World} {P : Int} (hr : Reachable w) (hp : w.poolAddr p = true)
    (h : SharePaidAny us a b p id dec w P w') {S S' : Int} {ed ed' : EmisData}
    (h0 : EmitsAs w p id dec cfg S ed) (h1 : EmitsAs w' p id dec cfg' S' ed') {e e' : Address → Int}
    (he : ∀ u ∈ us, Entitled (w.pools p) id dec ed.index u (e u))
    (he' : ∀ u ∈ us, Entitled (w'.pools p) id dec ed'.index u (e' u)) :
    b * (P + (us.map e').sum - (us.map e).sum - us.length) ≤
      a * (unemitted cfg ed + ((w'.pools p).received id - (w.pools p).received id) - unemitted cfg' ed') := by
  have h10 : (0 : Int) < 10 ^ dec := by positivity
  have hx := share_exact hn ha hb hr hp h h0 h1
  have k1 : (10 : Int) ^ dec * (us.map e').sum ≤ (us.map fun u => exactAt (w'.pools p) id (10 ^ dec) u ed'.index).sum := by
    rw [← sum_map_mul_left]
    refine sum_le_sum_map fun u hu => ?_
    rw [entitled_iff.1 (he' u hu)]
    exact (exactAt_bounds h10).1
  have k2 : (us.map fun u => exactAt (w.pools p) id (10 ^ dec) u ed.index).sum ≤
      (10 : Int) ^ dec * ((us.map e).sum + us.length) := by
    have : (us.map e).sum + us.length = (us.map fun u => e u + 1).sum := by rw [sum_map_add, sum_map_const]; ring
    rw [this, ← sum_map_mul_left]
    refine sum_le_sum_map fun u hu => ?_
    rw [entitled_iff.1 (he u hu)]
    exact (exactAt_bounds h10).2.le
  have k3 : b * ((10 : Int) ^ dec * (P + (us.map e').sum - (us.map e).sum - us.length)) ≤
      b * (10 ^ dec * P + (us.map fun u => exactAt (w'.pools p) id (10 ^ dec) u ed'.index).sum -
        (us.map fun u => exactAt (w.pools p) id (10 ^ dec) u ed.index).sum) :=
    Int.mul_le_mul_of_nonneg_left (by linarith) hb
  refine le_of_mul_le_mul_left ?_ h10
  linarith

private def emitsE (w : World) : Bool :=
  ((w.pools poolA).emisConfig 3).isSome && decide ((w.pools poolA).resList[1]? = some xlmA) &&
  optAnd ((w.pools poolA).resConfig xlmA) (fun c => decide (c.decimals = 7)) &&
  optAnd ((w.pools poolA).resData xlmA) (fun d => decide (d.bSupply = 2000000000000)) &&
  ((w.pools poolA).emisData 3).isSome && decide (tokenBalance (w.pools poolA) 3 dave = 1000000000000) &&
  decide (tokenBalance (w.pools poolA) 3 carol = 0)

private theorem emitsE_ok {w : World} (h : emitsE w = true) : (∃ cfg ed, (w.pools poolA).emisConfig 3 = some cfg ∧
      EmitsAs w poolA 3 7 cfg 2000000000000 ed) ∧
    2 * ([dave, carol].map (tokenBalance (w.pools poolA) 3)).sum ≤ 1 * (2000000000000 : Int) := by
  simp only [emitsE, Bool.and_eq_true, decide_eq_true_eq, optAnd_iff, Option.isSome_iff_exists] at h
  obtain ⟨⟨⟨⟨⟨⟨⟨cfg, h1⟩, h2⟩, c, h3, h4⟩, d, h5, hS⟩, ed, h6⟩, h7⟩, h8⟩ := h
  exact ⟨⟨cfg, ed, h1, h1, h6, xlmA, c, d, h2, h3, h4, h5, hS⟩, by simp [h7, h8]⟩

/-- the hypotheses are met by dave and carol through a gulp that restarts the schedule -/
example : ∃ w w' P cfg cfg' ed ed', Reachable w ∧ w.poolAddr poolA = true ∧
    SharePaidAny [dave, carol] 1 2 poolA 3 7 w P w' ∧
    EmitsAs w poolA 3 7 cfg 2000000000000 ed ∧ EmitsAs w' poolA 3 7 cfg' 2000000000000 ed' ∧ cfg ≠ cfg' ∧ 0 < P := by
  obtain ⟨w, hw, hr, h⟩ := Demo.reach (ops := setup ++ trade ++ emissions ++ [.pool poolA [dave] (.submit dave dave dave [⟨2, xlmA, 1000000000000⟩]),
      .ledger 4000 800, .emitter [] .distribute, .backstop [] .gulpEmissions])
    (f := fun w => w.poolAddr poolA && (emitsE w && okAnd (step w (.pool poolA [] .gulpEmissions)) fun w1 => emitsE w1 &&
      okAnd (step w1 (.pool poolA [dave] (.claim dave [3] dave))) fun w2 => emitsE w2 &&
        decide ((w.pools poolA).emisConfig 3 ≠ (w2.pools poolA).emisConfig 3) &&
        decide (0 < 0 + tokenPaid [dave, carol] poolA 3 (.pool poolA [] .gulpEmissions) w w1 +
          tokenPaid [dave, carol] poolA 3 (.pool poolA [dave] (.claim dave [3] dave)) w1 w2))) (by decide +kernel)
  simp only [Bool.and_eq_true, okAnd_iff, decide_eq_true_eq] at h
  obtain ⟨hp, b0, w1, s1, b1, w2, s2, ⟨b2, hne⟩, hP⟩ := h
  obtain ⟨⟨cfg0, ed0, c0, E0⟩, g0⟩ := emitsE_ok b0
  obtain ⟨⟨cfg1, ed1, c1, E1⟩, g1⟩ := emitsE_ok b1
  obtain ⟨⟨cfg2, ed2, c2, E2⟩, _⟩ := emitsE_ok b2
  exact ⟨w, w2, _, cfg0, cfg2, ed0, ed2, hr, hp, .step (.step (.refl w) E0 (by norm_num) g0 s1) E1 (by norm_num) g1 s2, E0, E2,
    fun e => hne (by rw [c0, c2, e]), hP⟩

end Props
end Blend
