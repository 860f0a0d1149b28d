import Verif.Spec.Share
import Verif.Lemmas.Share
import Verif.Props.Updates
/-
  C101: nobody earns more than his share of the emissions.
-/

namespace Blend
namespace Pool
open Spec

theorem sum_le_sum_map {us : List Address} {f g : Address → Int} (h : ∀ u ∈ us, f u ≤ g u) :
    (us.map f).sum ≤ (us.map g).sum := by
  induction us with
  | nil => simp
  | cons x xs ih =>
    simp only [List.map_cons, List.sum_cons]
    have := h x (by simp)
    have := ih fun u hu => h u (by simp [hu])
    omega

theorem sum_map_mul_left (us : List Address) (f : Address → Int) (k : Int) :
    (us.map fun u => k * f u).sum = k * (us.map f).sum := by
  induction us with
  | nil => simp
  | cons x xs ih => simp only [List.map_cons, List.sum_cons, ih]; ring

theorem sum_map_add (us : List Address) (f g : Address → Int) :
    (us.map fun u => f u + g u).sum = (us.map f).sum + (us.map g).sum := by
  induction us with
  | nil => simp
  | cons x xs ih => simp only [List.map_cons, List.sum_cons, ih]; ring

theorem sum_map_single {us : List Address} (hn : us.Nodup) (v : Address) (k : Int) :
    (us.map fun u => if u = v then k else 0).sum = if v ∈ us then k else 0 := by
  induction us with
  | nil => simp
  | cons x xs ih =>
    obtain ⟨h1, h2⟩ := List.nodup_cons.1 hn
    simp only [List.map_cons, List.sum_cons, ih h2, List.mem_cons]
    by_cases hx : x = v
    · subst hx; simp [h1]
    · have hx' : ¬ v = x := fun e => hx e.symm
      simp [hx, hx']

theorem sum_map_const (us : List Address) (k : Int) : (us.map fun _ => k).sum = us.length * k := by
  induction us with
  | nil => simp
  | cons x xs ih => simp only [List.map_cons, List.sum_cons, ih, List.length_cons]; push_cast; ring

end Pool

namespace Props
open Spec Pool Demo

/-- what one operation pays to one account, and what it can claim after, exactly -/
theorem share_one {w w' : World} {op : Op} (hr : Reachable w) (hs : step w op = .ok w') {p : Address}
    (hp : w.poolAddr p = true) {id dec : Nat} {cfg : EmisConfig} {S : Int} {ed ed' : EmisData}
    (he : EmitsAs w p id dec cfg S ed) (hS : 0 < S) (hed' : (w'.pools p).emisData id = some ed') (u : Address) :
    10 ^ dec * tokenPaid [u] p id op w w' + exactAt (w'.pools p) id (10 ^ dec) u ed'.index ≤
      exactAt (w.pools p) id (10 ^ dec) u ed.index + tokenBalance (w.pools p) id u * (ed'.index - ed.index) := by
  obtain ⟨asset, c, d, ha, hc, rfl, hd, rfl⟩ := he.supply
  have r := step_res hr.base hs
  rw [tokenSupply_etot hr hp ha hc hd] at hS
  rw [tokenBalance_eq]
  obtain ⟨P, p0, p1, p2, pn, p3⟩ := micros_exact (u := u) (hr.base.cfg p) (hr.einv hp) (r.micros p hp) he.sched ha hc
    (by show etot (w.pools p) id ≠ 0; omega) (ed := ed) hed'
  change P ≤ (w'.pools p).claimed id - (w.pools p).claimed id at p1
  change _ → P = (w'.pools p).claimed id - (w.pools p).claimed id at p2
  suffices hP : tokenPaid [u] p id op w w' = P by rw [hP]; exact p3
  by_cases hcl : ∃ auth s l d, op = .pool p auth (.claim s l d)
  · obtain ⟨auth, s, l, dst, rfl⟩ := hcl
    simp only [tokenPaid, true_and, List.mem_singleton]
    split
    · rename_i hu
      refine (p2 fun v hv => ?_).symm
      obtain ⟨_, hv⟩ := hv
      rw [show v = s from hv, hu]
    · rename_i hu
      refine (pn fun ht => ?_).symm
      obtain ⟨_, ht⟩ := ht
      exact hu (show u = s from ht).symm
  · push Not at hcl
    have := step_claimed hr hs (p := p) hcl
    rw [this] at p1
    have hP : P = 0 := by omega
    rw [hP]
    unfold tokenPaid
    split
    · rename_i q auth v l dst
      rw [if_neg]
      rintro ⟨rfl, _⟩
      exact hcl _ _ _ _ rfl
    · rfl

theorem tokenPaid_sum {us : List Address} (hn : us.Nodup) (p : Address) (id : Nat) (op : Op) (w w' : World) :
    (us.map fun u => tokenPaid [u] p id op w w').sum = tokenPaid us p id op w w' := by
  by_cases h : ∃ auth v l dst, op = .pool p auth (.claim v l dst)
  · obtain ⟨auth, v, l, dst, rfl⟩ := h
    simp only [tokenPaid, true_and, List.mem_singleton]
    rw [← sum_map_single hn]
    simp only [eq_comm]
  · push Not at h
    have hz : ∀ us, tokenPaid us p id op w w' = 0 := by
      intro us
      unfold tokenPaid
      split
      · rename_i q auth v l dst
        rw [if_neg]
        rintro ⟨rfl, _⟩
        exact h _ _ _ _ rfl
      · rfl
    simp only [hz, sum_map_const, mul_zero]

private theorem share_reach {us : List Address} {a b : Int} {p : Address} {id dec : Nat} {cfg : EmisConfig} {w w' : World} {P : Int}
    (h : SharePaid us a b p id dec cfg w P w') : Steps w w' := by
  induction h with
  | refl => exact Steps.refl _
  | step _ _ _ _ hs _ ih => exact Steps.tail ih ⟨_, hs⟩

private theorem share_exact {us : List Address} (hn : us.Nodup) {a b : Int} (ha : 0 ≤ a) (hb : 0 ≤ b) {p : Address}
    {id dec : Nat} {cfg : EmisConfig} {w w' : World} {P : Int} (hr : Reachable w) (hp : w.poolAddr p = true)
    (h : SharePaid us a b p id dec cfg w P w') {S S' : Int} {ed ed' : EmisData}
    (h0 : EmitsAs w p id dec cfg S ed) (h1 : EmitsAs w' p id dec cfg S' ed') :
    b * (10 ^ dec * P + (us.map fun u => exactAt (w'.pools p) id (10 ^ dec) u ed'.index).sum -
        (us.map fun u => exactAt (w.pools p) id (10 ^ dec) u ed.index).sum) ≤
      a * (((ed'.lastTime : Int) - ed.lastTime) * cfg.eps * 10 ^ dec) := by
  induction h generalizing S' ed' with
  | refl =>
    have := h0.data.symm.trans h1.data
    cases this
    simp
  | @step w1 w2 P1 op S1 S2 ed1 ed2 hh e1 hS hB hs e2 ih =>
    obtain rfl : ed' = ed2 := Option.some.inj (h1.data.symm.trans e2.data)
    have ih := ih e1
    have st := share_reach hh
    have hp1 : w1.poolAddr p = true := by rw [(Steps.poolAddr hr.base st).1]; exact hp
    have hstep : 10 ^ dec * tokenPaid us p id op w1 w2 + (us.map fun u => exactAt (w2.pools p) id (10 ^ dec) u ed'.index).sum ≤
        (us.map fun u => exactAt (w1.pools p) id (10 ^ dec) u ed1.index).sum +
          (ed'.index - ed1.index) * (us.map (tokenBalance (w1.pools p) id)).sum := by
      rw [← tokenPaid_sum hn, ← sum_map_mul_left, ← sum_map_mul_left, ← sum_map_add, ← sum_map_add]
      refine sum_le_sum_map fun u _ => ?_
      have := share_one (hr.steps st) hs hp1 e1 hS h1.data u
      rw [mul_comm (ed'.index - ed1.index)]
      exact this
    have hgrow : b * ((ed'.index - ed1.index) * (us.map (tokenBalance (w1.pools p) id)).sum) ≤
        a * (((ed'.lastTime : Int) - ed1.lastTime) * cfg.eps * 10 ^ dec) := by
      rcases emits_step (hr.steps st) hs hp1 e1 h1 hS with ⟨q1, q2⟩ | ⟨q0, q1, q2⟩
      · rw [q1]
        rcases q2 with q2 | q2
        · rw [q2]; simp
        · rw [q2]; simp
      · have hc : (((ed'.lastTime - ed1.lastTime : Nat) : Int)) = (ed'.lastTime : Int) - ed1.lastTime := by omega
        have q3' : 0 ≤ ed'.index - ed1.index := by
          by_contra hlt
          have hlt : ed'.index - ed1.index + 1 ≤ 0 := by omega
          have h2 : (ed'.index - ed1.index + 1) * S1 ≤ 0 := Int.mul_nonpos_of_nonpos_of_nonneg hlt hS.le
          have h3 : (0 : Int) ≤ ((ed'.lastTime - ed1.lastTime : Nat) : Int) * cfg.eps * 10 ^ dec := by positivity
          have := q2.2
          linarith
        rw [← hc]
        have k1 := Int.mul_le_mul_of_nonneg_left hB q3'
        have k2 := Int.mul_le_mul_of_nonneg_left q2.1 ha
        linarith
    have k := Int.mul_le_mul_of_nonneg_left hstep hb
    linarith

/-- **C101** Over any history of operations of anyone, while emissions of a reserve token run by one schedule and some of the token
exists: accounts that together never hold more than `a / b` of the token are together paid, and can claim at the end more than at the
start, at most `a / b` of what is emitted between the first and the last update, plus less than one unit of BLND for each account. So
neither splitting a position over accounts, nor moving it between them, nor the timing or number of claims, earns more than the
share. -/
theorem C101_share {us : List Address} (hn : us.Nodup) {a b : Int} (ha : 0 ≤ a) (hb : 0 ≤ b) {p : Address} {id dec : Nat}
    {cfg : EmisConfig} {w w' : World} {P : Int} (hr : Reachable w) (hp : w.poolAddr p = true)
    (h : SharePaid us a b p id dec cfg w P w') {S S' : Int} {ed ed' : EmisData}
    (h0 : EmitsAs w p id dec cfg S ed) (h1 : EmitsAs w' p id dec cfg S' ed') {e e' : Address → Int}
    (he : ∀ u ∈ us, Entitled (w.pools p) id dec ed.index u (e u))
    (he' : ∀ u ∈ us, Entitled (w'.pools p) id dec ed'.index u (e' u)) :
    b * (P + (us.map e').sum - (us.map e).sum - us.length) ≤ a * (((ed'.lastTime : Int) - ed.lastTime) * cfg.eps) := by
  have h10 : (0 : Int) < 10 ^ dec := by positivity
  have hx := share_exact hn ha hb hr hp h h0 h1
  have k1 : (10 : Int) ^ dec * (us.map e').sum ≤ (us.map fun u => exactAt (w'.pools p) id (10 ^ dec) u ed'.index).sum := by
    rw [← sum_map_mul_left]
    refine sum_le_sum_map fun u hu => ?_
    rw [entitled_iff.1 (he' u hu)]
    exact (exactAt_bounds h10).1
  have k2 : (us.map fun u => exactAt (w.pools p) id (10 ^ dec) u ed.index).sum ≤
      (10 : Int) ^ dec * ((us.map e).sum + us.length) := by
    have : (us.map e).sum + us.length = (us.map fun u => e u + 1).sum := by rw [sum_map_add, sum_map_const]; ring
    rw [this, ← sum_map_mul_left]
    refine sum_le_sum_map fun u hu => ?_
    rw [entitled_iff.1 (he u hu)]
    exact (exactAt_bounds h10).2.le
  have k3 : b * ((10 : Int) ^ dec * (P + (us.map e').sum - (us.map e).sum - us.length)) ≤
      b * (10 ^ dec * P + (us.map fun u => exactAt (w'.pools p) id (10 ^ dec) u ed'.index).sum -
        (us.map fun u => exactAt (w.pools p) id (10 ^ dec) u ed.index).sum) :=
    Int.mul_le_mul_of_nonneg_left (by linarith) hb
  refine le_of_mul_le_mul_left ?_ h10
  linarith

/-- **C101** In one operation, and whatever the schedule does: what a user is paid and can claim after the operation, without any
rounding, is at most what he could claim before and his balance before times the growth of the index. So calls in quick succession
gain nothing, not even by rounding. All is times `10 ^ dec`. -/
theorem C101_step {w w' : World} {op : Op} (hr : Reachable w) (hs : step w op = .ok w') {p : Address}
    (hp : w.poolAddr p = true) {id dec : Nat} {cfg : EmisConfig} {S : Int} {ed ed' : EmisData}
    (he : EmitsAs w p id dec cfg S ed) (hS : 0 < S) (hed' : (w'.pools p).emisData id = some ed') (u : Address) :
    10 ^ dec * tokenPaid [u] p id op w w' +
        (10 ^ dec * (emisRecord ((w'.pools p).userEmis id) u).accrued +
          tokenBalance (w'.pools p) id u * (ed'.index - (emisRecord ((w'.pools p).userEmis id) u).index)) ≤
      10 ^ dec * (emisRecord ((w.pools p).userEmis id) u).accrued +
        tokenBalance (w.pools p) id u * (ed'.index - (emisRecord ((w.pools p).userEmis id) u).index) := by
  have h := share_one hr hs hp he hS hed' u
  unfold exactAt at h
  rw [tokenBalance_eq] at h ⊢
  rw [tokenBalance_eq, emisRecord_eq, emisRecord_eq]
  refine h.trans (le_of_eq ?_)
  ring

private def emitsC (w : World) : Bool :=
  decide ((w.pools poolA).emisConfig 3 = some ⟨1713754000, 24801⟩) && decide ((w.pools poolA).resList[1]? = some xlmA) &&
  optAnd ((w.pools poolA).resConfig xlmA) (fun c => decide (c.decimals = 7)) &&
  optAnd ((w.pools poolA).resData xlmA) (fun d => decide (d.bSupply = 2000000000000)) &&
  ((w.pools poolA).emisData 3).isSome && decide (tokenBalance (w.pools poolA) 3 dave = 1000000000000) &&
  decide (tokenBalance (w.pools poolA) 3 carol = 0)

private theorem emitsC_ok {w : World} (h : emitsC w = true) : (∃ ed, EmitsAs w poolA 3 7 ⟨1713754000, 24801⟩ 2000000000000 ed) ∧
    2 * ([dave, carol].map (tokenBalance (w.pools poolA) 3)).sum ≤ 1 * (2000000000000 : Int) := by
  simp only [emitsC, Bool.and_eq_true, decide_eq_true_eq, optAnd_iff, Option.isSome_iff_exists] at h
  obtain ⟨⟨⟨⟨⟨⟨h1, h2⟩, c, h3, h4⟩, d, h5, hS⟩, ed, h6⟩, h7⟩, h8⟩ := h
  exact ⟨⟨ed, h1, h6, xlmA, c, d, h2, h3, h4, h5, hS⟩, by simp [h7, h8]⟩

/-- the hypotheses are met by dave and carol, when dave supplied as much XLM as bob: in 1000 seconds he is paid half of what is
emitted -/
example : ∃ w w' P ed ed', Reachable w ∧ w.poolAddr poolA = true ∧
    SharePaid [dave, carol] 1 2 poolA 3 7 ⟨1713754000, 24801⟩ w P w' ∧
    EmitsAs w poolA 3 7 ⟨1713754000, 24801⟩ 2000000000000 ed ∧ EmitsAs w' poolA 3 7 ⟨1713754000, 24801⟩ 2000000000000 ed' ∧
    [dave, carol].Nodup ∧ 0 < P := by
  obtain ⟨w, hw, hr, h⟩ := Demo.reach (ops := setup ++ trade ++ emissions ++ [.pool poolA [dave] (.submit dave dave dave [⟨2, xlmA, 1000000000000⟩])])
    (f := fun w => w.poolAddr poolA && (emitsC w && okAnd (step w (.ledger 1000 200)) fun w1 => emitsC w1 &&
      okAnd (step w1 (.pool poolA [dave] (.claim dave [3] dave))) fun w2 => emitsC w2 &&
        decide (0 < 0 + tokenPaid [dave, carol] poolA 3 (.ledger 1000 200) w w1 +
          tokenPaid [dave, carol] poolA 3 (.pool poolA [dave] (.claim dave [3] dave)) w1 w2))) (by decide +kernel)
  simp only [Bool.and_eq_true, okAnd_iff, decide_eq_true_eq] at h
  obtain ⟨hp, b0, w1, s1, b1, w2, s2, b2, hP⟩ := h
  obtain ⟨⟨ed0, E0⟩, g0⟩ := emitsC_ok b0
  obtain ⟨⟨ed1, E1⟩, g1⟩ := emitsC_ok b1
  obtain ⟨⟨ed2, E2⟩, _⟩ := emitsC_ok b2
  exact ⟨w, w2, _, ed0, ed2, hr, hp, .step (.step (.refl w) E0 (by norm_num) g0 s1 E1) E1 (by norm_num) g1 s2 E2, E0, E2, by decide, hP⟩

end Props
end Blend
