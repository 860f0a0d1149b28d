import Verif.Spec.Updates
import Verif.Props.Entitlements
import Verif.Props.Funding
import Verif.Props.BackstopClaims
/-
  C83: what rounding of the emission indices can take away.
-/

namespace Blend
namespace Props
open Spec Demo

theorem emits_step {w w' : World} (hr : Reachable w) {op : Op} (hs : step w op = .ok w') {p : Address} (hp : w.poolAddr p = true)
    {id dec : Nat} {cfg : EmisConfig} {S S' : Int} {ed ed' : EmisData} (h : EmitsAs w p id dec cfg S ed) (h' : EmitsAs w' p id dec cfg S' ed')
    (hS : 0 < S) : (ed'.index = ed.index ∧ (ed'.lastTime = ed.lastTime ∨ cfg.eps = 0)) ∨
      (ed.lastTime ≤ ed'.lastTime ∧ ed'.lastTime = min w.time cfg.expiration ∧
        IsFloor (ed'.index - ed.index) (((ed'.lastTime - ed.lastTime : Nat) : Int) * cfg.eps * 10 ^ dec) S) := by
  obtain ⟨asset, c, d, ha, hc, rfl, hd, rfl⟩ := h.supply
  obtain ⟨asset', c', d', ha', hc', _, hd', rfl⟩ := h'.supply
  have hasset : asset' = asset := by
    have r := step_res hr.base hs
    have hm := (r.micros p hp).mono (U' := fun _ => True) (fun _ _ => trivial)
    obtain ⟨l, hl⟩ := (Pool.micros_index (hr.base.cfg p) (hr.einv hp) hm).1.ext.list
    have : (w'.pools p).resList[id / 2]? = some asset := by
      rw [show (w'.pools p).resList = (w.pools p).resList ++ l from hl, List.getElem?_append_left]
      · exact ha
      · rw [List.getElem?_eq_some_iff] at ha; exact ha.1
    rw [this] at ha'
    exact (Option.some.inj ha').symm
  subst hasset
  obtain ⟨cfg', ed1, k1, k2, k3, k4, k5⟩ := C25_pool_index_step hr hs hp ha hc hd hd' h.sched h.data
  rw [h'.sched] at k1
  rw [h'.data] at k2
  cases k1; cases k2
  rcases k5 with ⟨_, k5⟩ | ⟨e1, e2, mid, e3, e4⟩
  · rcases k5 with ⟨rfl, _⟩ | ⟨q1, q2, q3, s, q4, q5, q6⟩
    · exact .inl ⟨rfl, .inl rfl⟩
    · right
      rcases q5 with rfl | q5
      · exact ⟨by omega, q2, q6⟩
      · omega
  · rcases e4 (tokenSupply d id + 1) with ⟨rfl, q⟩ | ⟨q1, q2, q3, s, q4, q5, q6⟩
    · rcases q with q | q | q | q
      · omega
      · omega
      · exact .inl ⟨e3.symm, .inr q⟩
      · exact .inl ⟨e3.symm, .inl (by omega)⟩
    · right
      rcases q5 with rfl | q5
      · have : mid.lastTime = ed'.lastTime := by omega
        rw [this, e3] at q6
        exact ⟨by omega, by omega, q6⟩
      · omega

private theorem updates_reach {E : World → Int → EmisData → Prop} {M : Int} {w w' : World} {n : Nat} (h : Updates E M w n w') :
    Steps w w' := by
  induction h with
  | refl => exact Steps.refl _
  | same _ _ hs _ ih => exact Steps.tail ih ⟨_, hs⟩
  | update _ _ _ _ hs _ ih => exact Steps.tail ih ⟨_, hs⟩

/-- **C83**: while emissions of a reserve token run by one schedule and at most `M` of it exist, the index grows by at least what
was emitted per unit of `M`, less one for each update. -/
theorem C83_pool_index_bound {w w' : World} (hr : Reachable w) {p : Address} (hp : w.poolAddr p = true) {id dec n : Nat}
    {cfg : EmisConfig} {M S S' : Int} {ed ed' : EmisData} (h : Updates (fun w => EmitsAs w p id dec cfg) M w n w')
    (h0 : EmitsAs w p id dec cfg S ed) (h1 : EmitsAs w' p id dec cfg S' ed') :
    ed.index ≤ ed'.index ∧
      ((ed'.lastTime : Int) - ed.lastTime) * cfg.eps * 10 ^ dec ≤ (ed'.index - ed.index + n) * M := by
  induction h generalizing S' ed' with
  | refl =>
    have := h0.data.symm.trans h1.data
    cases this
    simp
  | @same w1 w2 n op S1 S2 ed1 hu e1 hs e2 ih =>
    have := e2.data.symm.trans h1.data
    cases this
    exact ih e1
  | @update w1 w2 n op S1 S2 ed1 ed2 hu e1 hS hSM hs e2 ih =>
    obtain rfl : ed' = ed2 := Option.some.inj (h1.data.symm.trans e2.data)
    obtain ⟨i0, i1⟩ := ih e1
    have st := updates_reach hu
    have hp1 : w1.poolAddr p = true := by rw [(Steps.poolAddr hr.base st).1]; exact hp
    push_cast
    rcases emits_step (hr.steps st) hs hp1 e1 h1 hS with ⟨q1, q2⟩ | ⟨q0, q1, q2, q3⟩
    · refine ⟨by omega, ?_⟩
      rw [q1]
      have : (ed1.index - ed.index + (n + 1)) * M = (ed1.index - ed.index + n) * M + M := by ring
      rw [this]
      rcases q2 with q2 | q2
      · rw [q2]; linarith
      · rw [q2] at i1 ⊢
        simp only [Nat.cast_zero, mul_zero, zero_mul] at i1 ⊢
        linarith
    · have q3' : 0 ≤ ed'.index - ed1.index := by
        by_contra hlt
        have hlt : ed'.index - ed1.index + 1 ≤ 0 := by omega
        have h2 : (ed'.index - ed1.index + 1) * S1 ≤ 0 := Int.mul_nonpos_of_nonpos_of_nonneg hlt hS.le
        have h3 : (0 : Int) ≤ ((ed'.lastTime - ed1.lastTime : Nat) : Int) * cfg.eps * 10 ^ dec := by positivity
        omega
      refine ⟨by omega, ?_⟩
      have hc : (((ed'.lastTime - ed1.lastTime : Nat) : Int)) = (ed'.lastTime : Int) - ed1.lastTime := by omega
      rw [hc] at q3
      have h4 : (ed'.index - ed1.index + 1) * S1 ≤ (ed'.index - ed1.index + 1) * M :=
        Int.mul_le_mul_of_nonneg_left hSM (by omega)
      have e5 : ((ed'.lastTime : Int) - ed.lastTime) * cfg.eps * 10 ^ dec =
          ((ed'.lastTime : Int) - ed1.lastTime) * cfg.eps * 10 ^ dec + ((ed1.lastTime : Int) - ed.lastTime) * cfg.eps * 10 ^ dec := by ring
      have e6 : (ed'.index - ed.index + ((n : Int) + 1)) * M = (ed'.index - ed1.index + 1) * M + (ed1.index - ed.index + n) * M := by ring
      rw [e5, e6]
      linarith

private def emitsB (w : World) : Bool :=
  decide ((w.pools poolA).emisConfig 3 = some ⟨1713754000, 24801⟩) && decide ((w.pools poolA).resList[1]? = some xlmA) &&
  optAnd ((w.pools poolA).resConfig xlmA) (fun c => decide (c.decimals = 7)) && ((w.pools poolA).resData xlmA).isSome &&
  ((w.pools poolA).emisData 3).isSome

private theorem emitsB_ok {w : World} (h : emitsB w = true) : ∃ S ed, EmitsAs w poolA 3 7 ⟨1713754000, 24801⟩ S ed ∧
    (∀ d, (w.pools poolA).resData xlmA = some d → S = d.bSupply) := by
  simp only [emitsB, Bool.and_eq_true, decide_eq_true_eq, optAnd_iff, Option.isSome_iff_exists] at h
  obtain ⟨⟨⟨⟨h1, h2⟩, c, h3, h4⟩, d, h5⟩, ed, h6⟩ := h
  exact ⟨_, ed, ⟨h1, h6, xlmA, c, d, h2, h3, h4, h5, rfl⟩, fun d' hd' => by rw [h5] at hd'; cases hd'; rfl⟩

/-- the hypotheses are met: bob claims twice, 1000 seconds apart, which updates the index of the XLM supply twice -/
example : ∃ w w' S S' ed ed', Reachable w ∧ w.poolAddr poolA = true ∧
    Updates (fun w => EmitsAs w poolA 3 7 ⟨1713754000, 24801⟩) 1000000000000 w 2 w' ∧
    EmitsAs w poolA 3 7 ⟨1713754000, 24801⟩ S ed ∧ EmitsAs w' poolA 3 7 ⟨1713754000, 24801⟩ S' ed' ∧ ed.index < ed'.index := by
  obtain ⟨w, hw, hr, h⟩ := Demo.reach (ops := setup ++ trade ++ emissions)
    (f := fun w => w.poolAddr poolA && (emitsB w && okAnd (step w (.pool poolA [bob] (.claim bob [3] bob))) fun w1 => emitsB w1 &&
      okAnd (step w1 (.ledger 1000 200)) fun w2 => emitsB w2 && decide ((w2.pools poolA).emisData 3 = (w1.pools poolA).emisData 3) &&
      okAnd (step w2 (.pool poolA [bob] (.claim bob [3] bob))) fun w3 => emitsB w3 &&
        decide (((w.pools poolA).resData xlmA).map (·.bSupply) = some 1000000000000) &&
        decide (((w2.pools poolA).resData xlmA).map (·.bSupply) = some 1000000000000) &&
        decide (((w.pools poolA).emisData 3).map (·.index) = some 0) &&
        decide (((w3.pools poolA).emisData 3).map (·.index) = some 496))) (by decide +kernel)
  simp only [Bool.and_eq_true, okAnd_iff, decide_eq_true_eq, Option.map_eq_some_iff] at h
  obtain ⟨hp, b0, w1, s1, b1, w2, s2, ⟨b2, e2⟩, w3, s3, ⟨⟨⟨b3, d, hd, hS⟩, d2, hd2, hS2⟩, x, hx, hx0⟩, y, hy, hy0⟩ := h
  obtain ⟨S0, ed0, E0, f0⟩ := emitsB_ok b0
  obtain ⟨S1, ed1, E1, _⟩ := emitsB_ok b1
  obtain ⟨S2, ed2, E2, f2⟩ := emitsB_ok b2
  obtain ⟨S3, ed3, E3, _⟩ := emitsB_ok b3
  have g0 := f0 d hd
  have g2 := f2 d2 hd2
  obtain rfl : ed1 = ed2 := Option.some.inj (by rw [← E1.data, ← E2.data, e2])
  refine ⟨w, w3, S0, S3, ed0, ed3, hr, hp, ?_, E0, E3, ?_⟩
  · refine .update (.same (.update (.refl w) E0 (by omega) (by omega) s1 E1) E1 s2 E2) E2 (by omega) (by omega) s3 E3
  · rw [E0.data] at hx; cases hx
    rw [E3.data] at hy; cases hy
    omega

theorem bemits_step {w w' : World} (hr : Reachable w) {op : Op} (hs : step w op = .ok w') {p : Address}
    {cfg : EmisConfig} {S S' : Int} {ed ed' : EmisData} (h : BackstopEmitsAs w p cfg S ed) (h' : BackstopEmitsAs w' p cfg S' ed')
    (hS : 0 < S) : (ed'.index = ed.index ∧ (min ed'.lastTime cfg.expiration = min ed.lastTime cfg.expiration ∨ cfg.eps = 0)) ∨
      (ed.lastTime ≤ ed'.lastTime ∧ ed'.lastTime = w.time ∧
        IsFloor (ed'.index - ed.index) (((min ed'.lastTime cfg.expiration - min ed.lastTime cfg.expiration : Nat) : Int) * cfg.eps * ONE7) S) := by
  obtain ⟨cfg', ed1, k1, k2, k3, k4, k5⟩ := C25_backstop_index_step hr hs h.sched h.data
  have hS1 := h.supply
  subst hS1
  rw [h'.sched] at k1
  rw [h'.data] at k2
  cases k1; cases k2
  rcases k5 with ⟨_, k5⟩ | ⟨_, e1, e2, mid, e3, e4⟩
  · rcases k5 with ⟨rfl, _⟩ | ⟨q1, q2, q3, q4, q5⟩
    · exact .inl ⟨rfl, .inl rfl⟩
    · right
      refine ⟨by omega, q1, ?_⟩
      rw [q1, show min ed.lastTime cfg.expiration = ed.lastTime by omega]
      exact q5
  · rcases e4 (unqueuedShares w p + 1) with ⟨rfl, q⟩ | ⟨q1, q2, q3, q4, q5⟩
    · rcases q with q | q | q | q
      · omega
      · omega
      · exact .inl ⟨e3.symm, .inr q⟩
      · exact .inl ⟨e3.symm, .inl (by omega)⟩
    · right
      refine ⟨by omega, e2, ?_⟩
      rw [e2, ← e3, show min ed.lastTime cfg.expiration = ed.lastTime by omega]
      exact q5

/-- **C83**: the same for the depositors of a pool in the backstop. -/
theorem C83_backstop_index_bound {w w' : World} (hr : Reachable w) {p : Address} {n : Nat}
    {cfg : EmisConfig} {M S S' : Int} {ed ed' : EmisData} (h : Updates (fun w => BackstopEmitsAs w p cfg) M w n w')
    (h0 : BackstopEmitsAs w p cfg S ed) (h1 : BackstopEmitsAs w' p cfg S' ed') :
    ed.index ≤ ed'.index ∧
      (((min ed'.lastTime cfg.expiration : Nat) : Int) - (min ed.lastTime cfg.expiration : Nat)) * cfg.eps * ONE7 ≤ (ed'.index - ed.index + n) * M := by
  have h10 : (0 : Int) < ONE7 := by decide
  induction h generalizing S' ed' with
  | refl =>
    have := h0.data.symm.trans h1.data
    cases this
    simp
  | @same w1 w2 n op S1 S2 ed1 hu e1 hs e2 ih =>
    have := e2.data.symm.trans h1.data
    cases this
    exact ih e1
  | @update w1 w2 n op S1 S2 ed1 ed2 hu e1 hS hSM hs e2 ih =>
    obtain rfl : ed' = ed2 := Option.some.inj (h1.data.symm.trans e2.data)
    obtain ⟨i0, i1⟩ := ih e1
    push_cast at i1 ⊢
    rcases bemits_step (hr.steps (updates_reach hu)) hs e1 h1 hS with ⟨q1, q2⟩ | ⟨q0, q1, q3⟩
    · refine ⟨by omega, ?_⟩
      rw [q1]
      have : (ed1.index - ed.index + (n + 1)) * M = (ed1.index - ed.index + n) * M + M := by ring
      rw [this]
      rcases q2 with q2 | q2
      · have q2 : min (ed'.lastTime : Int) cfg.expiration = min (ed1.lastTime : Int) cfg.expiration := by omega
        rw [q2]; linarith
      · rw [q2] at i1 ⊢
        simp only [Nat.cast_zero, mul_zero, zero_mul] at i1 ⊢
        linarith
    · have q3' : 0 ≤ ed'.index - ed1.index := by
        by_contra hlt
        have hlt : ed'.index - ed1.index + 1 ≤ 0 := by omega
        have h2 : (ed'.index - ed1.index + 1) * S1 ≤ 0 := Int.mul_nonpos_of_nonpos_of_nonneg hlt hS.le
        have h3 : (0 : Int) ≤ ((min ed'.lastTime cfg.expiration - min ed1.lastTime cfg.expiration : Nat) : Int) * cfg.eps * ONE7 := by positivity
        have := q3.2
        omega
      refine ⟨by omega, ?_⟩
      have hc : (((min ed'.lastTime cfg.expiration - min ed1.lastTime cfg.expiration : Nat) : Int)) =
        min (ed'.lastTime : Int) cfg.expiration - min (ed1.lastTime : Int) cfg.expiration := by omega
      rw [hc] at q3
      have q4 := q3.2
      have h4 : (ed'.index - ed1.index + 1) * S1 ≤ (ed'.index - ed1.index + 1) * M :=
        Int.mul_le_mul_of_nonneg_left hSM (by omega)
      generalize min (ed'.lastTime : Int) cfg.expiration = x at *
      generalize min (ed1.lastTime : Int) cfg.expiration = y at *
      generalize min (ed.lastTime : Int) cfg.expiration = z at *
      have e5 : (x - z) * cfg.eps * ONE7 = (x - y) * cfg.eps * ONE7 + (y - z) * cfg.eps * ONE7 := by ring
      have e6 : (ed'.index - ed.index + ((n : Int) + 1)) * M = (ed'.index - ed1.index + 1) * M + (ed1.index - ed.index + n) * M := by ring
      rw [e5, e6]
      linarith

/-- the hypotheses are met: carol claims twice in the backstop, 1000 seconds apart -/
example : ∃ w w' cfg S S' ed ed', Reachable w ∧ Updates (fun w => BackstopEmitsAs w poolA cfg) 500000000000 w 1 w' ∧
    BackstopEmitsAs w poolA cfg S ed ∧ BackstopEmitsAs w' poolA cfg S' ed' ∧ ed.index < ed'.index := by
  obtain ⟨w, w', hw, hr, hs, h⟩ := Demo.reach_step (ops := setup ++ trade ++ emissions) (op := .backstop [carol] (.claim carol [poolA] carol))
    (f := fun w w' => optAnd (w.backstop.emisCfg poolA) (fun c => decide (w'.backstop.emisCfg poolA = some c)) &&
      (optAnd (w.backstop.emisData poolA) fun x => optAnd (w'.backstop.emisData poolA) fun y => decide (x.index < y.index)) &&
      decide (unqueuedShares w poolA = 500000000000)) (by decide +kernel)
  simp only [Bool.and_eq_true, optAnd_iff, decide_eq_true_eq] at h
  obtain ⟨⟨⟨c, h1, h2⟩, x, h3, y, h4, h5⟩, h6⟩ := h
  exact ⟨w, w', c, _, _, x, y, hr, .update (.refl w) ⟨h1, h3, rfl⟩ (by omega) (by omega) hs ⟨h2, h4, rfl⟩, ⟨h1, h3, rfl⟩,
    ⟨h2, h4, rfl⟩, h5⟩

/-- **C83**: if whenever something is done the emissions due since the last update are less than one unit of BLND per whole token
of the supply, then the index never moves, and nobody's claim on emissions of the token grows, no matter how long this goes on. -/
theorem C83_pool_starved {w w' : World} (hr : Reachable w) {p : Address} (hp : w.poolAddr p = true) {id dec : Nat} {u : Address}
    (h : HistoryW (fun w op => (∃ cfg S ed, EmitsAs w p id dec cfg S ed ∧
      ((min w.time cfg.expiration - ed.lastTime : Nat) : Int) * cfg.eps * 10 ^ dec < S) ∧
      ∀ auth ids dst, op ≠ .pool p auth (.claim u ids dst)) w w')
    {ed : EmisData} (hed : (w.pools p).emisData id = some ed) :
    ∃ ed', (w'.pools p).emisData id = some ed' ∧ ed'.index = ed.index ∧
      ∀ e, Entitled (w.pools p) id dec ed.index u e → Entitled (w'.pools p) id dec ed'.index u e := by
  have key : Reachable w' ∧ w'.poolAddr p = true ∧ ∃ ed', (w'.pools p).emisData id = some ed' ∧ ed'.index = ed.index ∧
      ∀ e, Entitled (w.pools p) id dec ed.index u e → Entitled (w'.pools p) id dec ed'.index u e := by
    induction h with
    | refl => exact ⟨hr, hp, ed, hed, rfl, fun e he => he⟩
    | @tail w1 w2 op hh hP hs ih =>
      obtain ⟨hr1, hp1, ed1, k1, k2, k3⟩ := ih
      obtain ⟨⟨cfg, S, ed1', hE, hlt⟩, hop⟩ := hP
      obtain rfl : ed1' = ed1 := Option.some.inj (hE.data.symm.trans k1)
      obtain ⟨asset, c, d, ha, hc, rfl, hd, rfl⟩ := hE.supply
      have r := step_res hr1.base hs
      have hp2 : w2.poolAddr p = true := r.poolAddr ▸ hp1
      have hm := (r.micros p hp1).mono (U' := fun _ => True) (fun _ _ => trivial)
      obtain ⟨rel, -, -⟩ := Pool.micros_index (hr1.base.cfg p) (hr1.einv hp1) hm
      obtain ⟨cfg2, ed2, m1, m2, m3, m4, m5⟩ := rel.rel id cfg ed1' asset c hE.sched k1 ha hc
      rw [Pool.tokenSupply_etot hr1 hp1 ha hc hd] at hlt
      have hpos : 0 < Pool.etot (w1.pools p) id := lt_of_le_of_lt (by positivity) hlt
      have zero : ∀ {S' : Int} {mid : EmisData},
          IndexUpdate cfg (10 ^ c.decimals) w1.time (Pool.etot (w1.pools p) id) S' ed1' mid → ed1'.index ≤ mid.index → mid.index = ed1'.index := by
        intro S' mid hu hle
        rcases hu with ⟨rfl, _⟩ | ⟨q1, q2, q3, s, q4, q5, q6⟩
        · rfl
        · rcases q5 with rfl | q5
          · rw [q2] at q6
            have h1 := q6.1
            by_contra hne
            have : (1 : Int) * Pool.etot (w1.pools p) id ≤ (mid.index - ed1'.index) * Pool.etot (w1.pools p) id :=
              Int.mul_le_mul_of_nonneg_right (by omega) hpos.le
            omega
          · omega
      have hidx : ed2.index = ed1'.index := by
        rcases m5 with ⟨_, m5⟩ | ⟨_, _, mid, e3, e4⟩
        · exact zero m5 m3
        · rw [← e3]
          exact zero (e4 0) (by rw [e3]; exact m3)
      refine ⟨hr1.step hs, hp2, ed2, m2, by rw [hidx, k2], fun e he => ?_⟩
      have h1 := k3 e he
      have := (C50_entitlement_step hr1 hs hp1 ha hc hd hE.sched k1 m2 hop (e := e)
        (e' := Pool.entAt (w2.pools p) id (10 ^ c.decimals) u ed2.index) (by rw [hidx]; exact h1) (Pool.entitled_iff.2 rfl)).2
        (.inl (by rw [Pool.tokenSupply_etot hr1 hp1 ha hc hd]; omega))
      rw [← this]
      exact Pool.entitled_iff.2 rfl
  exact key.2.2

/-- somebody lets `n` ledgers of 5 seconds pass and claims the emissions of the XLM supply after each of them -/
def rounds (u : Address) : Nat → List Op
  | 0 => []
  | n + 1 => [.ledger 5 1, .pool poolA [u] (.claim u [3] u)] ++ rounds u n

private def checkRun (f : World → Op → Bool) : World → List Op → Bool
  | _, [] => true
  | w, op :: l => f w op && okAnd (step w op) (fun w' => checkRun f w' l)

private theorem checkRun_ok {f : World → Op → Bool} {P : World → Op → Prop} (hf : ∀ w op, f w op = true → P w op) {w0 : World} :
    ∀ (l : List Op) (w : World), HistoryW P w0 w → checkRun f w l = true → ∃ w', HistoryW P w0 w' := by
  intro l
  induction l with
  | nil => intro w h _; exact ⟨w, h⟩
  | cons op l ih =>
    intro w h hc
    simp only [checkRun, Bool.and_eq_true, okAnd_iff] at hc
    obtain ⟨h1, w', h2, h3⟩ := hc
    exact ih w' (.tail h (hf w op h1) h2) h3

private def davesXlm : List Op := [.pool poolA [dave] (.submit dave dave dave [⟨0, xlmA, 1000000000000⟩])]

/-- **C83**: it does not take a position to do this. In the demo bob earns 0.07 BLND in a minute from his XLM; if alice, who has no
XLM in the pool, claims (and gets nothing) in every ledger, bob earns nothing. -/
theorem C83_anyone_can_starve : ∃ w w1 w2 w1' w2', Reachable w ∧ tokenBalance (w.pools poolA) 3 alice = 0 ∧
    run w [.ledger 60 12] = .ok w1 ∧ run w (rounds alice 12) = .ok w2 ∧ w2.time = w1.time ∧
    step w1 (.pool poolA [bob] (.claim bob [3] bob)) = .ok w1' ∧ step w2 (.pool poolA [bob] (.claim bob [3] bob)) = .ok w2' ∧
    w1'.balance blndA bob = w.balance blndA bob + 700000 ∧ w2'.balance blndA bob = w.balance blndA bob := by
  obtain ⟨w, hw, hr, h⟩ := Demo.reach (ops := setup ++ trade ++ davesXlm ++ emissions.take 4)
    (f := fun w => decide (tokenBalance (w.pools poolA) 3 alice = 0) && okAnd (run w [.ledger 60 12]) fun w1 =>
      okAnd (run w (rounds alice 12)) fun w2 => decide (w2.time = w1.time) &&
      okAnd (step w1 (.pool poolA [bob] (.claim bob [3] bob))) fun w1' =>
      okAnd (step w2 (.pool poolA [bob] (.claim bob [3] bob))) fun w2' =>
        decide (w1'.balance blndA bob = w.balance blndA bob + 700000) && decide (w2'.balance blndA bob = w.balance blndA bob)) (by decide +kernel)
  simp only [Bool.and_eq_true, okAnd_iff, decide_eq_true_eq] at h
  obtain ⟨h0, w1, h1, w2, h2, h3, w1', h4, w2', h5, h6, h7⟩ := h
  exact ⟨w, w1, w2, w1', w2', hr, h0, h1, h2, h3, h4, h5, h6, h7⟩

/-- the hypotheses of `C83_pool_starved` are met there, for bob -/
example : ∃ w w' ed, Reachable w ∧ w.poolAddr poolA = true ∧ (w.pools poolA).emisData 3 = some ed ∧
    HistoryW (fun w op => (∃ cfg S ed, EmitsAs w poolA 3 7 cfg S ed ∧
      ((min w.time cfg.expiration - ed.lastTime : Nat) : Int) * cfg.eps * 10 ^ 7 < S) ∧
      ∀ auth ids dst, op ≠ .pool poolA auth (.claim bob ids dst)) w w' := by
  obtain ⟨w, hw, hr, h⟩ := Demo.reach (ops := setup ++ trade ++ davesXlm ++ emissions.take 4)
    (f := fun w => w.poolAddr poolA && ((w.pools poolA).emisData 3).isSome && checkRun (fun w op => emitsB w &&
      (optAnd ((w.pools poolA).emisData 3) fun ed => optAnd ((w.pools poolA).resData xlmA) fun d =>
        decide (((min w.time 1713754000 - ed.lastTime : Nat) : Int) * 24801 * 10 ^ 7 < d.bSupply)) &&
      (match op with | .pool _ _ (.claim u _ _) => decide (u ≠ bob) | _ => true)) w (rounds alice 12)) (by decide +kernel)
  simp only [Bool.and_eq_true, Option.isSome_iff_exists] at h
  obtain ⟨⟨hp, ed, hed⟩, h⟩ := h
  obtain ⟨w', hh⟩ := checkRun_ok (P := fun w op => (∃ cfg S ed, EmitsAs w poolA 3 7 cfg S ed ∧
      ((min w.time cfg.expiration - ed.lastTime : Nat) : Int) * cfg.eps * 10 ^ 7 < S) ∧
      ∀ auth ids dst, op ≠ .pool poolA auth (.claim bob ids dst)) (fun w op hf => by
    simp only [Bool.and_eq_true, optAnd_iff, decide_eq_true_eq] at hf
    obtain ⟨⟨h1, ed, h2, d, h3, h4⟩, h5⟩ := hf
    obtain ⟨S, ed', E, hS⟩ := emitsB_ok h1
    refine ⟨⟨_, S, ed', E, ?_⟩, fun auth ids dst he => ?_⟩
    · have := E.data.symm.trans h2
      cases this
      rw [hS d h3]
      exact_mod_cast h4
    · subst he
      simp at h5) _ w (.refl w) h
  exact ⟨w, w', ed, hr, hp, hed, hh⟩

/-- **C83**: the same for the depositors of a pool in the backstop. -/
theorem C83_backstop_starved {w w' : World} (hr : Reachable w) {p u : Address}
    (h : HistoryW (fun w op => (∃ cfg S ed, BackstopEmitsAs w p cfg S ed ∧
      ((min w.time cfg.expiration - ed.lastTime : Nat) : Int) * cfg.eps * ONE7 < S) ∧
      ∀ auth s ps d, op = .backstop auth (.claim s ps d) → u ≠ s ∧ u ≠ d) w w')
    {ed : EmisData} (hed : w.backstop.emisData p = some ed) :
    ∃ ed', w'.backstop.emisData p = some ed' ∧ ed'.index = ed.index ∧
      ∀ e, BEntitled w p ed.index u e → BEntitled w' p ed'.index u e := by
  have key : Reachable w' ∧ ∃ ed', w'.backstop.emisData p = some ed' ∧ ed'.index = ed.index ∧
      ∀ e, BEntitled w p ed.index u e → BEntitled w' p ed'.index u e := by
    induction h with
    | refl => exact ⟨hr, ed, hed, rfl, fun e he => he⟩
    | @tail w1 w2 op hh hP hs ih =>
      obtain ⟨hr1, ed1, k1, k2, k3⟩ := ih
      obtain ⟨⟨cfg, S, ed1', hE, hlt⟩, hop⟩ := hP
      obtain rfl : ed1' = ed1 := Option.some.inj (hE.data.symm.trans k1)
      have hS := hE.supply
      subst hS
      obtain ⟨cfg2, ed2, m1, m2, m3, m4, m5⟩ := C25_backstop_index_step hr1 hs hE.sched k1
      have h10 : (0 : Int) < ONE7 := by decide
      have hpos : 0 < unqueuedShares w1 p := lt_of_le_of_lt (by positivity) hlt
      have zero : ∀ {S' : Int} {mid : EmisData},
          BIndexUpdate cfg w1.time (unqueuedShares w1 p) S' ed1' mid → ed1'.index ≤ mid.index → mid.index = ed1'.index := by
        intro S' mid hu hle
        rcases hu with ⟨rfl, _⟩ | ⟨q1, q2, q3, q4, q6⟩
        · rfl
        · have h1 := q6.1
          by_contra hne
          have : (1 : Int) * unqueuedShares w1 p ≤ (mid.index - ed1'.index) * unqueuedShares w1 p :=
            Int.mul_le_mul_of_nonneg_right (by omega) hpos.le
          omega
      have hidx : ed2.index = ed1'.index := by
        rcases m5 with ⟨_, m5⟩ | ⟨_, _, _, mid, e3, e4⟩
        · exact zero m5 m3
        · rw [← e3]
          exact zero (e4 0) (by rw [e3]; exact m3)
      refine ⟨hr1.step hs, ed2, m2, by rw [hidx, k2], fun e he => ?_⟩
      have h1 := k3 e he
      have := C51_entitlement_step hr1 hs hE.sched m2 hop (e := e) (e' := Backstop.bentAt w2.backstop p u ed2.index)
        (by rw [hidx]; exact h1) (Backstop.bentitled_iff.2 rfl)
      rw [← this]
      exact Backstop.bentitled_iff.2 rfl
  exact key.2

/-- the hypotheses are met: alice, who has no shares, claims every second for three seconds, and carol earns nothing -/
example : ∃ w w' ed, Reachable w ∧ w.backstop.emisData poolA = some ed ∧ 0 < (w.backstop.getUserBal poolA carol).shares ∧
    HistoryW (fun w op => (∃ cfg S ed, BackstopEmitsAs w poolA cfg S ed ∧
      ((min w.time cfg.expiration - ed.lastTime : Nat) : Int) * cfg.eps * ONE7 < S) ∧
      ∀ auth s ps d, op = .backstop auth (.claim s ps d) → carol ≠ s ∧ carol ≠ d) w w' := by
  obtain ⟨w, hw, hr, h⟩ := Demo.reach (ops := setup ++ trade ++ [.ledger 3601 720, .emitter [] .distribute, .backstop [] .gulpEmissions])
    (f := fun w => (w.backstop.emisData poolA).isSome && decide (0 < (w.backstop.getUserBal poolA carol).shares) && checkRun (fun w op =>
      (optAnd (w.backstop.emisCfg poolA) fun c => optAnd (w.backstop.emisData poolA) fun ed =>
        decide (((min w.time c.expiration - ed.lastTime : Nat) : Int) * c.eps * ONE7 < unqueuedShares w poolA)) &&
      (match op with | .backstop _ (.claim s _ d) => decide (carol ≠ s ∧ carol ≠ d) | _ => true)) w
      [.ledger 1 1, .backstop [alice] (.claim alice [poolA] alice), .ledger 1 1, .backstop [alice] (.claim alice [poolA] alice),
       .ledger 1 1, .backstop [alice] (.claim alice [poolA] alice)]) (by decide +kernel)
  simp only [Bool.and_eq_true, Option.isSome_iff_exists, decide_eq_true_eq] at h
  obtain ⟨⟨⟨ed, hed⟩, hc⟩, h⟩ := h
  obtain ⟨w', hh⟩ := checkRun_ok (P := fun w op => (∃ cfg S ed, BackstopEmitsAs w poolA cfg S ed ∧
      ((min w.time cfg.expiration - ed.lastTime : Nat) : Int) * cfg.eps * ONE7 < S) ∧
      ∀ auth s ps d, op = .backstop auth (.claim s ps d) → carol ≠ s ∧ carol ≠ d) (fun w op hf => by
    simp only [Bool.and_eq_true, optAnd_iff, decide_eq_true_eq] at hf
    obtain ⟨⟨c, h1, ed, h2, h3⟩, h5⟩ := hf
    refine ⟨⟨c, _, ed, ⟨h1, h2, rfl⟩, h3⟩, fun auth s ps d he => ?_⟩
    subst he
    simpa using h5) _ w (.refl w) h
  exact ⟨w, w', ed, hr, hed, hc, hh⟩

end Props
end Blend
