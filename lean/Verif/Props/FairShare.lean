import Verif.Spec.FairShare
import Verif.Props.Share
/-
  C103: whoever holds his share earns his share of the emissions.
-/

namespace Blend
namespace Pool
open Spec

/-- through the small steps of an operation that starts with a supply, what was paid to `u` and what he can claim grows by at least his
balance before times the growth of the index, but for less than one unit, and by no less than that if his record stays as it is -/
theorem micros_exact_ge {now : Nat} {U : Address → Prop} {S S' : VS} (cfg : CfgOk S.ps) (inv : EInv now S) (h : PMicros now U S S')
    {u : Address} {id : Nat} {cf : EmisConfig} (hcf : S.ps.emisConfig id = some cf) {a : Address} {c : ReserveConfig}
    (ha : S.ps.resList[id / 2]? = some a) (hc : S.ps.resConfig a = some c) (h0 : etot S.ps id ≠ 0) {ed ed' : EmisData}
    (hed' : S'.ps.emisData id = some ed') :
    ∃ P : Int, P ≤ S'.ps.claimed id - S.ps.claimed id ∧ ((∀ v, U v → v = u) → P = S'.ps.claimed id - S.ps.claimed id) ∧
      (¬ U u → P = 0) ∧
      exactAt S.ps id (10 ^ c.decimals) u ed.index + ebal S.ps id u * (ed'.index - ed.index) <
        10 ^ c.decimals * (P + 1) + exactAt S'.ps id (10 ^ c.decimals) u ed'.index ∧
      (ed'.index = ed.index → userEntry (S'.ps.userEmis id) u = userEntry (S.ps.userEmis id) u →
        exactAt S.ps id (10 ^ c.decimals) u ed.index ≤
          10 ^ c.decimals * P + exactAt S'.ps id (10 ^ c.decimals) u ed'.index) := by
  have h10 : (0 : Int) < 10 ^ c.decimals := by positivity
  obtain ⟨P, p0, p1, p2, pn, p3, p4⟩ := micros_entitle cfg inv h (u := u) hcf ha hc
  refine ⟨P, p1, p2, pn, ?_, fun hi hu => ?_⟩
  · have e : exactAt S.ps id (10 ^ c.decimals) u ed.index + ebal S.ps id u * (ed'.index - ed.index) =
        exactAt S.ps id (10 ^ c.decimals) u ed'.index := by unfold exactAt; ring
    rw [e]
    have q := p3 ed' hed'
    have b1 := (exactAt_bounds (ps := S.ps) (id := id) (u := u) (J := ed'.index) h10).2
    have b2 := (exactAt_bounds (ps := S'.ps) (id := id) (u := u) (J := ed'.index) h10).1
    have b3 := Int.mul_le_mul_of_nonneg_left q h10.le
    rw [mul_add] at b1 b3 ⊢
    linarith
  · have hP : 0 ≤ (10 : Int) ^ c.decimals * P := Int.mul_nonneg h10.le p0
    suffices hx : exactAt S'.ps id (10 ^ c.decimals) u ed'.index = exactAt S.ps id (10 ^ c.decimals) u ed.index by omega
    rcases micros_rec cfg inv h (u := u) hcf ha hc with ⟨_, g, _⟩ | ⟨_, g⟩ | ⟨g, _⟩
    · unfold exactAt; rw [hu, g, hi]
    · have k := g ed' hed'
      unfold exactAt
      rw [k, ← hi, ← k, hu]; simp
    · exact absurd g h0

end Pool

namespace Props
open Spec Pool Demo

/-- what one operation pays to one account, and what it can claim after, at least -/
private theorem share_one_ge {w w' : World} {op : Op} (hr : Reachable w) (hs : step w op = .ok w') {p : Address}
    (hp : w.poolAddr p = true) {id dec : Nat} {cfg : EmisConfig} {S : Int} {ed ed' : EmisData}
    (he : EmitsAs w p id dec cfg S ed) (hS : 0 < S) (hed' : (w'.pools p).emisData id = some ed') (u : Address) :
    exactAt (w.pools p) id (10 ^ dec) u ed.index + tokenBalance (w.pools p) id u * (ed'.index - ed.index) <
      10 ^ dec * (tokenPaid [u] p id op w w' + 1) + exactAt (w'.pools p) id (10 ^ dec) u ed'.index ∧
    (ed'.index = ed.index → ((w'.pools p).userEmis id).get u = ((w.pools p).userEmis id).get u →
      exactAt (w.pools p) id (10 ^ dec) u ed.index ≤
        10 ^ dec * tokenPaid [u] p id op w w' + exactAt (w'.pools p) id (10 ^ dec) u ed'.index) := by
  obtain ⟨asset, c, d, ha, hc, rfl, hd, rfl⟩ := he.supply
  have r := step_res hr.base hs
  rw [tokenSupply_etot hr hp ha hc hd] at hS
  rw [tokenBalance_eq]
  obtain ⟨P, p1, p2, pn, p3, p4⟩ := micros_exact_ge (u := u) (hr.base.cfg p) (hr.einv hp) (r.micros p hp) he.sched ha hc
    (by show etot (w.pools p) id ≠ 0; omega) (ed := ed) hed'
  change P ≤ (w'.pools p).claimed id - (w.pools p).claimed id at p1
  change _ → P = (w'.pools p).claimed id - (w.pools p).claimed id at p2
  change exactAt (w.pools p) id (10 ^ c.decimals) u ed.index + ebal (w.pools p) id u * (ed'.index - ed.index) <
    10 ^ c.decimals * (P + 1) + exactAt (w'.pools p) id (10 ^ c.decimals) u ed'.index at p3
  change ed'.index = ed.index → userEntry ((w'.pools p).userEmis id) u = userEntry ((w.pools p).userEmis id) u →
    exactAt (w.pools p) id (10 ^ c.decimals) u ed.index ≤
      10 ^ c.decimals * P + exactAt (w'.pools p) id (10 ^ c.decimals) u ed'.index at p4
  suffices hP : P ≤ tokenPaid [u] p id op w w' by
    have h10 : (0 : Int) ≤ 10 ^ c.decimals := by positivity
    have := Int.mul_le_mul_of_nonneg_left hP h10
    rw [mul_add] at p3 ⊢
    refine ⟨by linarith, fun h1 h2 => ?_⟩
    have p4 := p4 h1 (by unfold userEntry; rw [h2])
    linarith
  by_cases hcl : ∃ auth s l d, op = .pool p auth (.claim s l d)
  · obtain ⟨auth, s, l, dst, rfl⟩ := hcl
    simp only [tokenPaid, true_and, List.mem_singleton]
    split
    · exact p1
    · rename_i hu
      refine le_of_eq (pn fun ht => ?_)
      obtain ⟨_, ht⟩ := ht
      exact hu (show u = s from ht).symm
  · push Not at hcl
    rw [step_claimed hr hs (p := p) hcl] at p1
    have : tokenPaid [u] p id op w w' = 0 := by
      unfold tokenPaid
      split
      · rename_i q auth v l dst
        rw [if_neg]
        rintro ⟨rfl, _⟩
        exact hcl _ _ _ _ rfl
      · rfl
    omega

private theorem holds_reach {u : Address} {a b M : Int} {p : Address} {id dec : Nat} {cfg : EmisConfig} {w w' : World} {n : Nat} {P : Int}
    (h : HoldsShare u a b M p id dec cfg w n P w') : Steps w w' := by
  induction h with
  | refl => exact Steps.refl _
  | same _ _ _ hs _ _ ih => exact Steps.tail ih ⟨_, hs⟩
  | update _ _ _ _ _ hs _ ih => exact Steps.tail ih ⟨_, hs⟩

private theorem holds_exact {u : Address} {a b M : Int} (ha : 0 ≤ a) (hb : 0 ≤ b) {p : Address}
    {id dec n : Nat} {cfg : EmisConfig} {w w' : World} {P : Int} (hr : Reachable w) (hp : w.poolAddr p = true)
    (h : HoldsShare u a b M p id dec cfg w n P w') {S S' : Int} {ed ed' : EmisData}
    (h0 : EmitsAs w p id dec cfg S ed) (h1 : EmitsAs w' p id dec cfg S' ed') :
    a * (((ed'.lastTime : Int) - ed.lastTime) * cfg.eps * 10 ^ dec - n * M) ≤
      b * (10 ^ dec * (P + n) + exactAt (w'.pools p) id (10 ^ dec) u ed'.index - exactAt (w.pools p) id (10 ^ dec) u ed.index) := by
  induction h generalizing S' ed' with
  | refl =>
    have := h0.data.symm.trans h1.data
    cases this
    simp
  | @same w1 w2 n P1 op S1 S2 ed1 hh e1 hS hs e2 hu ih =>
    obtain rfl : ed' = ed1 := Option.some.inj (h1.data.symm.trans e2.data)
    have ih := ih e1
    have st := holds_reach hh
    have hp1 : w1.poolAddr p = true := by rw [(Steps.poolAddr hr.base st).1]; exact hp
    have := Int.mul_le_mul_of_nonneg_left ((share_one_ge (hr.steps st) hs hp1 e1 hS h1.data u).2 rfl hu) hb
    simp only [mul_add, mul_sub] at this ih ⊢
    linarith
  | @update w1 w2 n P1 op S1 S2 ed1 ed2 hh e1 hS hSM hB hs e2 ih =>
    obtain rfl : ed' = ed2 := Option.some.inj (h1.data.symm.trans e2.data)
    have ih := ih e1
    have st := holds_reach hh
    have hp1 : w1.poolAddr p = true := by rw [(Steps.poolAddr hr.base st).1]; exact hp
    have hstep := (share_one_ge (hr.steps st) hs hp1 e1 hS h1.data u).1
    have hgrow : a * (((ed'.lastTime : Int) - ed1.lastTime) * cfg.eps * 10 ^ dec - M) ≤
        b * (tokenBalance (w1.pools p) id u * (ed'.index - ed1.index)) := by
      rcases emits_step (hr.steps st) hs hp1 e1 h1 hS with ⟨q1, q2⟩ | ⟨q0, q1, q2⟩
      · have hz : ((ed'.lastTime : Int) - ed1.lastTime) * cfg.eps * 10 ^ dec = 0 := by
          rcases q2 with q2 | q2
          · rw [q2]; simp
          · rw [q2]; simp
        rw [hz, q1]
        have := Int.mul_nonneg ha (hS.le.trans hSM)
        rw [mul_sub]; simp; exact this
      · have hc : (((ed'.lastTime - ed1.lastTime : Nat) : Int)) = (ed'.lastTime : Int) - ed1.lastTime := by omega
        have q3' : 0 ≤ ed'.index - ed1.index := by
          by_contra hlt
          have hlt : ed'.index - ed1.index + 1 ≤ 0 := by omega
          have h2 : (ed'.index - ed1.index + 1) * S1 ≤ 0 := Int.mul_nonpos_of_nonpos_of_nonneg hlt hS.le
          have h3 : (0 : Int) ≤ ((ed'.lastTime - ed1.lastTime : Nat) : Int) * cfg.eps * 10 ^ dec := by positivity
          have := q2.2
          linarith
        rw [← hc]
        have k1 := Int.mul_le_mul_of_nonneg_left hB q3'
        have k2 : ((ed'.lastTime - ed1.lastTime : Nat) : Int) * cfg.eps * 10 ^ dec - M ≤ (ed'.index - ed1.index) * S1 := by
          have := q2.2
          rw [add_mul] at this
          linarith
        have k3 := Int.mul_le_mul_of_nonneg_left k2 ha
        have k4 : (ed'.index - ed1.index) * (a * S1) = a * ((ed'.index - ed1.index) * S1) := by ring
        have k5 : (ed'.index - ed1.index) * (b * tokenBalance (w1.pools p) id u) =
          b * (tokenBalance (w1.pools p) id u * (ed'.index - ed1.index)) := by ring
        linarith
    have k := Int.mul_le_mul_of_nonneg_left hstep.le hb
    have e1 : a * (((ed'.lastTime : Int) - ed.lastTime) * cfg.eps * 10 ^ dec - ((n + 1 : Nat) : Int) * M) =
        a * (((ed'.lastTime : Int) - ed1.lastTime) * cfg.eps * 10 ^ dec - M) +
          a * (((ed1.lastTime : Int) - ed.lastTime) * cfg.eps * 10 ^ dec - n * M) := by push_cast; ring
    rw [e1]
    push_cast
    simp only [mul_add, mul_sub, mul_one] at k ih hgrow ⊢
    linarith

/-- **C103** Over any history of operations of anyone, while emissions of a reserve token run by one schedule and some of the token
exists: an account that holds at least `a / b` of the token before each operation that updates the emissions is paid, and can claim at
the end more than at the start, at least `a / b` of what is emitted between the first and the last update, less, for each of these
operations, one unit of BLND and its part of one unit per whole token, and one unit more. Nobody else can take its share. -/
theorem C103_fair_share {u : Address} {a b M : Int} (ha : 0 ≤ a) (hb : 0 ≤ b) {p : Address} {id dec n : Nat}
    {cfg : EmisConfig} {w w' : World} {P : Int} (hr : Reachable w) (hp : w.poolAddr p = true)
    (h : HoldsShare u a b M p id dec cfg w n P w') {S S' : Int} {ed ed' : EmisData}
    (h0 : EmitsAs w p id dec cfg S ed) (h1 : EmitsAs w' p id dec cfg S' ed') {e e' : Int}
    (he : Entitled (w.pools p) id dec ed.index u e) (he' : Entitled (w'.pools p) id dec ed'.index u e') :
    a * (((ed'.lastTime : Int) - ed.lastTime) * cfg.eps * 10 ^ dec - n * M) ≤ b * (10 ^ dec * (P + e' - e + n + 1)) := by
  have h10 : (0 : Int) < 10 ^ dec := by positivity
  have hx := holds_exact ha hb hr hp h h0 h1
  rw [entitled_iff.1 he, entitled_iff.1 he']
  have k1 := (exactAt_bounds (ps := w'.pools p) (id := id) (u := u) (J := ed'.index) h10).2
  have k2 := (exactAt_bounds (ps := w.pools p) (id := id) (u := u) (J := ed.index) h10).1
  refine hx.trans (Int.mul_le_mul_of_nonneg_left ?_ hb)
  simp only [mul_add, mul_sub] at k1 ⊢
  linarith

private def emitsF (w : World) : Bool :=
  decide ((w.pools poolA).emisConfig 3 = some ⟨1713754000, 24801⟩) && decide ((w.pools poolA).resList[1]? = some xlmA) &&
  optAnd ((w.pools poolA).resConfig xlmA) (fun c => decide (c.decimals = 7)) &&
  optAnd ((w.pools poolA).resData xlmA) (fun d => decide (d.bSupply = 2000000000000)) &&
  ((w.pools poolA).emisData 3).isSome && decide (tokenBalance (w.pools poolA) 3 dave = 1000000000000)

private theorem emitsF_ok {w : World} (h : emitsF w = true) : (∃ ed, EmitsAs w poolA 3 7 ⟨1713754000, 24801⟩ 2000000000000 ed) ∧
    1 * (2000000000000 : Int) ≤ 2 * tokenBalance (w.pools poolA) 3 dave := by
  simp only [emitsF, Bool.and_eq_true, decide_eq_true_eq, optAnd_iff, Option.isSome_iff_exists] at h
  obtain ⟨⟨⟨⟨⟨h1, h2⟩, c, h3, h4⟩, d, h5, hS⟩, ed, h6⟩, h7⟩ := h
  exact ⟨⟨ed, h1, h6, xlmA, c, d, h2, h3, h4, h5, hS⟩, by simp [h7]⟩

/-- the hypotheses are met by dave, who holds half of the XLM supplied: of what is emitted in 1000 seconds he is paid almost half, and
the bound is met with much room to spare from nothing -/
example : ∃ w w' P ed ed', Reachable w ∧ w.poolAddr poolA = true ∧
    HoldsShare dave 1 2 2000000000000 poolA 3 7 ⟨1713754000, 24801⟩ w 2 P w' ∧
    EmitsAs w poolA 3 7 ⟨1713754000, 24801⟩ 2000000000000 ed ∧ EmitsAs w' poolA 3 7 ⟨1713754000, 24801⟩ 2000000000000 ed' ∧
    0 < ((ed'.lastTime : Int) - ed.lastTime) * 24801 * 10 ^ 7 - (2 : Nat) * 2000000000000 ∧ 0 < P := by
  obtain ⟨w, hw, hr, h⟩ := Demo.reach (ops := setup ++ trade ++ emissions ++ [.pool poolA [dave] (.submit dave dave dave [⟨2, xlmA, 1000000000000⟩])])
    (f := fun w => w.poolAddr poolA && (emitsF w && okAnd (step w (.ledger 1000 200)) fun w1 => emitsF w1 &&
      okAnd (step w1 (.pool poolA [dave] (.claim dave [3] dave))) fun w2 => emitsF w2 &&
        optAnd ((w.pools poolA).emisData 3) (fun ed => optAnd ((w2.pools poolA).emisData 3) fun ed' =>
          decide (0 < ((ed'.lastTime : Int) - ed.lastTime) * 24801 * 10 ^ 7 - (2 : Nat) * 2000000000000)) &&
        decide (0 < 0 + tokenPaid [dave] poolA 3 (.ledger 1000 200) w w1 +
          tokenPaid [dave] poolA 3 (.pool poolA [dave] (.claim dave [3] dave)) w1 w2))) (by decide +kernel)
  simp only [Bool.and_eq_true, okAnd_iff, optAnd_iff, decide_eq_true_eq] at h
  obtain ⟨hp, b0, w1, s1, b1, w2, s2, ⟨b2, ed, hed, ed', hed', hT⟩, hP⟩ := h
  obtain ⟨⟨ed0, E0⟩, g0⟩ := emitsF_ok b0
  obtain ⟨⟨ed1, E1⟩, g1⟩ := emitsF_ok b1
  obtain ⟨⟨ed2, E2⟩, _⟩ := emitsF_ok b2
  obtain rfl : ed = ed0 := Option.some.inj (hed.symm.trans E0.data)
  obtain rfl : ed' = ed2 := Option.some.inj (hed'.symm.trans E2.data)
  exact ⟨w, w2, _, ed, ed', hr, hp, .update (.update (.refl w) E0 (by norm_num) le_rfl g0 s1 E1) E1 (by norm_num) le_rfl g1 s2 E2,
    E0, E2, hT, hP⟩

end Props
end Blend
