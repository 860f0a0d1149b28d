import Verif.Spec.FairShare
import Verif.Props.BackstopShare
/-
  C104: whoever holds his share of a backstop deposit earns his share of the emissions.
-/

namespace Blend
namespace Backstop
open Spec

/-- an update before the shares change loses less than one unit, and nothing if the record stays as it is -/
theorem update_bexactAt_ge {b b1 : BackstopState} {now : Nat} {p u : Address} {amt : Int} {pb : PoolBalance} {ub : UserBalance} {d : EmisData}
    (h : updateEmissions b now p (b.getPoolBal p) u (b.getUserBal p u) false = .ok (amt, b1))
    (hd : (setBal b1 p u pb ub).emisData p = some d) {cfg : EmisConfig} (hc : b.emisCfg p = some cfg) :
    bexactAt b p u d.index < SCALAR_7 + bexactAt (setBal b1 p u pb ub) p u d.index ∧
    (((setBal b1 p u pb ub).userEmis p).get u = (b.userEmis p).get u →
      bexactAt b p u d.index ≤ bexactAt (setBal b1 p u pb ub) p u d.index) := by
  have hq := update_bentAt h hd hc (pb := pb) (ub := ub)
  obtain ⟨d', x, e1, e2, e3, e4, _, e6, _⟩ := update_entitle h hc
  have hd' := hd
  change b1.emisData p = some d at hd'
  rw [e1] at hd'; cases hd'
  have hi : (userEntry ((setBal b1 p u pb ub).userEmis p) u).index = d.index := by
    unfold userEntry
    rw [show (setBal b1 p u pb ub).userEmis = b1.userEmis from rfl, e2, SMap.get_set, if_pos rfl]
    exact e3
  constructor
  · rw [bexactAt_eq hi, hq]
    have := (bexactAt_bounds b p u d.index).2
    rw [mul_add] at this
    linarith
  · intro hr
    have he : userEntry ((setBal b1 p u pb ub).userEmis p) u = userEntry (b.userEmis p) u := by unfold userEntry; rw [hr]
    refine le_of_eq ?_
    rw [he] at hi
    unfold bexactAt
    rw [he, hi]; simp

end Backstop

namespace Props
open Spec Pool Backstop Demo

/-- what one operation pays to one depositor, and what he can claim after, at least -/
private theorem bshare_one_ge {w w' : World} {op : Op} (hr : Reachable w) (hs : step w op = .ok w') {p u : Address}
    {cfg cfg' : EmisConfig} {ed' : EmisData} (hcf : w.backstop.emisCfg p = some cfg) (hcf' : w'.backstop.emisCfg p = some cfg')
    (hed' : w'.backstop.emisData p = some ed') :
    bexactAt w.backstop p u ed'.index <
      SCALAR_7 * (backstopPaid [u] p op w w' + 1) + bexactAt w'.backstop p u ed'.index ∧
    ((w'.backstop.userEmis p).get u = (w.backstop.userEmis p).get u →
      bexactAt w.backstop p u ed'.index ≤ SCALAR_7 * backstopPaid [u] p op w w' + bexactAt w'.backstop p u ed'.index) := by
  have ba := hr.ball
  have h7 : (0 : Int) < SCALAR_7 := by norm_num [SCALAR_7]
  have ge : ∀ {P : Int}, bexactAt w.backstop p u ed'.index ≤ SCALAR_7 * P + bexactAt w'.backstop p u ed'.index →
      bexactAt w.backstop p u ed'.index < SCALAR_7 * (P + 1) + bexactAt w'.backstop p u ed'.index ∧
      ((w'.backstop.userEmis p).get u = (w.backstop.userEmis p).get u →
        bexactAt w.backstop p u ed'.index ≤ SCALAR_7 * P + bexactAt w'.backstop p u ed'.index) := by
    intro P h
    refine ⟨?_, fun _ => h⟩
    rw [mul_add]; linarith
  by_cases hcl : ∃ auth s ps d, op = .backstop auth (.claim s ps d)
  · obtain ⟨auth, s, ps, d, rfl⟩ := hcl
    obtain ⟨c1, c2, c3⟩ := bclaim_facts hs (p := p)
    simp only [backstopPaid, List.mem_singleton]
    by_cases hus : u = s
    · subst hus
      rw [if_pos rfl]
      by_cases hp : p ∈ ps
      · obtain ⟨q1, q2, q3⟩ := c3 hp cfg hcf ed' hed'
        rw [q1, q2, add_zero, add_zero]
        refine ⟨(bexactAt_bounds _ _ _ _).2, fun he => le_of_eq (bexactAt_eq ?_)⟩
        unfold userEntry
        rw [← he, q3, SMap.get_set, if_pos rfl]; rfl
      · obtain ⟨q1, q2, q3⟩ := c1 hp
        apply ge
        rw [q2, sub_self, mul_zero, zero_add]
        exact (ge_of_eq (bexactAt_congr (by rw [q1]) (by rw [q3])))
    · rw [if_neg fun e => hus e.symm]
      apply ge
      rw [mul_zero, zero_add]
      have hrec : (w'.backstop.userEmis p).get u = (w.backstop.userEmis p).get u := by
        by_cases hp : p ∈ ps
        · rw [(c3 hp cfg hcf ed' hed').2.2, SMap.get_set, if_neg hus]
        · rw [(c1 hp).1]
      have hsh : (w.backstop.getUserBal p u).shares ≤ (w'.backstop.getUserBal p u).shares := by
        cases hr.balCase hs p with
        | same _ hu => rw [hu u]
        | pool e => cases e
        | claim _ _ hc _ => exact (hc.users p u).2.1
        | deposit e => cases e
        | queue e => cases e
        | dequeue e => cases e
        | withdraw e => cases e
      obtain ⟨ed2, k1, _, k3, k4⟩ := (hr.step hs).ball.inv.isSet p cfg' hcf'
      rw [hed'] at k1; cases k1
      have hidx := (k4.entry k3 u)
      have he : userEntry (w'.backstop.userEmis p) u = userEntry (w.backstop.userEmis p) u := by unfold userEntry; rw [hrec]
      rw [he] at hidx
      unfold bexactAt
      rw [he]
      have : 0 ≤ ed'.index - (userEntry (w.backstop.userEmis p) u).index := by omega
      have := Int.mul_le_mul_of_nonneg_right hsh this
      linarith
  have bal : ∀ {q v : Address} {x : Int} {b1 : BackstopState} {pb : PoolBalance} {ub : UserBalance},
      updateEmissions w.backstop w.time q (w.backstop.getPoolBal q) v (w.backstop.getUserBal q v) false = .ok (x, b1) →
      w'.backstop = setBal b1 q v pb ub → bexactAt w.backstop p u ed'.index <
      SCALAR_7 * (0 + 1) + bexactAt w'.backstop p u ed'.index ∧
    ((w'.backstop.userEmis p).get u = (w.backstop.userEmis p).get u →
      bexactAt w.backstop p u ed'.index ≤ SCALAR_7 * 0 + bexactAt w'.backstop p u ed'.index) := by
    intro q v x b1 pb ub h hw
    by_cases h' : p = q ∧ u = v
    · obtain ⟨rfl, rfl⟩ := h'
      rw [hw] at hed' ⊢
      simpa using update_bexactAt_ge h hed' hcf
    · apply ge
      rw [mul_zero, zero_add]
      refine (ge_of_eq (bexactAt_congr ?_ ?_))
      · rw [hw]
        show (b1.userEmis p).get u = _
        by_cases hv : u = v
        · have hpq : p ≠ q := fun e => h' ⟨e, hv⟩
          rcases updateEmissions_ok h with ⟨_, rfl, _⟩ | ⟨_, _, _, _, r⟩
          · rfl
          · rw [r.eq]; simp only [upd_apply, if_neg hpq]
        · exact updateEmissions_user hv h p
      · rw [hw, getUserBal_set, if_neg h', (emis_same h).userBal]
  have same : w'.backstop.userEmis = w.backstop.userEmis → w'.backstop.userBal = w.backstop.userBal →
      bexactAt w.backstop p u ed'.index < SCALAR_7 * (0 + 1) + bexactAt w'.backstop p u ed'.index ∧
    ((w'.backstop.userEmis p).get u = (w.backstop.userEmis p).get u →
      bexactAt w.backstop p u ed'.index ≤ SCALAR_7 * 0 + bexactAt w'.backstop p u ed'.index) := fun h1 h2 => by
    apply ge
    rw [mul_zero, zero_add]
    exact (ge_of_eq (bexactAt_congr (by rw [h1]) (by rw [getUserBal_congr h2])))
  have hz : backstopPaid [u] p op w w' = 0 := by
    unfold backstopPaid
    split
    · rename_i auth s ps d
      exact absurd ⟨auth, s, ps, d, rfl⟩ hcl
    · rfl
  rw [hz]
  rcases step_other hs with ⟨q, auth, c, rfl, e⟩ | ⟨auth, c, rfl, hc⟩ | e | e
  · exact same e.userEmis e.userBal
  · cases call_cases ba.inv hc with
    | @deposit s p a m r =>
      obtain ⟨x, b1, i, w2, hu, _, _, hw⟩ := r.ex
      exact bal hu (congrArg World.backstop hw)
    | @queue s p a r =>
      obtain ⟨x, b1, hu, hw⟩ := r.ex
      exact bal hu (congrArg World.backstop hw)
    | @dequeue s p a r =>
      obtain ⟨x, b1, q', hu, hd, hw⟩ := r.ex
      exact bal hu (congrArg World.backstop hw)
    | @withdraw s q a tk r =>
      obtain ⟨q', i, hi, hd, hw, _⟩ := r.ex
      apply ge
      rw [mul_zero, zero_add]
      refine (ge_of_eq (bexactAt_congr (by rw [hw]; rfl) ?_))
      rw [hw, getUserBal_set]
      split
      · rename_i e; obtain ⟨rfl, rfl⟩ := e; rfl
      · rfl
    | @claim s ps d r => exact absurd ⟨auth, s, ps, d, rfl⟩ hcl
    | @draw q a d hp r =>
      obtain ⟨i, hi, t⟩ := r.ex
      have hw := congrArg World.backstop t.frame
      change w'.backstop = w.backstop.setPoolBal q _ at hw
      exact same (by rw [hw]; rfl) (by rw [hw]; rfl)
    | @donate s q a hs hp r =>
      obtain ⟨i, w1, hi, t, hw⟩ := r.ex
      have hw := congrArg World.backstop hw
      change w'.backstop = w.backstop.setPoolBal q _ at hw
      exact same (by rw [hw]; rfl) (by rw [hw]; rfl)
    | @reward a r' r =>
      rcases r.ex with ⟨_, rfl⟩ | ⟨_, _, _, _, rfl⟩
      · exact same rfl rfl
      · exact same rfl rfl
    | gulp hne hb hq' => exact same (by rw [hb]) (by rw [hb])
    | init hn hb => exact same (by rw [hb]) (by rw [hb])
    | @gulpPool p hp hb => exact same (by rw [hb]) (by rw [hb])
    | lpVal hb => exact same (by rw [hb]) (by rw [hb])
    | drop hb => exact same (by rw [hb]) (by rw [hb])
  · exact same (by rw [e]) (by rw [e])
  · exact same (by rw [e]) (by rw [e])

private theorem deposits_reach {u : Address} {a b M : Int} {p : Address} {cfg : EmisConfig} {w w' : World} {n : Nat} {P : Int}
    (h : DepositsShare u a b M p cfg w n P w') : Steps w w' := by
  induction h with
  | refl => exact Steps.refl _
  | same _ _ _ hs _ _ ih => exact Steps.tail ih ⟨_, hs⟩
  | update _ _ _ _ _ hs _ ih => exact Steps.tail ih ⟨_, hs⟩

private theorem deposits_exact {u : Address} {a b M : Int} (ha : 0 ≤ a) (hb : 0 ≤ b) {p : Address}
    {n : Nat} {cfg : EmisConfig} {w w' : World} {P : Int} (hr : Reachable w)
    (h : DepositsShare u a b M p cfg w n P w') {S S' : Int} {ed ed' : EmisData}
    (h0 : BackstopEmitsAs w p cfg S ed) (h1 : BackstopEmitsAs w' p cfg S' ed') :
    a * ((((min ed'.lastTime cfg.expiration : Nat) : Int) - (min ed.lastTime cfg.expiration : Nat)) * cfg.eps * SCALAR_7 - n * M) ≤
      b * (SCALAR_7 * (P + n) + bexactAt w'.backstop p u ed'.index - bexactAt w.backstop p u ed.index) := by
  have shift : ∀ {x : World} {i j : Int}, bexactAt x.backstop p u j =
      bexactAt x.backstop p u i + (x.backstop.getUserBal p u).shares * (j - i) := by
    intro x i j; unfold bexactAt; ring
  induction h generalizing S' ed' with
  | refl =>
    have := h0.data.symm.trans h1.data
    cases this
    simp
  | @same w1 w2 n P1 op S1 S2 ed1 hh e1 hS hs e2 hu ih =>
    obtain rfl : ed' = ed1 := Option.some.inj (h1.data.symm.trans e2.data)
    have ih := ih e1
    have st := deposits_reach hh
    have := Int.mul_le_mul_of_nonneg_left ((bshare_one_ge (hr.steps st) hs e1.sched h1.sched h1.data (u := u)).2 hu) hb
    simp only [mul_add, mul_sub] at this ih ⊢
    linarith
  | @update w1 w2 n P1 op S1 S2 ed1 ed2 hh e1 hS hSM hB hs e2 ih =>
    obtain rfl : ed' = ed2 := Option.some.inj (h1.data.symm.trans e2.data)
    have ih := ih e1
    have st := deposits_reach hh
    have hstep := (bshare_one_ge (hr.steps st) hs e1.sched h1.sched h1.data (u := u)).1
    rw [shift (i := ed1.index)] at hstep
    have hgrow : a * ((((min ed'.lastTime cfg.expiration : Nat) : Int) - (min ed1.lastTime cfg.expiration : Nat)) * cfg.eps * SCALAR_7 - M) ≤
        b * ((w1.backstop.getUserBal p u).shares * (ed'.index - ed1.index)) := by
      rcases bemits_step (hr.steps st) hs e1 h1 hS with ⟨q1, q2⟩ | ⟨q0, q1, q2⟩
      · have hz : (((min ed'.lastTime cfg.expiration : Nat) : Int) - (min ed1.lastTime cfg.expiration : Nat)) * cfg.eps * SCALAR_7 = 0 := by
          rcases q2 with q2 | q2
          · rw [q2]; simp
          · rw [q2]; simp
        rw [hz, q1]
        have := Int.mul_nonneg ha (hS.le.trans hSM)
        rw [mul_sub]; simp; exact this
      · have hle : min ed1.lastTime cfg.expiration ≤ min ed'.lastTime cfg.expiration := by omega
        have hc : (((min ed'.lastTime cfg.expiration - min ed1.lastTime cfg.expiration : Nat) : Int)) =
            ((min ed'.lastTime cfg.expiration : Nat) : Int) - (min ed1.lastTime cfg.expiration : Nat) := by omega
        have q3' : 0 ≤ ed'.index - ed1.index := by
          by_contra hlt
          have hlt : ed'.index - ed1.index + 1 ≤ 0 := by omega
          have h2 : (ed'.index - ed1.index + 1) * S1 ≤ 0 := Int.mul_nonpos_of_nonpos_of_nonneg hlt hS.le
          have h3 : (0 : Int) ≤ ((min ed'.lastTime cfg.expiration - min ed1.lastTime cfg.expiration : Nat) : Int) * cfg.eps * ONE7 := by
            have : (0 : Int) ≤ ONE7 := by norm_num [ONE7]
            positivity
          have := q2.2
          linarith
        rw [← hc]
        rw [show ONE7 = SCALAR_7 from rfl] at q2
        have k1 := Int.mul_le_mul_of_nonneg_left hB q3'
        have k2 : ((min ed'.lastTime cfg.expiration - min ed1.lastTime cfg.expiration : Nat) : Int) * cfg.eps * SCALAR_7 - M ≤
            (ed'.index - ed1.index) * S1 := by
          have := q2.2
          rw [add_mul] at this
          linarith
        have k3 := Int.mul_le_mul_of_nonneg_left k2 ha
        have k4 : (ed'.index - ed1.index) * (a * S1) = a * ((ed'.index - ed1.index) * S1) := by ring
        have k5 : (ed'.index - ed1.index) * (b * (w1.backstop.getUserBal p u).shares) =
          b * ((w1.backstop.getUserBal p u).shares * (ed'.index - ed1.index)) := by ring
        linarith
    have k := Int.mul_le_mul_of_nonneg_left hstep.le hb
    have e1 : a * ((((min ed'.lastTime cfg.expiration : Nat) : Int) - (min ed.lastTime cfg.expiration : Nat)) * cfg.eps * SCALAR_7 -
          ((n + 1 : Nat) : Int) * M) =
        a * ((((min ed'.lastTime cfg.expiration : Nat) : Int) - (min ed1.lastTime cfg.expiration : Nat)) * cfg.eps * SCALAR_7 - M) +
          a * ((((min ed1.lastTime cfg.expiration : Nat) : Int) - (min ed.lastTime cfg.expiration : Nat)) * cfg.eps * SCALAR_7 - n * M) := by
      push_cast; ring
    rw [e1]
    push_cast at k ih hgrow ⊢
    simp only [mul_add, mul_sub, mul_one] at k ih hgrow ⊢
    linarith

/-- **C104** Over any history of operations of anyone, while emissions to the depositors of a pool in the backstop run by one schedule
and there are unqueued shares: an account that holds at least `a / b` of the unqueued shares before each operation that updates the
emissions is paid, and can claim at the end more than at the start, at least `a / b` of what is emitted between the first and the last
update, up to the expiration, less, for each of these operations, one unit of BLND and its part of one unit per whole share, and one
unit more. Nobody else can take its share, whatever he credits to it. -/
theorem C104_fair_share {u : Address} {a b M : Int} (ha : 0 ≤ a) (hb : 0 ≤ b) {p : Address} {n : Nat}
    {cfg : EmisConfig} {w w' : World} {P : Int} (hr : Reachable w)
    (h : DepositsShare u a b M p cfg w n P w') {S S' : Int} {ed ed' : EmisData}
    (h0 : BackstopEmitsAs w p cfg S ed) (h1 : BackstopEmitsAs w' p cfg S' ed') {e e' : Int}
    (he : BEntitled w p ed.index u e) (he' : BEntitled w' p ed'.index u e') :
    a * ((((min ed'.lastTime cfg.expiration : Nat) : Int) - (min ed.lastTime cfg.expiration : Nat)) * cfg.eps * ONE7 - n * M) ≤
      b * (ONE7 * (P + e' - e + n + 1)) := by
  have hx := deposits_exact ha hb hr h h0 h1
  rw [bentitled_iff.1 he, bentitled_iff.1 he', show ONE7 = SCALAR_7 from rfl]
  have k1 := (bexactAt_bounds w'.backstop p u ed'.index).2
  have k2 := (bexactAt_bounds w.backstop p u ed.index).1
  refine hx.trans (Int.mul_le_mul_of_nonneg_left ?_ hb)
  simp only [mul_add, mul_sub] at k1 ⊢
  linarith

private def emitsG (w : World) : Bool :=
  decide (w.backstop.emisCfg poolA = some ⟨1713754000, 115740⟩) && (w.backstop.emisData poolA).isSome &&
  decide (unqueuedShares w poolA = 600000000000)

private theorem emitsG_ok {w : World} (h : emitsG w = true) :
    ∃ ed, BackstopEmitsAs w poolA ⟨1713754000, 115740⟩ 600000000000 ed := by
  simp only [emitsG, Bool.and_eq_true, decide_eq_true_eq, Option.isSome_iff_exists] at h
  obtain ⟨⟨h1, ed, h6⟩, h7⟩ := h
  exact ⟨ed, h1, h6, h7⟩

/-- the hypotheses are met by dave, who has a sixth of the shares and claims 1000 seconds later -/
example : ∃ w w' P S' ed ed', Reachable w ∧ DepositsShare dave 1 6 600000000000 poolA ⟨1713754000, 115740⟩ w 1 P w' ∧
    BackstopEmitsAs w poolA ⟨1713754000, 115740⟩ 600000000000 ed ∧ BackstopEmitsAs w' poolA ⟨1713754000, 115740⟩ S' ed' ∧
    0 < (((min ed'.lastTime 1713754000 : Nat) : Int) - (min ed.lastTime 1713754000 : Nat)) * 115740 * ONE7 - (1 : Nat) * 600000000000 ∧
    0 < P := by
  obtain ⟨w, hw, hr, h⟩ := Demo.reach (ops := setup ++ trade ++ [.tokenTransfer lpA carol dave 100000000000,
      .backstop [dave] (.deposit dave poolA 100000000000)] ++ emissions)
    (f := fun w => emitsG w && okAnd (step w (.ledger 1000 200)) fun w1 => emitsG w1 &&
      decide ((w1.backstop.getUserBal poolA dave).shares = 100000000000) &&
      decide (w1.backstop.emisData poolA = w.backstop.emisData poolA) &&
      decide ((w1.backstop.userEmis poolA).get dave = (w.backstop.userEmis poolA).get dave) &&
      okAnd (step w1 (.backstop [dave] (.claim dave [poolA] dave))) fun w2 =>
        decide (w2.backstop.emisCfg poolA = some ⟨1713754000, 115740⟩) &&
        optAnd (w.backstop.emisData poolA) (fun ed => optAnd (w2.backstop.emisData poolA) fun ed' =>
          decide (0 < (((min ed'.lastTime 1713754000 : Nat) : Int) - (min ed.lastTime 1713754000 : Nat)) * 115740 * ONE7 -
            (1 : Nat) * 600000000000)) &&
        decide (0 < 0 + backstopPaid [dave] poolA (.ledger 1000 200) w w1 +
          backstopPaid [dave] poolA (.backstop [dave] (.claim dave [poolA] dave)) w1 w2)) (by decide +kernel)
  simp only [Bool.and_eq_true, okAnd_iff, optAnd_iff, decide_eq_true_eq] at h
  obtain ⟨b0, w1, s1, ⟨⟨⟨b1, g1⟩, d1⟩, r1⟩, w2, s2, ⟨c2, ed, hed, ed', hed', hT⟩, hP⟩ := h
  obtain ⟨ed0, E0⟩ := emitsG_ok b0
  obtain ⟨ed1, E1⟩ := emitsG_ok b1
  obtain rfl : ed = ed0 := Option.some.inj (hed.symm.trans E0.data)
  obtain rfl : ed1 = ed := Option.some.inj ((E1.data.symm.trans d1).trans E0.data)
  exact ⟨w, w2, _, _, ed1, ed', hr, .update (.same (.refl w) E0 (by norm_num) s1 E1 r1) E1 (by norm_num) le_rfl (by rw [g1]; norm_num)
    s2 ⟨c2, hed', rfl⟩, E0, ⟨c2, hed', rfl⟩, hT, hP⟩

end Props
end Blend
