import Verif.Props.BackstopEmissions
import Verif.Lemmas.BUserFrame
/-
  What a backstop depositor can claim.
-/

namespace Blend
namespace Backstop
open Spec

/-- what the depositor could claim if the index were `J` -/
def bentAt (b : BackstopState) (p u : Address) (J : Int) : Int :=
  (userEntry (b.userEmis p) u).accrued + Int.fdiv ((b.getUserBal p u).shares * (J - (userEntry (b.userEmis p) u).index)) SCALAR_7

theorem bentitled_iff {w : World} {p : Address} {J : Int} {u : Address} {e : Int} :
    BEntitled w p J u e ↔ e = bentAt w.backstop p u J := by
  have h7 : (0 : Int) < SCALAR_7 := by norm_num [SCALAR_7]
  unfold BEntitled bentAt
  rw [emisRecord_eq]
  have hf := fdiv_spec (a := (w.backstop.getUserBal p u).shares * (J - (userEntry (w.backstop.userEmis p) u).index)) h7
  rw [show ONE7 = SCALAR_7 from rfl]
  constructor
  · rintro ⟨h1, h2⟩
    by_contra hne
    rcases lt_or_gt_of_ne hne with h | h
    · have : SCALAR_7 * (e - (userEntry (w.backstop.userEmis p) u).accrued + 1) ≤ SCALAR_7 *
        Int.fdiv ((w.backstop.getUserBal p u).shares * (J - (userEntry (w.backstop.userEmis p) u).index)) SCALAR_7 :=
        Int.mul_le_mul_of_nonneg_left (by omega) (le_of_lt h7)
      linarith [hf.1]
    · have : SCALAR_7 *
        (Int.fdiv ((w.backstop.getUserBal p u).shares * (J - (userEntry (w.backstop.userEmis p) u).index)) SCALAR_7 + 1) ≤
        SCALAR_7 * (e - (userEntry (w.backstop.userEmis p) u).accrued) :=
        Int.mul_le_mul_of_nonneg_left (by omega) (le_of_lt h7)
      linarith [hf.2]
  · rintro rfl
    rw [add_sub_cancel_left]
    exact ⟨hf.1, by linarith [hf.2]⟩

/-- the record of a depositor after an update of his emissions, exactly -/
theorem userUpdate_exact {b b1 : BackstopState} {p u : Address} {d : EmisData} {ub : UserBalance} {amt : Int} {claim : Bool}
    (h : updateUserEmis b p u d ub claim = .ok (amt, b1)) :
    ∃ x, b1 = { b with userEmis := upd b.userEmis p ((b.userEmis p).set u x) } ∧ x.index = d.index ∧
      (claim = false → amt = 0) ∧ (claim = true → x.accrued = 0) ∧
      amt + x.accrued = (userEntry (b.userEmis p) u).accrued +
        Int.fdiv (ub.shares * (d.index - (userEntry (b.userEmis p) u).index)) SCALAR_7 := by
  have hset : ∀ {acc : Int}, acc = (userEntry (b.userEmis p) u).accrued +
        Int.fdiv (ub.shares * (d.index - (userEntry (b.userEmis p) u).index)) SCALAR_7 →
      setUserEmis b p u d.index acc claim = (amt, b1) →
      ∃ x, b1 = { b with userEmis := upd b.userEmis p ((b.userEmis p).set u x) } ∧ x.index = d.index ∧
      (claim = false → amt = 0) ∧ (claim = true → x.accrued = 0) ∧
      amt + x.accrued = (userEntry (b.userEmis p) u).accrued +
        Int.fdiv (ub.shares * (d.index - (userEntry (b.userEmis p) u).index)) SCALAR_7 := by
    intro acc hle h
    unfold setUserEmis at h
    split at h
    · rename_i hc
      simp only [Prod.mk.injEq] at h
      obtain ⟨rfl, rfl⟩ := h
      exact ⟨⟨d.index, 0⟩, rfl, rfl, by simp [hc], fun _ => rfl, by simpa using hle⟩
    · rename_i hc
      simp only [Prod.mk.injEq] at h
      obtain ⟨rfl, rfl⟩ := h
      exact ⟨⟨d.index, acc⟩, rfl, rfl, fun _ => rfl, fun e => absurd e hc, by simpa using hle⟩
  unfold updateUserEmis at h
  cases hu : (b.userEmis p).get u with
  | some ud =>
    have eu : userEntry (b.userEmis p) u = ud := by unfold userEntry; rw [hu]; rfl
    rw [eu] at hset ⊢
    simp only [hu, ite_ok, bind_ok, pure_ok, chk_ok] at h
    rcases h with ⟨_, ⟨hb0, dl, ⟨_, rfl⟩, _, _, acc, hacc, ac, ⟨_, rfl⟩, h⟩ | ⟨hb0, ac, rfl, h⟩⟩ | ⟨hc, h⟩
    · obtain ⟨_, _, _, rfl⟩ := mulDivFloor_ok.1 hacc
      exact hset rfl h
    · push Not at hb0
      exact hset (by rw [hb0]; simp) h
    · simp only [Prod.mk.injEq] at h
      obtain ⟨rfl, rfl⟩ := h
      push Not at hc
      refine ⟨ud, ?_, hc.1, fun _ => rfl, fun e => absurd e hc.2, by rw [← hc.1]; simp⟩
      have : upd b.userEmis p ((b.userEmis p).set u ud) = b.userEmis := by
        funext x; rw [upd_apply]; split
        · subst x; exact SMap.set_self hu
        · rfl
      rw [this]
  | none =>
    have eu : userEntry (b.userEmis p) u = ⟨0, 0⟩ := by unfold userEntry; rw [hu]; rfl
    rw [eu] at hset ⊢
    simp only [hu, ite_ok, bind_ok, pure_ok] at h
    rcases h with ⟨hb0, h⟩ | ⟨hb0, acc, hacc, h⟩
    · exact hset (by simp [hb0]) h
    · obtain ⟨_, _, _, rfl⟩ := mulDivFloor_ok.1 hacc
      exact hset (by simp) h

/-- an update of the emission data changes nothing at this time -/
def BStable (now : Nat) (b : BackstopState) (p : Address) : Prop :=
  ∃ cfg ed, b.emisCfg p = some cfg ∧ b.emisData p = some ed ∧
    (cfg.expiration ≤ ed.lastTime ∨ now = ed.lastTime ∨ cfg.eps = 0 ∨ (b.getPoolBal p).shares = 0)

theorem update_entitle {b b1 : BackstopState} {now : Nat} {p u : Address} {claim : Bool} {amt : Int} {cfg : EmisConfig}
    (h : updateEmissions b now p (b.getPoolBal p) u (b.getUserBal p u) claim = .ok (amt, b1)) (hc : b.emisCfg p = some cfg) :
    ∃ d x, b1.emisData p = some d ∧ b1.userEmis p = (b.userEmis p).set u x ∧ x.index = d.index ∧
      (claim = false → amt = 0) ∧ (claim = true → x.accrued = 0) ∧ amt + x.accrued = bentAt b p u d.index ∧
      BStable now b1 p ∧ (BStable now b p → b1.emisData p = b.emisData p) := by
  have hsame := emis_same h
  have hpb : b1.getPoolBal p = b.getPoolBal p := hsame.poolBal p
  have hcf : b1.emisCfg = b.emisCfg := by unfold SameBals at hsame; rw [hsame]
  unfold updateEmissions updateEmisData at h
  simp only [hc, bind_ok, Prod.exists, pure_ok, Prod.mk.injEq] at h
  obtain ⟨od, p1, ⟨d, p2, hd, rfl, rfl⟩, h⟩ := h
  simp only at h
  obtain ⟨x, rfl, m1, m2, m3, m4⟩ := userUpdate_exact h
  have hdata : p2.emisData p = some d ∧ p2.userEmis = b.userEmis ∧
      (cfg.expiration ≤ d.lastTime ∨ now = d.lastTime ∨ cfg.eps = 0 ∨ (b.getPoolBal p).shares = 0) ∧
      (BStable now b p → p2.emisData p = b.emisData p) := by
    unfold updateEmisDataWith at hd
    simp only [bind_ok, ite_ok, unwrap_ok, pure_ok, Prod.mk.injEq, chk_ok] at hd
    obtain ⟨ed, he, ⟨hc', rfl, rfl⟩ | ⟨hn, _, _, _, _, dt, _, num, _, add, _, idx, _, rfl, rfl⟩⟩ := hd
    · exact ⟨he, rfl, hc', fun _ => rfl⟩
    · refine ⟨upd_same .., rfl, .inr (.inl rfl), ?_⟩
      rintro ⟨cfg', ed', k1, k2, k3⟩
      rw [hc] at k1; cases k1
      rw [he] at k2; cases k2
      exact absurd k3 hn
  rw [hdata.2.1] at m4
  refine ⟨d, x, hdata.1, by simp [hdata.2.1], m1, m2, m3, m4, ⟨cfg, d, by rw [hcf, hc], hdata.1, ?_⟩, hdata.2.2.2⟩
  rw [hpb]; exact hdata.2.2.1

/-- an update before the shares change keeps what can be claimed -/
theorem update_bentAt {b b1 : BackstopState} {now : Nat} {p u : Address} {amt : Int} {pb : PoolBalance} {ub : UserBalance} {d : EmisData}
    (h : updateEmissions b now p (b.getPoolBal p) u (b.getUserBal p u) false = .ok (amt, b1))
    (hd : (setBal b1 p u pb ub).emisData p = some d) {cfg : EmisConfig} (hc : b.emisCfg p = some cfg) :
    bentAt (setBal b1 p u pb ub) p u d.index = bentAt b p u d.index := by
  obtain ⟨d', x, e1, e2, e3, e4, _, e6, _⟩ := update_entitle h hc
  change b1.emisData p = some d at hd
  rw [e1] at hd; cases hd
  rw [← e6, e4 rfl]
  unfold bentAt userEntry
  rw [show (setBal b1 p u pb ub).userEmis = b1.userEmis from rfl, e2, SMap.get_set, if_pos rfl]
  simp [e3]

theorem bentAt_congr {b b' : BackstopState} {p u : Address} {J : Int} (h1 : (b'.userEmis p).get u = (b.userEmis p).get u)
    (h2 : (b'.getUserBal p u).shares = (b.getUserBal p u).shares) : bentAt b' p u J = bentAt b p u J := by
  unfold bentAt userEntry
  rw [h1, h2]

/-- what the first loop of a claim by `u` does -/
structure BLoopRes (now : Nat) (u : Address) (ps : List Address) (b b' : BackstopState) (n n' : Int) (cl cl' : SMap Int) : Prop where
  same : b' = { b with emisData := b'.emisData, userEmis := b'.userEmis, claimed := b'.claimed }
  other : ∀ p, p ∉ ps ∨ b.emisCfg p = none →
    b'.emisData p = b.emisData p ∧ b'.userEmis p = b.userEmis p ∧ b'.claimed p = b.claimed p
  claimed : ∀ p ∈ ps, ∀ cfg, b.emisCfg p = some cfg →
    ∃ ed', b'.emisData p = some ed' ∧ b'.userEmis p = (b.userEmis p).set u ⟨ed'.index, 0⟩ ∧
      b'.claimed p = b.claimed p + bentAt b p u ed'.index
  stable : ∀ p, BStable now b p → b'.emisData p = b.emisData p
  total : n' = n + ∑ p ∈ ps.toFinset, (b'.claimed p - b.claimed p)
  notClaimed : ∀ p, p ∉ ps → cl'.get p = cl.get p
  amount : ps.Nodup → ∀ p ∈ ps, cl'.get p = some (b'.claimed p - b.claimed p)
  upToDate : ∀ p ∈ ps, ∀ cfg ed ed', b.emisCfg p = some cfg → b.emisData p = some ed → b'.emisData p = some ed' →
    0 ≤ (b.getPoolBal p).q4w → Spec.UpToDate cfg ONE7 now ((b.getPoolBal p).shares - (b.getPoolBal p).q4w) ed ed'.index

/-- an update brings the index of a pool up to date -/
theorem update_upToDate {b b1 : BackstopState} {now : Nat} {p u : Address} {claim : Bool} {amt : Int} {cfg : EmisConfig} {ed ed' : EmisData}
    {pb : PoolBalance} {ub : UserBalance} (h : updateEmissions b now p pb u ub claim = .ok (amt, b1)) (hc : b.emisCfg p = some cfg)
    (he : b.emisData p = some ed) (he' : b1.emisData p = some ed') (hq4 : 0 ≤ pb.q4w) : Spec.UpToDate cfg ONE7 now (pb.shares - pb.q4w) ed ed'.index := by
  unfold updateEmissions updateEmisData at h
  simp only [hc, bind_ok, Prod.exists, pure_ok, Prod.mk.injEq] at h
  obtain ⟨od, p1, ⟨d, p2, hd, rfl, rfl⟩, h⟩ := h
  simp only at h
  obtain ⟨x, rfl, _⟩ := userUpdate_exact h
  change p2.emisData p = some ed' at he'
  unfold updateEmisDataWith at hd
  unfold requireNonneg at hd
  simp only [bind_ok, ite_ok, unwrap_ok, pure_ok, Prod.mk.injEq, chk_ok, he, Option.some.injEq, require_ok] at hd
  obtain ⟨_, rfl, ⟨hn, rfl, rfl⟩ | ⟨hn, unq, ⟨_, rfl⟩, _, hq, dt, hdt, num, ⟨_, rfl⟩, add, hadd, idx, ⟨_, rfl⟩, rfl, rfl⟩⟩ := hd
  · rw [he] at he'; cases he'
    refine ⟨fun _ => rfl, fun h1 h2 h3 => ?_⟩
    omega
  · simp only [upd_same, Option.some.injEq] at he'
    subst he'
    push Not at hn
    obtain ⟨c1, c2, c3, c4⟩ := hn
    have ht : (if now > cfg.expiration then cfg.expiration else now) = min now cfg.expiration := by
      split <;> omega
    rw [ht] at hdt
    obtain ⟨hd1, hd2⟩ := subU_ok.1 hdt
    subst hd2
    have hnz : pb.shares - pb.q4w ≠ 0 := by
      intro e
      exact (mulDivFloor_ok.1 hadd).2.1 e
    refine ⟨fun h => by omega, fun h1 h2 h3 => ?_⟩
    have := mulDivFloor_spec hadd h1
    simp only [IsFloor, add_sub_cancel_right]
    exact ⟨this.1, by simp only [SCALAR_7, ONE7] at *; linarith [this.2]⟩

theorem BStable.congr {now : Nat} {b b' : BackstopState} {p : Address} (h : BStable now b p) (h1 : b'.emisCfg p = b.emisCfg p)
    (h2 : b'.emisData p = b.emisData p) (h3 : b'.getPoolBal p = b.getPoolBal p) : BStable now b' p := by
  obtain ⟨cfg, ed, k1, k2, k3⟩ := h
  exact ⟨cfg, ed, by rw [h1, k1], by rw [h2, k2], by rw [h3]; exact k3⟩

theorem bclaimLoop_exact {now : Nat} {u : Address} :
    ∀ (l : List Address) (n n' : Int) (cl cl' : SMap Int) (b b' : BackstopState),
    claimLoop now u l (n, cl, b) = .ok (n', cl', b') → BLoopRes now u l b b' n n' cl cl' := by
  intro l
  induction l with
  | nil =>
    intro n n' cl cl' b b' h
    simp only [claimLoop, pure_ok, Prod.mk.injEq] at h
    obtain ⟨rfl, rfl, rfl⟩ := h
    exact ⟨rfl, fun _ _ => ⟨rfl, rfl, rfl⟩, by simp, fun _ _ => rfl, by simp, fun _ _ => rfl, by simp, by simp⟩
  | cons p l ih =>
    intro n n' cl cl' b b' h
    simp only [claimLoop, bind_ok, Prod.exists, chk_ok] at h
    obtain ⟨amt, b1, hu, _, ⟨_, rfl⟩, h⟩ := h
    have r := ih _ _ _ _ _ _ h
    have hsame := emis_same hu
    set W : BackstopState := { b1 with claimed := upd b1.claimed p (b1.claimed p + amt) } with hW
    have w0 : W = { b with emisData := W.emisData, userEmis := W.userEmis, claimed := W.claimed } := by
      unfold SameBals at hsame
      rw [hW, hsame]
    have w1 : W.emisCfg = b.emisCfg := by rw [w0]
    have wcl : ∀ j, W.claimed j = if j = p then b.claimed p + amt else b.claimed j := by
      intro j
      have : b1.claimed = b.claimed := by unfold SameBals at hsame; rw [hsame]
      simp only [hW, upd_apply, this]
    have wub : ∀ q v, W.getUserBal q v = b.getUserBal q v := fun q v => hsame.userBal q v
    have wpb : ∀ q, W.getPoolBal q = b.getPoolBal q := fun q => hsame.poolBal q
    have woth : ∀ j, j ≠ p → W.emisData j = b.emisData j ∧ W.userEmis j = b.userEmis j := by
      intro j hj
      rcases updateEmissions_ok hu with ⟨_, rfl, _⟩ | ⟨_, _, _, _, r⟩
      · exact ⟨rfl, rfl⟩
      · simp only [hW]
        rw [r.eq]
        simp only [upd_apply, if_neg hj, and_self]
    have hnone : b.emisCfg p = none → amt = 0 ∧ b1 = b := by
      intro hn
      rcases updateEmissions_ok hu with ⟨_, h1, h2⟩ | ⟨_, _, _, _, r⟩
      · exact ⟨h2, h1⟩
      · rw [r.config] at hn; cases hn
    have hstab : ∀ j, BStable now b j → W.emisData j = b.emisData j ∧ BStable now W j := by
      intro j hj
      by_cases e : j = p
      · subst e
        obtain ⟨cfg, ed, k1, k2, k3⟩ := hj
        obtain ⟨d, x, _, _, _, _, _, _, g1, g2⟩ := update_entitle hu k1
        exact ⟨g2 ⟨cfg, ed, k1, k2, k3⟩, g1.congr rfl rfl rfl⟩
      · refine ⟨(woth j e).1, hj.congr (by rw [w1]) (woth j e).1 (wpb j)⟩
    have hfirst : ∀ cfg, b.emisCfg p = some cfg → ∃ ed, W.emisData p = some ed ∧
        W.userEmis p = (b.userEmis p).set u ⟨ed.index, 0⟩ ∧ amt = bentAt b p u ed.index ∧ BStable now W p := by
      intro cfg hcf
      obtain ⟨dd, x, e1, e2, e3, _, e5, e6, e7, _⟩ := update_entitle hu hcf
      have hx : x = ⟨dd.index, 0⟩ := by
        have e5' := e5 rfl
        cases x; simp only at e3 e5' ⊢; rw [e3, e5']
      exact ⟨dd, e1, by rw [← hx]; exact e2, by have := e5 rfl; omega, e7.congr rfl rfl rfl⟩
    have hresult : ∀ cfg, b.emisCfg p = some cfg → ∃ ed', b'.emisData p = some ed' ∧
        b'.userEmis p = (b.userEmis p).set u ⟨ed'.index, 0⟩ ∧ b'.claimed p = b.claimed p + bentAt b p u ed'.index := by
      intro cfg hcf
      obtain ⟨ed, e1, e2, e3, e4⟩ := hfirst cfg hcf
      have e5 : b'.emisData p = some ed := by rw [r.stable p e4, e1]
      by_cases hm : p ∈ l
      · obtain ⟨ed', k1, k2, k3⟩ := r.claimed p hm cfg (by rw [w1, hcf])
        rw [e5] at k1; cases k1
        refine ⟨_, e5, ?_, ?_⟩
        · rw [k2, e2, SMap.set_self]
          rw [SMap.get_set, if_pos rfl]
        · rw [k3, wcl, if_pos rfl, ← e3]
          have : bentAt W p u ed.index = 0 := by
            unfold bentAt userEntry
            rw [e2, SMap.get_set, if_pos rfl]
            simp
          omega
      · obtain ⟨_, k2, k3⟩ := r.other p (.inl hm)
        exact ⟨_, e5, by rw [k2, e2], by rw [k3, wcl, if_pos rfl, ← e3]⟩
    refine ⟨?_, ?_, ?_, ?_, ?_, ?_, ?_, ?_⟩
    · rw [r.same, w0]
    · intro j hj
      by_cases e : j = p
      · subst e
        have hcf : b.emisCfg j = none := by
          rcases hj with hj | hj
          · simp at hj
          · exact hj
        obtain ⟨k1, k2, k3⟩ := r.other j (.inr (by rw [w1, hcf]))
        obtain ⟨z, rfl⟩ := hnone hcf
        rw [k1, k2, k3, wcl, if_pos rfl, z]
        exact ⟨rfl, rfl, by omega⟩
      · obtain ⟨k1, k2, k3⟩ := r.other j (by rw [w1]; simpa [e] using hj)
        obtain ⟨q1, q2⟩ := woth j e
        rw [k1, k2, k3, q1, q2, wcl, if_neg e]
        exact ⟨rfl, rfl, rfl⟩
    · intro j hj cfg hcf
      by_cases e : j = p
      · subst e
        exact hresult cfg hcf
      · obtain ⟨q1, q2⟩ := woth j e
        obtain ⟨ed', k1, k2, k3⟩ := r.claimed j (by simpa [e] using hj) cfg (by rw [w1, hcf])
        refine ⟨ed', k1, by rw [k2, q2], ?_⟩
        have hb : bentAt W j u ed'.index = bentAt b j u ed'.index := bentAt_congr (by rw [q2]) (by rw [wub])
        rw [k3, wcl, if_neg e, hb]
    · intro j hj
      obtain ⟨q1, q2⟩ := hstab j hj
      rw [r.stable j q2, q1]
    · have hd1 : ∀ j, b'.claimed j - b.claimed j = (b'.claimed j - W.claimed j) + if j = p then amt else 0 := by
        intro j
        rw [wcl]
        split
        · rename_i e; subst e; omega
        · omega
      rw [r.total]
      have hz : ∀ j, j ∉ l → b'.claimed j - W.claimed j = 0 := by
        intro j hj
        rw [(r.other j (.inl hj)).2.2]; omega
      have e1 : ∑ j ∈ (p :: l).toFinset, (b'.claimed j - W.claimed j) = ∑ j ∈ l.toFinset, (b'.claimed j - W.claimed j) := by
        symm
        refine Finset.sum_subset (by intro x hx; simp at hx ⊢; exact .inr hx) fun x _ hx => hz x (by simpa using hx)
      have e2 : ∑ j ∈ (p :: l).toFinset, (b'.claimed j - b.claimed j) =
          ∑ j ∈ (p :: l).toFinset, (b'.claimed j - W.claimed j) + amt := by
        rw [Finset.sum_congr rfl fun j _ => hd1 j, Finset.sum_add_distrib, Finset.sum_ite_eq']
        simp
      rw [e2, e1]; ring
    · intro j hj
      simp only [List.mem_cons, not_or] at hj
      rw [r.notClaimed j hj.2, SMap.get_set, if_neg hj.1]
    · intro hnd j hj
      rw [List.nodup_cons] at hnd
      by_cases e : j = p
      · subst e
        rw [r.notClaimed j hnd.1, SMap.get_set, if_pos rfl, (r.other j (.inl hnd.1)).2.2, wcl, if_pos rfl]
        congr 1; omega
      · rw [r.amount hnd.2 j (by simpa [e] using hj), wcl, if_neg e]
    · intro j hj cfg ed0 ed1 hcf he0 he1 hq
      by_cases e : j = p
      · subst e
        obtain ⟨ed, e1, _, _, e4⟩ := hfirst cfg hcf
        have e5 : b'.emisData j = some ed := by rw [r.stable j e4, e1]
        rw [e5] at he1; cases he1
        exact update_upToDate hu hcf he0 e1 hq
      · have := r.upToDate j (by simpa [e] using hj) cfg ed0 ed1 (by rw [w1, hcf]) (by rw [(woth j e).1, he0]) he1 (by rw [wpb]; exact hq)
        rwa [wpb] at this

/-- what the second loop of a claim does: the LP tokens are deposited for `dst` -/
structure CreditRes (lpOut total : Int) (cl : SMap Int) (dst : Address) (ps : List Address) (b b' : BackstopState) : Prop where
  same : b' = { b with poolBal := b'.poolBal, userBal := b'.userBal }
  other : ∀ p, p ∉ ps → b'.getPoolBal p = b.getPoolBal p ∧ ∀ u, b'.getUserBal p u = b.getUserBal p u
  users : ∀ p u, u ≠ dst → b'.getUserBal p u = b.getUserBal p u
  deposit : ps.Nodup → ∀ p ∈ ps, ∃ amt dep m, cl.get p = some amt ∧ fixedMulFloor lpOut amt total = .ok dep ∧
    toShares (b.getPoolBal p) dep = .ok m ∧
    b'.getPoolBal p = { b.getPoolBal p with tokens := (b.getPoolBal p).tokens + dep, shares := (b.getPoolBal p).shares + m } ∧
    b'.getUserBal p dst = { b.getUserBal p dst with shares := (b.getUserBal p dst).shares + m }

theorem depositLoop_exact {lpOut total : Int} {cl : SMap Int} {dst : Address} :
    ∀ (l : List Address) (b b' : BackstopState), claimDepositLoop lpOut total cl dst l b = .ok b' →
      CreditRes lpOut total cl dst l b b' := by
  intro l
  induction l with
  | nil =>
    intro b b' h
    simp only [claimDepositLoop, pure_ok] at h
    subst h
    exact ⟨rfl, fun _ _ => ⟨rfl, fun _ => rfl⟩, fun _ _ _ => rfl, by simp⟩
  | cons p l ih =>
    intro b b' h
    simp only [claimDepositLoop, bind_ok, unwrap_ok, pbDeposit, addShares, chk_ok, pure_ok] at h
    obtain ⟨amt, hamt, dep, hdep, m, hm, _, ⟨t, ⟨_, rfl⟩, s, ⟨_, rfl⟩, rfl⟩, _, ⟨s', ⟨_, rfl⟩, rfl⟩, h⟩ := h
    have r := ih _ _ h
    set W := (b.setPoolBal p { b.getPoolBal p with tokens := (b.getPoolBal p).tokens + dep, shares := (b.getPoolBal p).shares + m }).setUserBal
      p dst { b.getUserBal p dst with shares := (b.getUserBal p dst).shares + m } with hW
    have hWs : W = setBal b p dst { b.getPoolBal p with tokens := (b.getPoolBal p).tokens + dep, shares := (b.getPoolBal p).shares + m }
      { b.getUserBal p dst with shares := (b.getUserBal p dst).shares + m } := rfl
    have wp : ∀ q, q ≠ p → W.getPoolBal q = b.getPoolBal q := fun q hq => by rw [hWs, getPoolBal_set, if_neg hq]
    have wu : ∀ q v, ¬ (q = p ∧ v = dst) → W.getUserBal q v = b.getUserBal q v := fun q v hq => by
      rw [hWs, getUserBal_set, if_neg hq]
    refine ⟨by rw [r.same]; rfl, fun q hq => ?_, fun q v hv => ?_, fun hnd q hq => ?_⟩
    · simp only [List.mem_cons, not_or] at hq
      obtain ⟨k1, k2⟩ := r.other q hq.2
      exact ⟨by rw [k1, wp q hq.1], fun v => by rw [k2, wu q v fun e => hq.1 e.1]⟩
    · rw [r.users q v hv, wu q v fun e => hv e.2]
    · rw [List.nodup_cons] at hnd
      by_cases e : q = p
      · subst e
        obtain ⟨k1, k2⟩ := r.other q hnd.1
        refine ⟨amt, dep, m, hamt, hdep, hm, ?_, ?_⟩
        · rw [k1, hWs, getPoolBal_set, if_pos rfl]
        · rw [k2, hWs, getUserBal_set, if_pos ⟨rfl, rfl⟩]
      · obtain ⟨a, d, m', k1, k2, k3, k4, k5⟩ := r.deposit hnd.2 q (by simpa [e] using hq)
        rw [wp q e] at k3 k4
        rw [wu q dst fun h => e h.1] at k5
        exact ⟨a, d, m', k1, k2, k3, k4, k5⟩

end Backstop
end Blend
