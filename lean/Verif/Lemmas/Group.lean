import Verif.Spec.Group
import Verif.Lemmas.Leftover
import Verif.Props.SameLedger
import Verif.Lemmas.LiveFullOrder
import Mathlib.Algebra.Order.BigOperators.Group.Finset
/-
  A group of accounts does not get richer within a ledger (C88).
-/

namespace Blend
namespace Pool
open Spec

section
variable {w : World} {p sender a t : Address} {i : Nat} {b dr : Int}

/-- a plain request is no gain -/
theorem effect_profit {A A1 : Account} {q : Request} (he : Effect b dr i A q A1) (ha : q.address = a) :
    0 ≤ ((A1.pays a - A.pays a) - (A1.gets a - A.gets a)) * ONE9 + dr * (A1.debt i - A.debt i)
      - b * ((A1.supplied i + A1.collateral i) - (A.supplied i + A.collateral i)) := by
  unfold ONE9
  cases he with
  | @supply t n m _ h1 _ =>
    obtain rfl : t = a := ha
    have h2 := h1.1
    unfold ONE9 at h2
    simp only [bump, if_true]
    ring_nf at h2 ⊢
    omega
  | @withdraw t n m _ h1 _ _ =>
    obtain rfl : t = a := ha
    have h2 := h1.2
    unfold ONE9 at h2
    simp only [bump, if_true]
    ring_nf at h2 ⊢
    omega
  | @withdrawAll t n m v _ h1 _ _ h3 =>
    obtain rfl : t = a := ha
    have h2 := h3.1
    unfold ONE9 at h2
    simp only [bump, if_true]
    ring_nf at h2 ⊢
    omega
  | @supplyCollateral t n m _ h1 _ =>
    obtain rfl : t = a := ha
    have h2 := h1.1
    unfold ONE9 at h2
    simp only [bump, if_true]
    ring_nf at h2 ⊢
    omega
  | @withdrawCollateral t n m _ h1 _ _ =>
    obtain rfl : t = a := ha
    have h2 := h1.2
    unfold ONE9 at h2
    simp only [bump, if_true]
    ring_nf at h2 ⊢
    omega
  | @withdrawCollateralAll t n m v _ h1 _ _ h3 =>
    obtain rfl : t = a := ha
    have h2 := h3.1
    unfold ONE9 at h2
    simp only [bump, if_true]
    ring_nf at h2 ⊢
    omega
  | @borrow t n m _ h1 _ =>
    obtain rfl : t = a := ha
    have h2 := h1.2
    unfold ONE9 at h2
    simp only [bump, if_true]
    ring_nf at h2 ⊢
    omega
  | @repay t n m _ h1 _ _ =>
    obtain rfl : t = a := ha
    have h2 := h1.1
    unfold ONE9 at h2
    simp only [bump, if_true]
    ring_nf at h2 ⊢
    omega
  | @repayAll t n m owed _ h1 _ _ h3 _ =>
    obtain rfl : t = a := ha
    have h2 := h3.2
    unfold ONE9 at h2
    simp only [bump, if_true]
    ring_nf at h2 ⊢
    omega

/-- payments only grow -/
theorem effect_pays {j : Nat} {bq dq : Int} (hb : 0 ≤ bq) {A A1 : Account} {q : Request} (he : Effect bq dq j A q A1) (a : Address) :
    A.pays a ≤ A1.pays a ∧ A.gets a ≤ A1.gets a ∧ (a ≠ q.address → A1.pays a = A.pays a ∧ A1.gets a = A.gets a) := by
  have floor0 : ∀ {v x : Int}, IsFloor v x ONE9 → 0 ≤ x → 0 ≤ v := by
    intro v x h hx
    have := h.2
    unfold ONE9 at this
    omega
  cases he with
  | @withdrawAll t n m v _ h1 _ h2 h3 =>
    have := floor0 h3 (mul_nonneg (le_of_lt h2) hb)
    refine ⟨le_refl _, ?_, fun h => ⟨rfl, if_neg h⟩⟩
    simp only [bump]
    split <;> omega
  | @withdrawCollateralAll t n m v _ h1 _ h2 h3 =>
    have := floor0 h3 (mul_nonneg (le_of_lt h2) hb)
    refine ⟨le_refl _, ?_, fun h => ⟨rfl, if_neg h⟩⟩
    simp only [bump]
    split <;> omega
  | _ =>
    refine ⟨?_, ?_, fun h => ⟨?_, ?_⟩⟩
    all_goals first
      | rfl
      | exact le_refl _
      | exact if_neg h
      | (simp only [bump]; split <;> omega)

/-- the other accounts, payments of the sender -/
theorem run_pays (hge : ∀ a dA, Current (w.pools p) w.time a dA → 0 ≤ dA.bRate) (a : Address) {l : List Request} {B B2 : Books}
    (h : FullRun w p sender l B B2) :
    (B.acct sender).pays a ≤ (B2.acct sender).pays a ∧ (B.acct sender).gets a ≤ (B2.acct sender).gets a := by
  induction h with
  | nil B => exact ⟨le_refl _, le_refl _⟩
  | @plain q l B A B2 c d h1 h2 h3 h4 h5 ih =>
    simp only [upd_same] at ih
    have := effect_pays (hge _ _ h3) h4 a
    exact ⟨this.1.trans ih.1, this.2.1.trans ih.2⟩
  | @auction q l B B1 B2 h1 h2 ih =>
    suffices hs : (B1.acct sender).pays = (B.acct sender).pays ∧ (B1.acct sender).gets = (B.acct sender).gets by
      rw [hs.1, hs.2] at ih; exact ih
    cases h1 with
    | liquidation f => simp only [upd_same, take, and_self]
    | badDebt f => simp only [upd_same, take, and_self]
    | interest f => exact ⟨rfl, rfl⟩
    | delete => exact ⟨rfl, rfl⟩

/-- what the group `S` has according to the books -/
def bookGroup (t : Address) (i : Nat) (b dr : Int) (S : Finset Address) (B : Books) : Int :=
  ONE9 * (S.sum fun x => B.wallet t x) + S.sum fun x => (b * ((B.acct x).supplied i + (B.acct x).collateral i) - dr * (B.acct x).debt i)

/-- a submit of a stranger -/
theorem run_stranger {S : Finset Address} (hs : sender ∉ S) (hpS : p ∉ S) (hbS : w.backstopAddr ∉ S)
    (hlp : ∀ bi, w.backstop.inst = some bi → bi.backstopToken ≠ t)
    {l : List Request} {B B2 : Books} (h : FullRun w p sender l B B2) (hq : ∀ q ∈ l, q.type = 6 → q.address ∉ S) :
    ∀ x ∈ S, B2.wallet t x = B.wallet t x ∧ B2.acct x = B.acct x := by
  induction h with
  | nil B => exact fun _ _ => ⟨rfl, rfl⟩
  | @plain q l B A B2 c d h1 h2 h3 h4 h5 ih =>
    intro x hx
    have hne : x ≠ sender := fun e => hs (e ▸ hx)
    have := ih (fun q' hq' => hq q' (List.mem_cons_of_mem _ hq')) x hx
    simpa only [upd_ne hne] using this
  | @auction q l B B1 B2 h1 h2 ih =>
    intro x hx
    have hne : x ≠ sender := fun e => hs (e ▸ hx)
    have hxp : x ≠ p := fun e => hpS (e ▸ hx)
    have hxb : x ≠ w.backstopAddr := fun e => hbS (e ▸ hx)
    have h3 := ih (fun q' hq' => hq q' (List.mem_cons_of_mem _ hq')) x hx
    suffices hs : B1.wallet t x = B.wallet t x ∧ B1.acct x = B.acct x by
      rw [hs.1, hs.2] at h3; exact h3
    cases h1 with
    | @liquidation u n au taken rest f _ _ _ =>
      have hu : x ≠ u := fun e => hq _ List.mem_cons_self rfl (e ▸ hx)
      simp only [upd_ne hne, upd_ne hu, and_self]
    | @badDebt u n au taken rest inst bi gone f hinst hsb hbi hba hle _ _ _ hg _ _ =>
      have hpi : x ≠ inst.backstop := by rw [hba]; exact hxb
      have ht := hlp bi hbi
      simp only [upd_ne hne, upd_ne hpi, paid, Ne.symm ht, false_and, if_false]
      exact ⟨by omega, trivial⟩
    | @interest u n au taken rest inst bi f hinst hsb hbi hba _ _ _ _ _ =>
      have ht := hlp bi hbi
      simp only [paid, Ne.symm ht, hne, hxp, false_and, if_false, and_true]
      omega
    | delete => exact ⟨rfl, rfl⟩

theorem sum_upd_out {f : Address → Account} {g : Account → Int} {x : Address} {A : Account} {Y : Finset Address} (hx : x ∉ Y) :
    (Y.sum fun y => g (upd f x A y)) = Y.sum fun y => g (f y) :=
  Finset.sum_congr rfl fun y hy => by
    have : y ≠ x := by rintro rfl; exact hx hy
    rw [upd_ne this]

/-- a submit of a member -/
theorem run_member {S : Finset Address} (hs : sender ∈ S) (hbS : w.backstopAddr ∉ S)
    (hlp : ∀ bi, w.backstop.inst = some bi → bi.backstopToken ≠ t)
    (hge : ∀ a dA, Current (w.pools p) w.time a dA → 0 ≤ dA.bRate) (hd0 : 0 ≤ dr)
    (hcur : ∀ c dA, (w.pools p).resConfig t = some c → Current (w.pools p) w.time t dA → c.index = i ∧ dA.bRate = b ∧ dA.dRate = dr)
    (hoth : ∀ a c, a ≠ t → (w.pools p).resConfig a = some c → c.index ≠ i ∨ (b = 0 ∧ dr = 0))
    {l : List Request} {B B2 : Books} (h : FullRun w p sender l B B2) (hq : ∀ q ∈ l, q.type ≠ 8 ∧ (q.type = 6 → q.address ∈ S)) :
    bookGroup t i b dr S B2 + ((B2.acct sender).gets t - (B2.acct sender).pays t) * ONE9 ≤
      bookGroup t i b dr S B + ((B.acct sender).gets t - (B.acct sender).pays t) * ONE9 := by
  induction h with
  | nil B => exact le_refl _
  | @plain q l B A B2 c d h1 h2 h3 h4 h5 ih =>
    have h6 := ih (fun q' hq' => hq q' (List.mem_cons_of_mem _ hq'))
    refine h6.trans ?_
    unfold bookGroup
    simp only [upd_same]
    rw [sum_upd (g := fun A => b * (A.supplied i + A.collateral i) - dr * A.debt i) hs]
    by_cases ha : q.address = t
    · rw [ha] at h2 h3
      obtain ⟨e1, e2, e3⟩ := hcur c d h2 h3
      rw [e1, e2, e3] at h4
      have := effect_profit h4 ha
      linarith
    · obtain ⟨-, -, e⟩ := effect_pays (hge _ _ h3) h4 t
      obtain ⟨e1, e2⟩ := e (Ne.symm ha)
      rw [e1, e2]
      rcases hoth _ c ha h2 with hj | ⟨hb, hd⟩
      · obtain ⟨f1, f2, f3, -, -⟩ := effect_elsewhere h4 ha hj
        rw [f1, f2, f3]
        linarith
      · rw [hb, hd]
        linarith
  | @auction q l B B1 B2 h1 h2 ih =>
    have h6 := ih (fun q' hq' => hq q' (List.mem_cons_of_mem _ hq'))
    refine h6.trans ?_
    have h7 := hq _ List.mem_cons_self
    cases h1 with
    | @liquidation u n au taken rest f _ _ _ =>
      have hne : sender ≠ u := Ne.symm f.1
      have hu : u ∈ S := h7.2 rfl
      unfold bookGroup
      simp only [upd_same]
      rw [sum_upd (g := fun A => b * (A.supplied i + A.collateral i) - dr * A.debt i) hs,
        sum_upd (g := fun A => b * (A.supplied i + A.collateral i) - dr * A.debt i) hu]
      simp only [upd_ne hne, take]
      apply le_of_eq
      ring
    | @badDebt u n au taken rest inst bi gone f hinst hsb hbi hba hle _ _ _ hg _ _ =>
      have ht := hlp bi hbi
      have hbi' : inst.backstop ∉ S := by rw [hba]; exact hbS
      unfold bookGroup
      simp only [upd_same, paid, Ne.symm ht, false_and, if_false, add_zero, sub_zero]
      rw [sum_upd (g := fun A => b * (A.supplied i + A.collateral i) - dr * A.debt i) hs]
      rw [sum_upd_out (g := fun A => b * (A.supplied i + A.collateral i) - dr * A.debt i) hbi']
      simp only [upd_ne hsb, take]
      have e0 : amountAt (w.pools p) SMap.empty i = 0 := by
        unfold amountAt; split <;> rfl
      have e1 : 0 ≤ amountAt (w.pools p) taken.bid i := by
        unfold amountAt
        split
        · exact positive_nonneg f.2.2.2.2.positive.1 _
        · exact le_refl _
      rw [e0]
      have := mul_nonneg hd0 e1
      linarith
    | interest f => exact absurd rfl h7.1
    | delete => exact le_refl _

end

theorem claimLoop_inst {now : Nat} {u : Address} {pos : Positions} : ∀ {ids : List Nat} {n n' : Int} {ps ps' : PoolState},
    claimLoop now u pos ids (n, ps) = .ok (n', ps') → ps'.inst = ps.inst := by
  intro ids
  induction ids with
  | nil => intro n n' ps ps' h; simp only [claimLoop, pure_ok, Prod.mk.injEq] at h; obtain ⟨rfl, rfl⟩ := h; rfl
  | cons id ids ih =>
    intro n n' ps ps' h
    simp only [claimLoop] at h
    cases ha : ps.resList[id / 2]? with
    | none => rw [ha] at h; cases h
    | some asset =>
      rw [ha] at h
      simp only [bind_ok, Prod.exists, ite_ok] at h
      obtain ⟨c, _, d, _, ⟨_, bal, _, sc, _, amt, ps1, hu, t, _, h⟩ | ⟨_, bal, _, sc, _, amt, ps1, hu, t, _, h⟩⟩ := h
      · rw [ih h]
        exact (updateEmissions_other hu).1.inst
      · rw [ih h]
        exact (updateEmissions_other hu).1.inst

/-- apart from submits, and from transfers and issues by outsiders, only BLND and the backstop token move -/
theorem step_quiet {w w' : World} {op : Op} (h : step w op = .ok w') {t : Address} (hn : ¬ Reward w t)
    (h1 : ∀ p auth sender spender dst reqs, op ≠ .pool p auth (.submit sender spender dst reqs)) (h2 : ∀ u a b n, op ≠ .tokenTransfer u a b n)
    (h3 : ∀ u b n, op ≠ .tokenMint u b n) (x : Address)
    (np : ∀ p auth s ids i, op = .pool p auth (.claim s ids x) → (w.pools p).inst = some i → i.blnd ≠ t) : w'.balance t x ≤ w.balance t x := by
  have nb : ∀ i, w.backstop.inst = some i → t ≠ i.blnd := by
    rintro i hi rfl; exact hn (.inl (.inr ⟨i, hi, rfl⟩))
  have nl : ∀ i, w.backstop.inst = some i → t ≠ i.backstopToken := by
    rintro i hi rfl; exact hn (.inr ⟨i, hi, rfl⟩)
  have ne' : ∀ i, w.emitter.inst = some i → t ≠ i.blnd := by
    rintro i hi rfl; exact hn (.inl (.inl ⟨i, hi, rfl⟩))
  cases op with
  | pool q auth c =>
    simp only [step, bind_ok, require_ok] at h
    obtain ⟨_, hq, _, ha, h⟩ := h
    by_cases hc : c.movesNone = true
    · exact le_of_eq (call_still hc h t x)
    · cases c with
      | submit sender spender dst reqs => exact absurd rfl (h1 _ _ _ _ _ _)
      | claim sender ids dst =>
        simp only [call, executeClaim, bind_ok, Prod.exists, ite_ok, pure_ok, Prod.mk.injEq] at h
        obtain ⟨_, _, n, w1, ⟨n1, ps1, hl, ⟨hpos, i, hi, w2, ht, rfl, rfl⟩ | ⟨_, rfl, rfl⟩⟩, rfl⟩ := h
        · have r := transferFrom_res ht
          have hi' : (w.pools q).inst = some i := by
            simp only [PoolState.getInst, unwrap_ok] at hi
            rw [← claimLoop_inst hl]; exact hi
          rw [r.bal, balance_setPool]
          have hnn := r.nonneg
          unfold Blend.moved
          by_cases hx : x = dst
          · subst hx
            have hnt := np q auth sender ids i rfl hi'
            simp only [Ne.symm hnt, false_and, if_false]
            omega
          · simp only [hx, and_false, if_false]
            split <;> omega
        · exact le_of_eq (balance_setPool _ _ _ _ _)
      | _ => simp [Call.movesNone] at hc
  | backstop auth c =>
    simp only [step, bind_ok, require_ok] at h
    obtain ⟨_, ha, h⟩ := h
    apply le_of_eq
    cases c with
    | «initialize» =>
      simp only [backstopCall, Backstop.init, bind_ok, pure_ok] at h
      obtain ⟨_, _, _, _, _, _, rfl⟩ := h; rfl
    | deposit s q a =>
      simp only [backstopCall, Backstop.deposit, Backstop.executeDeposit, Backstop.inst, unwrap_ok, bind_ok, pure_ok, Prod.exists, requireAuth_ok, Prod.mk.injEq] at h
      obtain ⟨_, _, ⟨_, hm, _, _, _, _, _, _, _, b1, hb1, i, hi, w2, ht, _, _, _, _, _, _, _, _, _, rfl⟩, rfl⟩ := h
      have r := transfer_res ht
      show w2.balance t x = _
      rw [r.bal]
      have hnt : t ≠ i.backstopToken := nl i (by
        change b1.inst = some i at hi
        have e := Backstop.emis_same hb1
        unfold Backstop.SameBals at e
        rw [e] at hi; exact hi)
      unfold Blend.moved
      simp only [hnt, false_and, if_false]
      exact Int.add_zero _
    | queueWithdrawal s q a =>
      simp only [backstopCall, Backstop.queueWithdrawal, Backstop.executeQueue, bind_ok, pure_ok, Prod.exists] at h
      obtain ⟨_, _, _, _, _, _, _, _, _, _, _, rfl⟩ := h; rfl
    | dequeueWithdrawal s q a =>
      simp only [backstopCall, Backstop.dequeueWithdrawal, Backstop.executeDequeue, bind_ok, pure_ok, Prod.exists] at h
      obtain ⟨_, _, _, _, _, _, _, _, _, _, _, _, _, rfl⟩ := h; rfl
    | withdraw s q a =>
      simp only [backstopCall, Backstop.withdraw, Backstop.executeWithdraw, Backstop.inst, unwrap_ok, bind_ok, pure_ok, Prod.exists, Prod.mk.injEq, requireAuth_ok] at h
      obtain ⟨_, _, ⟨_, hm, _, _, _, _, _, _, _, _, pb', _, i, hi, w2, ht, _, rfl⟩, rfl⟩ := h
      have r := transfer_res ht
      rw [r.bal]
      have hnt : t ≠ i.backstopToken := nl i hi
      unfold Blend.moved
      simp only [hnt, false_and, if_false]
      exact Int.add_zero _
    | gulpEmissions =>
      simp only [backstopCall, Backstop.gulpEmissions, bind_ok, pure_ok, Prod.exists, Prod.mk.injEq] at h
      obtain ⟨_, _, ⟨_, _, _, _, _, _, _, _, _, _, _, _, _, _, _, _, _, _, b1, _, _, rfl⟩, rfl⟩ := h
      rfl
    | addReward a r =>
      simp only [backstopCall, Backstop.addReward, bind_ok, pure_ok, ite_ok] at h
      obtain ⟨_, _, _, _, _, _, ⟨_, _, _, rfl⟩ | ⟨_, _, _, _, _, _, _, _, _, _, _, rfl⟩⟩ := h <;> rfl
    | gulpPoolEmissions q =>
      simp only [backstopCall, Backstop.gulpPoolEmissionsAuth, Backstop.gulpPoolEmissions, bind_ok, pure_ok, Prod.exists,
        Prod.mk.injEq] at h
      obtain ⟨_, _, ⟨_, _, _, _, i, _, _, _, w1, ha, _, rfl⟩, rfl⟩ := h
      obtain ⟨_, rfl⟩ := approve_res ha
      exact (setAllowance_res w _ _ _ _ _).2.1 t x
    | claim s ps d =>
      simp only [backstopCall, Backstop.claim, Backstop.executeClaim, Backstop.cometDeposit, Backstop.inst, bind_ok, unwrap_ok, pure_ok, Prod.exists, ite_ok,
        Prod.mk.injEq] at h
      obtain ⟨_, _, ⟨_, _, _, _, n, cl, b1, hcl, ⟨_, i, hi, lp, w2, ⟨w3, ht, w4, hm, s, _, rfl, rfl⟩, b2, _, _, rfl⟩ |
        ⟨_, _, rfl⟩⟩, rfl⟩ := h
      · have r := transfer_res ht
        have m := mint_res hm
        show w4.balance t x = _
        have hi' : w.backstop.inst = some i := by
          change b1.inst = some i at hi
          rw [(Backstop.claimLoop_same hcl).1] at hi; exact hi
        have hnt : t ≠ i.blnd := nb i hi'
        have hnl : t ≠ i.backstopToken := nl i hi'
        rw [m.bal, r.bal]
        unfold Blend.moved
        simp only [hnt, hnl, false_and, if_false]
        show w.balance t x + (0 - 0) + 0 = _
        omega
      · rfl
    | drop =>
      simp only [backstopCall, Backstop.drop, bind_ok] at h
      obtain ⟨_, _, _, _, _, _, h⟩ := h
      obtain ⟨_, _, _, _, i, w1, hi, _, _, hm, rfl⟩ := Emitter.drop_ok (L := fun _ => True) (A := fun _ => True) h
      have := mints_other (p := x) (ne' i hi) hm
      exact this
    | draw q a d =>
      simp only [backstopCall, Backstop.draw, bind_ok] at h
      obtain ⟨_, _, h⟩ := h
      obtain ⟨i, hi, r⟩ := (Backstop.executeDraw_res h).ex
      have hnt : t ≠ i.backstopToken := nl i hi
      rw [r.bal]
      unfold Blend.moved
      simp only [hnt, false_and, if_false]
      exact Int.add_zero _
    | donate s q a =>
      simp only [backstopCall, Backstop.donate, bind_ok, requireAuth_ok] at h
      obtain ⟨_, hm, _, _, h⟩ := h
      obtain ⟨i, w1, hi, r, rfl⟩ := (Backstop.executeDonate_res h).ex
      have hnt : t ≠ i.backstopToken := nl i hi
      show w1.balance t x = _
      rw [r.bal]
      unfold Blend.moved
      simp only [hnt, false_and, if_false]
      exact Int.add_zero _
    | updateTknVal =>
      simp only [backstopCall, Backstop.updateTknVal, bind_ok, pure_ok] at h
      obtain ⟨_, _, _, _, _, _, rfl⟩ := h; rfl
  | emitter auth c =>
    simp only [step, bind_ok, require_ok] at h
    obtain ⟨_, ha, h⟩ := h
    apply le_of_eq
    have hd : ∀ {w1 : World} {b : Address} {n : Int}, Emitter.executeDistribute w b = .ok (n, w1) → w1.balance t x = w.balance t x := by
      intro w1 b n h
      obtain ⟨last, i, _, _, hi, _, r⟩ := Emitter.distribute_ok h
      have hnt : t ≠ i.blnd := ne' i hi
      rw [r.bal]
      simp only [hnt, false_and, if_false]
      exact Int.add_zero _
    cases c with
    | «initialize» b s t =>
      simp only [emitterCall, Emitter.init, bind_ok, pure_ok] at h
      obtain ⟨_, _, rfl⟩ := h; rfl
    | distribute =>
      simp only [emitterCall, Emitter.distribute, bind_ok, pure_ok, Prod.exists] at h
      obtain ⟨n, w1, ⟨_, _, h⟩, rfl⟩ := h
      exact hd h
    | queueSwap b t =>
      simp only [emitterCall, Emitter.queueSwap, bind_ok, pure_ok] at h
      obtain ⟨_, _, _, _, _, _, rfl⟩ := h; rfl
    | cancelSwap =>
      simp only [emitterCall, Emitter.cancelSwap, bind_ok, pure_ok] at h
      obtain ⟨_, _, _, _, _, _, rfl⟩ := h; rfl
    | swapBackstop =>
      simp only [emitterCall, Emitter.swapBackstop, bind_ok, pure_ok, Prod.exists] at h
      obtain ⟨s, _, _, _, i, _, _, _, n, w1, hx, rfl⟩ := h
      have := hd hx
      exact this
    | drop l =>
      obtain ⟨_, _, _, _, i, w1, hi, _, _, hm, rfl⟩ := Emitter.drop_ok (L := fun _ => True) (A := fun _ => True) h
      have := mints_other (p := x) (ne' i hi) hm
      exact this
  | factory auth c =>
    simp only [step, bind_ok, require_ok] at h
    obtain ⟨_, ha, h⟩ := h
    apply le_of_eq
    cases c with
    | «initialize» m =>
      simp only [factoryCall, Factory.init, bind_ok, pure_ok] at h
      obtain ⟨_, _, rfl⟩ := h
      rfl
    | deploy a s o r m =>
      simp only [factoryCall, Factory.deploy, bind_ok, pure_ok, Prod.exists, require_ok, requireAuth_ok,
        Prod.mk.injEq] at h
      obtain ⟨y, w1, ⟨_, hm, mt, _, _, hr, _, _, _, _, _, hi, w2, hc, rfl, rfl⟩, rfl⟩ := h
      exact call_still rfl hc t x
  | tokenTransfer t' s d a => exact absurd rfl (h2 _ _ _ _)
  | tokenMint t' d a => exact absurd rfl (h3 _ _ _)
  | tokenBurn t' s a =>
    simp only [step, bind_ok, require_ok, pure_ok] at h
    obtain ⟨_, hs, _, ha, rfl⟩ := h
    rw [balance_setBalance]
    split
    · next e => obtain ⟨rfl, rfl⟩ := e; omega
    · exact le_refl _
  | tokenApprove t' o s a e =>
    simp only [step, bind_ok, require_ok] at h
    obtain ⟨_, hs, h⟩ := h
    obtain ⟨_, rfl⟩ := approve_res h
    exact le_of_eq ((setAllowance_res w _ _ _ _ _).2.1 t x)
  | comet s o =>
    simp only [step, pure_ok, bind_ok] at h
    obtain ⟨_, _, rfl⟩ := h
    exact le_refl _
  | _ =>
    simp only [step, pure_ok] at h
    subst h
    exact le_refl _

end Pool
end Blend
