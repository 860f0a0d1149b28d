import Verif.Lemmas.Batch
import Verif.Props.SameLedger
/-
  C66: what others do in the same ledger does not change the outcome of a submit of supplies, withdrawals, borrows and
  repayments.
-/

namespace Blend
namespace Props
open Pool Spec Demo

variable {w w' : World} {p u spender dst : Address} {auth auth' : List Address} {l : List Request}

/-- plain requests change nothing but the account of the sender -/
theorem plain_books {B B1 : Books} (h : FullRun w p u l B B1) (hl : ∀ q ∈ l, Plain q) :
    B1 = { B with acct := upd B.acct u (B1.acct u) } := by
  induction h with
  | nil B =>
    cases B
    simp only [Books.mk.injEq, and_true]
    funext x
    by_cases hx : x = u
    · subst hx; rw [upd_same]
    · rw [upd_ne hx]
  | @plain q l B A B2 c d _ _ _ _ _ ih =>
    have := ih fun q hq => hl q (List.mem_cons_of_mem _ hq)
    rw [this]
    simp only [Books.mk.injEq, and_true, upd_same]
    funext x
    by_cases hx : x = u
    · subst hx; rw [upd_same, upd_same]
    · rw [upd_ne hx, upd_ne hx, upd_ne hx]
  | @auction q l B B1 B2 e _ _ =>
    have h1 := e.type_ge
    have h2 : q.type ≤ 5 := hl q List.mem_cons_self
    omega

theorem plain_same {B B1 C C1 : Books} (hpos : RatesPos (w'.pools p) w'.time)
    (hcfg : ∀ a c, (w.pools p).resConfig a = some c → ∃ c', (w'.pools p).resConfig a = some c' ∧ c'.index = c.index)
    (hcur : ∀ {a d}, Current (w.pools p) w.time a d → ∃ d', Current (w'.pools p) w'.time a d' ∧ d'.bRate = d.bRate ∧ d'.dRate = d.dRate)
    (h : FullRun w p u l B B1) (h' : FullRun w' p u l C C1) (hl : ∀ q ∈ l, Plain q) (e : B.acct u = C.acct u) : B1.acct u = C1.acct u := by
  induction l generalizing B C with
  | nil => cases h; cases h'; exact e
  | cons q l ih =>
    have hq : q.type ≤ 5 := hl q List.mem_cons_self
    cases h with
    | plain t1 c1 d1 e1 r1 =>
      cases h' with
      | plain t2 c2 d2 e2 r2 =>
        obtain ⟨c', g1, g2⟩ := hcfg _ _ c1
        rw [c2] at g1; cases g1
        obtain ⟨d', x1, x2, x3⟩ := hcur d1
        obtain rfl := Current.unique d2 x1
        rw [← x2, ← x3, ← g2, e] at e1
        have hp := hpos _ _ d2
        obtain rfl := Effect.unique hp.1 hp.2 e1 e2
        exact ih r1 r2 (fun q hq => hl q (List.mem_cons_of_mem _ hq)) (by simp only [upd_same])
      | auction e2 _ => have := e2.type_ge; omega
    | auction e1 _ => have := e1.type_ge; omega

theorem elsewhere_frame (hr : Reachable w) (hp : w.poolAddr p = true) {i : PoolInst} (hi : (w.pools p).inst = some i)
    (hu : u ≠ i.backstop) (hh : History (Elsewhere p u) w w') :
    Reachable w' ∧ w'.poolAddr p = true ∧ (∃ i', (w'.pools p).inst = some i' ∧ i'.backstop = i.backstop) ∧
    getPositions (w'.pools p) u = getPositions (w.pools p) u ∧
    (∀ a c, (w.pools p).resConfig a = some c → ∃ c', (w'.pools p).resConfig a = some c' ∧ c'.index = c.index) ∧
    ∀ {a d}, Current (w.pools p) w.time a d → ∃ d', Current (w'.pools p) w'.time a d' ∧ d'.bRate = d.bRate ∧ d'.dRate = d.dRate := by
  induction hh with
  | refl => exact ⟨hr, hp, ⟨i, hi, rfl⟩, rfl, fun a c h => ⟨c, h, rfl⟩, fun h => ⟨_, h, rfl, rfl⟩⟩
  | tail _ hop hs ih =>
    obtain ⟨hr1, hp1, ⟨i1, hi1, hb1⟩, h1, h2, h3⟩ := ih
    obtain ⟨i2, hi2, e1, e2, _⟩ := rate_step hr1 hs hi1
    have hp2 := pos_step hr1 hp1 hs hop fun j hj => by rw [hi1] at hj; cases hj; rw [hb1]; exact hu
    refine ⟨hr1.step hs, by rw [(step_res hr1.base hs).poolAddr]; exact hp1, ⟨i2, hi2, e2.trans hb1⟩, hp2.trans h1, ?_, ?_⟩
    · intro a c hc
      obtain ⟨c1, g1, g2⟩ := h2 a c hc
      obtain ⟨c2, g3, g4, _⟩ := (micros_cfg ((step_res hr1.base hs).micros p hp1) (hr1.base.cfg p)).2.cfg a c1 g1
      exact ⟨c2, g3, g4.trans g2⟩
    · intro a d hd
      obtain ⟨d1, g1, g2, g3⟩ := h3 hd
      obtain ⟨d2, g4, g5, g6⟩ := rates_fixed hr1 hp1 hs hop.1 g1
      exact ⟨d2, g4, g5.trans g2, g6.trans g3⟩

/-- **C66** No slippage: what others do in the same ledger before a submit of supplies, withdrawals, borrows and repayments –
submits of their own, fills of auctions, transfers of tokens to the pool, new prices, new reserve parameters, and so on – does
not change what the submit does, if it goes through: the account ends up with the same shares, and everybody pays and
gets the same tokens. -/
theorem C66_no_slippage {w1 w1' : World} (hr : Reachable w) {i : PoolInst} (hi : (w.pools p).inst = some i)
    (hu : u ≠ i.backstop) (hl : ∀ q ∈ l, Plain q) (hh : History (Elsewhere p u) w w')
    (h : step w (.pool p auth (.submit u spender dst l)) = .ok w1)
    (h' : step w' (.pool p auth' (.submit u spender dst l)) = .ok w1') :
    (∀ j, (getPositions (w1'.pools p) u).supply.bal j = (getPositions (w1.pools p) u).supply.bal j ∧
      (getPositions (w1'.pools p) u).collateral.bal j = (getPositions (w1.pools p) u).collateral.bal j ∧
      (getPositions (w1'.pools p) u).liabilities.bal j = (getPositions (w1.pools p) u).liabilities.bal j) ∧
    ∀ t x, w1'.balance t x - w'.balance t x = w1.balance t x - w.balance t x := by
  have hp := (submit_view hr h).1
  obtain ⟨hr', hp', _, e, hcfg, hcur⟩ := elsewhere_frame hr hp hi hu hh
  obtain ⟨B, run, pos, _, _, _, bal⟩ := submit_full hr h
  obtain ⟨C, run', pos', _, _, _, bal'⟩ := submit_full hr' h'
  have ha : (booksOf w p).acct u = (booksOf w' p).acct u := by
    show accountOf _ u = accountOf _ u
    unfold accountOf; rw [e]
  have key := plain_same (hr'.ratesPos hp') hcfg hcur run run' hl ha
  refine ⟨fun j => ?_, fun t x => ?_⟩
  · obtain ⟨p1, p2, p3⟩ := pos u j
    obtain ⟨q1, q2, q3⟩ := pos' u j
    rw [p1, p2, p3, q1, q2, q3, key]
    exact ⟨rfl, rfl, rfl⟩
  · have b1 : B.wallet t x = w.balance t x := by rw [plain_books run hl]; rfl
    have b2 : C.wallet t x = w'.balance t x := by rw [plain_books run' hl]; rfl
    rw [bal, bal', b1, b2, key]
    split_ifs <;> omega

/-- **C66**: the order of the submits of two accounts in a ledger does not matter (if they go through in both orders): all
accounts end up with the same shares, and everybody has the same tokens. -/
theorem C66_order {v spender' dst' : Address} {l' : List Request} {auth1 auth2 : List Address} {wu wuv wv wvu : World}
    (hr : Reachable w) {i : PoolInst} (hi : (w.pools p).inst = some i)
    (hu : u ≠ i.backstop) (hv : v ≠ i.backstop) (huv : u ≠ v) (hl : ∀ q ∈ l, Plain q) (hl' : ∀ q ∈ l', Plain q)
    (h1 : step w (.pool p auth (.submit u spender dst l)) = .ok wu)
    (h2 : step wu (.pool p auth' (.submit v spender' dst' l')) = .ok wuv)
    (h3 : step w (.pool p auth1 (.submit v spender' dst' l')) = .ok wv)
    (h4 : step wv (.pool p auth2 (.submit u spender dst l)) = .ok wvu) :
    (∀ x j, (getPositions (wuv.pools p) x).supply.bal j = (getPositions (wvu.pools p) x).supply.bal j ∧
      (getPositions (wuv.pools p) x).collateral.bal j = (getPositions (wvu.pools p) x).collateral.bal j ∧
      (getPositions (wuv.pools p) x).liabilities.bal j = (getPositions (wvu.pools p) x).liabilities.bal j) ∧
    ∀ t x, wuv.balance t x = wvu.balance t x := by
  have foreign : ∀ {s spender dst x : Address} {auth l}, s ≠ x → (∀ q ∈ l, Plain q) →
      Elsewhere p x (.pool p auth (.submit s spender dst l)) := by
    intro s spender dst x auth l hs hl
    refine ⟨⟨by simp, by simp⟩, ?_, by simp⟩
    intro _ _ _ _ _ e
    cases e
    refine ⟨hs, fun q hq ht => ?_⟩
    have : q.type ≤ 5 := hl q hq
    omega
  have hp := (submit_view hr h1).1
  have hru := hr.step h1
  have hrv := hr.step h3
  have hpu := (submit_view hru h2).1
  have hpv := (submit_view hrv h4).1
  obtain ⟨iu, hiu, _, ebu, _⟩ := rate_step hr h1 hi
  obtain ⟨iv, hiv, _, ebv, _⟩ := rate_step hr h3 hi
  obtain ⟨a1, a2⟩ := C66_no_slippage hr hi hu hl (.tail (.refl _) (foreign huv.symm hl') h3) h1 h4
  obtain ⟨b1, b2⟩ := C66_no_slippage hr hi hv hl' (.tail (.refl _) (foreign huv hl) h1) h3 h2
  refine ⟨fun x j => ?_, fun t x => ?_⟩
  · by_cases hx : x = u
    · subst hx
      have e := pos_step hru hpu h2 (foreign huv.symm hl') fun j hj => by rw [hiu] at hj; cases hj; rw [ebu]; exact hu
      rw [e]
      obtain ⟨c1, c2, c3⟩ := a1 j
      exact ⟨c1.symm, c2.symm, c3.symm⟩
    · by_cases hx' : x = v
      · subst hx'
        have e := pos_step hrv hpv h4 (foreign huv hl) fun j hj => by rw [hiv] at hj; cases hj; rw [ebv]; exact hv
        rw [e]
        exact b1 j
      · have frame : ∀ {w w' : World} {s spender dst : Address} {auth l}, Reachable w → x ≠ s → (∀ q ∈ l, Plain q) →
            step w (.pool p auth (.submit s spender dst l)) = .ok w' →
            ∀ j, (getPositions (w'.pools p) x).supply.bal j = (getPositions (w.pools p) x).supply.bal j ∧
              (getPositions (w'.pools p) x).collateral.bal j = (getPositions (w.pools p) x).collateral.bal j ∧
              (getPositions (w'.pools p) x).liabilities.bal j = (getPositions (w.pools p) x).liabilities.bal j := by
          intro w w' s spender dst auth l hr hs hl h j
          obtain ⟨B, run, pos, _⟩ := submit_full hr h
          have e : B.acct x = (booksOf w p).acct x := by rw [plain_books run hl]; exact upd_ne hs
          obtain ⟨p1, p2, p3⟩ := pos x j
          rw [p1, p2, p3, e]
          exact ⟨rfl, rfl, rfl⟩
        obtain ⟨c1, c2, c3⟩ := frame hr hx hl h1 j
        obtain ⟨d1, d2, d3⟩ := frame hru hx' hl' h2 j
        obtain ⟨e1, e2, e3⟩ := frame hr hx' hl' h3 j
        obtain ⟨f1, f2, f3⟩ := frame hrv hx hl h4 j
        rw [d1, d2, d3, c1, c2, c3, f1, f2, f3, e1, e2, e3]
        exact ⟨rfl, rfl, rfl⟩
  · have := a2 t x
    have := b2 t x
    omega

/-- non-vacuity: dave fills a half of bob's liquidation, prices change and dave sends tokens to the pool, before alice
withdraws -/
example : ∃ w w' w1 w1' i, Reachable w ∧ (w.pools poolA).inst = some i ∧ alice ≠ i.backstop ∧ History (Elsewhere poolA alice) w w' ∧
    step w (.pool poolA [alice] (.submit alice alice alice [⟨1, usdcA, 10000000007⟩])) = .ok w1 ∧
    step w' (.pool poolA [alice] (.submit alice alice alice [⟨1, usdcA, 10000000007⟩])) = .ok w1' ∧
    (w.pools poolA).resData usdcA ≠ (w'.pools poolA).resData usdcA ∧ w.balance usdcA poolA < w'.balance usdcA poolA := by
  obtain ⟨w, w', hr, hrun, h⟩ := Demo.reach_runs (ops := setup ++ trade ++ emissions ++ claims ++ liquidation.take 3)
    (ops' := [.pool poolA [dave] (.submit dave dave dave [⟨2, usdcA, 100000000000⟩, ⟨6, bob, 50⟩]), prices 1713151100 10000000 900000,
      .tokenTransfer usdcA dave poolA 1000])
    (f := fun w w' => (optAnd (w.pools poolA).inst fun i => decide (alice ≠ i.backstop)) &&
      (okAnd (step w (.pool poolA [alice] (.submit alice alice alice [⟨1, usdcA, 10000000007⟩]))) fun _ => true) &&
      (okAnd (step w' (.pool poolA [alice] (.submit alice alice alice [⟨1, usdcA, 10000000007⟩]))) fun _ => true) &&
      decide ((w.pools poolA).resData usdcA ≠ (w'.pools poolA).resData usdcA ∧ w.balance usdcA poolA < w'.balance usdcA poolA)) (by decide +kernel)
  simp only [Bool.and_eq_true] at h
  obtain ⟨⟨⟨h1, h2⟩, h3⟩, h4⟩ := h
  obtain ⟨i, hi, h1⟩ := optAnd_iff.1 h1
  obtain ⟨w1, h2, _⟩ := okAnd_iff.1 h2
  obtain ⟨w1', h3, _⟩ := okAnd_iff.1 h3
  refine ⟨w, w', w1, w1', i, hr, hi, of_decide_eq_true h1, run_history hrun ?_, h2, h3, of_decide_eq_true h4⟩
  simp [Elsewhere, WithinLedger, prices]
  rintro _ _ _ _ _ _ rfl _ _ rfl
  simp [alice, dave, bob]

/-- non-vacuity of `C66_order`: alice withdraws and dave supplies and borrows, in both orders -/
example : ∃ w wu wuv wv wvu i, Reachable w ∧ (w.pools poolA).inst = some i ∧ alice ≠ i.backstop ∧ dave ≠ i.backstop ∧
    step w (.pool poolA [alice] (.submit alice alice alice [⟨1, usdcA, 10000000007⟩])) = .ok wu ∧
    step wu (.pool poolA [dave] (.submit dave dave dave [⟨2, usdcA, 100000000000⟩, ⟨4, xlmA, 100000⟩])) = .ok wuv ∧
    step w (.pool poolA [dave] (.submit dave dave dave [⟨2, usdcA, 100000000000⟩, ⟨4, xlmA, 100000⟩])) = .ok wv ∧
    step wv (.pool poolA [alice] (.submit alice alice alice [⟨1, usdcA, 10000000007⟩])) = .ok wvu := by
  obtain ⟨w, wu, _, hr, hs, h⟩ := Demo.reach_step (ops := setup ++ trade ++ emissions)
    (op := .pool poolA [alice] (.submit alice alice alice [⟨1, usdcA, 10000000007⟩]))
    (f := fun w wu => (optAnd (w.pools poolA).inst fun i => decide (alice ≠ i.backstop ∧ dave ≠ i.backstop)) &&
      (okAnd (step wu (.pool poolA [dave] (.submit dave dave dave [⟨2, usdcA, 100000000000⟩, ⟨4, xlmA, 100000⟩]))) fun _ => true) &&
      (okAnd (step w (.pool poolA [dave] (.submit dave dave dave [⟨2, usdcA, 100000000000⟩, ⟨4, xlmA, 100000⟩]))) fun wv =>
        okAnd (step wv (.pool poolA [alice] (.submit alice alice alice [⟨1, usdcA, 10000000007⟩]))) fun _ => true)) (by decide +kernel)
  simp only [Bool.and_eq_true] at h
  obtain ⟨⟨h1, h2⟩, h3⟩ := h
  obtain ⟨i, hi, h1⟩ := optAnd_iff.1 h1
  obtain ⟨wuv, h2, _⟩ := okAnd_iff.1 h2
  obtain ⟨wv, h3, h4⟩ := okAnd_iff.1 h3
  obtain ⟨wvu, h4, _⟩ := okAnd_iff.1 h4
  obtain ⟨g1, g2⟩ := of_decide_eq_true h1
  exact ⟨w, wu, wuv, wv, wvu, i, hr, hi, g1, g2, hs, h2, h3, h4⟩

end Props
end Blend
