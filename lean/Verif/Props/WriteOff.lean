import Verif.Lemmas.WriteOff
import Verif.Props.Accounting
import Verif.Props.Lent
/-
  C02, C21: what is counted as written off.
-/

namespace Blend
namespace Props
open Spec Pool Demo

/-- **C02, C21** The totals written off, which C02 adds back, are not free: they start at zero (`C02_no_write_off`) and change only
in a submit one of whose requests fills a bad debt auction and leaves the backstop without debt and (almost) without tokens for the
pool. Then they grow by exactly the value of the debt shares that this request takes from the backstop and does not hand to
the sender. -/
theorem C02_written_off {w w' : World} (hr : Reachable w) {op : Op} (h : step w op = .ok w') (p : Address) :
    (w'.pools p).writtenOff = (w.pools p).writtenOff ∨
    ∃ auth sender spender dst reqs, op = .pool p auth (.submit sender spender dst reqs) ∧ WritesOff w p sender reqs w' :=
  writtenOff_step hr h p

/-- non-vacuity: dave buys half of the bad debt of a backstop without tokens and repays it; the value of the rest is counted -/
example : ∃ w w', Reachable w ∧
    step w (.pool poolA [dave] (.submit dave dave dave [⟨7, backstopA, 50⟩, ⟨5, usdcA, 100000000⟩])) = .ok w' ∧
    WritesOff w poolA dave [⟨7, backstopA, 50⟩, ⟨5, usdcA, 100000000⟩] w' ∧
    (w.pools poolA).writtenOff usdcA + 10000000 < (w'.pools poolA).writtenOff usdcA := by
  obtain ⟨w, w', _, hr, hs, h⟩ := Demo.reach_step
    (ops := setup ++ trade ++ emissions ++ claims ++ liquidation ++ queue ++ crash ++ badDebt.take 1 ++
      [.comet 1000000000000000 (fun x => x / 10), .backstop [] .updateTknVal, .pool poolA [] .newBadDebt, .ledger 1000 201])
    (op := .pool poolA [dave] (.submit dave dave dave [⟨7, backstopA, 50⟩, ⟨5, usdcA, 100000000⟩]))
    (f := fun w w' => decide ((w.pools poolA).writtenOff usdcA + 10000000 < (w'.pools poolA).writtenOff usdcA)) (by decide +kernel)
  have h := of_decide_eq_true h
  refine ⟨w, w', hr, hs, ?_, h⟩
  rcases C02_written_off hr hs poolA with e | ⟨_, _, _, _, _, e, k⟩
  · rw [e] at h; omega
  · cases e; exact k

/-- operations that fill no bad debt auction of the pool write nothing off -/
theorem no_write_off {w w' : World} (hr : Reachable w) {p : Address} {l : List Op}
    (h : Played (fun _ op => ¬ FillsDebtOf p op) w l w') : (w'.pools p).writtenOff = (w.pools p).writtenOff := by
  induction h with
  | nil => rfl
  | cons q hs _ ih =>
    rw [ih (hr.step hs)]
    rcases C02_written_off hr hs p with e | ⟨auth, sender, spender, dst, reqs, rfl, before, r, after, _, _, _, rfl, ht, _⟩
    · exact e
    · exact absurd ⟨rfl, r, by simp, ht⟩ q

/-- **C02** Solvency of a pool none of whose bad debt auctions was ever filled, with nothing to add back: after any such history,
what all suppliers can redeem (rounded down) plus the backstop's credit is covered by the tokens of the pool and the debt. -/
theorem C02_no_write_off {w0 w : World} (h0 : Genesis w0) {p : Address} {l : List Op}
    (h : Played (fun _ op => ¬ FillsDebtOf p op) w0 l w) (hp : w.poolAddr p = true)
    {asset : Address} {d : ReserveData} (hd : (w.pools p).resData asset = some d)
    {debt redeemable : Int} (hdebt : IsCeil debt (d.dSupply * d.dRate) ONE9)
    (hred : IsFloor redeemable (d.bSupply * d.bRate) ONE9) :
    redeemable + d.backstopCredit ≤ w.balance asset p + debt := by
  have hr0 : Reachable w0 := ⟨w0, h0, .refl _⟩
  have hr : Reachable w := played_reach h hr0
  have e := no_write_off hr0 h
  have k := C02_solvency hr hp hd hdebt hred
  rw [e, h0.pools p] at k
  simpa using k

theorem played_run {Q : World → Op → Prop} {l : List Op} {w w' : World} (hq : ∀ op ∈ l, ∀ w, Q w op) (h : Demo.run w l = .ok w') :
    Played Q w l w' := by
  induction l generalizing w with
  | nil => simp only [Demo.run, pure_ok] at h; cases h; exact .nil _
  | cons op l ih =>
    simp only [Demo.run, bind_ok] at h
    obtain ⟨w1, h1, h2⟩ := h
    exact .cons (hq op (by simp) _) h1 (ih (fun o ho => hq o (by simp [ho])) h2)

/-- non-vacuity: the setup and a trade of the story -/
example : ∃ w d, Played (fun _ op => ¬ FillsDebtOf poolA op) genesis (setup ++ trade) w ∧ w.poolAddr poolA = true ∧
    (w.pools poolA).resData usdcA = some d ∧ 0 < d.dSupply ∧ 0 < d.bSupply := by
  obtain ⟨w, hw, _, h⟩ := Demo.reach (ops := setup ++ trade)
    (f := fun w => w.poolAddr poolA && optAnd ((w.pools poolA).resData usdcA) fun d => decide (0 < d.dSupply ∧ 0 < d.bSupply)) (by decide +kernel)
  rw [Bool.and_eq_true] at h
  obtain ⟨d, hd, h2⟩ := optAnd_iff.1 h.2
  refine ⟨w, d, played_run (fun op ho _ => ?_) hw, h.1, hd, of_decide_eq_true h2⟩
  intro hf
  have : ∀ op ∈ setup ++ trade, (match op with | .pool _ _ (.submit _ _ _ r) => r.all fun q => decide (q.type ≠ 7) | _ => true) = true := by
    decide +kernel
  have := this op ho
  unfold FillsDebtOf at hf
  split at hf
  · obtain ⟨_, r, hr, ht⟩ := hf
    simp only [List.all_eq_true, decide_eq_true_eq] at this
    exact this r hr ht
  · exact hf

/-- FINDING (C02): a write-off lowers nobody's shares. Those who leave first are paid the value of their shares in full and the loss is
left to the last: after a write-off dave pays his debt and withdraws everything; his shares and alice's are worth 1.00017 tokens each,
before and after. Nobody owes any USDC now and alice's are the only shares left, but their value is not there to be withdrawn. -/
theorem C02_last_bears_the_loss : ∃ w w' d d', Reachable w ∧ 0 < (w.pools poolA).writtenOff usdcA ∧
    (w.pools poolA).resData usdcA = some d ∧ d.bRate = 1000173478 ∧
    step w (.pool poolA [dave] (.submit dave dave dave [⟨5, usdcA, 100000000000⟩, ⟨3, usdcA, 1000000000000⟩])) = .ok w' ∧
    IsCeil 57911451885 ((accountOf (w.pools poolA) dave).debt 0 * d.dRate) 1000000000 ∧
    IsFloor (w'.balance usdcA dave - w.balance usdcA dave + 57911451885)
      ((accountOf (w.pools poolA) dave).collateral 0 * d.bRate) 1000000000 ∧
    (w'.pools poolA).resData usdcA = some d' ∧ d'.dSupply = 0 ∧ d'.bRate = d.bRate ∧
    d'.bSupply = (accountOf (w'.pools poolA) alice).supplied 0 ∧
    498000000000 * 1000000000 < (accountOf (w'.pools poolA) alice).supplied 0 * d'.bRate ∧
    step w' (.pool poolA [alice] (.submit alice alice alice [⟨1, usdcA, 498000000000⟩])) = .error .token := by
  obtain ⟨w, w', _, hr, hs, h⟩ := Demo.reach_step
    (ops := setup ++ trade ++ emissions ++ claims ++ liquidation ++ queue ++ crash ++ badDebt.take 1 ++
      [.comet 1000000000000000 (fun x => x / 10), .backstop [] .updateTknVal, .pool poolA [] .newBadDebt, .ledger 1000 201,
      .pool poolA [dave] (.submit dave dave dave [⟨7, backstopA, 50⟩, ⟨5, usdcA, 100000000⟩])])
    (op := .pool poolA [dave] (.submit dave dave dave [⟨5, usdcA, 100000000000⟩, ⟨3, usdcA, 1000000000000⟩]))
    (f := fun w w' => decide (0 < (w.pools poolA).writtenOff usdcA) &&
      (optAnd ((w.pools poolA).resData usdcA) fun d => optAnd ((w'.pools poolA).resData usdcA) fun d' =>
        decide (d.bRate = 1000173478) &&
        decide ((57911451885 - 1) * 1000000000 < (accountOf (w.pools poolA) dave).debt 0 * d.dRate ∧
          (accountOf (w.pools poolA) dave).debt 0 * d.dRate ≤ 57911451885 * 1000000000) &&
        decide ((w'.balance usdcA dave - w.balance usdcA dave + 57911451885) * 1000000000 ≤
            (accountOf (w.pools poolA) dave).collateral 0 * d.bRate ∧
          (accountOf (w.pools poolA) dave).collateral 0 * d.bRate <
            (w'.balance usdcA dave - w.balance usdcA dave + 57911451885 + 1) * 1000000000) &&
        decide (d'.dSupply = 0 ∧ d'.bRate = d.bRate ∧ d'.bSupply = (accountOf (w'.pools poolA) alice).supplied 0 ∧
          498000000000 * 1000000000 < (accountOf (w'.pools poolA) alice).supplied 0 * d'.bRate)) &&
      errIs (step w' (.pool poolA [alice] (.submit alice alice alice [⟨1, usdcA, 498000000000⟩]))) .token) (by decide +kernel)
  rw [Bool.and_eq_true, Bool.and_eq_true] at h
  obtain ⟨⟨h1, h2⟩, h3⟩ := h
  obtain ⟨d, hd, h2⟩ := optAnd_iff.1 h2
  obtain ⟨d', hd', h2⟩ := optAnd_iff.1 h2
  simp only [Bool.and_eq_true, decide_eq_true_eq] at h2
  obtain ⟨⟨⟨k1, k0⟩, k2⟩, k3, k4, k5, k6⟩ := h2
  exact ⟨w, w', d, d', hr, of_decide_eq_true h1, hd, k1, hs, k0, k2, hd', k3, k4, k5, k6, errIs_iff.1 h3⟩

end Props
end Blend
