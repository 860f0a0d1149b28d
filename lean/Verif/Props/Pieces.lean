import Verif.Lemmas.Pieces
import Verif.Lemmas.SubmitView
import Verif.Examples.Demo
import Verif.Examples.InterestDemo
/-
  C82: filling an auction in several pieces gains nothing.
-/

namespace Blend
namespace Props
open Spec Pool Demo

private theorem cut_one {k n : Nat} {o r : Option AuctionData} {l : List (Nat × AuctionData)} (h : Cut k o l r)
    (hl : l.map Prod.fst = [n]) : ∃ a taken, o = some a ∧ FillTerms k n a taken r ∧ l = [(n, taken)] := by
  cases h with
  | nil => simp at hl
  | @fill n' a taken rest l' _ hf hc =>
    simp only [List.map_cons, List.cons.injEq, List.map_eq_nil_iff] at hl
    obtain ⟨rfl, rfl⟩ := hl
    cases hc
    exact ⟨a, taken, rfl, hf, rfl⟩

private theorem cutAt_mono {ps : PoolState} {f g : Address → Int} (h : ∀ x, f x ≤ g x) (i : Nat) : cutAt ps f i ≤ cutAt ps g i := by
  simp only [cutAt]
  cases ps.resList[i]? with
  | some a => exact h a
  | none => exact le_refl _

private theorem blocks {w : World} {p u : Address} (t : Nat) : ∃ k, ∀ a, (booksOf w p).auction t u = some a → w.seq - a.block = k := by
  cases h : (booksOf w p).auction t u with
  | none => exact ⟨0, by simp⟩
  | some a => exact ⟨w.seq - a.block, by simp⟩

/-- **C82**: of a liquidation, pieces that together make up at least (at most) `n` percent cost the filler at least as much debt
(bring it at most as much collateral) as one fill of `n` percent in the same ledger, of every reserve. -/
theorem C82_liquidation {w w1 w2 : World} (hr : Reachable w) {p u sender : Address} {auth1 auth2 : List Address}
    {spender1 dst1 spender2 dst2 : Address} {ns : List Nat} {n : Nat} (hns : ∀ m ∈ ns, m ≤ 100) (hn : n ≤ 100)
    (h1 : step w (.pool p auth1 (.submit sender spender1 dst1 (ns.map fun m : Nat => ⟨6, u, (m : Int)⟩))) = .ok w1)
    (h2 : step w (.pool p auth2 (.submit sender spender2 dst2 [⟨6, u, (n : Int)⟩])) = .ok w2) :
    (leftOver ns ≤ 1 - (n : ℚ) / 100 →
      ∀ i, (accountOf (w2.pools p) sender).debt i ≤ (accountOf (w1.pools p) sender).debt i) ∧
    (1 - (n : ℚ) / 100 ≤ leftOver ns →
      ∀ i, (accountOf (w1.pools p) sender).collateral i ≤ (accountOf (w2.pools p) sender).collateral i) := by
  obtain ⟨B1, run1, pos1, -⟩ := submit_full hr h1
  obtain ⟨B2, run2, pos2, -⟩ := submit_full hr h2
  obtain ⟨k, hk⟩ := blocks (w := w) (p := p) (u := u) 0
  obtain ⟨l1, e1, c1, f1⟩ := pieces_liquidation ns _ _ hns hk run1
  obtain ⟨l2, e2, c2, f2⟩ := pieces_liquidation [n] _ _ (by simpa using hn) hk run2
  obtain ⟨a, taken, ha, hf, rfl⟩ := cut_one c2 e2
  rw [ha] at c1
  refine ⟨fun hle i => ?_, fun hle i => ?_⟩
  · simp only [accountOf, (pos1 sender i).2.2, (pos2 sender i).2.2, (f1 i).1, (f2 i).1]
    have := cutAt_mono (ps := w.pools p) (f := cutBid [(n, taken)]) (g := cutBid l1)
      (fun x => by simpa [cutBid] using c1.bid_single hf (by rw [e1]; exact hle) x) i
    omega
  · simp only [accountOf, (pos1 sender i).2.1, (pos2 sender i).2.1, (f1 i).2, (f2 i).2]
    have := cutAt_mono (ps := w.pools p) (f := cutLot l1) (g := cutLot [(n, taken)])
      (fun x => by simpa [cutLot] using c1.lot_single hf (by rw [e1]; exact hle) x) i
    omega

/-- non-vacuity: dave fills the rest of bob's liquidation twice by 50 percent, or once by 75 percent -/
example : ∃ w w1 w2, Reachable w ∧
    step w (.pool poolA [dave] (.submit dave dave dave ([50, 50].map fun m : Nat => ⟨6, bob, (m : Int)⟩))) = .ok w1 ∧
    step w (.pool poolA [dave] (.submit dave dave dave [⟨6, bob, ((75 : Nat) : Int)⟩])) = .ok w2 ∧
    leftOver [50, 50] = 1 - ((75 : Nat) : ℚ) / 100 := by
  obtain ⟨w, hw, hr, h⟩ := Demo.reach (ops := setup ++ trade ++ emissions ++ claims ++ liquidation ++ queue ++ crash.take 1)
    (f := fun w => okAnd (step w (.pool poolA [dave] (.submit dave dave dave ([50, 50].map fun m : Nat => ⟨6, bob, (m : Int)⟩)))) (fun _ => true)
      && okAnd (step w (.pool poolA [dave] (.submit dave dave dave [⟨6, bob, ((75 : Nat) : Int)⟩]))) (fun _ => true)) (by decide +kernel)
  simp only [Bool.and_eq_true, okAnd_iff] at h
  obtain ⟨⟨w1, h1, _⟩, w2, h2, _⟩ := h
  exact ⟨w, w1, w2, hr, h1, h2, by norm_num [leftOver]⟩

/-- **C82**: of a bad debt auction, pieces that together make up at least (at most) `n` percent cost the filler at least as much
debt (bring it at most as many backstop tokens, and leave at least as many with the pool's backstop) as one fill of `n` percent. -/
theorem C82_bad_debt {w w1 w2 : World} (hr : Reachable w) {p u sender : Address} {auth1 auth2 : List Address}
    {spender1 dst1 spender2 dst2 : Address} {ns : List Nat} {n : Nat} (hns : ∀ m ∈ ns, m ≤ 100) (hn : n ≤ 100)
    (h1 : step w (.pool p auth1 (.submit sender spender1 dst1 (ns.map fun m : Nat => ⟨7, u, (m : Int)⟩))) = .ok w1)
    (h2 : step w (.pool p auth2 (.submit sender spender2 dst2 [⟨7, u, (n : Int)⟩])) = .ok w2) :
    (leftOver ns ≤ 1 - (n : ℚ) / 100 →
      ∀ i, (accountOf (w2.pools p) sender).debt i ≤ (accountOf (w1.pools p) sender).debt i) ∧
    (1 - (n : ℚ) / 100 ≤ leftOver ns →
      (∀ t, w1.balance t sender ≤ w2.balance t sender) ∧
      (w2.backstop.getPoolBal p).tokens ≤ (w1.backstop.getPoolBal p).tokens) := by
  obtain ⟨B1, run1, pos1, -, lp1, -, bal1⟩ := submit_full hr h1
  obtain ⟨B2, run2, pos2, -, lp2, -, bal2⟩ := submit_full hr h2
  obtain ⟨k, hk⟩ := blocks (w := w) (p := p) (u := u) 1
  have hbi : ∃ bi, w.backstop.inst = some bi := by
    generalize hq : (⟨7, u, (n : Int)⟩ : Request) = q at run2
    cases run2 with
    | plain h5 => rw [← hq] at h5; simp at h5
    | auction he _ =>
      cases he <;> first | (exact ⟨_, by assumption⟩) | simp at hq
  obtain ⟨bi, hbi⟩ := hbi
  obtain ⟨l1, e1, c1, f1, p1, g1, L1, W1⟩ := pieces_badDebt hbi ns _ _ hns hk run1
  obtain ⟨l2, e2, c2, f2, p2, g2, L2, W2⟩ := pieces_badDebt hbi [n] _ _ (by simpa using hn) hk run2
  obtain ⟨a, taken, ha, hf, rfl⟩ := cut_one c2 e2
  rw [ha] at c1
  refine ⟨fun hle i => ?_, fun hle => ?_⟩
  · simp only [accountOf, (pos1 sender i).2.2, (pos2 sender i).2.2, f1 i, f2 i]
    have := cutAt_mono (ps := w.pools p) (f := cutBid [(n, taken)]) (g := cutBid l1)
      (fun x => by simpa [cutBid] using c1.bid_single hf (by rw [e1]; exact hle) x) i
    omega
  · have key : ∀ x, cutLot l1 x ≤ cutLot [(n, taken)] x :=
      fun x => by simpa [cutLot] using c1.lot_single hf (by rw [e1]; exact hle) x
    refine ⟨fun t => ?_, ?_⟩
    · rw [bal1, bal2, p1, p2, g1, g2, W1, W2]
      have := key t
      simp only [booksOf, accountOf, ite_self, sub_self, add_zero, sub_zero]
      split <;> omega
    · rw [lp1, lp2, L1, L2]
      have := key bi.backstopToken
      omega

/-- non-vacuity: dave fills the bad debt auction twice by 50 percent, or once by 75 percent -/
example : ∃ w w1 w2, Reachable w ∧
    step w (.pool poolA [dave] (.submit dave dave dave ([50, 50].map fun m : Nat => ⟨7, backstopA, (m : Int)⟩))) = .ok w1 ∧
    step w (.pool poolA [dave] (.submit dave dave dave [⟨7, backstopA, ((75 : Nat) : Int)⟩])) = .ok w2 ∧
    leftOver [50, 50] = 1 - ((75 : Nat) : ℚ) / 100 := by
  obtain ⟨w, hw, hr, h⟩ := Demo.reach
    (ops := setup ++ trade ++ emissions ++ claims ++ liquidation ++ queue ++ crash ++ badDebt.take 3)
    (f := fun w => okAnd (step w (.pool poolA [dave] (.submit dave dave dave ([50, 50].map fun m : Nat => ⟨7, backstopA, (m : Int)⟩)))) (fun _ => true)
      && okAnd (step w (.pool poolA [dave] (.submit dave dave dave [⟨7, backstopA, ((75 : Nat) : Int)⟩]))) (fun _ => true)) (by decide +kernel)
  simp only [Bool.and_eq_true, okAnd_iff] at h
  obtain ⟨⟨w1, h1, _⟩, w2, h2, _⟩ := h
  exact ⟨w, w1, w2, hr, h1, h2, by norm_num [leftOver]⟩

/-- **C82**: of an interest auction, pieces that together make up at least (at most) `n` percent bring the pool's backstop at
least as many backstop tokens (cost it at most as much interest) as one fill of `n` percent; pieces that make up exactly `n`
percent leave the filler with at most as much of every token. -/
theorem C82_interest {w w1 w2 : World} (hr : Reachable w) {p u sender : Address} {auth1 auth2 : List Address}
    {spender1 dst1 spender2 dst2 : Address} {ns : List Nat} {n : Nat} (hns : ∀ m ∈ ns, m ≤ 100) (hn : n ≤ 100)
    (h1 : step w (.pool p auth1 (.submit sender spender1 dst1 (ns.map fun m : Nat => ⟨8, u, (m : Int)⟩))) = .ok w1)
    (h2 : step w (.pool p auth2 (.submit sender spender2 dst2 [⟨8, u, (n : Int)⟩])) = .ok w2) :
    (leftOver ns ≤ 1 - (n : ℚ) / 100 → (w2.backstop.getPoolBal p).tokens ≤ (w1.backstop.getPoolBal p).tokens) ∧
    (1 - (n : ℚ) / 100 ≤ leftOver ns → ∀ x, creditOf (w2.pools p) w2.time x ≤ creditOf (w1.pools p) w1.time x) ∧
    (leftOver ns = 1 - (n : ℚ) / 100 → ∀ t, w1.balance t sender ≤ w2.balance t sender) := by
  obtain ⟨B1, run1, pos1, -, lp1, cr1, bal1⟩ := submit_full hr h1
  obtain ⟨B2, run2, pos2, -, lp2, cr2, bal2⟩ := submit_full hr h2
  obtain ⟨-, _, _, v⟩ := submit_view hr h1
  have hsp := v.sender_ne
  obtain ⟨k, hk⟩ := blocks (w := w) (p := p) (u := u) 2
  have hbi : ∃ bi, w.backstop.inst = some bi := by
    generalize hq : (⟨8, u, (n : Int)⟩ : Request) = q at run2
    cases run2 with
    | plain h5 => rw [← hq] at h5; simp at h5
    | auction he _ =>
      cases he <;> first | (exact ⟨_, by assumption⟩) | simp at hq
  obtain ⟨bi, hbi⟩ := hbi
  obtain ⟨l1, e1, c1, a1, L1, C1, W1⟩ := pieces_interest hbi hsp ns _ _ hns hk run1
  obtain ⟨l2, e2, c2, a2, L2, C2, W2⟩ := pieces_interest hbi hsp [n] _ _ (by simpa using hn) hk run2
  obtain ⟨a, taken, ha, hf, rfl⟩ := cut_one c2 e2
  rw [ha] at c1
  have hb : leftOver ns ≤ 1 - (n : ℚ) / 100 → ∀ x, cutBid [(n, taken)] x ≤ cutBid l1 x :=
    fun hle x => by simpa [cutBid] using c1.bid_single hf (by rw [e1]; exact hle) x
  have hl : 1 - (n : ℚ) / 100 ≤ leftOver ns → ∀ x, cutLot l1 x ≤ cutLot [(n, taken)] x :=
    fun hle x => by simpa [cutLot] using c1.lot_single hf (by rw [e1]; exact hle) x
  refine ⟨fun hle => ?_, fun hle x => ?_, fun he t => ?_⟩
  · have := hb hle bi.backstopToken
    rw [lp1, lp2, L1, L2]
    omega
  · have := hl hle x
    rw [cr1, cr2, C1, C2]
    omega
  · have b := hb he.le t
    have l := hl he.ge t
    rw [bal1, bal2, a1, a2, W1, W2]
    simp only [booksOf, accountOf, ite_self, sub_self, add_zero, sub_zero]
    split <;> omega

/-- non-vacuity: carol fills an interest auction twice by 50 percent, or once by 75 percent -/
example : ∃ w w1 w2, Reachable w ∧
    step w (.pool poolA [carol] (.submit carol carol carol ([50, 50].map fun m : Nat => ⟨8, backstopA, (m : Int)⟩))) = .ok w1 ∧
    step w (.pool poolA [carol] (.submit carol carol carol [⟨8, backstopA, ((75 : Nat) : Int)⟩])) = .ok w2 ∧
    leftOver [50, 50] = 1 - ((75 : Nat) : ℚ) / 100 := by
  obtain ⟨w, hw, hr, h⟩ := Demo.reach (ops := setup ++ trade ++ interest ++ [.ledger 500 151])
    (f := fun w => okAnd (step w (.pool poolA [carol] (.submit carol carol carol ([50, 50].map fun m : Nat => ⟨8, backstopA, (m : Int)⟩)))) (fun _ => true)
      && okAnd (step w (.pool poolA [carol] (.submit carol carol carol [⟨8, backstopA, ((75 : Nat) : Int)⟩]))) (fun _ => true)) (by decide +kernel)
  simp only [Bool.and_eq_true, okAnd_iff] at h
  obtain ⟨⟨w1, h1, _⟩, w2, h2, _⟩ := h
  exact ⟨w, w1, w2, hr, h1, h2, by norm_num [leftOver]⟩

end Props
end Blend
