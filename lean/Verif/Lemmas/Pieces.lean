import Verif.Lemmas.AuctionRun
import Verif.Spec.Pieces
import Mathlib.Tactic.Linarith
import Mathlib.Tactic.Positivity
import Mathlib.Tactic.FieldSimp
import Mathlib.Tactic.Ring
import Mathlib.Tactic.NormNum
import Mathlib.Tactic.Push
/-
  Fills of an auction in several pieces in one ledger.
-/

namespace Blend
namespace Pool
open Spec

/-- A sequence of fills, `k` ledgers after the start, and nothing else. -/
inductive Cut (k : Nat) : Option AuctionData → List (Nat × AuctionData) → Option AuctionData → Prop
  | nil (r) : Cut k r [] r
  | fill {n a taken rest l r} : FillTerms k n a taken rest → Cut k rest l r → Cut k (some a) ((n, taken) :: l) r

def cutBid (l : List (Nat × AuctionData)) (x : Address) : Int := (l.map fun f => f.2.bid.bal x).sum
def cutLot (l : List (Nat × AuctionData)) (x : Address) : Int := (l.map fun f => f.2.lot.bal x).sum

theorem cutBid_cons (n : Nat) (tk : AuctionData) (l) (x : Address) : cutBid ((n, tk) :: l) x = tk.bid.bal x + cutBid l x := by
  simp [cutBid]
theorem cutLot_cons (n : Nat) (tk : AuctionData) (l) (x : Address) : cutLot ((n, tk) :: l) x = tk.lot.bal x + cutLot l x := by
  simp [cutLot]

theorem leftOver_cons (n : Nat) (l : List Nat) : leftOver (n :: l) = (1 - (n : ℚ) / 100) * leftOver l := by
  simp [leftOver]

theorem leftOver_nil : leftOver [] = 1 := rfl

theorem leftOver_nonneg {l : List Nat} (h : ∀ n ∈ l, n ≤ 100) : 0 ≤ leftOver l := by
  induction l with
  | nil => simp [leftOver]
  | cons n l ih =>
    rw [leftOver_cons]
    have h1 : (n : ℚ) ≤ 100 := by exact_mod_cast h n (by simp)
    have := ih fun m hm => h m (by simp [hm])
    apply mul_nonneg _ this
    linarith [(div_le_one (by norm_num : (0:ℚ) < 100)).mpr h1]

theorem Cut.range {k : Nat} {o r : Option AuctionData} {l : List (Nat × AuctionData)} (h : Cut k o l r) :
    ∀ n ∈ l.map Prod.fst, n ≤ 100 := by
  induction h with
  | nil => simp
  | fill hf _ ih =>
    intro n hn
    simp only [List.map_cons, List.mem_cons] at hn
    rcases hn with rfl | hn
    · exact hf.range.2
    · exact ih n hn

theorem Cut.bounds {k : Nat} {o r : Option AuctionData} {l : List (Nat × AuctionData)} (h : Cut k o l r) (x : Address) :
    0 ≤ cutBid l x ∧ 0 ≤ cutLot l x ∧ (0 ≤ leftLot o x → 0 ≤ leftLot r x ∧ cutLot l x + leftLot r x ≤ leftLot o x) := by
  induction h with
  | nil r => simp [cutBid, cutLot]
  | @fill n a taken rest l r hf _ ih =>
    obtain ⟨b1, b2, b3⟩ := hf.bid_bounds x
    obtain ⟨l1, l2, l3⟩ := hf.lot_bounds x
    obtain ⟨i1, i2, i3⟩ := ih
    have i3 := i3 l2
    rw [cutBid_cons, cutLot_cons]
    refine ⟨by omega, by omega, fun h0 => ?_⟩
    have e : leftLot (some a) x = a.lot.bal x := rfl
    rw [e] at h0 ⊢
    rw [max_eq_right h0] at l3
    omega

theorem Cut.bid {k : Nat} {o r : Option AuctionData} {l : List (Nat × AuctionData)} (h : Cut k o l r) (x : Address)
    (h0 : 0 ≤ leftBid o x) :
    0 ≤ leftBid r x ∧ bidDue k * (leftBid o x - leftBid r x) ≤ 200 * cutBid l x ∧
      (leftBid r x : ℚ) ≤ leftBid o x * leftOver (l.map Prod.fst) := by
  induction h with
  | nil r => refine ⟨h0, by simp [cutBid], by simp [leftOver]⟩
  | @fill n a taken rest l r hf hc ih =>
    have e : leftBid (some a) x = a.bid.bal x := rfl
    rw [e] at h0 ⊢
    obtain ⟨part, ⟨p1, p2⟩, ⟨t1, t2⟩, h3⟩ := hf.bid x h0
    obtain ⟨i1, i2, i3⟩ := ih (hf.bid_bounds x).2.1
    refine ⟨i1, ?_, ?_⟩
    · rw [cutBid_cons]
      have : bidDue k * (a.bid.bal x - leftBid r x) = part * bidDue k + bidDue k * (leftBid rest x - leftBid r x) := by
        rw [h3]; ring
      rw [this]; omega
    · rw [List.map_cons, leftOver_cons]
      have hL := leftOver_nonneg hc.range
      have hp : (a.bid.bal x : ℚ) * n ≤ part * 100 := by exact_mod_cast p2
      have hle : (leftBid rest x : ℚ) ≤ a.bid.bal x * (1 - (n : ℚ) / 100) := by
        rw [h3]; push_cast
        have : (a.bid.bal x : ℚ) * (1 - (n : ℚ) / 100) = a.bid.bal x - a.bid.bal x * n / 100 := by ring
        rw [this]
        linarith
      calc (leftBid r x : ℚ) ≤ leftBid rest x * leftOver (l.map Prod.fst) := i3
        _ ≤ a.bid.bal x * (1 - (n : ℚ) / 100) * leftOver (l.map Prod.fst) := mul_le_mul_of_nonneg_right hle hL
        _ = _ := by ring

theorem Cut.lot {k : Nat} {o r : Option AuctionData} {l : List (Nat × AuctionData)} (h : Cut k o l r) (x : Address)
    (h0 : 0 ≤ leftLot o x) :
    0 ≤ leftLot r x ∧ 200 * cutLot l x ≤ lotDue k * (leftLot o x - leftLot r x) ∧
      leftLot o x * leftOver (l.map Prod.fst) ≤ (leftLot r x : ℚ) := by
  induction h with
  | nil r => refine ⟨h0, by simp [cutLot], by simp [leftOver]⟩
  | @fill n a taken rest l r hf hc ih =>
    have e : leftLot (some a) x = a.lot.bal x := rfl
    rw [e] at h0 ⊢
    obtain ⟨part, ⟨p1, p2⟩, ⟨t1, t2⟩, h3⟩ := hf.lot x h0
    obtain ⟨i1, i2, i3⟩ := ih (hf.lot_bounds x).2.1
    refine ⟨i1, ?_, ?_⟩
    · rw [cutLot_cons]
      have : lotDue k * (a.lot.bal x - leftLot r x) = part * lotDue k + lotDue k * (leftLot rest x - leftLot r x) := by
        rw [h3]; ring
      rw [this]; omega
    · rw [List.map_cons, leftOver_cons]
      have hL := leftOver_nonneg hc.range
      have hp : (part : ℚ) * 100 ≤ a.lot.bal x * n := by exact_mod_cast p1
      have hle : a.lot.bal x * (1 - (n : ℚ) / 100) ≤ (leftLot rest x : ℚ) := by
        rw [h3]; push_cast
        have : (a.lot.bal x : ℚ) * (1 - (n : ℚ) / 100) = a.lot.bal x - a.lot.bal x * n / 100 := by ring
        rw [this]
        linarith
      calc a.lot.bal x * ((1 - (n : ℚ) / 100) * leftOver (l.map Prod.fst))
          = a.lot.bal x * (1 - (n : ℚ) / 100) * leftOver (l.map Prod.fst) := by ring
        _ ≤ leftLot rest x * leftOver (l.map Prod.fst) := mul_le_mul_of_nonneg_right hle hL
        _ ≤ _ := i3

/-- pieces that together are at least `n` percent cost at least as much as one fill of `n` percent -/
theorem Cut.bid_single {k n : Nat} {a taken : AuctionData} {rest r : Option AuctionData} {l : List (Nat × AuctionData)}
    (h : Cut k (some a) l r) (hf : FillTerms k n a taken rest) (hn : leftOver (l.map Prod.fst) ≤ 1 - (n : ℚ) / 100) (x : Address) :
    taken.bid.bal x ≤ cutBid l x := by
  by_cases h0 : 0 ≤ a.bid.bal x
  · obtain ⟨part, ⟨p1, p2⟩, ⟨t1, t2⟩, h3⟩ := hf.bid x h0
    obtain ⟨i1, i2, i3⟩ := h.bid x (show 0 ≤ leftBid (some a) x from h0)
    have e : leftBid (some a) x = a.bid.bal x := rfl
    rw [e] at i2 i3
    have hq : (leftBid r x : ℚ) ≤ a.bid.bal x * (1 - (n : ℚ) / 100) :=
      i3.trans (mul_le_mul_of_nonneg_left hn (by exact_mod_cast h0))
    have hz : a.bid.bal x * n ≤ 100 * (a.bid.bal x - leftBid r x) := by
      have : (a.bid.bal x : ℚ) * n ≤ 100 * (a.bid.bal x - leftBid r x) := by
        have e2 : (a.bid.bal x : ℚ) * (1 - (n : ℚ) / 100) = a.bid.bal x - a.bid.bal x * n / 100 := by ring
        rw [e2] at hq
        linarith
      exact_mod_cast this
    have hpart : part ≤ a.bid.bal x - leftBid r x := by omega
    have hm := Int.mul_le_mul_of_nonneg_left hpart (bidDue_nonneg k)
    rw [Int.mul_comm] at hm
    omega
  · push Not at h0
    rw [(hf.negBid x h0).1]
    exact (h.bounds x).1

/-- pieces that together are at most `n` percent pay at most as much as one fill of `n` percent -/
theorem Cut.lot_single {k n : Nat} {a taken : AuctionData} {rest r : Option AuctionData} {l : List (Nat × AuctionData)}
    (h : Cut k (some a) l r) (hf : FillTerms k n a taken rest) (hn : 1 - (n : ℚ) / 100 ≤ leftOver (l.map Prod.fst)) (x : Address) :
    cutLot l x ≤ taken.lot.bal x := by
  by_cases h0 : 0 ≤ a.lot.bal x
  · obtain ⟨part, ⟨p1, p2⟩, ⟨t1, t2⟩, h3⟩ := hf.lot x h0
    obtain ⟨i1, i2, i3⟩ := h.lot x (show 0 ≤ leftLot (some a) x from h0)
    have e : leftLot (some a) x = a.lot.bal x := rfl
    rw [e] at i2 i3
    have hq : a.lot.bal x * (1 - (n : ℚ) / 100) ≤ (leftLot r x : ℚ) :=
      (mul_le_mul_of_nonneg_left hn (by exact_mod_cast h0)).trans i3
    have hz : 100 * (a.lot.bal x - leftLot r x) ≤ a.lot.bal x * n := by
      have : 100 * ((a.lot.bal x : ℚ) - leftLot r x) ≤ a.lot.bal x * n := by
        have e2 : (a.lot.bal x : ℚ) * (1 - (n : ℚ) / 100) = a.lot.bal x - a.lot.bal x * n / 100 := by ring
        rw [e2] at hq
        linarith
      exact_mod_cast this
    have hpart : a.lot.bal x - leftLot r x ≤ part := by omega
    have hm := Int.mul_le_mul_of_nonneg_left hpart (lotDue_nonneg k)
    rw [Int.mul_comm (lotDue k) part] at hm
    omega
  · push Not at h0
    rw [(hf.negLot x h0).1]
    cases h with
    | nil => simp [cutLot]
    | @fill n' _ taken' rest' l' _ hf' hc =>
      obtain ⟨e1, e2⟩ := hf'.negLot x h0
      obtain ⟨_, b2, b3⟩ := hc.bounds x
      have := b3 (by omega)
      rw [cutLot_cons]
      omega

/-! ### the pieces of one submit -/

/-- what an amount of each asset is at a position of the list of reserves -/
def cutAt (ps : PoolState) (f : Address → Int) (i : Nat) : Int := match ps.resList[i]? with | some a => f a | none => 0

theorem cutAt_add (ps : PoolState) (m : SMap Int) (f g : Address → Int) (h : ∀ x, g x = m.bal x + f x) (i : Nat) :
    cutAt ps g i = amountAt ps m i + cutAt ps f i := by
  simp only [cutAt, amountAt]
  cases ps.resList[i]? with
  | some a => exact h a
  | none => rfl

theorem piece_mod {m : Nat} (h : m ≤ 100) : (m : Int).toNat % 2 ^ 64 = m := by
  rw [Int.toNat_natCast]
  exact Nat.mod_eq_of_lt (by omega)

theorem pieces_liquidation {w : World} {p sender u : Address} {k : Nat} :
    ∀ (ns : List Nat) (B B2 : Books), (∀ m ∈ ns, m ≤ 100) → (∀ a, B.auction 0 u = some a → w.seq - a.block = k) →
      FullRun w p sender (pieces 0 u ns) B B2 →
      ∃ l, l.map Prod.fst = ns ∧ Cut k (B.auction 0 u) l (B2.auction 0 u) ∧
        ∀ i, (B2.acct sender).debt i = (B.acct sender).debt i + cutAt (w.pools p) (cutBid l) i ∧
          (B2.acct sender).collateral i = (B.acct sender).collateral i + cutAt (w.pools p) (cutLot l) i := by
  intro ns
  induction ns with
  | nil =>
    intro B B2 _ _ h
    cases h
    refine ⟨[], rfl, .nil _, fun i => ?_⟩
    simp only [cutAt, cutBid, cutLot]
    constructor <;> (split <;> simp)
  | cons m ns ih =>
    intro B B2 hns hk h
    have hm := hns m (by simp)
    simp only [pieces, List.map_cons, Nat.add_zero] at h
    generalize hq : (⟨6, u, (m : Int)⟩ : Request) = q at h
    cases h with
    | plain h5 => rw [← hq] at h5; simp at h5
    | auction he hrest =>
      cases he with
      | badDebt => simp at hq
      | interest => simp at hq
      | delete => simp at hq
      | @liquidation u' n' a taken rest hf hle =>
        simp only [Request.mk.injEq, true_and] at hq
        obtain ⟨rfl, rfl⟩ := hq
        obtain ⟨hne, _, ha, hb, hft⟩ := hf
        rw [hk a ha, piece_mod hm] at hft
        have hs : sender ≠ u := fun e => hne e.symm
        obtain ⟨l, hl, hc, he⟩ := ih _ B2 (fun x hx => hns x (by simp [hx]))
          (fun r hr => by
            simp only [upd, if_true] at hr
            rw [hft.block r hr]; exact hk a ha) hrest
        refine ⟨(m, taken) :: l, by simp [hl], ?_, fun i => ?_⟩
        · rw [ha]
          refine .fill hft ?_
          simpa [upd] using hc
        · obtain ⟨e1, e2⟩ := he i
          rw [e1, e2, cutAt_add _ taken.bid (cutBid l) _ (fun x => cutBid_cons m taken l x),
            cutAt_add _ taken.lot (cutLot l) _ (fun x => cutLot_cons m taken l x)]
          simp only [upd, if_true, take]
          omega

theorem pieces_badDebt {w : World} {p sender u : Address} {k : Nat} {bi : BackstopInst} (hbi : w.backstop.inst = some bi) :
    ∀ (ns : List Nat) (B B2 : Books), (∀ m ∈ ns, m ≤ 100) → (∀ a, B.auction 1 u = some a → w.seq - a.block = k) →
      FullRun w p sender (pieces 1 u ns) B B2 →
      ∃ l, l.map Prod.fst = ns ∧ Cut k (B.auction 1 u) l (B2.auction 1 u) ∧
        (∀ i, (B2.acct sender).debt i = (B.acct sender).debt i + cutAt (w.pools p) (cutBid l) i) ∧
        (B2.acct sender).pays = (B.acct sender).pays ∧ (B2.acct sender).gets = (B.acct sender).gets ∧
        B2.lp = B.lp - cutLot l bi.backstopToken ∧
        ∀ t, B2.wallet t sender = B.wallet t sender + if t = bi.backstopToken then cutLot l t else 0 := by
  intro ns
  induction ns with
  | nil =>
    intro B B2 _ _ h
    cases h
    refine ⟨[], rfl, .nil _, fun i => ?_, rfl, rfl, by simp [cutLot], by simp [cutLot]⟩
    simp only [cutAt, cutBid]
    split <;> simp
  | cons m ns ih =>
    intro B B2 hns hk h
    have hm := hns m (by simp)
    simp only [pieces, List.map_cons] at h
    generalize hq : (⟨6 + 1, u, (m : Int)⟩ : Request) = q at h
    cases h with
    | plain h5 => rw [← hq] at h5; simp at h5
    | auction he hrest =>
      cases he with
      | liquidation => simp at hq
      | interest => simp at hq
      | delete => simp at hq
      | @badDebt u' n' a taken rest inst bi' gone hf hi hsb hbi' hba hle hlot hlp0 _ hgone =>
        simp only [Request.mk.injEq, true_and] at hq
        obtain ⟨rfl, rfl⟩ := hq
        rw [hbi] at hbi'
        cases hbi'
        obtain ⟨hne, _, ha, hb, hft⟩ := hf
        rw [hk a ha, piece_mod hm] at hft
        obtain ⟨l, hl, hc, he, hp, hg, e3, e4⟩ := ih _ B2 (fun x hx => hns x (by simp [hx]))
          (fun r hr => by
            simp only [upd, if_true] at hr
            rw [hft.block r hr]; exact hk a ha) hrest
        refine ⟨(m, taken) :: l, by simp [hl], ?_, fun i => ?_, ?_, ?_, ?_, fun t => ?_⟩
        · rw [ha]
          refine .fill hft ?_
          simpa [upd] using hc
        · rw [he i, cutAt_add _ taken.bid (cutBid l) _ (fun x => cutBid_cons m taken l x)]
          simp only [upd, if_true, take]
          omega
        · rw [hp]; simp [upd, take]
        · rw [hg]; simp [upd, take]
        · rw [e3, cutLot_cons]; simp only []; omega
        · rw [e4, cutLot_cons]
          simp only [paid, and_true, hsb, and_false, if_false]
          split <;> simp_all
          omega

theorem pieces_interest {w : World} {p sender u : Address} {k : Nat} {bi : BackstopInst} (hbi : w.backstop.inst = some bi)
    (hsp : sender ≠ p) :
    ∀ (ns : List Nat) (B B2 : Books), (∀ m ∈ ns, m ≤ 100) → (∀ a, B.auction 2 u = some a → w.seq - a.block = k) →
      FullRun w p sender (pieces 2 u ns) B B2 →
      ∃ l, l.map Prod.fst = ns ∧ Cut k (B.auction 2 u) l (B2.auction 2 u) ∧ B2.acct = B.acct ∧
        B2.lp = B.lp + cutBid l bi.backstopToken ∧ (∀ x, B2.credit x = B.credit x - cutLot l x) ∧
        ∀ t, B2.wallet t sender = B.wallet t sender + cutLot l t - if t = bi.backstopToken then cutBid l t else 0 := by
  intro ns
  induction ns with
  | nil =>
    intro B B2 _ _ h
    cases h
    exact ⟨[], rfl, .nil _, rfl, by simp [cutBid], by simp [cutLot], by simp [cutLot, cutBid]⟩
  | cons m ns ih =>
    intro B B2 hns hk h
    have hm := hns m (by simp)
    simp only [pieces, List.map_cons] at h
    generalize hq : (⟨6 + 2, u, (m : Int)⟩ : Request) = q at h
    cases h with
    | plain h5 => rw [← hq] at h5; simp at h5
    | auction he hrest =>
      cases he with
      | liquidation => simp at hq
      | badDebt => simp at hq
      | delete => simp at hq
      | @interest u' n' a taken rest inst bi' hf hi hsb hbi' hba hlot =>
        simp only [Request.mk.injEq, true_and] at hq
        obtain ⟨rfl, rfl⟩ := hq
        rw [hbi] at hbi'
        cases hbi'
        obtain ⟨hne, _, ha, hb, hft⟩ := hf
        rw [hk a ha, piece_mod hm] at hft
        obtain ⟨l, hl, hc, hacct, e3, e5, e4⟩ := ih _ B2 (fun x hx => hns x (by simp [hx]))
          (fun r hr => by
            simp only [upd, if_true] at hr
            rw [hft.block r hr]; exact hk a ha) hrest
        refine ⟨(m, taken) :: l, by simp [hl], ?_, hacct, ?_, fun x => ?_, fun t => ?_⟩
        · rw [ha]
          refine .fill hft ?_
          simpa [upd] using hc
        · rw [e3, cutBid_cons]; simp only []; omega
        · rw [e5, cutLot_cons]; simp only []; omega
        · rw [e4, cutLot_cons, cutBid_cons]
          simp only [paid, and_true, hsb, hsp, and_false, if_false, if_true]
          split <;> simp_all <;> omega

end Pool
end Blend
