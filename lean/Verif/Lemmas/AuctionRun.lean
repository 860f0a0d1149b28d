import Verif.Lemmas.FullSubmit
import Verif.Lemmas.AuctionStep
/-
  What the requests of a submit do to one auction.
-/

namespace Blend
namespace Pool
open Spec

/-- One request changes at most one auction: it fills it or the sender deletes it. -/
theorem _root_.Blend.Spec.AuctionEffect.auctionCases {w : World} {p sender : Address} {B B1 : Books} {q : Request}
    (h : AuctionEffect w p sender B q B1) (t : Nat) (u : Address) :
    B1.auction t u = B.auction t u ∨ (t = 0 ∧ u = sender ∧ q.type = 9 ∧ B1.auction t u = none) ∨
      ∃ n a taken rest, q = ⟨6 + t, u, n⟩ ∧ Filling w B sender t u n a taken rest ∧ B1.auction t u = rest := by
  have upd2 : ∀ (f : Nat → Address → Option AuctionData) (t' : Nat) (u' : Address) (x : Option AuctionData),
      ¬ (t = t' ∧ u = u') → upd f t' (upd (f t') u' x) t u = f t u := by
    intro f t' u' x hne
    simp only [upd]
    by_cases h1 : t = t'
    · subst h1
      have : ¬ u = u' := fun e => hne ⟨rfl, e⟩
      simp [upd, this]
    · simp [h1]
  cases h with
  | @liquidation u' n a taken rest hf _ =>
    by_cases he : t = 0 ∧ u = u'
    · obtain ⟨rfl, rfl⟩ := he
      exact .inr (.inr ⟨n, a, taken, rest, rfl, hf, by simp [upd]⟩)
    · exact .inl (upd2 _ _ _ _ he)
  | @badDebt u' n a taken rest _ _ _ hf =>
    by_cases he : t = 1 ∧ u = u'
    · obtain ⟨rfl, rfl⟩ := he
      exact .inr (.inr ⟨n, a, taken, rest, rfl, hf, by simp [upd]⟩)
    · exact .inl (upd2 _ _ _ _ he)
  | @interest u' n a taken rest _ _ hf =>
    by_cases he : t = 2 ∧ u = u'
    · obtain ⟨rfl, rfl⟩ := he
      exact .inr (.inr ⟨n, a, taken, rest, rfl, hf, by simp [upd]⟩)
    · exact .inl (upd2 _ _ _ _ he)
  | delete _ _ =>
    by_cases he : t = 0 ∧ u = sender
    · obtain ⟨rfl, rfl⟩ := he
      exact .inr (.inl ⟨rfl, rfl, rfl, by simp [upd]⟩)
    · exact .inl (upd2 _ _ _ _ he)

/-- A fill request fills the auction. -/
theorem _root_.Blend.Spec.AuctionEffect.filling {w : World} {p sender : Address} {B B1 : Books} {t : Nat} {u : Address} {n : Int}
    (ht : t ≤ 2) (h : AuctionEffect w p sender B ⟨6 + t, u, n⟩ B1) :
    ∃ a taken rest, Filling w B sender t u n a taken rest := by
  generalize hq : (⟨6 + t, u, n⟩ : Request) = q at h
  cases h <;> simp only [Request.mk.injEq] at hq <;> obtain ⟨h1, rfl, rfl⟩ := hq
  · have : t = 0 := by omega
    subst this
    exact ⟨_, _, _, by assumption⟩
  · have : t = 1 := by omega
    subst this
    exact ⟨_, _, _, by assumption⟩
  · have : t = 2 := by omega
    subst this
    exact ⟨_, _, _, by assumption⟩
  · omega

/-- every request that is not plain has its effect at some point -/
theorem _root_.Blend.Spec.FullRun.mem {w : World} {p sender : Address} {l : List Request} {B B2 : Books}
    (h : FullRun w p sender l B B2) {q : Request} (hq : q ∈ l) (h6 : 6 ≤ q.type) :
    ∃ l1 B0 B1, FullRun w p sender l1 B B0 ∧ AuctionEffect w p sender B0 q B1 := by
  induction h with
  | nil => simp at hq
  | plain h5 hc hd he hl ih =>
    rcases List.mem_cons.1 hq with rfl | hq
    · omega
    · obtain ⟨l1, B0, B1, h1, h2⟩ := ih hq
      exact ⟨_, B0, B1, .plain h5 hc hd he h1, h2⟩
  | auction he hl ih =>
    rcases List.mem_cons.1 hq with rfl | hq
    · exact ⟨[], _, _, .nil _, he⟩
    · obtain ⟨l1, B0, B1, h1, h2⟩ := ih hq
      exact ⟨_, B0, B1, .auction he h1, h2⟩

/-- a predicate on an auction that fills and deletions preserve -/
theorem _root_.Blend.Spec.FullRun.auctionInv {w : World} {p sender : Address} {l : List Request} {B B2 : Books}
    (h : FullRun w p sender l B B2) (t : Nat) (u : Address) (P : Option AuctionData → Prop) (hnone : P none)
    (hfill : ∀ n a taken rest, a.block ≤ w.seq → FillTerms (w.seq - a.block) n a taken rest → P (some a) → P rest)
    (h0 : P (B.auction t u)) : P (B2.auction t u) := by
  induction h with
  | nil => exact h0
  | plain _ _ _ _ _ ih => exact ih h0
  | auction he _ ih =>
    refine ih ?_
    rcases he.auctionCases t u with e | ⟨_, _, _, e⟩ | ⟨n, a, taken, rest, _, ⟨_, _, e1, e2, e3⟩, e⟩
    · rw [e]; exact h0
    · rw [e]; exact hnone
    · rw [e]; exact hfill _ _ _ _ e2 e3 (by rw [← e1]; exact h0)

/-- a fill never makes an auction appear -/
theorem _root_.Blend.Spec.FullRun.auctionNone {w : World} {p sender : Address} {l : List Request} {B B2 : Books}
    (h : FullRun w p sender l B B2) (t : Nat) (u : Address) (h0 : B.auction t u = none) : B2.auction t u = none :=
  h.auctionInv t u (· = none) rfl (fun _ _ _ _ _ _ e => by simp at e) h0

/-! ### Terms of fills -/

theorem bidDue_nonneg (k : Nat) : 0 ≤ bidDue k := by
  unfold bidDue; split_ifs <;> omega
theorem bidDue_le (k : Nat) : bidDue k ≤ 200 := by
  unfold bidDue; split_ifs <;> omega
theorem lotDue_nonneg (k : Nat) : 0 ≤ lotDue k := by
  unfold lotDue; split_ifs <;> omega
theorem lotDue_le (k : Nat) : lotDue k ≤ 200 := by
  unfold lotDue; split_ifs <;> omega
theorem bidDue_anti {k k' : Nat} (h : k ≤ k') : bidDue k' ≤ bidDue k := by
  unfold bidDue; split_ifs <;> omega
theorem lotDue_mono {k k' : Nat} (h : k ≤ k') : lotDue k ≤ lotDue k' := by
  unfold lotDue; split_ifs <;> omega

theorem isCeil_mono {a b x y d : Int} (hd : 0 < d) (ha : IsCeil a x d) (hb : IsCeil b y d) (h : x ≤ y) : a ≤ b := by
  obtain ⟨a1, _⟩ := ha
  obtain ⟨_, b2⟩ := hb
  have : (a - 1) * d < b * d := by omega
  have := Int.lt_of_mul_lt_mul_right this hd.le
  omega

theorem isFloor_mono {a b x y d : Int} (hd : 0 < d) (ha : IsFloor a x d) (hb : IsFloor b y d) (h : x ≤ y) : a ≤ b := by
  obtain ⟨a1, _⟩ := ha
  obtain ⟨_, b2⟩ := hb
  have : a * d < (b + 1) * d := by omega
  have := Int.lt_of_mul_lt_mul_right this hd.le
  omega

theorem isCeil_unique {a b x d : Int} (hd : 0 < d) (ha : IsCeil a x d) (hb : IsCeil b x d) : a = b :=
  le_antisymm (isCeil_mono hd ha hb le_rfl) (isCeil_mono hd hb ha le_rfl)

theorem isFloor_unique {a b x d : Int} (hd : 0 < d) (ha : IsFloor a x d) (hb : IsFloor b x d) : a = b :=
  le_antisymm (isFloor_mono hd ha hb le_rfl) (isFloor_mono hd hb ha le_rfl)

theorem part_bounds_ceil {part a : Int} {n : Nat} (hn : 1 ≤ n ∧ n ≤ 100) (ha : 0 ≤ a) (h : IsCeil part (a * n) 100) :
    0 ≤ part ∧ part ≤ a := by
  obtain ⟨h1, h2⟩ := h
  have hn' : (n : Int) ≤ 100 := by exact_mod_cast hn.2
  have h0 : 0 ≤ a * n := by positivity
  constructor
  · omega
  · have : a * n ≤ a * 100 := Int.mul_le_mul_of_nonneg_left hn' ha
    omega

theorem part_bounds_floor {part a : Int} {n : Nat} (hn : 1 ≤ n ∧ n ≤ 100) (ha : 0 ≤ a) (h : IsFloor part (a * n) 100) :
    0 ≤ part ∧ part ≤ a := by
  obtain ⟨h1, h2⟩ := h
  have hn' : (n : Int) ≤ 100 := by exact_mod_cast hn.2
  have h0 : 0 ≤ a * n := by positivity
  constructor
  · omega
  · have : a * n ≤ a * 100 := Int.mul_le_mul_of_nonneg_left hn' ha
    omega

/-- bounds on what a filler pays: never more than its part of the auction, never negative, and together with what is left
never more than the auction had -/
theorem _root_.Blend.Spec.FillTerms.bid_bounds {k n : Nat} {a taken : AuctionData} {rest : Option AuctionData}
    (h : FillTerms k n a taken rest) (x : Address) :
    0 ≤ taken.bid.bal x ∧ 0 ≤ leftBid rest x ∧ taken.bid.bal x + leftBid rest x ≤ max 0 (a.bid.bal x) := by
  by_cases hx : 0 ≤ a.bid.bal x
  · obtain ⟨part, h1, h2, h3⟩ := h.bid x hx
    obtain ⟨p0, p1⟩ := part_bounds_ceil h.range hx h1
    obtain ⟨c1, c2⟩ := h2
    have d0 := bidDue_nonneg k
    have d1 := bidDue_le k
    have m0 : 0 ≤ part * bidDue k := Int.mul_nonneg p0 d0
    have m1 : part * bidDue k ≤ part * 200 := Int.mul_le_mul_of_nonneg_left d1 p0
    rw [max_eq_right hx, h3]
    refine ⟨?_, ?_, ?_⟩ <;> omega
  · push Not at hx
    obtain ⟨h1, h2⟩ := h.negBid x hx
    rw [h1, h2, max_eq_left (by omega)]
    omega

theorem _root_.Blend.Spec.FillTerms.lot_bounds {k n : Nat} {a taken : AuctionData} {rest : Option AuctionData}
    (h : FillTerms k n a taken rest) (x : Address) :
    0 ≤ taken.lot.bal x ∧ 0 ≤ leftLot rest x ∧ taken.lot.bal x + leftLot rest x ≤ max 0 (a.lot.bal x) := by
  by_cases hx : 0 ≤ a.lot.bal x
  · obtain ⟨part, h1, h2, h3⟩ := h.lot x hx
    obtain ⟨p0, p1⟩ := part_bounds_floor h.range hx h1
    obtain ⟨c1, c2⟩ := h2
    have d0 := lotDue_nonneg k
    have d1 := lotDue_le k
    have m0 : 0 ≤ part * lotDue k := Int.mul_nonneg p0 d0
    have m1 : part * lotDue k ≤ part * 200 := Int.mul_le_mul_of_nonneg_left d1 p0
    rw [max_eq_right hx, h3]
    refine ⟨?_, ?_, ?_⟩ <;> omega
  · push Not at hx
    obtain ⟨h1, h2⟩ := h.negLot x hx
    rw [h1, h2, max_eq_left (by omega)]
    omega

theorem _root_.Blend.Spec.FillTerms.bid_anti {k k' n : Nat} {a taken taken' : AuctionData} {rest rest' : Option AuctionData}
    (h : FillTerms k n a taken rest) (h' : FillTerms k' n a taken' rest') (hk : k ≤ k') (x : Address) :
    taken'.bid.bal x ≤ taken.bid.bal x := by
  by_cases hx : 0 ≤ a.bid.bal x
  · obtain ⟨part, h1, h2, _⟩ := h.bid x hx
    obtain ⟨part', h1', h2', _⟩ := h'.bid x hx
    obtain rfl := isCeil_unique (by decide) h1 h1'
    exact isCeil_mono (by decide) h2' h2 (Int.mul_le_mul_of_nonneg_left (bidDue_anti hk) (part_bounds_ceil h.range hx h1).1)
  · push Not at hx
    rw [(h.negBid x hx).1, (h'.negBid x hx).1]

theorem _root_.Blend.Spec.FillTerms.lot_mono {k k' n : Nat} {a taken taken' : AuctionData} {rest rest' : Option AuctionData}
    (h : FillTerms k n a taken rest) (h' : FillTerms k' n a taken' rest') (hk : k ≤ k') (x : Address) :
    taken.lot.bal x ≤ taken'.lot.bal x := by
  by_cases hx : 0 ≤ a.lot.bal x
  · obtain ⟨part, h1, h2, _⟩ := h.lot x hx
    obtain ⟨part', h1', h2', _⟩ := h'.lot x hx
    obtain rfl := isFloor_unique (by decide) h1 h1'
    exact isFloor_mono (by decide) h2 h2' (Int.mul_le_mul_of_nonneg_left (lotDue_mono hk) (part_bounds_floor h.range hx h1).1)
  · push Not at hx
    rw [(h.negLot x hx).1, (h'.negLot x hx).1]

/-- a fill of 100 percent removes the auction -/
theorem _root_.Blend.Spec.FillTerms.full {k : Nat} {a taken : AuctionData} {rest : Option AuctionData}
    (h : FillTerms k 100 a taken rest) : rest = none := by
  cases hrest : rest with
  | none => rfl
  | some r =>
    obtain ⟨x, hx⟩ := h.removed r hrest
    exfalso
    rcases hx with hx | hx
    · by_cases ha : 0 ≤ a.bid.bal x
      · obtain ⟨part, ⟨p1, p2⟩, _, h3⟩ := h.bid x ha
        rw [hrest] at h3
        simp only [leftBid] at h3
        simp only [Nat.cast_ofNat] at p1 p2
        omega
      · push Not at ha
        have := (h.negBid x ha).2
        rw [hrest] at this
        simp only [leftBid] at this
        omega
    · by_cases ha : 0 ≤ a.lot.bal x
      · obtain ⟨part, ⟨p1, p2⟩, _, h3⟩ := h.lot x ha
        rw [hrest] at h3
        simp only [leftLot] at h3
        simp only [Nat.cast_ofNat] at p1 p2
        omega
      · push Not at ha
        have := (h.negLot x ha).2
        rw [hrest] at this
        simp only [leftLot] at this
        omega

/-- the start block of every auction that is left is that of the auction before -/
theorem FullRun_block {w : World} {p sender : Address} {l : List Request} {B B2 : Books}
    (h : FullRun w p sender l B B2) (t : Nat) (u : Address) {P : Nat → Prop} (h0 : ∀ a, B.auction t u = some a → P a.block) :
    ∀ a, B2.auction t u = some a → P a.block :=
  h.auctionInv t u (fun o => ∀ a, o = some a → P a.block) (by simp)
    (fun _ _ _ _ _ hf hp r hr => by rw [hf.block r hr]; exact hp _ rfl) h0

/-! ### Sequences of fills -/

theorem _root_.Blend.Spec.Fills.append {a b c : Option AuctionData} {l l' : List (Nat × Nat × AuctionData)}
    (h : Fills a l b) (h' : Fills b l' c) : ∃ l'', Fills a l'' c := by
  induction h with
  | nil => exact ⟨_, h'⟩
  | gone r =>
    cases h' with
    | nil => exact ⟨_, .gone _⟩
    | gone => exact ⟨_, .gone _⟩
  | fill hf _ ih =>
    obtain ⟨l'', h''⟩ := ih h'
    exact ⟨_, .fill hf h''⟩

theorem _root_.Blend.Spec.Fills.bound {a r : Option AuctionData} {l : List (Nat × Nat × AuctionData)} (h : Fills a l r) (x : Address) :
    bidTaken l x + leftBid r x ≤ max 0 (leftBid a x) ∧ lotTaken l x + leftLot r x ≤ max 0 (leftLot a x) := by
  induction h with
  | nil r => simp [bidTaken, lotTaken]
  | gone r => simp [bidTaken, lotTaken, leftBid, leftLot]
  | @fill k n a taken rest l r hf _ ih =>
    obtain ⟨b1, b2, b3⟩ := hf.bid_bounds x
    obtain ⟨l1, l2, l3⟩ := hf.lot_bounds x
    rw [max_eq_right b2, max_eq_right l2] at ih
    have e1 : bidTaken ((k, n, taken) :: l) x = taken.bid.bal x + bidTaken l x := by simp [bidTaken]
    have e2 : lotTaken ((k, n, taken) :: l) x = taken.lot.bal x + lotTaken l x := by simp [lotTaken]
    have e3 : leftBid (some a) x = a.bid.bal x := rfl
    have e4 : leftLot (some a) x = a.lot.bal x := rfl
    rw [e1, e2, e3, e4]
    omega

theorem _root_.Blend.Spec.FullRun.fills {w : World} {p sender : Address} {l : List Request} {B B2 : Books}
    (h : FullRun w p sender l B B2) (t : Nat) (u : Address) : ∃ f, Fills (B.auction t u) f (B2.auction t u) := by
  induction h with
  | nil => exact ⟨[], .nil _⟩
  | plain _ _ _ _ _ ih => exact ih
  | auction he _ ih =>
    obtain ⟨f, hf⟩ := ih
    rcases he.auctionCases t u with e | ⟨_, _, _, e⟩ | ⟨n, a, taken, rest, _, ⟨_, _, e1, e2, e3⟩, e⟩
    · exact ⟨f, by rw [← e]; exact hf⟩
    · rw [e] at hf; exact Fills.append (.gone _) hf
    · rw [e] at hf; rw [e1]; exact ⟨_, .fill e3 hf⟩

end Pool
end Blend
