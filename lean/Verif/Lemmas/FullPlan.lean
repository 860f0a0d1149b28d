import Verif.Spec.FullPlan
import Verif.Lemmas.LiveNew
import Verif.Lemmas.SumLemmas
/-
  Uniqueness of the effect of a request on an auction, and the totals of the shares in the middle of a submit (C62).
-/

namespace Blend
namespace Pool
open Spec

theorem positive_ext {m m' : SMap Int} (h : Positive m) (h' : Positive m') (e : ∀ x, m.bal x = m'.bal x) : m = m' := by
  apply SMap.ext_get
  intro x
  have ex := e x
  unfold SMap.bal at ex
  cases h1 : m.get x with
  | none =>
    cases h2 : m'.get x with
    | none => rfl
    | some v =>
      have := h' x v h2
      rw [h1, h2] at ex
      simp only [Option.getD_none, Option.getD_some] at ex
      omega
  | some v =>
    cases h2 : m'.get x with
    | none =>
      have := h x v h1
      rw [h1, h2] at ex
      simp only [Option.getD_none, Option.getD_some] at ex
      omega
    | some v' =>
      rw [h1, h2] at ex
      simp only [Option.getD_some] at ex
      rw [ex]

theorem _root_.Blend.Spec.FillTerms.unique {k n : Nat} {a t t' : AuctionData} {r r' : Option AuctionData} (h : FillTerms k n a t r)
    (h' : FillTerms k n a t' r') : t.bid = t'.bid ∧ t.lot = t'.lot ∧ r = r' := by
  have hb : ∀ x, t.bid.bal x = t'.bid.bal x ∧ leftBid r x = leftBid r' x := by
    intro x
    by_cases hx : 0 ≤ a.bid.bal x
    · obtain ⟨y, e1, e2, e3⟩ := h.bid x hx
      obtain ⟨y', e1', e2', e3'⟩ := h'.bid x hx
      have := ceil_unique e1 e1' (by decide)
      subst this
      have := ceil_unique e2 e2' (by decide)
      exact ⟨this, by omega⟩
    · obtain ⟨e1, e2⟩ := h.negBid x (by omega)
      obtain ⟨e1', e2'⟩ := h'.negBid x (by omega)
      omega
  have hl : ∀ x, t.lot.bal x = t'.lot.bal x ∧ leftLot r x = leftLot r' x := by
    intro x
    by_cases hx : 0 ≤ a.lot.bal x
    · obtain ⟨y, e1, e2, e3⟩ := h.lot x hx
      obtain ⟨y', e1', e2', e3'⟩ := h'.lot x hx
      have := floor_unique e1 e1' (by decide)
      subst this
      have := floor_unique e2 e2' (by decide)
      exact ⟨this, by omega⟩
    · obtain ⟨e1, e2⟩ := h.negLot x (by omega)
      obtain ⟨e1', e2'⟩ := h'.negLot x (by omega)
      omega
  refine ⟨positive_ext h.positive.1 h'.positive.1 fun x => (hb x).1, positive_ext h.positive.2 h'.positive.2 fun x => (hl x).1, ?_⟩
  have none_some : ∀ {r r' : Option AuctionData}, (∀ x, r = some x → ∃ y, 0 < x.bid.bal y ∨ 0 < x.lot.bal y) → (∀ x, leftBid r x = leftBid r' x) →
      (∀ x, leftLot r x = leftLot r' x) → r' = none → r = none := by
    intro r r' h1 h2 h3 h4
    subst h4
    cases r with
    | none => rfl
    | some x =>
      obtain ⟨y, hy⟩ := h1 x rfl
      have e1 := h2 y
      have e2 := h3 y
      simp only [leftBid, leftLot] at e1 e2
      omega
  cases r with
  | none =>
    exact (none_some h'.removed (fun x => (hb x).2.symm) (fun x => (hl x).2.symm) rfl).symm
  | some x =>
    cases r' with
    | none =>
      have := none_some h.removed (fun x => (hb x).2) (fun x => (hl x).2) rfl
      cases this
    | some x' =>
      have p := h.restPositive x rfl
      have p' := h'.restPositive x' rfl
      have e1 := positive_ext p.1 p'.1 fun y => (hb y).2
      have e2 := positive_ext p.2 p'.2 fun y => (hl y).2
      have e3 := (h.block x rfl).trans (h'.block x' rfl).symm
      obtain ⟨b, l, k⟩ := x
      obtain ⟨b', l', k'⟩ := x'
      simp only at e1 e2 e3
      subst e1 e2 e3
      rfl

theorem _root_.Blend.Spec.Filling.unique {w : World} {B : Books} {sender : Address} {t : Nat} {u : Address} {n : Int} {a a' tk tk' : AuctionData}
    {r r' : Option AuctionData} (h : Filling w B sender t u n a tk r) (h' : Filling w B sender t u n a' tk' r') :
    tk.bid = tk'.bid ∧ tk.lot = tk'.lot ∧ r = r' := by
  obtain ⟨_, _, h1, _, h2⟩ := h
  obtain ⟨_, _, h1', _, h2'⟩ := h'
  rw [h1] at h1'; cases h1'
  exact h2.unique h2'

theorem gone_unique {P Q : Prop} {g g' v : Nat → Int} (hz : P → ∀ k, v k = 0)
    (h : (∀ i, g i = 0) ∧ (P ∨ ¬ Q) ∨ (∀ i, g i = v i) ∧ Q) (h' : (∀ i, g' i = 0) ∧ (P ∨ ¬ Q) ∨ (∀ i, g' i = v i) ∧ Q) : g = g' := by
  funext k
  rcases h with ⟨x1, x2⟩ | ⟨x1, x2⟩ <;> rcases h' with ⟨y1, y2⟩ | ⟨y1, y2⟩
  · rw [x1, y1]
  · rcases x2 with x2 | x2
    · rw [x1, y1, hz x2]
    · exact (x2 y2).elim
  · rcases y2 with y2 | y2
    · rw [x1, y1, hz y2]
    · exact (y2 x2).elim
  · rw [x1, y1]

theorem _root_.Blend.Spec.AuctionEffect.unique {w : World} {p sender : Address} {B B1 B2 : Books} {q : Request} (h : AuctionEffect w p sender B q B1)
    (h' : AuctionEffect w p sender B q B2) : B1 = B2 := by
  cases h with
  | liquidation f _ _ _ =>
    cases h' with
    | liquidation f' _ _ _ =>
      obtain ⟨e1, e2, e3⟩ := f.unique f'
      rw [e1, e2, e3]
  | badDebt f a1 _ a2 _ _ _ _ _ a3 _ _ =>
    cases h' with
    | badDebt f' b1 _ b2 _ _ _ _ _ b3 _ _ =>
      obtain ⟨e1, e2, e3⟩ := f.unique f'
      rw [a1] at b1; cases b1
      rw [a2] at b2; cases b2
      rw [← e1, ← e2] at b3
      have := gone_unique (fun h k => by rw [h k]; exact Int.sub_self _) a3 b3
      rw [e1, e2, e3, this]
  | interest f a1 _ a2 _ _ _ _ _ _ =>
    cases h' with
    | interest f' b1 _ b2 _ _ _ _ _ _ =>
      obtain ⟨e1, e2, e3⟩ := f.unique f'
      rw [a1] at b1; cases b1
      rw [a2] at b2; cases b2
      rw [e1, e2, e3]
  | delete _ _ =>
    cases h' with
    | delete _ _ => rfl

/-! ### totals -/

/-- the shares of one kind of an account -/
def Kind.of (k : Kind) (A : Account) : Nat → Int :=
  match k with
  | .supp => A.supplied
  | .coll => A.collateral
  | .liab => A.debt

theorem Kind.of_accountOf (k : Kind) (ps : PoolState) (x : Address) (i : Nat) : k.of (accountOf ps x) i = (k.map (getPositions ps x)).bal i := by
  cases k <;> rfl

/-- the total of the shares of a kind as a sum over addresses -/
theorem tot_sum (ps : PoolState) (k : Kind) (i : Nat) {X : Finset Address} (hX : ∀ x, x ∉ X → k.of (accountOf ps x) i = 0) :
    tot ps k i = X.sum fun x => k.of (accountOf ps x) i := by
  have h1 : tot ps k i = ps.positions.sum fun x _ => k.of (accountOf ps x) i := by
    unfold tot
    refine SMap.sum_congr fun x pos hx => ?_
    rw [Kind.of_accountOf]
    unfold getPositions
    rw [hx]; rfl
  rw [h1, SMap.sum_eq_finset]
  have hz : ∀ x, x ∉ (ps.positions.toList.map (·.1)).toFinset → k.of (accountOf ps x) i = 0 := by
    intro x hx
    rw [Kind.of_accountOf]
    unfold getPositions
    cases hg : ps.positions.get x with
    | some pos =>
      exfalso
      apply hx
      rw [List.mem_toFinset, List.mem_map]
      exact ⟨(x, pos), SMap.mem_toList.2 hg, rfl⟩
    | none => cases k <;> rfl
  rw [Finset.sum_subset (Finset.subset_union_left (s₂ := X)) (fun x _ hx => hz x hx),
    Finset.sum_subset (Finset.subset_union_right (s₁ := (ps.positions.toList.map (·.1)).toFinset)) (fun x _ hx => hX x hx)]

/-- the total of the shares of a kind, from those of another state -/
theorem tot_diff (ps ps' : PoolState) (k : Kind) (i : Nat) {X : Finset Address} (hX : ∀ x, x ∉ X → k.of (accountOf ps' x) i = k.of (accountOf ps x) i) :
    tot ps' k i = tot ps k i + X.sum fun x => k.of (accountOf ps' x) i - k.of (accountOf ps x) i := by
  have hz : ∀ (ps : PoolState) x, x ∉ (ps.positions.toList.map (·.1)).toFinset → k.of (accountOf ps x) i = 0 := by
    intro ps x hx
    rw [Kind.of_accountOf]
    unfold getPositions
    cases hg : ps.positions.get x with
    | some pos =>
      exfalso
      apply hx
      rw [List.mem_toFinset, List.mem_map]
      exact ⟨(x, pos), SMap.mem_toList.2 hg, rfl⟩
    | none => cases k <;> rfl
  set Y := (ps.positions.toList.map (·.1)).toFinset ∪ (ps'.positions.toList.map (·.1)).toFinset with hY
  rw [tot_sum ps k i (X := Y) (fun x hx => hz ps x fun h => hx (Finset.mem_union_left _ h)),
    tot_sum ps' k i (X := Y) (fun x hx => hz ps' x fun h => hx (Finset.mem_union_right _ h))]
  have e1 : (X.sum fun x => k.of (accountOf ps' x) i - k.of (accountOf ps x) i) = Y.sum fun x => k.of (accountOf ps' x) i - k.of (accountOf ps x) i := by
    rw [Finset.sum_subset (Finset.subset_union_left (s₂ := X)) (s₁ := Y) (fun x _ hx => by
        rw [hz ps x fun h => hx (Finset.mem_union_left _ h), hz ps' x fun h => hx (Finset.mem_union_right _ h)]; rfl),
      Finset.sum_subset (Finset.subset_union_right (s₁ := Y)) (fun x _ hx => by rw [hX x hx]; omega)]
  rw [e1, Finset.sum_sub_distrib]
  ring

section
variable {w : World} {p sender : Address} {s : SubmitState}

theorem books_acct (x : Address) (k : Kind) (i : Nat) :
    k.of ((s.books w p).acct x) i = k.of (accountOf (s.vs p).ps x) i := by
  show _ = k.of (accountOf (overlay (s.fl.w.pools p) s.fl.cache [s.fl.user]) x) i
  rw [Kind.of_accountOf]
  unfold SubmitState.books
  dsimp only
  by_cases hx : x = s.fl.user.addr
  · rw [if_pos hx, hx]
    have := getPositions_overlay_last (s.fl.w.pools p) s.fl.cache [] s.fl.user
    simp only [List.nil_append] at this
    rw [this]
    cases k <;> rfl
  · rw [if_neg hx, Kind.of_accountOf, getPositions_overlay_ne _ _ _ _ hx]

/-- outside a finite set of addresses nothing has changed -/
theorem books_finite : ∃ X : Finset Address, ∀ x, x ∉ X → ∀ (k : Kind) i,
    k.of ((s.books w p).acct x) i = k.of (accountOf (w.pools p) x) i := by
  have hz : ∀ (ps : PoolState) x, x ∉ (ps.positions.toList.map (·.1)).toFinset → ∀ (k : Kind) i, k.of (accountOf ps x) i = 0 := by
    intro ps x hx k i
    rw [Kind.of_accountOf]
    unfold getPositions
    cases hg : ps.positions.get x with
    | some pos =>
      exfalso
      apply hx
      rw [List.mem_toFinset, List.mem_map]
      exact ⟨(x, pos), SMap.mem_toList.2 hg, rfl⟩
    | none => cases k <;> rfl
  refine ⟨((s.vs p).ps.positions.toList.map (·.1)).toFinset ∪ ((w.pools p).positions.toList.map (·.1)).toFinset, fun x hx k i => ?_⟩
  rw [books_acct, hz _ x (fun h => hx (Finset.mem_union_left _ h)), hz _ x (fun h => hx (Finset.mem_union_right _ h))]

/-- the totals in the middle of a submit, from the books -/
theorem books_tot {k : Kind} {i : Nat} {X : Finset Address}
    (hX : ∀ x, x ∉ X → k.of ((s.books w p).acct x) i = k.of (accountOf (w.pools p) x) i) :
    tot (s.vs p).ps k i = tot (w.pools p) k i + X.sum fun x => k.of ((s.books w p).acct x) i - k.of (accountOf (w.pools p) x) i := by
  rw [tot_diff (w.pools p) (s.vs p).ps k i (X := X) (fun x hx => by rw [← books_acct]; exact hX x hx)]
  congr 1
  exact Finset.sum_congr rfl fun x _ => by rw [books_acct]

/-- the two forms of the condition on the utilization after a borrow -/
theorem util_within {b dr : Int} {d : ReserveData} {i m : Nat} {q : Request} {A1 : Account} (h4 : q.type = 4)
    (he : Effect b dr i ((s.books w p).acct sender) q A1) :
    UtilWithin w p (upd (s.books w p).acct sender A1) d i m ↔ UtilAtMost { d with
      bSupply := d.bSupply + ((tot (s.vs p).ps .supp i - tot (w.pools p) .supp i) + (tot (s.vs p).ps .coll i - tot (w.pools p) .coll i))
      dSupply := d.dSupply + (tot (s.vs p).ps .liab i - tot (w.pools p) .liab i) + (A1.debt i - ((s.books w p).acct sender).debt i) } m := by
  have hbc := effect_borrow (j := i) he h4
  -- for every finite set with the sender, the data are the same
  have key : ∀ Y : Finset Address, sender ∈ Y → (∀ x, x ∉ Y → ∀ k : Kind, k.of ((s.books w p).acct x) i = k.of (accountOf (w.pools p) x) i) →
      withAccounts d i Y (accountOf (w.pools p)) (upd (s.books w p).acct sender A1) = { d with
        bSupply := d.bSupply + ((tot (s.vs p).ps .supp i - tot (w.pools p) .supp i) + (tot (s.vs p).ps .coll i - tot (w.pools p) .coll i))
        dSupply := d.dSupply + (tot (s.vs p).ps .liab i - tot (w.pools p) .liab i) + (A1.debt i - ((s.books w p).acct sender).debt i) } := by
    intro Y hs hY
    have t1 := books_tot (w := w) (s := s) (k := .supp) (i := i) (X := Y) fun x hx => hY x hx .supp
    have t2 := books_tot (w := w) (s := s) (k := .coll) (i := i) (X := Y) fun x hx => hY x hx .coll
    have t3 := books_tot (w := w) (s := s) (k := .liab) (i := i) (X := Y) fun x hx => hY x hx .liab
    simp only [Kind.of] at t1 t2 t3
    unfold withAccounts
    have g1 : ∀ x, x ∈ Y → x ≠ sender → upd (s.books w p).acct sender A1 x = (s.books w p).acct x := fun x _ hx => by rw [upd_ne hx]
    have e1 : (Y.sum fun x => (upd (s.books w p).acct sender A1 x).supplied i + (upd (s.books w p).acct sender A1 x).collateral i -
          ((accountOf (w.pools p) x).supplied i + (accountOf (w.pools p) x).collateral i)) =
        Y.sum fun x => (((s.books w p).acct x).supplied i - (accountOf (w.pools p) x).supplied i) +
          (((s.books w p).acct x).collateral i - (accountOf (w.pools p) x).collateral i) := by
      refine Finset.sum_congr rfl fun x hx => ?_
      by_cases hxs : x = sender
      · subst hxs
        rw [upd_same]; omega
      · rw [g1 x hx hxs]; omega
    have e2 : (Y.sum fun x => (upd (s.books w p).acct sender A1 x).debt i - (accountOf (w.pools p) x).debt i) =
        (Y.sum fun x => ((s.books w p).acct x).debt i - (accountOf (w.pools p) x).debt i) + (A1.debt i - ((s.books w p).acct sender).debt i) := by
      rw [← Finset.add_sum_erase Y _ hs, ← Finset.add_sum_erase Y (fun x => ((s.books w p).acct x).debt i - (accountOf (w.pools p) x).debt i) hs]
      rw [upd_same, Finset.sum_congr rfl (g := fun x => ((s.books w p).acct x).debt i - (accountOf (w.pools p) x).debt i) fun x hx => by
        rw [g1 x (Finset.mem_of_mem_erase hx) (Finset.ne_of_mem_erase hx)]]
      ring
    rw [e1, e2, t1, t2, t3, Finset.sum_add_distrib]
    congr 1 <;> ring
  constructor
  · rintro ⟨X, hX, hu⟩
    rw [← key (insert sender X) (Finset.mem_insert_self _ _) fun x hx k => ?_]
    · by_cases hs : sender ∈ X
      · rw [Finset.insert_eq_of_mem hs]; exact hu
      · have hz := hX sender hs
        have : withAccounts d i (insert sender X) (accountOf (w.pools p)) (upd (s.books w p).acct sender A1) =
            withAccounts d i X (accountOf (w.pools p)) (upd (s.books w p).acct sender A1) := by
          unfold withAccounts
          rw [Finset.sum_insert hs, Finset.sum_insert hs, hz.1, hz.2.1, hz.2.2]
          congr 1 <;> ring
        rw [this]; exact hu
    · rw [Finset.mem_insert, not_or] at hx
      have := hX x hx.2
      rw [upd_ne hx.1] at this
      cases k
      · exact this.2.2
      · exact this.2.1
      · exact this.1
  · intro hu
    obtain ⟨X, hX⟩ := books_finite (w := w) (p := p) (s := s)
    refine ⟨insert sender X, fun x hx => ?_, ?_⟩
    · rw [Finset.mem_insert, not_or] at hx
      rw [upd_ne hx.1]
      exact ⟨hX x hx.2 .supp i, hX x hx.2 .coll i, hX x hx.2 .liab i⟩
    · rw [key (insert sender X) (Finset.mem_insert_self _ _) fun x hx k => ?_]
      · exact hu
      · rw [Finset.mem_insert, not_or] at hx
        exact hX x hx.2 k i

end

end Pool
end Blend
