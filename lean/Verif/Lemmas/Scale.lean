import Verif.Spec.Auction
import Verif.Lemmas.Plain
import Verif.Lemmas.MicroFill
/-
  `scale_auction` against its specification.
-/

namespace Blend
namespace Pool
open Spec

theorem IsCeil.scale {v x y k : Int} (hk : 0 < k) : IsCeil v (x * k) (y * k) ↔ IsCeil v x y := by
  unfold IsCeil
  rw [← mul_assoc, ← mul_assoc, mul_lt_mul_iff_left₀ hk, mul_le_mul_iff_left₀ hk]

theorem IsFloor.scale {v x y k : Int} (hk : 0 < k) : IsFloor v (x * k) (y * k) ↔ IsFloor v x y := by
  unfold IsFloor
  rw [← mul_assoc, ← mul_assoc, mul_lt_mul_iff_left₀ hk, mul_le_mul_iff_left₀ hk]

theorem scaleBid_ok {n : Nat} {m : Int} : ∀ (l : List (Nat × Int)) (rem fill rem' fill' : SMap Int),
    l.Pairwise (fun a b => a.1 < b.1) → scaleBid (n * 100000) (m * 50000) l (rem, fill) = .ok (rem', fill') →
    (∀ x, (∀ v, (x, v) ∉ l) → rem'.get x = rem.get x ∧ fill'.get x = fill.get x) ∧
    (∀ x v, (x, v) ∈ l → ∃ part t, IsCeil part (v * n) 100 ∧ IsCeil t (part * m) 200 ∧
      rem'.get x = (if v - part > 0 then some (v - part) else rem.get x) ∧ fill'.get x = if t > 0 then some t else fill.get x) := by
  intro l
  induction l with
  | nil =>
    intro rem fill rem' fill' _ h
    simp only [scaleBid, pure_ok, Prod.mk.injEq] at h
    obtain ⟨rfl, rfl⟩ := h
    simp
  | cons kv l ih =>
    obtain ⟨a, amount⟩ := kv
    intro rem fill rem' fill' hs h
    simp only [scaleBid, bind_ok, chk_ok] at h
    obtain ⟨base, hbase, left, ⟨_, rfl⟩, t, ht, h⟩ := h
    rw [List.pairwise_cons] at hs
    obtain ⟨h1, h2⟩ := ih _ _ _ _ hs.2 h
    have c1 : IsCeil base (amount * n) 100 := by
      have := ceil_spec hbase (by decide)
      rw [show SCALAR_7 = 100 * 100000 from rfl, ← mul_assoc] at this
      exact (IsCeil.scale (by decide)).1 this
    have c2 : IsCeil t (base * m) 200 := by
      have := ceil_spec ht (by decide)
      rw [show SCALAR_7 = 200 * 50000 from rfl, ← mul_assoc] at this
      exact (IsCeil.scale (by decide)).1 this
    refine ⟨fun x hx => ?_, fun x v hxv => ?_⟩
    · have hxa : x ≠ a := by rintro rfl; exact hx amount (by simp)
      obtain ⟨k1, k2⟩ := h1 x fun v hv => hx v (by simp [hv])
      rw [k1, k2]
      constructor
      · split
        · rw [SMap.get_set_ne hxa]
        · rfl
      · split
        · rw [SMap.get_set_ne hxa]
        · rfl
    · rcases List.mem_cons.1 hxv with e | hm
      · cases e
        obtain ⟨k1, k2⟩ := h1 a fun v hv => by have := hs.1 _ hv; simp at this
        refine ⟨base, t, c1, c2, ?_, ?_⟩
        · rw [k1]; split <;> simp_all
        · rw [k2]; split <;> simp_all
      · have hxa : x ≠ a := by rintro rfl; have := hs.1 _ hm; simp at this
        obtain ⟨part, t', e1, e2, e3, e4⟩ := h2 x v hm
        refine ⟨part, t', e1, e2, ?_, ?_⟩
        · rw [e3]; split
          · rfl
          · split
            · rw [SMap.get_set_ne hxa]
            · rfl
        · rw [e4]; split
          · rfl
          · split
            · rw [SMap.get_set_ne hxa]
            · rfl

theorem scaleLot_ok {n : Nat} {m : Int} : ∀ (l : List (Nat × Int)) (rem fill rem' fill' : SMap Int),
    l.Pairwise (fun a b => a.1 < b.1) → scaleLot (n * 100000) (m * 50000) l (rem, fill) = .ok (rem', fill') →
    (∀ x, (∀ v, (x, v) ∉ l) → rem'.get x = rem.get x ∧ fill'.get x = fill.get x) ∧
    (∀ x v, (x, v) ∈ l → ∃ part t, IsFloor part (v * n) 100 ∧ IsFloor t (part * m) 200 ∧
      rem'.get x = (if v - part > 0 then some (v - part) else rem.get x) ∧ fill'.get x = if t > 0 then some t else fill.get x) := by
  intro l
  induction l with
  | nil =>
    intro rem fill rem' fill' _ h
    simp only [scaleLot, pure_ok, Prod.mk.injEq] at h
    obtain ⟨rfl, rfl⟩ := h
    simp
  | cons kv l ih =>
    obtain ⟨a, amount⟩ := kv
    intro rem fill rem' fill' hs h
    simp only [scaleLot, bind_ok, chk_ok] at h
    obtain ⟨base, hbase, left, ⟨_, rfl⟩, t, ht, h⟩ := h
    rw [List.pairwise_cons] at hs
    obtain ⟨h1, h2⟩ := ih _ _ _ _ hs.2 h
    have c1 : IsFloor base (amount * n) 100 := by
      have := floor_spec hbase (by decide)
      rw [show SCALAR_7 = 100 * 100000 from rfl, ← mul_assoc] at this
      exact (IsFloor.scale (by decide)).1 this
    have c2 : IsFloor t (base * m) 200 := by
      have := floor_spec ht (by decide)
      rw [show SCALAR_7 = 200 * 50000 from rfl, ← mul_assoc] at this
      exact (IsFloor.scale (by decide)).1 this
    refine ⟨fun x hx => ?_, fun x v hxv => ?_⟩
    · have hxa : x ≠ a := by rintro rfl; exact hx amount (by simp)
      obtain ⟨k1, k2⟩ := h1 x fun v hv => hx v (by simp [hv])
      rw [k1, k2]
      constructor
      · split
        · rw [SMap.get_set_ne hxa]
        · rfl
      · split
        · rw [SMap.get_set_ne hxa]
        · rfl
    · rcases List.mem_cons.1 hxv with e | hm
      · cases e
        obtain ⟨k1, k2⟩ := h1 a fun v hv => by have := hs.1 _ hv; simp at this
        refine ⟨base, t, c1, c2, ?_, ?_⟩
        · rw [k1]; split <;> simp_all
        · rw [k2]; split <;> simp_all
      · have hxa : x ≠ a := by rintro rfl; have := hs.1 _ hm; simp at this
        obtain ⟨part, t', e1, e2, e3, e4⟩ := h2 x v hm
        refine ⟨part, t', e1, e2, ?_, ?_⟩
        · rw [e3]; split
          · rfl
          · split
            · rw [SMap.get_set_ne hxa]
            · rfl
        · rw [e4]; split
          · rfl
          · split
            · rw [SMap.get_set_ne hxa]
            · rfl

theorem modifiers_eq (k : Nat) : auctionModifiers k = (bidDue k * 50000, lotDue k * 50000) := by
  unfold auctionModifiers bidDue lotDue SCALAR_7
  by_cases h1 : k ≤ 200
  · rw [if_neg (by omega), if_pos h1]
    by_cases h2 : k < 200
    · rw [if_pos h2]; norm_num
    · rw [if_neg h2]
      have : k = 200 := by omega
      subst this; norm_num
  · rw [if_pos (by omega), if_neg h1, if_neg (show ¬ k < 200 by omega)]
    by_cases h2 : k < 400
    · rw [if_pos (by omega), if_pos h2]
      congr 1; omega
    · rw [if_neg (by omega), if_neg h2]; norm_num

theorem bidDue_range (k : Nat) : 0 ≤ bidDue k ∧ bidDue k ≤ 200 := by
  unfold bidDue; split
  · omega
  · split <;> omega

theorem lotDue_range (k : Nat) : 0 ≤ lotDue k ∧ lotDue k ≤ 200 := by
  unfold lotDue; split <;> omega

theorem part_ceil {v part n : Int} (h : IsCeil part (v * n) 100) (h1 : 0 ≤ n) (h2 : n ≤ 100) :
    (0 ≤ v → 0 ≤ part ∧ part ≤ v) ∧ (v ≤ 0 → part ≤ 0 ∧ v ≤ part) := by
  obtain ⟨a, b⟩ := h
  constructor <;> intro hv <;> constructor <;> nlinarith

theorem part_floor {v part n : Int} (h : IsFloor part (v * n) 100) (h1 : 0 ≤ n) (h2 : n ≤ 100) :
    (0 ≤ v → 0 ≤ part ∧ part ≤ v) ∧ (v ≤ 0 → part ≤ 0 ∧ v ≤ part) := by
  obtain ⟨a, b⟩ := h
  constructor <;> intro hv <;> constructor <;> nlinarith

theorem due_ceil {t part m : Int} (h : IsCeil t (part * m) 200) (h1 : 0 ≤ m) : (0 ≤ part → 0 ≤ t) ∧ (part ≤ 0 → t ≤ 0) := by
  obtain ⟨a, b⟩ := h
  constructor <;> intro hv <;> nlinarith

theorem due_floor {t part m : Int} (h : IsFloor t (part * m) 200) (h1 : 0 ≤ m) : (0 ≤ part → 0 ≤ t) ∧ (part ≤ 0 → t ≤ 0) := by
  obtain ⟨a, b⟩ := h
  constructor <;> intro hv <;> nlinarith

theorem bal_of_get {m : SMap Int} {x : Nat} {c : Prop} [Decidable c] {v : Int} (h : m.get x = if c then some v else none) :
    m.bal x = if c then v else 0 := by
  unfold SMap.bal; rw [h]; split <;> rfl

theorem scaleAuction_ok {seq n : Nat} {a f : AuctionData} {rest : Option AuctionData} (h : scaleAuction seq a n = .ok (f, rest)) :
    a.block ≤ seq ∧ f.block = a.block ∧ FillTerms (seq - a.block) n a f rest := by
  have hpos := scaleAuction_pos h
  unfold scaleAuction at h
  simp only [bind_ok, require_ok, subU_ok, Prod.exists, ite_ok, pure_ok, Prod.mk.injEq] at h
  obtain ⟨_, hp, dif, ⟨hb, rfl⟩, h⟩ := h
  rw [modifiers_eq] at h
  simp only at h
  obtain ⟨rb, fb, h1, rl, fl, h2, h⟩ := h
  have hr : 1 ≤ n ∧ n ≤ 100 := by omega
  have hn0 : (0 : Int) ≤ n := by omega
  have hn1 : (n : Int) ≤ 100 := by exact_mod_cast hr.2
  have bd := bidDue_range (seq - a.block)
  have ld := lotDue_range (seq - a.block)
  obtain ⟨b1, b2⟩ := scaleBid_ok _ _ _ _ _ a.bid.sorted h1
  obtain ⟨l1, l2⟩ := scaleLot_ok _ _ _ _ _ a.lot.sorted h2
  -- one asset of the bid
  have kb : ∀ x, ∃ part t, IsCeil part (a.bid.bal x * n) 100 ∧ IsCeil t (part * bidDue (seq - a.block)) 200 ∧
      rb.bal x = (if a.bid.bal x - part > 0 then a.bid.bal x - part else 0) ∧ fb.bal x = if t > 0 then t else 0 := by
    intro x
    cases hx : a.bid.get x with
    | none =>
      obtain ⟨e1, e2⟩ := b1 x fun v hv => by rw [SMap.mem_toList.1 hv] at hx; cases hx
      refine ⟨0, 0, ?_, ?_, ?_, ?_⟩ <;> simp [SMap.bal, hx, e1, e2, IsCeil]
    | some v =>
      obtain ⟨part, t, e1, e2, e3, e4⟩ := b2 x v (SMap.mem_toList.2 hx)
      rw [SMap.get_empty] at e3 e4
      have : a.bid.bal x = v := by simp [SMap.bal, hx]
      rw [this]
      exact ⟨part, t, e1, e2, bal_of_get e3, bal_of_get e4⟩
  have kl : ∀ x, ∃ part t, IsFloor part (a.lot.bal x * n) 100 ∧ IsFloor t (part * lotDue (seq - a.block)) 200 ∧
      rl.bal x = (if a.lot.bal x - part > 0 then a.lot.bal x - part else 0) ∧ fl.bal x = if t > 0 then t else 0 := by
    intro x
    cases hx : a.lot.get x with
    | none =>
      obtain ⟨e1, e2⟩ := l1 x fun v hv => by rw [SMap.mem_toList.1 hv] at hx; cases hx
      refine ⟨0, 0, ?_, ?_, ?_, ?_⟩ <;> simp [SMap.bal, hx, e1, e2, IsFloor]
    | some v =>
      obtain ⟨part, t, e1, e2, e3, e4⟩ := l2 x v (SMap.mem_toList.2 hx)
      rw [SMap.get_empty] at e3 e4
      have : a.lot.bal x = v := by simp [SMap.bal, hx]
      rw [this]
      exact ⟨part, t, e1, e2, bal_of_get e3, bal_of_get e4⟩
  have hlb : ∀ x, leftBid rest x = rb.bal x := by
    intro x
    rcases h with ⟨⟨_, he⟩, _, rfl⟩ | ⟨_, _, rfl⟩
    · simp [leftBid, SMap.bal, SMap.get_of_isEmpty he]
    · rfl
  have hll : ∀ x, leftLot rest x = rl.bal x := by
    intro x
    rcases h with ⟨⟨he, _⟩, _, rfl⟩ | ⟨_, _, rfl⟩
    · simp [leftLot, SMap.bal, SMap.get_of_isEmpty he]
    · rfl
  have hf : f = ⟨fb, fl, a.block⟩ := by rcases h with ⟨_, rfl, _⟩ | ⟨_, rfl, _⟩ <;> rfl
  subst hf
  refine ⟨hb, rfl, hr, fun x hx => ?_, fun x hx => ?_, fun x hx => ?_, fun x hx => ?_, fun r hr => ?_, fun r hr => ?_, ⟨hpos.1, hpos.2.1⟩, fun r hr => hpos.2.2.1 r hr⟩
  · obtain ⟨part, t, e1, e2, e3, e4⟩ := kb x
    have p1 := (part_ceil e1 hn0 hn1).1 hx
    have p2 := (due_ceil e2 bd.1).1 p1.1
    refine ⟨part, e1, ?_, ?_⟩
    · show IsCeil (fb.bal x) _ _
      have : fb.bal x = t := by rw [e4]; split <;> omega
      rw [this]; exact e2
    · rw [hlb, e3]; split <;> omega
  · obtain ⟨part, t, e1, e2, e3, e4⟩ := kl x
    have p1 := (part_floor e1 hn0 hn1).1 hx
    have p2 := (due_floor e2 ld.1).1 p1.1
    refine ⟨part, e1, ?_, ?_⟩
    · show IsFloor (fl.bal x) _ _
      have : fl.bal x = t := by rw [e4]; split <;> omega
      rw [this]; exact e2
    · rw [hll, e3]; split <;> omega
  · obtain ⟨part, t, e1, e2, e3, e4⟩ := kb x
    have p1 := (part_ceil e1 hn0 hn1).2 hx.le
    have p2 := (due_ceil e2 bd.1).2 p1.1
    rw [hlb, e3]
    show fb.bal x = 0 ∧ _
    rw [e4, if_neg (by omega), if_neg (by omega)]; exact ⟨rfl, rfl⟩
  · obtain ⟨part, t, e1, e2, e3, e4⟩ := kl x
    have p1 := (part_floor e1 hn0 hn1).2 hx.le
    have p2 := (due_floor e2 ld.1).2 p1.1
    rw [hll, e3]
    show fl.bal x = 0 ∧ _
    rw [e4, if_neg (by omega), if_neg (by omega)]; exact ⟨rfl, rfl⟩
  · rcases h with ⟨_, _, e⟩ | ⟨_, _, e⟩
    · rw [hr] at e; cases e
    · rw [hr] at e; cases e; rfl
  · rcases h with ⟨_, _, e⟩ | ⟨hne, _, e⟩
    · rw [hr] at e; cases e
    · rw [hr] at e; cases e
      have pos1 := (scaleBid_pos _ _ _ h1 .empty .empty).1
      have pos2 := (scaleLot_pos _ _ _ h2 .empty .empty).1
      rw [not_and_or] at hne
      rcases hne with hne | hne
      · rw [SMap.isEmpty_iff] at hne
        obtain ⟨⟨x, v⟩, hxv⟩ := List.exists_mem_of_ne_nil _ hne
        refine ⟨x, .inr ?_⟩
        have := pos2 _ _ (SMap.mem_toList.1 hxv)
        simpa [SMap.bal, SMap.mem_toList.1 hxv] using this
      · rw [SMap.isEmpty_iff] at hne
        obtain ⟨⟨x, v⟩, hxv⟩ := List.exists_mem_of_ne_nil _ hne
        refine ⟨x, .inl ?_⟩
        have := pos1 _ _ (SMap.mem_toList.1 hxv)
        simpa [SMap.bal, SMap.mem_toList.1 hxv] using this

end Pool
end Blend
