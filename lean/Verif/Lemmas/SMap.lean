import Verif.Lemmas.Basic
/-
  Facts about ordered maps: lookup after update, and sums over all entries.
-/

namespace Blend
namespace SMap

variable {α : Type}

theorem getL_setL {l : List (Nat × α)} {k j : Nat} {v : α} :
    getL (setL l k v) j = if j = k then some v else getL l j := by
  induction l with
  | nil => simp [setL, getL]
  | cons q t ih =>
    obtain ⟨k', v'⟩ := q
    simp only [setL]
    split
    · rename_i h
      simp only [getL]
    · split
      · rename_i h1 h2
        subst h2
        simp only [getL]
        split <;> rfl
      · rename_i h1 h2
        simp only [getL, ih]
        split
        · rename_i h3; subst h3
          rw [if_neg (by omega)]
        · rfl

theorem getL_none_of_lt {l : List (Nat × α)} {k : Nat}
    (h : ∀ p ∈ l, k < p.1) : getL l k = none := by
  induction l with
  | nil => rfl
  | cons q t ih =>
    obtain ⟨k', v'⟩ := q
    have := h (k', v') List.mem_cons_self
    simp only [getL]
    rw [if_neg (by simp at this; omega)]
    exact ih fun p hp => h p (List.mem_cons_of_mem _ hp)

theorem getL_delL {l : List (Nat × α)} {k j : Nat} (hs : l.Pairwise (fun a b => a.1 < b.1)) :
    getL (delL l k) j = if j = k then none else getL l j := by
  induction l with
  | nil => simp [delL, getL]
  | cons q t ih =>
    obtain ⟨k', v'⟩ := q
    rw [List.pairwise_cons] at hs
    simp only [delL]
    split
    · rename_i h; subst h
      simp only [getL]
      split
      · rename_i h; subst h
        exact getL_none_of_lt hs.1
      · rfl
    · rename_i h
      simp only [getL, ih hs.2]
      split
      · rename_i h'; subst h'; rw [if_neg (by omega)]
      · rfl

theorem get_set {m : SMap α} {k j : Nat} {v : α} :
    (m.set k v).get j = if j = k then some v else m.get j := getL_setL

@[simp] theorem get_set_same {m : SMap α} {k : Nat} {v : α} : (m.set k v).get k = some v := by
  simp [get_set]

theorem get_set_ne {m : SMap α} {k j : Nat} {v : α} (h : j ≠ k) : (m.set k v).get j = m.get j := by
  simp [get_set, h]

theorem get_del {m : SMap α} {k j : Nat} :
    (m.del k).get j = if j = k then none else m.get j := getL_delL m.sorted

@[simp] theorem get_empty {j : Nat} : (SMap.empty : SMap α).get j = none := rfl

theorem getL_some_iff {l : List (Nat × α)} (hs : l.Pairwise (fun a b => a.1 < b.1)) {k : Nat}
    {v : α} : getL l k = some v ↔ (k, v) ∈ l := by
  induction l with
  | nil => simp [getL]
  | cons q t ih =>
    obtain ⟨k', v'⟩ := q
    rw [List.pairwise_cons] at hs
    simp only [getL]
    split
    · rename_i h; subst h
      constructor
      · intro h; simp at h; subst h; simp
      · intro h
        rcases List.mem_cons.1 h with h | h
        · simp at h; simp [h]
        · have := hs.1 _ h; simp at this
    · rename_i h
      rw [ih hs.2]
      constructor
      · intro h; exact List.mem_cons_of_mem _ h
      · intro h'
        rcases List.mem_cons.1 h' with h' | h'
        · simp at h'; exact absurd h'.1 h
        · exact h'

theorem get_some_iff {m : SMap α} {k : Nat} {v : α} : m.get k = some v ↔ (k, v) ∈ m.toList :=
  getL_some_iff m.sorted

/-- Sum of `f` over all entries. -/
def sum (m : SMap α) (f : Nat → α → Int) : Int := (m.toList.map (fun kv => f kv.1 kv.2)).sum

theorem sum_setL {l : List (Nat × α)} (hs : l.Pairwise (fun a b => a.1 < b.1)) (k : Nat) (v : α)
    (f : Nat → α → Int) :
    ((setL l k v).map (fun kv => f kv.1 kv.2)).sum =
      (l.map (fun kv => f kv.1 kv.2)).sum + f k v - ((getL l k).map (f k)).getD 0 := by
  induction l with
  | nil => simp [setL, getL]
  | cons q t ih =>
    obtain ⟨k', v'⟩ := q
    rw [List.pairwise_cons] at hs
    simp only [setL]
    split
    · rename_i h
      have : getL ((k', v') :: t) k = none := by
        apply getL_none_of_lt
        intro p hp
        rcases List.mem_cons.1 hp with rfl | hp
        · exact h
        · have := hs.1 p hp; simp at this; omega
      rw [this]; simp; ring
    · split
      · rename_i h1 h2; subst h2
        simp [getL]; ring
      · rename_i h1 h2
        simp only [List.map_cons, List.sum_cons, ih hs.2, getL, if_neg h2]
        ring

theorem sum_delL {l : List (Nat × α)} (hs : l.Pairwise (fun a b => a.1 < b.1)) (k : Nat)
    (f : Nat → α → Int) :
    ((delL l k).map (fun kv => f kv.1 kv.2)).sum =
      (l.map (fun kv => f kv.1 kv.2)).sum - ((getL l k).map (f k)).getD 0 := by
  induction l with
  | nil => simp [delL, getL]
  | cons q t ih =>
    obtain ⟨k', v'⟩ := q
    rw [List.pairwise_cons] at hs
    simp only [delL]
    split
    · rename_i h; subst h
      simp [getL]
    · rename_i h
      simp only [List.map_cons, List.sum_cons, ih hs.2, getL, if_neg h]
      ring

theorem sum_set (m : SMap α) (k : Nat) (v : α) (f : Nat → α → Int) :
    (m.set k v).sum f = m.sum f + f k v - ((m.get k).map (f k)).getD 0 :=
  sum_setL m.sorted k v f

theorem sum_del (m : SMap α) (k : Nat) (f : Nat → α → Int) :
    (m.del k).sum f = m.sum f - ((m.get k).map (f k)).getD 0 :=
  sum_delL m.sorted k f

@[simp] theorem sum_empty (f : Nat → α → Int) : (SMap.empty : SMap α).sum f = 0 := rfl

theorem list_sum_le {l : List (Nat × α)} {f g : Nat → α → Int}
    (h : ∀ k v, (k, v) ∈ l → f k v ≤ g k v) :
    (l.map (fun kv => f kv.1 kv.2)).sum ≤ (l.map (fun kv => g kv.1 kv.2)).sum := by
  induction l with
  | nil => simp
  | cons q t ih =>
    simp only [List.map_cons, List.sum_cons]
    have h1 := h q.1 q.2 List.mem_cons_self
    have h2 := ih fun k v hkv => h k v (List.mem_cons_of_mem _ hkv)
    linarith

theorem sum_nonneg {m : SMap α} {f : Nat → α → Int}
    (h : ∀ k v, m.get k = some v → 0 ≤ f k v) : 0 ≤ m.sum f := by
  have := list_sum_le (l := m.toList) (f := fun _ _ => 0) (g := f)
    fun k v hkv => h k v (get_some_iff.2 hkv)
  have h0 : ∀ l : List (Nat × α), (l.map (fun _ => (0 : Int))).sum = 0 := by
    intro l; induction l with
    | nil => rfl
    | cons q t ih => simp [ih]
  rw [h0] at this
  exact this

theorem sum_le {m : SMap α} {f g : Nat → α → Int}
    (h : ∀ k v, m.get k = some v → f k v ≤ g k v) : m.sum f ≤ m.sum g :=
  list_sum_le fun k v hkv => h k v (get_some_iff.2 hkv)

/-- one entry is at most the sum, if all are non-negative -/
theorem le_sum {m : SMap α} {f : Nat → α → Int} (h : ∀ k v, m.get k = some v → 0 ≤ f k v)
    {k : Nat} {v : α} (hk : m.get k = some v) : f k v ≤ m.sum f := by
  have := sum_del m k f
  rw [hk] at this
  simp at this
  have h2 : 0 ≤ (m.del k).sum f := by
    apply sum_nonneg
    intro j u hj
    rw [get_del] at hj
    split at hj
    · simp at hj
    · exact h j u hj
  linarith

theorem bal_set {m : SMap Int} {k j : Nat} {v : Int} :
    (m.set k v).bal j = if j = k then v else m.bal j := by
  unfold bal; rw [get_set]; split <;> rfl

theorem bal_del {m : SMap Int} {k j : Nat} :
    (m.del k).bal j = if j = k then 0 else m.bal j := by
  unfold bal; rw [get_del]; split <;> rfl

@[simp] theorem bal_empty {j : Nat} : (SMap.empty : SMap Int).bal j = 0 := rfl

theorem isEmpty_iff {m : SMap α} : m.isEmpty = true ↔ m.toList = [] := by
  unfold isEmpty; simp

theorem get_of_isEmpty {m : SMap α} (h : m.isEmpty = true) (k : Nat) : m.get k = none := by
  rw [isEmpty_iff] at h; unfold get; rw [h]; rfl

theorem toList_ne_of_get {m : SMap α} {k : Nat} {v : α} (h : m.get k = some v) :
    m.isEmpty = false := by
  cases hm : m.isEmpty with
  | false => rfl
  | true => rw [get_of_isEmpty hm] at h; simp at h

end SMap
end Blend

namespace Blend
namespace SMap
variable {α : Type}

theorem getL_none_of_not {l : List (Nat × α)} {k : Nat} (h : getL l k = none) :
    ∀ p ∈ l, p.1 ≠ k := by
  induction l with
  | nil => simp
  | cons q t ih =>
    obtain ⟨k', v'⟩ := q
    simp only [getL] at h
    split at h
    · simp at h
    · rename_i hne
      intro p hp
      rcases List.mem_cons.1 hp with rfl | hp
      · exact fun h => hne h.symm
      · exact ih h p hp

theorem ext_getL {l l' : List (Nat × α)} (hs : l.Pairwise (fun a b => a.1 < b.1))
    (hs' : l'.Pairwise (fun a b => a.1 < b.1)) (h : ∀ k, getL l k = getL l' k) : l = l' := by
  induction l generalizing l' with
  | nil =>
    cases l' with
    | nil => rfl
    | cons q t => have := h q.1; simp [getL] at this
  | cons q t ih =>
    obtain ⟨k, v⟩ := q
    cases l' with
    | nil => have := h k; simp [getL] at this
    | cons q' t' =>
      obtain ⟨k', v'⟩ := q'
      rw [List.pairwise_cons] at hs hs'
      have hk : k = k' := by
        rcases Nat.lt_trichotomy k k' with hlt | heq | hgt
        · have h1 := h k
          simp only [getL, if_true] at h1
          rw [if_neg (by omega)] at h1
          rw [getL_none_of_lt (fun p hp => Nat.lt_trans hlt (hs'.1 p hp))] at h1
          simp at h1
        · exact heq
        · have h1 := h k'
          simp only [getL, if_true] at h1
          rw [if_neg (by omega)] at h1
          rw [getL_none_of_lt (fun p hp => Nat.lt_trans hgt (hs.1 p hp))] at h1
          simp at h1
      subst hk
      have hv : v = v' := by have h1 := h k; simpa [getL] using h1
      subst hv
      congr 1
      apply ih hs.2 hs'.2
      intro j
      by_cases hj : j = k
      · subst hj
        rw [getL_none_of_lt hs.1, getL_none_of_lt hs'.1]
      · have h1 := h j
        simpa [getL, hj] using h1

/-- maps with the same entries are equal -/
theorem ext_get {m m' : SMap α} (h : ∀ k, m.get k = m'.get k) : m = m' := by
  obtain ⟨l, hl⟩ := m
  obtain ⟨l', hl'⟩ := m'
  have : l = l' := ext_getL hl hl' h
  subst this; rfl

theorem set_set {m : SMap α} {k : Nat} {v v' : α} : (m.set k v).set k v' = m.set k v' := by
  apply ext_get; intro j; rw [get_set, get_set, get_set]; split <;> simp_all

theorem set_comm {m : SMap α} {k j : Nat} {v w : α} (h : k ≠ j) :
    (m.set k v).set j w = (m.set j w).set k v := by
  apply ext_get; intro i; rw [get_set, get_set, get_set, get_set]
  split <;> split <;> simp_all

theorem set_self {m : SMap α} {k : Nat} {v : α} (h : m.get k = some v) : m.set k v = m := by
  apply ext_get; intro j; rw [get_set]; split <;> simp_all

theorem mem_toList {m : SMap α} {k : Nat} {v : α} : (k, v) ∈ m.toList ↔ m.get k = some v :=
  get_some_iff.symm

end SMap
end Blend
