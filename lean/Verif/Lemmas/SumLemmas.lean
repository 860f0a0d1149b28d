import Verif.Lemmas.SMap
import Mathlib.Algebra.BigOperators.Group.Finset.Basic
import Mathlib.Algebra.Order.BigOperators.Group.Finset
/-
  Sums over the entries of a storage map.
-/

namespace Blend
namespace SMap
variable {α β : Type}

theorem sum_congr {m : SMap α} {f g : Nat → α → Int} (h : ∀ k v, m.get k = some v → f k v = g k v) :
    m.sum f = m.sum g :=
  le_antisymm (sum_le fun k v hv => le_of_eq (h k v hv)) (sum_le fun k v hv => le_of_eq (h k v hv).symm)

theorem set_del {m : SMap α} {k : Nat} {v : α} : (m.del k).set k v = m.set k v := by
  apply ext_get
  intro j
  rw [get_set, get_set, get_del]
  split <;> rfl

/-- one entry is replaced and the summand changes at that entry only -/
theorem sum_set_of_ne (m : SMap α) (k : Nat) (v : α) {f f' : Nat → α → Int}
    (h : ∀ j, j ≠ k → ∀ x, f' j x = f j x) :
    (m.set k v).sum f' = m.sum f + f' k v - ((m.get k).map (f k)).getD 0 := by
  rw [← set_del, sum_set]
  have h1 : (m.del k).sum f' = (m.del k).sum f := sum_congr fun j x hx => by
    rw [get_del] at hx
    split at hx
    · simp at hx
    · exact h j ‹_› x
  rw [h1, sum_del, get_del]
  simp
  ring

theorem sum_eq_finset (m : SMap α) (g : Nat → Int) :
    m.sum (fun u _ => g u) = ∑ u ∈ (m.toList.map (·.1)).toFinset, g u := by
  have hnd : (m.toList.map (·.1)).Nodup := by
    have := m.sorted
    rw [List.nodup_iff_pairwise_ne, List.pairwise_map]
    exact this.imp fun h => Nat.ne_of_lt h
  rw [List.sum_toFinset g hnd]
  unfold sum
  rw [List.map_map]
  rfl

/-- a sum over the keys of one map is at most the sum over the keys of a map that has all keys at
which the summand is not zero -/
theorem sum_keys_le {m : SMap α} {m' : SMap β} {g : Nat → Int} (hg : ∀ u, 0 ≤ g u)
    (h0 : ∀ u, m'.get u = none → g u = 0) : m.sum (fun u _ => g u) ≤ m'.sum (fun u _ => g u) := by
  rw [sum_eq_finset, sum_eq_finset]
  have h1 : ∑ u ∈ (m.toList.map (·.1)).toFinset ∩ (m'.toList.map (·.1)).toFinset, g u =
      ∑ u ∈ (m.toList.map (·.1)).toFinset, g u := by
    apply Finset.sum_subset Finset.inter_subset_left
    intro u hu hn
    apply h0
    cases hv : m'.get u with
    | none => rfl
    | some v =>
      exfalso
      apply hn
      rw [Finset.mem_inter]
      refine ⟨hu, ?_⟩
      rw [List.mem_toFinset, List.mem_map]
      exact ⟨(u, v), mem_toList.2 hv, rfl⟩
  rw [← h1]
  exact Finset.sum_le_sum_of_subset_of_nonneg Finset.inter_subset_right fun u _ _ => hg u

theorem sum_mul_left (m : SMap α) (c : Int) (f : Nat → α → Int) :
    m.sum (fun k v => c * f k v) = c * m.sum f := by
  unfold sum
  induction m.toList with
  | nil => simp
  | cons x l ih => simp only [List.map_cons, List.sum_cons, ih]; ring

theorem sum_add (m : SMap α) (f g : Nat → α → Int) :
    m.sum (fun k v => f k v + g k v) = m.sum f + m.sum g := by
  unfold sum
  induction m.toList with
  | nil => simp
  | cons x l ih => simp only [List.map_cons, List.sum_cons, ih]; ring

theorem sum_zero {m : SMap α} {f : Nat → α → Int} (h : ∀ k v, m.get k = some v → f k v = 0) :
    m.sum f = 0 := by
  rw [sum_congr (g := fun _ _ => 0) h]
  unfold sum
  induction m.toList with
  | nil => rfl
  | cons x l ih => simp

end SMap
end Blend
