import Verif.Lemmas.EmisCore
import Mathlib.Algebra.BigOperators.Ring.Finset
/-
  The potential bounds what any finite set of users is entitled to.
-/

namespace Blend

/-- the keys of a map -/
def SMap.keys {α : Type} (m : SMap α) : Finset Nat := (m.toList.map (·.1)).toFinset

theorem SMap.mem_keys {α : Type} {m : SMap α} {k : Nat} : k ∈ m.keys ↔ m.get k ≠ none := by
  unfold SMap.keys
  rw [List.mem_toFinset, List.mem_map]
  constructor
  · rintro ⟨⟨a, v⟩, h, rfl⟩
    rw [SMap.mem_toList.1 h]; simp
  · intro h
    cases hv : m.get k with
    | none => exact absurd hv h
    | some v => exact ⟨(k, v), SMap.mem_toList.2 hv, rfl⟩

theorem SMap.sum_keys {α : Type} (m : SMap α) (f : Nat → α → Int) (d : α) :
    m.sum f = ∑ u ∈ m.keys, f u ((m.get u).getD d) := by
  unfold SMap.keys
  rw [← SMap.sum_eq_finset m fun u => f u ((m.get u).getD d)]
  exact SMap.sum_congr fun k v hv => by rw [hv]; rfl

/-- a finite set of non-negative summands that vanish outside of the map -/
theorem SMap.finset_le {α : Type} {m : SMap α} {g : Nat → Int} (hg : ∀ u, 0 ≤ g u)
    (h0 : ∀ u, m.get u = none → g u = 0) (us : Finset Nat) : ∑ u ∈ us, g u ≤ m.sum (fun u _ => g u) := by
  have h1 : ∑ u ∈ us ∩ m.keys, g u = ∑ u ∈ us, g u := by
    apply Finset.sum_subset Finset.inter_subset_left
    intro u hu hn
    apply h0
    by_contra hc
    exact hn (Finset.mem_inter.2 ⟨hu, SMap.mem_keys.2 hc⟩)
  rw [← h1, SMap.sum_eq_finset]
  exact Finset.sum_le_sum_of_subset_of_nonneg Finset.inter_subset_right fun u _ _ => hg u

theorem phi_ge_finset {s : Int} {bal : Address → Int} {tot index : Int} {ue : SMap UserEmis} (hs : 0 ≤ s)
    (hi : 0 ≤ index) (h : UserOk index ue) (hb : ∀ u, 0 ≤ bal u) (ht : ∀ F : Finset Nat, ∑ u ∈ F, bal u ≤ tot)
    (us : Finset Nat) :
    ∑ u ∈ us, (s * (userEntry ue u).accrued + bal u * (index - (userEntry ue u).index)) ≤ phi s bal tot index ue := by
  have hn : ∀ u, 0 ≤ s * (userEntry ue u).accrued + bal u * (index - (userEntry ue u).index) := by
    intro u
    obtain ⟨h1, h2, h3⟩ := h.entry hi u
    have := mul_nonneg hs h3
    have := mul_nonneg (hb u) (sub_nonneg.2 h2)
    omega
  have h1 : ∑ u ∈ us, (s * (userEntry ue u).accrued + bal u * (index - (userEntry ue u).index)) ≤
      ∑ u ∈ us ∪ ue.keys, (s * (userEntry ue u).accrued + bal u * (index - (userEntry ue u).index)) :=
    Finset.sum_le_sum_of_subset_of_nonneg Finset.subset_union_left fun u _ _ => hn u
  have hz : ∀ u, u ∉ ue.keys → userEntry ue u = ⟨0, 0⟩ := by
    intro u hu
    unfold userEntry
    cases hv : ue.get u with
    | none => rfl
    | some v => exact absurd (SMap.mem_keys.2 (by rw [hv]; simp)) hu
  have h2 : ∑ u ∈ us ∪ ue.keys, (userEntry ue u).accrued = ue.sum (fun _ x => x.accrued) := by
    rw [SMap.sum_keys ue (fun _ x => x.accrued) ⟨0, 0⟩]
    symm
    apply Finset.sum_subset Finset.subset_union_right
    intro u _ hu
    exact congrArg UserEmis.accrued (hz u hu)
  have h3 : ∑ u ∈ us ∪ ue.keys, bal u * (userEntry ue u).index = ue.sum (fun u x => bal u * x.index) := by
    rw [SMap.sum_keys ue (fun u x => bal u * x.index) ⟨0, 0⟩]
    symm
    apply Finset.sum_subset Finset.subset_union_right
    intro u _ hu
    have := congrArg UserEmis.index (hz u hu)
    unfold userEntry at this
    simp only [this, mul_zero]
  have h4 : ∑ u ∈ us ∪ ue.keys, (s * (userEntry ue u).accrued + bal u * (index - (userEntry ue u).index)) =
      s * (∑ u ∈ us ∪ ue.keys, (userEntry ue u).accrued) + index * (∑ u ∈ us ∪ ue.keys, bal u) -
        ∑ u ∈ us ∪ ue.keys, bal u * (userEntry ue u).index := by
    rw [Finset.mul_sum, Finset.mul_sum, ← Finset.sum_add_distrib, ← Finset.sum_sub_distrib]
    apply Finset.sum_congr rfl
    intro u _; ring
  rw [h4, h2, h3] at h1
  have h5 := mul_le_mul_of_nonneg_left (ht (us ∪ ue.keys)) hi
  unfold phi
  linarith

end Blend
