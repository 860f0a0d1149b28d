import Verif.Lemmas.SumLemmas
import Verif.Lemmas.Basic
/-
  Arithmetic of index based emissions, shared by pool and backstop: the potential `phi` is what all
  users together are entitled to, times the scalar.
-/

namespace Blend

/-- entitlement of all users times `s`: accrued amounts and what the index moved since each user's last
update -/
def phi (s : Int) (bal : Address → Int) (tot index : Int) (ue : SMap UserEmis) : Int :=
  s * ue.sum (fun _ x => x.accrued) + index * tot - ue.sum (fun u x => bal u * x.index)

/-- user entries are consistent with the index -/
def UserOk (index : Int) (ue : SMap UserEmis) : Prop :=
  ∀ u x, ue.get u = some x → 0 ≤ x.index ∧ x.index ≤ index ∧ 0 ≤ x.accrued

/-- the entry of a user; a missing entry counts as index 0 and nothing accrued -/
def userEntry (ue : SMap UserEmis) (u : Address) : UserEmis := (ue.get u).getD ⟨0, 0⟩

theorem UserOk.entry {index : Int} {ue : SMap UserEmis} (h : UserOk index ue) (hi : 0 ≤ index) (u : Address) :
    0 ≤ (userEntry ue u).index ∧ (userEntry ue u).index ≤ index ∧ 0 ≤ (userEntry ue u).accrued := by
  unfold userEntry
  cases hx : ue.get u with
  | none => exact ⟨le_refl _, hi, le_refl _⟩
  | some x => exact h u x hx

theorem UserOk.mono {index index' : Int} {ue : SMap UserEmis} (h : UserOk index ue) (hle : index ≤ index') :
    UserOk index' ue := fun u x hx => by
  obtain ⟨h1, h2, h3⟩ := h u x hx
  exact ⟨h1, le_trans h2 hle, h3⟩

theorem UserOk.set {index : Int} {ue : SMap UserEmis} (h : UserOk index ue) {u : Address} {x : UserEmis}
    (hx : 0 ≤ x.index ∧ x.index ≤ index ∧ 0 ≤ x.accrued) : UserOk index (ue.set u x) := by
  intro v y hy
  rw [SMap.get_set] at hy
  split at hy
  · cases hy; exact hx
  · exact h v y hy

theorem phi_index (s : Int) (bal : Address → Int) (tot index index' : Int) (ue : SMap UserEmis) :
    phi s bal tot index' ue = phi s bal tot index ue + (index' - index) * tot := by
  unfold phi; ring

/-- A user's entry is brought up to date, part of it paid out; afterwards the user's balance changes. -/
theorem phi_user {s : Int} {bal bal' : Address → Int} {tot tot' index amt : Int} {ue : SMap UserEmis}
    {u : Address} {x : UserEmis} (hx : x.index = index)
    (hacc : s * (amt + x.accrued) ≤ s * (userEntry ue u).accrued + bal u * (index - (userEntry ue u).index))
    (hb : ∀ v, v ≠ u → bal' v = bal v) (ht : tot' = tot + (bal' u - bal u)) :
    phi s bal' tot' index (ue.set u x) + s * amt ≤ phi s bal tot index ue := by
  have h1 : (ue.set u x).sum (fun _ x => x.accrued) =
      ue.sum (fun _ x => x.accrued) + x.accrued - (userEntry ue u).accrued := by
    rw [SMap.sum_set]
    unfold userEntry
    cases ue.get u <;> rfl
  have h2 : (ue.set u x).sum (fun v y => bal' v * y.index) =
      ue.sum (fun v y => bal v * y.index) + bal' u * index - bal u * (userEntry ue u).index := by
    rw [SMap.sum_set_of_ne ue u x (f := fun v y => bal v * y.index)
      (fun j hj y => by simp only [hb j hj])]
    rw [hx]
    unfold userEntry
    cases ue.get u <;> simp
  unfold phi
  rw [h1, h2, ht]
  nlinarith

/-- nothing about the users changed, except that balances that do not matter may differ -/
theorem phi_congr {s : Int} {bal bal' : Address → Int} {tot index : Int} {ue : SMap UserEmis}
    (h : ∀ u x, ue.get u = some x → bal' u = bal u) : phi s bal' tot index ue = phi s bal tot index ue := by
  unfold phi
  have : ue.sum (fun u x => bal' u * x.index) = ue.sum (fun u x => bal u * x.index) :=
    SMap.sum_congr fun u x hx => by rw [h u x hx]
  rw [this]

theorem phi_nonneg {s : Int} {bal : Address → Int} {tot index : Int} {ue : SMap UserEmis} (hs : 0 ≤ s)
    (hi : 0 ≤ index) (h : UserOk index ue) (hb : ∀ u, 0 ≤ bal u)
    (ht : ue.sum (fun u _ => bal u) ≤ tot) : 0 ≤ phi s bal tot index ue := by
  have h1 : 0 ≤ ue.sum (fun _ x => x.accrued) := SMap.sum_nonneg fun u x hx => (h u x hx).2.2
  have h2 : ue.sum (fun u x => bal u * x.index) ≤ ue.sum (fun u _ => index * bal u) :=
    SMap.sum_le fun u x hx => by
      obtain ⟨_, h2, _⟩ := h u x hx
      rw [mul_comm index]
      exact mul_le_mul_of_nonneg_left h2 (hb u)
  rw [SMap.sum_mul_left] at h2
  have h3 := mul_le_mul_of_nonneg_left ht hi
  have h4 := mul_nonneg hs h1
  unfold phi
  linarith

/-- what the users can still claim (accrued and since the last update) is at most `phi` -/
theorem phi_ge {s : Int} {bal : Address → Int} {tot index : Int} {ue : SMap UserEmis}
    (hi : 0 ≤ index) (ht : ue.sum (fun u _ => bal u) ≤ tot) :
    ue.sum (fun u x => s * x.accrued + bal u * (index - x.index)) ≤ phi s bal tot index ue := by
  have h1 : ue.sum (fun u x => s * x.accrued + bal u * (index - x.index)) =
      s * ue.sum (fun _ x => x.accrued) + index * ue.sum (fun u _ => bal u) -
        ue.sum (fun u x => bal u * x.index) := by
    have : (fun (u : Nat) (x : UserEmis) => s * x.accrued + bal u * (index - x.index)) =
        fun u x => (s * x.accrued + index * bal u) + (-1) * (bal u * x.index) := by
      funext u x; ring
    rw [this, SMap.sum_add, SMap.sum_add, SMap.sum_mul_left, SMap.sum_mul_left, SMap.sum_mul_left]
    ring
  rw [h1]
  have h3 := mul_le_mul_of_nonneg_left ht hi
  unfold phi
  linarith

/-- the user update of `update_user_emissions` in pool and backstop -/
theorem user_accrual {s bal index : Int} {old : UserEmis} {acc : Int} (hs : 0 < s) (hb : 0 ≤ bal)
    (hold : 0 ≤ old.index ∧ old.index ≤ index ∧ 0 ≤ old.accrued)
    (h : fixedMulFloor bal (index - old.index) s = .ok acc) :
    0 ≤ acc ∧ s * (old.accrued + acc) ≤ s * old.accrued + bal * (index - old.index) := by
  have h1 := (mulDivFloor_spec h hs).1
  have h2 := mulDivFloor_nonneg h hs (mul_nonneg hb (by omega))
  exact ⟨h2, by nlinarith⟩

end Blend
