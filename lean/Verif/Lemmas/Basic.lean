import Verif.Model.System
import Mathlib.Tactic.Linarith
import Mathlib.Tactic.Ring
/-
  Inversion lemmas for the error monad and arithmetic facts about the fixed point operations.
-/

namespace Blend

variable {α β γ : Type}

theorem bind_ok {x : R α} {f : α → R β} {b : β} :
    (x >>= f) = .ok b ↔ ∃ a, x = .ok a ∧ f a = .ok b := by
  cases x with
  | error e => simp [bind, Except.bind]
  | ok a => simp [bind, Except.bind]

theorem pure_ok {a b : α} : (pure a : R α) = .ok b ↔ a = b := by
  simp [pure, Except.pure]

theorem ok_ok {a b : α} : (Except.ok a : R α) = .ok b ↔ a = b := by simp

theorem error_ok {e : Err} {b : α} : (Except.error e : R α) = .ok b ↔ False := by simp

theorem require_ok {c : Prop} [Decidable c] {e : Err} {u : Unit} :
    require c e = .ok u ↔ c := by
  unfold require; split <;> simp_all

theorem unwrap_ok {o : Option α} {a : α} : unwrap o = .ok a ↔ o = some a := by
  cases o <;> simp [unwrap]

theorem chk_ok {x y : Int} : chk x = .ok y ↔ InI128 x ∧ y = x := by
  unfold chk; split
  · constructor
    · intro h; simp at h; exact ⟨by assumption, h.symm⟩
    · rintro ⟨_, rfl⟩; rfl
  · simp_all

theorem chkU64_ok {x y : Nat} : chkU64 x = .ok y ↔ InU64 x ∧ y = x := by
  unfold chkU64; split
  · constructor
    · intro h; simp at h; exact ⟨by assumption, h.symm⟩
    · rintro ⟨_, rfl⟩; rfl
  · simp_all

theorem chkU32_ok {x y : Nat} : chkU32 x = .ok y ↔ InU32 x ∧ y = x := by
  unfold chkU32; split
  · constructor
    · intro h; simp at h; exact ⟨by assumption, h.symm⟩
    · rintro ⟨_, rfl⟩; rfl
  · simp_all

theorem subU_ok {a b c : Nat} : subU a b = .ok c ↔ b ≤ a ∧ c = a - b := by
  unfold subU; split
  · constructor
    · intro h; simp at h; exact ⟨by assumption, h.symm⟩
    · rintro ⟨_, rfl⟩; rfl
  · simp_all

theorem toU64_ok {x : Int} {n : Nat} : toU64 x = .ok n ↔ 0 ≤ x ∧ InU64 n ∧ (n : Int) = x := by
  unfold toU64; split
  · rename_i h
    constructor
    · intro h'; simp at h'; subst h'; exact ⟨h.1, h.2, Int.toNat_of_nonneg h.1⟩
    · rintro ⟨_, _, h3⟩; subst h3; simp
  · rename_i h
    constructor
    · simp
    · rintro ⟨h1, h2, h3⟩; subst h3; exact absurd ⟨h1, by simpa using h2⟩ h

theorem pow10_ok {d : Nat} {x : Int} : pow10 d = .ok x ↔ InI128 (10 ^ d) ∧ x = 10 ^ d := by
  unfold pow10; exact chk_ok

theorem pow10_pos {d : Nat} {x : Int} (h : pow10 d = .ok x) : 0 < x := by
  rw [pow10_ok] at h; rw [h.2]; positivity

theorem requireAuth_ok {l : List Address} {a : Address} {u : Unit} :
    requireAuth l a = .ok u ↔ a ∈ l := require_ok

theorem ite_ok {c : Prop} [Decidable c] {x y : R α} {a : α} :
    (if c then x else y) = .ok a ↔ (c ∧ x = .ok a) ∨ (¬ c ∧ y = .ok a) := by
  split <;> simp_all

/-! ### fixed point -/

theorem mulDivFloor_ok {x y z v : Int} :
    mulDivFloor x y z = .ok v ↔ InI128 (x * y) ∧ z ≠ 0 ∧ InI128 v ∧ v = Int.fdiv (x * y) z := by
  unfold mulDivFloor
  simp only [bind_ok, chk_ok, require_ok]
  constructor
  · rintro ⟨a, ⟨h1, rfl⟩, _, h2, h3, rfl⟩; exact ⟨h1, h2, h3, rfl⟩
  · rintro ⟨h1, h2, h3, rfl⟩; exact ⟨_, ⟨h1, rfl⟩, (), h2, h3, rfl⟩

theorem mulDivCeil_ok {x y z v : Int} :
    mulDivCeil x y z = .ok v ↔
      InI128 (x * y) ∧ z ≠ 0 ∧ InI128 v ∧ v = -(Int.fdiv (-(x * y)) z) := by
  unfold mulDivCeil
  simp only [bind_ok, chk_ok, require_ok]
  constructor
  · rintro ⟨a, ⟨h1, rfl⟩, _, h2, h3, rfl⟩; exact ⟨h1, h2, h3, rfl⟩
  · rintro ⟨h1, h2, h3, rfl⟩; exact ⟨_, ⟨h1, rfl⟩, (), h2, h3, rfl⟩

theorem fdiv_spec {a z : Int} (hz : 0 < z) :
    Int.fdiv a z * z ≤ a ∧ a < Int.fdiv a z * z + z := by
  rw [Int.fdiv_eq_ediv_of_nonneg _ hz.le]
  have h1 := Int.ediv_mul_add_emod a z
  have h2 := Int.emod_nonneg a hz.ne'
  have h3 := Int.emod_lt_of_pos a hz
  constructor <;> linarith

/-- floor: `v` is the largest integer with `v * z ≤ x * y`. -/
theorem mulDivFloor_spec {x y z v : Int} (h : mulDivFloor x y z = .ok v) (hz : 0 < z) :
    v * z ≤ x * y ∧ x * y < v * z + z := by
  obtain ⟨_, _, _, rfl⟩ := mulDivFloor_ok.1 h
  exact fdiv_spec hz

/-- ceil: `v` is the smallest integer with `x * y ≤ v * z`. -/
theorem mulDivCeil_spec {x y z v : Int} (h : mulDivCeil x y z = .ok v) (hz : 0 < z) :
    x * y ≤ v * z ∧ v * z < x * y + z := by
  obtain ⟨_, _, _, rfl⟩ := mulDivCeil_ok.1 h
  have := fdiv_spec (a := -(x * y)) hz
  constructor <;> linarith [this.1, this.2]

theorem mulDivFloor_nonneg {x y z v : Int} (h : mulDivFloor x y z = .ok v) (hz : 0 < z)
    (hxy : 0 ≤ x * y) : 0 ≤ v := by
  have := (mulDivFloor_spec h hz).2
  by_contra hv
  have h1 : v + 1 ≤ 0 := by omega
  nlinarith

theorem mulDivCeil_nonneg {x y z v : Int} (h : mulDivCeil x y z = .ok v) (hz : 0 < z)
    (hxy : 0 ≤ x * y) : 0 ≤ v := by
  have := (mulDivCeil_spec h hz).1
  by_contra hv
  have h1 : v + 1 ≤ 0 := by omega
  nlinarith

theorem mulDivFloor_mono {x y z v x' y' v' : Int} (h : mulDivFloor x y z = .ok v)
    (h' : mulDivFloor x' y' z = .ok v') (hz : 0 < z) (hle : x * y ≤ x' * y') : v ≤ v' := by
  have h1 := mulDivFloor_spec h hz
  have h2 := mulDivFloor_spec h' hz
  by_contra hv
  have h3 : v' + 1 ≤ v := by omega
  nlinarith [h1.1, h2.2]

theorem mulDivCeil_mono {x y z v x' y' v' : Int} (h : mulDivCeil x y z = .ok v)
    (h' : mulDivCeil x' y' z = .ok v') (hz : 0 < z) (hle : x * y ≤ x' * y') : v ≤ v' := by
  have h1 := mulDivCeil_spec h hz
  have h2 := mulDivCeil_spec h' hz
  by_contra hv
  have h3 : v' + 1 ≤ v := by omega
  nlinarith [h1.2, h2.1]

theorem S7_pos : (0 : Int) < SCALAR_7 := by decide
theorem S9_pos : (0 : Int) < SCALAR_9 := by decide

/-! ### loops -/

theorem foldlM_nil {f : β → α → R β} {b b' : β} : ([] : List α).foldlM f b = .ok b' ↔ b = b' := by
  simp [List.foldlM, pure_ok]

theorem foldlM_cons {f : β → α → R β} {a : α} {l : List α} {b b' : β} :
    (a :: l).foldlM f b = .ok b' ↔ ∃ c, f b a = .ok c ∧ l.foldlM f c = .ok b' := by
  rw [List.foldlM_cons, bind_ok]

/-- A loop invariant. -/
theorem foldlM_inv {f : β → α → R β} (P : β → Prop) {l : List α} {b b' : β}
    (hstep : ∀ b c a, a ∈ l → P b → f b a = .ok c → P c) (h0 : P b)
    (h : l.foldlM f b = .ok b') : P b' := by
  induction l generalizing b with
  | nil => rw [foldlM_nil] at h; exact h ▸ h0
  | cons a l ih =>
    rw [foldlM_cons] at h
    obtain ⟨c, hc, h⟩ := h
    exact ih (fun b c' a' ha' => hstep b c' a' (List.mem_cons_of_mem _ ha'))
      (hstep b c a List.mem_cons_self h0 hc) h

/-- A loop relates its first and last state by any relation that is reflexive and composes. -/
theorem foldlM_rel {f : β → α → R β} (Q : β → β → Prop) (hrefl : ∀ b, Q b b)
    (htrans : ∀ a b c, Q a b → Q b c → Q a c) {l : List α} {b b' : β}
    (hstep : ∀ b c a, a ∈ l → f b a = .ok c → Q b c)
    (h : l.foldlM f b = .ok b') : Q b b' := by
  induction l generalizing b with
  | nil => rw [foldlM_nil] at h; exact h ▸ hrefl b
  | cons a l ih =>
    rw [foldlM_cons] at h
    obtain ⟨c, hc, h⟩ := h
    exact htrans _ _ _ (hstep b c a List.mem_cons_self hc)
      (ih (fun b c' a' ha' => hstep b c' a' (List.mem_cons_of_mem _ ha')) h)

/-! ### `upd` -/

@[simp] theorem upd_same {f : Nat → β} {k : Nat} {v : β} : upd f k v k = v := by simp [upd]
theorem upd_ne {f : Nat → β} {k a : Nat} {v : β} (h : a ≠ k) : upd f k v a = f a := by
  simp [upd, h]
theorem upd_apply {f : Nat → β} {k a : Nat} {v : β} :
    upd f k v a = if a = k then v else f a := rfl

end Blend
