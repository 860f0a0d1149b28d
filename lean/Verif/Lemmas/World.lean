import Verif.Lemmas.Basic
/-
  What the token operations do to the world.
-/

namespace Blend

theorem balance_setBalance (w : World) (t h t' h' : Address) (v : Int) :
    (w.setBalance t h v).balance t' h' = if t' = t ∧ h' = h then v else w.balance t' h' := by
  unfold World.setBalance World.balance
  by_cases ht : t' = t <;> by_cases hh : h' = h <;> simp [upd, ht, hh]

theorem allow_setBalance (w : World) (t h t' : Address) (v : Int) :
    ((w.setBalance t h v).tok t').allow = (w.tok t').allow := by
  unfold World.setBalance
  by_cases ht : t' = t <;> simp [upd, ht]

theorem minted_setBalance (w : World) (t h t' : Address) (v : Int) :
    ((w.setBalance t h v).tok t').minted = (w.tok t').minted := by
  unfold World.setBalance
  by_cases ht : t' = t <;> simp [upd, ht]

/-- effect of moving `amt` of token `t` from `s` to `d` on the balance of `x` in token `t'` -/
def moved (t s d : Address) (amt : Int) (t' x : Address) : Int :=
  (if t' = t ∧ x = d then amt else 0) - (if t' = t ∧ x = s then amt else 0)

structure TransferRes (w : World) (t s d : Address) (amt : Int) (w' : World) : Prop where
  nonneg : 0 ≤ amt
  enough : amt ≤ w.balance t s
  frame : w' = { w with tok := w'.tok }
  bal : ∀ t' x, w'.balance t' x = w.balance t' x + moved t s d amt t' x
  allow : ∀ t', (w'.tok t').allow = (w.tok t').allow
  minted : ∀ t', (w'.tok t').minted = (w.tok t').minted

theorem transfer_res {w w' : World} {t s d : Address} {amt : Int}
    (h : transfer w t s d amt = .ok w') : TransferRes w t s d amt w' := by
  unfold transfer at h
  simp only [bind_ok, require_ok, chk_ok, pure_ok] at h
  obtain ⟨_, h1, _, h2, v, ⟨_, rfl⟩, rfl⟩ := h
  refine ⟨h1, h2, rfl, fun t' x => ?_, fun t' => ?_, fun t' => ?_⟩
  · simp only [balance_setBalance, moved]
    by_cases ht : t' = t
    · subst ht
      by_cases hd : x = d
      · subst hd
        by_cases hs : x = s
        · subst hs; simp
        · simp [hs]
      · by_cases hs : x = s
        · subst hs; simp [hd]; omega
        · simp [hs, hd]
    · simp [ht]
  · rw [allow_setBalance, allow_setBalance]
  · rw [minted_setBalance, minted_setBalance]

structure MintRes (w : World) (t d : Address) (amt : Int) (w' : World) : Prop where
  nonneg : 0 ≤ amt
  frame : w' = { w with tok := w'.tok }
  bal : ∀ t' x, w'.balance t' x = w.balance t' x + if t' = t ∧ x = d then amt else 0
  allow : ∀ t', (w'.tok t').allow = (w.tok t').allow
  minted : ∀ t', (w'.tok t').minted = (w.tok t').minted + if t' = t then amt else 0

theorem mint_res {w w' : World} {t d : Address} {amt : Int}
    (h : mint w t d amt = .ok w') : MintRes w t d amt w' := by
  unfold mint at h
  simp only [bind_ok, require_ok, chk_ok, pure_ok] at h
  obtain ⟨_, h1, v, ⟨_, rfl⟩, rfl⟩ := h
  refine ⟨h1, rfl, fun t' x => ?_, fun t' => ?_, fun t' => ?_⟩
  · have := balance_setBalance w t d t' x (w.balance t d + amt)
    unfold World.balance at *
    by_cases ht : t' = t
    · subst ht
      simp only [upd_same, true_and] at *
      rw [this]
      by_cases hx : x = d <;> simp [hx]
    · simp only [upd_ne ht, ht, false_and, if_false, add_zero] at *
      rw [this]
  · by_cases ht : t' = t
    · subst ht; simp [upd_same, allow_setBalance]
    · simp only [upd_ne ht]; rw [allow_setBalance]
  · by_cases ht : t' = t
    · subst ht; simp [upd_same, minted_setBalance]
    · simp only [upd_ne ht]; rw [minted_setBalance]; simp [ht]

/-- the allowance table after an update -/
theorem setAllowance_res (w : World) (t o s : Address) (amt : Int) (exp : Nat) :
    w.setAllowance t o s amt exp = { w with tok := (w.setAllowance t o s amt exp).tok } ∧
    (∀ t' x, (w.setAllowance t o s amt exp).balance t' x = w.balance t' x) ∧
    (∀ t' o' s', ((w.setAllowance t o s amt exp).tok t').allow o' s' =
      if t' = t ∧ o' = o ∧ s' = s then (amt, exp) else (w.tok t').allow o' s') ∧
    (∀ t', ((w.setAllowance t o s amt exp).tok t').minted = (w.tok t').minted) := by
  refine ⟨rfl, fun t' x => ?_, fun t' o' s' => ?_, fun t' => ?_⟩
  · unfold World.setAllowance World.balance
    by_cases ht : t' = t <;> simp [upd, ht]
  · unfold World.setAllowance
    by_cases ht : t' = t <;> by_cases ho : o' = o <;> by_cases hs : s' = s <;> simp [upd, ht, ho, hs]
  · unfold World.setAllowance
    by_cases ht : t' = t <;> simp [upd, ht]

structure TransferFromRes (w : World) (t sp o d : Address) (amt : Int) (w' : World) : Prop where
  nonneg : 0 ≤ amt
  allowed : amt ≤ w.allowance t o sp
  enough : amt ≤ w.balance t o
  frame : w' = { w with tok := w'.tok }
  bal : ∀ t' x, w'.balance t' x = w.balance t' x + moved t o d amt t' x
  allow : ∀ t' o' s', (w'.tok t').allow o' s' =
    if t' = t ∧ o' = o ∧ s' = sp then (w.allowance t o sp - amt, ((w.tok t).allow o sp).2)
    else (w.tok t').allow o' s'
  minted : ∀ t', (w'.tok t').minted = (w.tok t').minted

theorem transferFrom_res {w w' : World} {t sp o d : Address} {amt : Int}
    (h : transferFrom w t sp o d amt = .ok w') : TransferFromRes w t sp o d amt w' := by
  unfold transferFrom at h
  simp only [bind_ok, require_ok] at h
  obtain ⟨_, h1, _, h2, h3⟩ := h
  have r := transfer_res h3
  obtain ⟨a1, a2, a3, a4⟩ := setAllowance_res w t o sp (w.allowance t o sp - amt)
    ((w.tok t).allow o sp).2
  refine ⟨h1, h2, by have := r.enough; rwa [a2] at this, ?_, fun t' x => ?_, fun t' o' s' => ?_,
    fun t' => ?_⟩
  · rw [r.frame, a1]
  · rw [r.bal, a2]
  · rw [r.allow, a3]
  · rw [r.minted, a4]

theorem approve_res {w w' : World} {t o s : Address} {amt : Int} {exp : Nat}
    (h : approve w t o s amt exp = .ok w') :
    0 ≤ amt ∧ w' = w.setAllowance t o s amt exp := by
  unfold approve at h
  simp only [bind_ok, require_ok, pure_ok] at h
  obtain ⟨_, h1, rfl⟩ := h
  exact ⟨h1, rfl⟩

theorem balance_setPool (w : World) (p : Address) (s : PoolState) (t x : Address) :
    (w.setPool p s).balance t x = w.balance t x := rfl

@[simp] theorem pools_setPool (w : World) (p : Address) (s : PoolState) :
    (w.setPool p s).pools p = s := by simp [World.setPool]

theorem pools_setPool_ne (w : World) (p q : Address) (s : PoolState) (h : q ≠ p) :
    (w.setPool p s).pools q = w.pools q := by simp [World.setPool, upd_ne h]

end Blend
