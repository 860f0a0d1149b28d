import Verif.Model.System
import Verif.Lemmas.Basic
import Mathlib.Tactic.Ring
/-
  A world in which one account has more tokens: what succeeds without the gift succeeds with it, and
  the outcome differs by the gift only. The proof is a simulation of every function of the model.
-/

namespace Blend

/-- what is given: `n` tokens `t` to the account `x`; `m` is what the issuers' (ghost) counters of
minted tokens may differ by -/
structure Gift where
  t : Address
  x : Address
  n : Int
  m : Address → Int
  pos : 0 ≤ n

/-- the world with the gift -/
def Gift.give (G : Gift) (w : World) : World :=
  { w with tok := fun t => { w.tok t with
      bal := fun a => (w.tok t).bal a + (if t = G.t ∧ a = G.x then G.n else 0)
      minted := (w.tok t).minted + G.m t } }

/-- `r'` goes like `r`, with the result `f a` in the place of `a`, unless a number gets too big or
tokens are missing in `r` -/
def Sim {α β : Type} (f : α → β) (r : R α) (r' : R β) : Prop :=
  (∀ a, r = .ok a → r' = .ok (f a) ∨ r' = .error .overflow) ∧
  ∀ b, r' = .ok b → (∃ a, r = .ok a ∧ b = f a) ∨ r = .error .token ∨ r = .error .overflow

namespace Sim

variable {α β γ δ : Type}

theorem pure {f : α → β} {a : α} {b : β} (h : b = f a) : Sim f (pure a) (pure b) := by
  constructor
  · rintro _ ⟨⟩; exact .inl (by rw [h]; rfl)
  · rintro _ ⟨⟩; exact .inl ⟨a, rfl, h⟩

theorem error {f : α → β} {e e' : Err} : Sim f (.error e) (.error e') := by
  constructor
  · rintro _ ⟨⟩
  · rintro _ ⟨⟩

theorem bind {f : α → β} {g : γ → δ} {r : R α} {r' : R β} {k : α → R γ} {k' : β → R δ} (h : Sim f r r')
    (hk : ∀ a, r = .ok a → Sim g (k a) (k' (f a))) : Sim g (r >>= k) (r' >>= k') := by
  constructor
  · intro c hc
    rcases r with e | a
    · cases hc
    · rcases h.1 a rfl with h | h
      · subst h; exact (hk a rfl).1 c hc
      · subst h; exact .inr rfl
  · intro c hc
    rcases r' with e | b
    · cases hc
    · rcases h.2 b rfl with ⟨a, rfl, rfl⟩ | rfl | rfl
      · exact (hk a rfl).2 c hc
      · exact .inr (.inl rfl)
      · exact .inr (.inr rfl)

theorem same {g : γ → δ} {r : R α} {k : α → R γ} {k' : α → R δ} (hk : ∀ a, Sim g (k a) (k' a)) :
    Sim g (r >>= k) (r >>= k') := by
  rcases r with e | a
  · exact Sim.error
  · exact hk a

theorem refl {r : R α} : Sim id r r :=
  ⟨fun _ h => .inl h, fun b h => .inl ⟨b, h, rfl⟩⟩

theorem sameEq {g : γ → δ} {r : R α} {k : α → R γ} {k' : α → R δ} (hk : ∀ a, r = .ok a → Sim g (k a) (k' a)) :
    Sim g (r >>= k) (r >>= k') := by
  rcases r with e | a
  · exact Sim.error
  · exact hk a rfl

theorem ite {f : α → β} {c : Prop} [Decidable c] {a b : R α} {a' b' : R β} (h1 : Sim f a a') (h2 : Sim f b b') :
    Sim f (if c then a else b) (if c then a' else b') := by
  split <;> assumption

theorem funds {g : γ → δ} {c c' : Prop} [Decidable c] [Decidable c'] {k : Unit → R γ} {k' : Unit → R δ} (hc : c → c')
    (hk : Sim g (k ()) (k' ())) : Sim g (require c .token >>= k) (require c' .token >>= k') := by
  by_cases h : c
  · simp only [require, if_pos h, if_pos (hc h)]
    exact hk
  · simp only [require, if_neg h]
    constructor
    · intro a ha; cases ha
    · intro b _; exact .inr (.inl rfl)

theorem foldlM {f : α → β} {k : α → γ → R α} {k' : β → γ → R β} (h : ∀ a c, Sim f (k a c) (k' (f a) c)) (l : List γ) :
    ∀ a, Sim f (l.foldlM k a) (l.foldlM k' (f a)) := by
  induction l with
  | nil => intro a; exact Sim.pure rfl
  | cons c l ih => intro a; exact Sim.bind (h a c) fun b _ => ih b

/-- sums that may be too big -/
theorem sum {g : γ → δ} {x y : Int} {k : Int → R γ} {k' : Int → R δ} (hk : Sim g (k x) (k' y)) :
    Sim g (chk x >>= k) (chk y >>= k') := by
  unfold chk
  by_cases hx : InI128 x
  · by_cases hy : InI128 y
    · simp only [if_pos hx, if_pos hy]; exact hk
    · simp only [if_pos hx, if_neg hy]
      exact ⟨fun _ _ => .inr rfl, by rintro _ ⟨⟩⟩
  · by_cases hy : InI128 y
    · simp only [if_neg hx, if_pos hy]
      exact ⟨by rintro _ ⟨⟩, fun _ _ => .inr (.inr rfl)⟩
    · simp only [if_neg hx, if_neg hy]; exact Sim.error

end Sim

variable (G : Gift)

theorem Gift.balance (w : World) (t a : Address) : (G.give w).balance t a = w.balance t a + (if t = G.t ∧ a = G.x then G.n else 0) := rfl

theorem Gift.setBalance (w : World) (t a : Address) (v v' : Int) (h : v' = v + (if t = G.t ∧ a = G.x then G.n else 0)) :
    (G.give w).setBalance t a v' = G.give (w.setBalance t a v) := by
  subst h
  simp only [World.setBalance, Gift.give]
  congr 1
  funext u
  by_cases hu : u = t
  · subst hu
    simp only [upd_same]
    congr 1
    funext b
    by_cases hb : b = a
    · subst hb; simp only [upd_same]
    · simp only [upd_ne hb]
  · simp only [upd_ne hu]

theorem Gift.setAllowance (w : World) (t o s : Address) (v : Int) (e : Nat) :
    (G.give w).setAllowance t o s v e = G.give (w.setAllowance t o s v e) := by
  simp only [World.setAllowance, Gift.give]
  congr 1
  funext u
  by_cases hu : u = t
  · subst hu; simp only [upd_same]
  · simp only [upd_ne hu]

theorem Gift.transfer (w : World) (t a b : Address) (v : Int) : Sim G.give (transfer w t a b v) (transfer (G.give w) t a b v) := by
  unfold Blend.transfer
  refine Sim.same fun _ => Sim.funds (fun h => ?_) ?_
  · have := G.pos; rw [G.balance]; split <;> omega
  · rw [G.setBalance w t a (w.balance t a - v) _ (by rw [G.balance]; ring)]
    refine Sim.sum (Sim.pure (G.setBalance _ _ _ _ _ ?_))
    rw [G.balance]; ring

theorem Gift.mint (w : World) (t b : Address) (v : Int) : Sim G.give (mint w t b v) (mint (G.give w) t b v) := by
  unfold Blend.mint
  refine Sim.same fun _ => Sim.sum ?_
  rw [G.setBalance w t b (w.balance t b + v) _ (by rw [G.balance]; ring)]
  refine Sim.pure ?_
  generalize w.setBalance t b (w.balance t b + v) = w1
  simp only [Gift.give]
  congr 1
  funext u
  by_cases hu : u = t
  · subst hu; simp only [upd_same]; congr 1; ring
  · simp only [upd_ne hu]

theorem Gift.approve (w : World) (t o s : Address) (v : Int) (e : Nat) : Sim G.give (approve w t o s v e) (approve (G.give w) t o s v e) := by
  unfold Blend.approve
  exact Sim.same fun _ => Sim.pure (G.setAllowance w t o s v e)

theorem Gift.transferFrom (w : World) (t s a b : Address) (v : Int) :
    Sim G.give (transferFrom w t s a b v) (transferFrom (G.give w) t s a b v) := by
  unfold Blend.transferFrom
  refine Sim.same fun _ => Sim.same fun _ => ?_
  have : ((G.give w).setAllowance t a s ((G.give w).allowance t a s - v) (((G.give w).tok t).allow a s).2) =
      G.give (w.setAllowance t a s (w.allowance t a s - v) ((w.tok t).allow a s).2) := G.setAllowance _ _ _ _ _ _
  rw [this]
  exact G.transfer _ _ _ _ _

end Blend
