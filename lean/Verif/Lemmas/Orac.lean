import Verif.Model.System
import Verif.Model.Events
import Verif.Lemmas.Basic
/-
  A world in which the oracles report something else: what does not ask for a price goes exactly the
  same way. As in `Lemmas/Gift`, by a simulation of every function of the model.
-/

namespace Blend

/-- the world with other oracles -/
def World.told (o : Address → Oracle) (w : World) : World := { w with oracle := o }

/-- `r'` goes like `r`, with the result `f a` in the place of `a` -/
def Same {α β : Type} (f : α → β) (r : R α) (r' : R β) : Prop := r' = r.map f

namespace Same

variable {α β γ δ : Type}

theorem ok {f : α → β} {r : R α} {r' : R β} (h : Same f r r') {a : α} (ha : r = .ok a) : r' = .ok (f a) := by
  subst ha; exact h

theorem pure {f : α → β} {a : α} {b : β} (h : b = f a) : Same f (pure a) (pure b) := by
  subst h; rfl

theorem error {f : α → β} {e : Err} : Same f (.error e) (.error e) := rfl

theorem bind {f : α → β} {g : γ → δ} {r : R α} {r' : R β} {k : α → R γ} {k' : β → R δ} (h : Same f r r')
    (hk : ∀ a, r = .ok a → Same g (k a) (k' (f a))) : Same g (r >>= k) (r' >>= k') := by
  subst h
  rcases r with e | a
  · rfl
  · exact hk a rfl

theorem same {g : γ → δ} {r : R α} {k : α → R γ} {k' : α → R δ} (hk : ∀ a, Same g (k a) (k' a)) :
    Same g (r >>= k) (r >>= k') := by
  rcases r with e | a
  · exact Same.error
  · exact hk a

theorem refl {r : R α} : Same id r r := by
  rcases r with e | a <;> rfl

theorem ite {f : α → β} {c : Prop} [Decidable c] {a b : R α} {a' b' : R β} (h1 : Same f a a') (h2 : Same f b b') :
    Same f (if c then a else b) (if c then a' else b') := by
  split <;> assumption

theorem foldlM {f : α → β} {k : α → γ → R α} {k' : β → γ → R β} (h : ∀ a c, Same f (k a c) (k' (f a) c)) (l : List γ) :
    ∀ a, Same f (l.foldlM k a) (l.foldlM k' (f a)) := by
  induction l with
  | nil => intro a; exact Same.pure rfl
  | cons c l ih => intro a; exact Same.bind (h a c) fun b _ => ih b

end Same

variable (o : Address → Oracle)

/-- a result with a world -/
def World.both {α : Type} (r : α × World) : α × World := (r.1, r.2.told o)

theorem orac_transfer (w : World) (t a b : Address) (v : Int) : Same (World.told o) (transfer w t a b v) (transfer (w.told o) t a b v) := by
  unfold transfer
  exact Same.same fun _ => Same.same fun _ => Same.same fun _ => Same.pure rfl

theorem orac_mint (w : World) (t b : Address) (v : Int) : Same (World.told o) (mint w t b v) (mint (w.told o) t b v) := by
  unfold mint
  exact Same.same fun _ => Same.same fun _ => Same.pure rfl

theorem orac_approve (w : World) (t a s : Address) (v : Int) (e : Nat) : Same (World.told o) (approve w t a s v e) (approve (w.told o) t a s v e) := by
  unfold approve
  exact Same.same fun _ => Same.pure rfl

theorem orac_transferFrom (w : World) (t s a b : Address) (v : Int) :
    Same (World.told o) (transferFrom w t s a b v) (transferFrom (w.told o) t s a b v) := by
  unfold transferFrom
  exact Same.same fun _ => Same.same fun _ => orac_transfer o _ _ _ _ _

end Blend
