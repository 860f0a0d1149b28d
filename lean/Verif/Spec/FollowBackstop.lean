import Verif.Spec.Follow
/-
  Specification of an observer that follows the backstop from its events (C76).
-/

namespace Blend
namespace Spec

/-- What the observer of the backstop writes down: by pool the backstop tokens, the shares and the queued shares; by pool and
account the shares that are not queued, and the queue (oldest first, with the time each entry opens). -/
structure BackstopNotes where
  tokens : Address → Int := fun _ => 0
  shares : Address → Int := fun _ => 0
  queued : Address → Int := fun _ => 0
  own : Address → Address → Int := fun _ _ => 0
  queue : Address → Address → List Q4W := fun _ _ => []

/-- take `n` shares out of the queue, from the oldest entries -/
def takeOldest : Int → List Q4W → List Q4W
  | _, [] => []
  | n, e :: t => if n < e.amount then ⟨e.amount - n, e.exp⟩ :: t else if e.amount = n then t else takeOldest (n - e.amount) t

/-- `f` with `x` at `(p, u)` -/
def put {α : Type} (f : Address → Address → α) (p u : Address) (x : α) : Address → Address → α := upd f p (upd (f p) u x)

/-- How the observer updates its notes on an event. -/
def BackstopNotes.see (F : BackstopNotes) : Event → BackstopNotes
  | .deposit p u a m => { F with
      tokens := upd F.tokens p (F.tokens p + a)
      shares := upd F.shares p (F.shares p + m)
      own := put F.own p u (F.own p u + m) }
  | .queueWithdrawal p u m exp => { F with
      queued := upd F.queued p (F.queued p + m)
      own := put F.own p u (F.own p u - m)
      queue := put F.queue p u (F.queue p u ++ [⟨m, exp⟩]) }
  | .dequeueWithdrawal p u m => { F with
      queued := upd F.queued p (F.queued p - m)
      own := put F.own p u (F.own p u + m)
      queue := put F.queue p u (takeOldest m (F.queue p u)) }
  | .backstopWithdraw p u m a => { F with
      tokens := upd F.tokens p (F.tokens p - a)
      shares := upd F.shares p (F.shares p - m)
      queued := upd F.queued p (F.queued p - m)
      queue := put F.queue p u (takeOldest m (F.queue p u)) }
  | .draw p _ a => { F with tokens := upd F.tokens p (F.tokens p - a) }
  | .donate p _ a => { F with tokens := upd F.tokens p (F.tokens p + a) }
  | _ => F

/-- The notes `F` are right for the backstop `b`. -/
structure BackstopNotes.Right (b : BackstopState) (F : BackstopNotes) : Prop where
  pool : ∀ p, F.tokens p = (b.getPoolBal p).tokens ∧ F.shares p = (b.getPoolBal p).shares ∧ F.queued p = (b.getPoolBal p).q4w
  user : ∀ p u, F.own p u = (b.getUserBal p u).shares ∧ F.queue p u = (b.getUserBal p u).q4w

end Spec
end Blend
