import Verif.Lemmas.Orac
import Verif.Lemmas.World
/-
  A world in which another pool `q` contains something else: what does not call that pool goes exactly the same way. As in
  `Lemmas/Orac`, by a simulation of every function of the model.
-/

namespace Blend

/-- the world with other contents of the pool `q` -/
def World.away (q : Address) (X : PoolState) (w : World) : World := { w with pools := upd w.pools q X }

variable {q : Address} (X : PoolState)

/-- a result with a world -/
def World.bothA (q : Address) (X : PoolState) {α : Type} (r : α × World) : α × World := (r.1, r.2.away q X)

theorem away_pools {p : Address} (hp : p ≠ q) (w : World) : (w.away q X).pools p = w.pools p := upd_ne hp

theorem away_setPool {p : Address} (hp : p ≠ q) (w : World) (s : PoolState) : (w.away q X).setPool p s = (w.setPool p s).away q X := by
  unfold World.away World.setPool
  simp only [World.mk.injEq, true_and]
  funext x
  unfold upd
  by_cases h1 : x = p
  · subst h1; simp [hp]
  · simp [h1]

theorem isol_transfer (w : World) (t a b : Address) (v : Int) : Same (World.away q X) (transfer w t a b v) (transfer (w.away q X) t a b v) := by
  unfold transfer
  exact Same.same fun _ => Same.same fun _ => Same.same fun _ => Same.pure rfl

theorem isol_mint (w : World) (t b : Address) (v : Int) : Same (World.away q X) (mint w t b v) (mint (w.away q X) t b v) := by
  unfold mint
  exact Same.same fun _ => Same.same fun _ => Same.pure rfl

theorem isol_approve (w : World) (t a s : Address) (v : Int) (e : Nat) : Same (World.away q X) (approve w t a s v e) (approve (w.away q X) t a s v e) := by
  unfold approve
  exact Same.same fun _ => Same.pure rfl

theorem isol_transferFrom (w : World) (t s a b : Address) (v : Int) :
    Same (World.away q X) (transferFrom w t s a b v) (transferFrom (w.away q X) t s a b v) := by
  unfold transferFrom
  exact Same.same fun _ => Same.same fun _ => isol_transfer X _ _ _ _ _

namespace Emitter

theorem isol_executeDistribute (w : World) (b : Address) : Same (World.bothA q X) (executeDistribute w b) (executeDistribute (w.away q X) b) := by
  unfold executeDistribute
  refine Same.same fun _ => Same.same fun _ => Same.same fun _ => ?_
  refine Same.same fun i => ?_
  exact Same.bind (isol_mint X _ _ _ _) fun _ _ => Same.pure rfl

theorem isol_distribute (w : World) : Same (World.bothA q X) (distribute w) (distribute (w.away q X)) := by
  unfold distribute
  exact Same.same fun _ => isol_executeDistribute X _ _

theorem isol_drop (w : World) (auth : List Address) (l : List (Address × Int)) : Same (World.away q X) (drop w auth l) (drop (w.away q X) auth l) := by
  unfold drop
  refine Same.same fun i => Same.same fun _ => Same.same fun _ => Same.same fun _ => Same.same fun _ => ?_
  exact Same.bind (Same.foldlM (fun w x => isol_mint X w i.blnd x.1 x.2) l w) fun _ _ => Same.pure rfl

end Emitter

namespace Backstop

theorem isol_deposit (w : World) (auth : List Address) (s p : Address) (n : Int) :
    Same (World.bothA q X) (deposit w auth s p n) (deposit (w.away q X) auth s p n) := by
  unfold deposit executeDeposit
  refine Same.same fun _ => Same.same fun _ => Same.same fun _ => Same.same fun _ => Same.same fun x => ?_
  obtain ⟨_, b⟩ := x
  refine Same.same fun i => ?_
  refine Same.bind (isol_transfer X _ _ _ _ _) fun w2 _ => ?_
  exact Same.same fun _ => Same.same fun _ => Same.same fun _ => Same.same fun _ => Same.pure rfl

theorem isol_queue (w : World) (auth : List Address) (s p : Address) (n : Int) :
    Same (World.away q X) (queueWithdrawal w auth s p n) (queueWithdrawal (w.away q X) auth s p n) := by
  unfold queueWithdrawal executeQueue
  refine Same.same fun _ => Same.same fun _ => Same.same fun x => ?_
  exact Same.same fun _ => Same.same fun _ => Same.pure rfl

theorem isol_dequeue (w : World) (auth : List Address) (s p : Address) (n : Int) :
    Same (World.away q X) (dequeueWithdrawal w auth s p n) (dequeueWithdrawal (w.away q X) auth s p n) := by
  unfold dequeueWithdrawal executeDequeue
  refine Same.same fun _ => Same.same fun _ => Same.same fun x => ?_
  exact Same.same fun _ => Same.same fun _ => Same.same fun _ => Same.pure rfl

theorem isol_withdraw (w : World) (auth : List Address) (s p : Address) (n : Int) :
    Same (World.bothA q X) (withdraw w auth s p n) (withdraw (w.away q X) auth s p n) := by
  unfold withdraw executeWithdraw
  refine Same.same fun _ => Same.same fun _ => Same.same fun _ => Same.same fun _ => Same.same fun _ => Same.same fun _ => Same.same fun _ => ?_
  exact Same.bind (isol_transfer X _ _ _ _ _) fun _ _ => Same.pure rfl

theorem isol_draw (w : World) (auth : List Address) (p : Address) (n : Int) (d : Address) :
    Same (World.away q X) (draw w auth p n d) (draw (w.away q X) auth p n d) := by
  unfold draw executeDraw
  refine Same.same fun _ => Same.same fun _ => Same.same fun _ => Same.same fun _ => ?_
  exact isol_transfer X _ _ _ _ _

theorem isol_donate (w : World) (auth : List Address) (s p : Address) (n : Int) :
    Same (World.away q X) (donate w auth s p n) (donate (w.away q X) auth s p n) := by
  unfold donate executeDonate
  refine Same.same fun _ => Same.same fun _ => Same.same fun _ => Same.same fun _ => Same.same fun _ => Same.same fun _ => ?_
  refine Same.bind (isol_transfer X _ _ _ _ _) fun w2 _ => ?_
  exact Same.same fun _ => Same.pure rfl

theorem isol_comet (w : World) (lp blnd : Address) (n : Int) (u : Address) :
    Same (World.bothA q X) (cometDeposit w lp blnd n u) (cometDeposit (w.away q X) lp blnd n u) := by
  unfold cometDeposit
  refine Same.bind (isol_transfer X _ _ _ _ _) fun w1 _ => ?_
  refine Same.bind (isol_mint X _ _ _ _) fun w2 _ => ?_
  exact Same.same fun _ => Same.pure rfl

theorem isol_claim (w : World) (auth : List Address) (s : Address) (ps : List Address) (d : Address) :
    Same (World.bothA q X) (claim w auth s ps d) (claim (w.away q X) auth s ps d) := by
  unfold claim executeClaim
  refine Same.same fun _ => Same.same fun _ => Same.same fun x => ?_
  obtain ⟨c, cs, b⟩ := x
  dsimp only
  refine Same.ite ?_ (Same.pure rfl)
  refine Same.same fun i => Same.bind (isol_comet X _ _ _ _ _) fun y _ => ?_
  obtain ⟨o, w2⟩ := y
  exact Same.same fun _ => Same.pure rfl

theorem isol_gulp (w : World) : Same (World.bothA q X) (gulpEmissions w) (gulpEmissions (w.away q X)) := by
  unfold gulpEmissions
  refine Same.same fun _ => Same.same fun _ => Same.same fun _ => Same.same fun _ => Same.same fun _ => Same.same fun _ => ?_
  exact Same.same fun _ => Same.same fun _ => Same.same fun _ => Same.same fun _ => Same.pure rfl

theorem isol_gulpPool (w : World) (auth : List Address) (p : Address) :
    Same (World.bothA q X) (gulpPoolEmissionsAuth w auth p) (gulpPoolEmissionsAuth (w.away q X) auth p) := by
  unfold gulpPoolEmissionsAuth gulpPoolEmissions
  refine Same.same fun _ => Same.same fun _ => Same.same fun _ => Same.same fun _ => ?_
  exact Same.bind (isol_approve X _ _ _ _ _ _) fun _ _ => Same.pure rfl

theorem isol_addReward (w : World) (a b : Address) : Same (World.away q X) (addReward w a b) (addReward (w.away q X) a b) := by
  unfold addReward
  refine Same.same fun _ => Same.same fun _ => Same.same fun _ => ?_
  refine Same.ite (Same.pure rfl) ?_
  exact Same.same fun _ => Same.same fun _ => Same.same fun _ => Same.same fun _ => Same.pure rfl

theorem isol_init (w : World) (t e u b f : Address) (l : List (Address × Int)) :
    Same (World.away q X) (init w t e u b f l) (init (w.away q X) t e u b f l) := by
  unfold init
  exact Same.same fun _ => Same.same fun _ => Same.same fun _ => Same.pure rfl

theorem isol_drop (w : World) : Same (World.away q X) (drop w) (drop (w.away q X)) := by
  unfold drop
  exact Same.same fun _ => Same.same fun _ => Same.same fun _ => Emitter.isol_drop X _ _ _

end Backstop

end Blend
