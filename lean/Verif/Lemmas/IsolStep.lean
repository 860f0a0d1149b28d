import Verif.Lemmas.IsolPool
import Verif.Spec.OtherPool
/-
  The simulation of `Lemmas/Isol` for the entry points, what they return and what they publish.
-/

set_option linter.unusedTactic false
set_option linter.unnecessarySeqFocus false

namespace Blend

variable {q : Address} (X : PoolState)

namespace Emitter

theorem isol_call (w : World) (auth : List Address) (c : EmitterCall) :
    Same (World.away q X) (emitterCall w auth c) (emitterCall (w.away q X) auth c) := by
  cases c with
  | «initialize» => exact Same.same fun _ => Same.pure rfl
  | distribute => exact Same.bind (isol_distribute X _) fun _ _ => Same.pure rfl
  | drop => exact isol_drop X _ _ _
  | queueSwap b t => unfold emitterCall queueSwap; exact Same.same fun _ => Same.same fun _ => Same.same fun _ => Same.pure rfl
  | cancelSwap => unfold emitterCall cancelSwap; exact Same.same fun _ => Same.same fun _ => Same.same fun _ => Same.pure rfl
  | swapBackstop =>
    unfold emitterCall swapBackstop
    refine Same.same fun _ => Same.same fun _ => Same.same fun _ => ?_
    refine Same.same fun _ => Same.bind (isol_executeDistribute X _ _) fun x _ => ?_
    obtain ⟨n, w1⟩ := x
    exact Same.pure rfl

end Emitter

namespace Backstop

theorem isol_call (w : World) (auth : List Address) (c : BackstopCall) :
    Same (World.away q X) (backstopCall w auth c) (backstopCall (w.away q X) auth c) := by
  cases c with
  | «initialize» => exact isol_init X _ _ _ _ _ _ _
  | deposit => exact Same.bind (isol_deposit X _ _ _ _ _) fun _ _ => Same.pure rfl
  | queueWithdrawal => exact isol_queue X _ _ _ _ _
  | dequeueWithdrawal => exact isol_dequeue X _ _ _ _ _
  | withdraw => exact Same.bind (isol_withdraw X _ _ _ _ _) fun _ _ => Same.pure rfl
  | gulpEmissions => exact Same.bind (isol_gulp X _) fun _ _ => Same.pure rfl
  | addReward => exact isol_addReward X _ _ _
  | gulpPoolEmissions => exact Same.bind (isol_gulpPool X _ _ _) fun _ _ => Same.pure rfl
  | claim => exact Same.bind (isol_claim X _ _ _ _ _) fun _ _ => Same.pure rfl
  | drop => exact isol_drop X _
  | draw => exact isol_draw X _ _ _ _ _
  | donate => exact isol_donate X _ _ _ _ _
  | updateTknVal => unfold backstopCall updateTknVal; exact Same.same fun _ => Same.same fun _ => Same.same fun _ => Same.pure rfl

end Backstop

theorem Factory.isol_deploy (w : World) (auth : List Address) (a : Address) (s : Nat) (k : Address) (r m : Nat)
    (hd : w.deployAddr a s ≠ q) :
    Same (World.bothA q X) (Factory.deploy w auth a s k r m) (Factory.deploy (w.away q X) auth a s k r m) := by
  have e : (w.away q X).deployAddr a s = w.deployAddr a s := rfl
  unfold Factory.deploy
  rw [e]
  simp only [away_pools X hd]
  refine Same.same fun _ => Same.same fun _ => Same.same fun _ => Same.same fun _ => Same.same fun _ => Same.same fun _ => ?_
  exact Same.bind (Pool.isol_call X hd _ _ _) fun _ _ => Same.pure rfl

theorem Factory.isol_call (w : World) (auth : List Address) (c : FactoryCall) (h : ¬ Spec.CallsPool w q (.factory auth c)) :
    Same (World.away q X) (factoryCall w auth c) (factoryCall (w.away q X) auth c) := by
  cases c with
  | «initialize» => exact Same.same fun _ => Same.pure rfl
  | deploy =>
    unfold factoryCall
    exact Same.bind (Factory.isol_deploy X _ _ _ _ _ _ _ h) fun _ _ => Same.pure rfl

theorem isol_step (w : World) (op : Op) (h : ¬ Spec.CallsPool w q op) :
    Same (World.away q X) (step w op) (step (w.away q X) op) := by
  cases op with
  | pool => exact Same.same fun _ => Same.same fun _ => Pool.isol_call X h _ _ _
  | backstop => exact Same.same fun _ => Backstop.isol_call X _ _ _
  | emitter => exact Same.same fun _ => Emitter.isol_call X _ _ _
  | factory => exact Same.same fun _ => Factory.isol_call X _ _ _ h
  | ledger => exact Same.pure rfl
  | oracles => exact Same.pure rfl
  | comet => exact Same.same fun _ => Same.pure rfl
  | tokenTransfer => exact Same.same fun _ => isol_transfer X _ _ _ _ _
  | tokenMint => exact Same.same fun _ => isol_mint X _ _ _ _
  | tokenBurn t a n => exact Same.same fun _ => Same.same fun _ => Same.pure rfl
  | tokenApprove => exact Same.same fun _ => isol_approve X _ _ _ _ _ _
  | expireAuction p => exact Same.pure (by simp only [away_pools X h, away_setPool X h])
  | expireQueued p => exact Same.pure (by simp only [away_pools X h, away_setPool X h])
  | expireDropList => exact Same.pure rfl

theorem same_unit_isol {w w' : R World} (h : Same (World.away q X) w w') : Same (World.bothA q X (α := Ret)) (do let x ← w; pure (Ret.unit, x)) (do let x ← w'; pure (Ret.unit, x)) :=
  Same.bind h fun _ _ => Same.pure rfl

namespace Pool

theorem isol_callRet {p : Address} (hp : p ≠ q) (w : World) (auth : List Address) (c : Call) :
    Same (World.bothA q X) (callRet w p auth c) (callRet (w.away q X) p auth c) := by
  cases c with
  | setReserve a =>
    unfold callRet
    away hp
    refine Same.same fun x => ?_
    obtain ⟨i, ps⟩ := x
    exact Same.pure (by away hp <;> rfl)
  | submit =>
    refine Same.same fun _ => Same.ite (Same.same fun _ => ?_) ?_
    · refine Same.bind (isol_submit X hp _ _ _ _ _ _) fun x _ => ?_
      obtain ⟨a, b⟩ := x
      exact Same.pure (by away hp <;> rfl)
    · refine Same.bind (isol_submit X hp _ _ _ _ _ _) fun x _ => ?_
      obtain ⟨a, b⟩ := x
      exact Same.pure (by away hp <;> rfl)
  | updateStatus =>
    unfold callRet
    away hp
    exact Same.same fun _ => Same.same fun _ => Same.same fun _ => Same.pure (by simp only [World.bothA]; away hp)
  | newLiquidation =>
    unfold callRet
    simp only [isol_createUserLiq X hp]
    away hp
    refine Same.same fun _ => Same.same fun _ => Same.same fun x => ?_
    obtain ⟨a, ps⟩ := x
    exact Same.pure (by simp only [World.bothA]; away hp)
  | newBadDebt =>
    unfold callRet
    simp only [isol_createBadDebtData X hp]
    away hp
    exact Same.same fun _ => Same.same fun _ => Same.pure (by simp only [World.bothA]; away hp)
  | newInterest =>
    unfold callRet
    simp only [isol_createInterestData X hp]
    away hp
    exact Same.same fun _ => Same.same fun _ => Same.pure (by simp only [World.bothA]; away hp)
  | gulpEmissions =>
    refine Same.bind (isol_gulp X hp _) fun x _ => ?_
    obtain ⟨a, b⟩ := x
    exact Same.pure (by away hp <;> rfl)
  | claim =>
    refine Same.same fun _ => Same.bind (isol_claim X hp _ _ _ _) fun x _ => ?_
    obtain ⟨a, b⟩ := x
    exact Same.pure (by away hp <;> rfl)
  | _ => exact same_unit_isol X (isol_call X hp w auth _)

theorem isol_fillBadDebtLog {p : Address} (hp : p ≠ q) (fl : Flight) (a : AuctionData) :
    Same id (fillBadDebtLog fl p a) (fillBadDebtLog ((World.awayFl q X) fl) p a) := by
  unfold fillBadDebtLog
  away hp
  refine Same.same fun _ => Same.same fun c1 => Same.same fun c2 => Same.same fun _ => Same.same fun _ => ?_
  refine Same.bind (Backstop.isol_draw X _ _ _ _ _) fun w2 _ => ?_
  away hp
  refine Same.ite (Same.pure (by away hp <;> rfl)) ?_
  refine Same.same fun d => Same.ite ?_ (Same.pure (by away hp <;> rfl))
  exact Same.same fun _ => Same.pure (by away hp <;> rfl)

theorem isol_fillInterestLog {p : Address} (hp : p ≠ q) (fl : Flight) (a : AuctionData) :
    Same id (fillInterestLog fl p a) (fillInterestLog ((World.awayFl q X) fl) p a) := by
  unfold fillInterestLog
  away hp
  exact Same.refl

theorem isol_fillLog {p : Address} (hp : p ≠ q) (fl : Flight) (t : Nat) (u : Address) (n : Int) :
    Same id (fillLog fl p t u n) (fillLog ((World.awayFl q X) fl) p t u n) := by
  unfold fillLog
  away hp
  refine Same.same fun _ => Same.same fun x => ?_
  obtain ⟨a, r⟩ := x
  dsimp only
  refine Same.ite (Same.pure (by away hp <;> rfl)) (Same.ite ?_ ?_)
  · exact Same.bind (isol_fillBadDebtLog X hp _ _) fun _ _ => Same.pure (by away hp <;> rfl)
  · exact Same.bind (isol_fillInterestLog X hp _ _) fun _ _ => Same.pure (by away hp <;> rfl)

theorem isol_requestLog {p : Address} (hp : p ≠ q) (s : SubmitState) (r : Request) : Same id (requestLog p s r) (requestLog p ((World.awaySt q X) s) r) := by
  unfold requestLog
  away hp
  obtain ⟨ty, a, n⟩ := r
  dsimp only
  split
  · exact Same.same fun _ => Same.same fun _ => Same.pure (by away hp <;> rfl)
  · exact Same.same fun _ => Same.same fun _ => Same.pure (by away hp <;> rfl)
  · exact Same.same fun _ => Same.same fun _ => Same.pure (by away hp <;> rfl)
  · exact Same.same fun _ => Same.same fun _ => Same.pure (by away hp <;> rfl)
  · exact Same.same fun _ => Same.same fun _ => Same.pure (by away hp <;> rfl)
  · refine Same.same fun _ => Same.same fun _ => Same.ite ?_ (Same.pure (by away hp <;> rfl))
    exact Same.same fun _ => Same.same fun _ => Same.same fun _ => Same.pure (by away hp <;> rfl)
  · exact isol_fillLog X hp _ _ _ _
  · exact isol_fillLog X hp _ _ _ _
  · exact isol_fillLog X hp _ _ _ _
  · exact Same.pure (by away hp <;> rfl)
  · exact Same.error

theorem isol_requestsLog {p : Address} (hp : p ≠ q) (auth : List Address) (l : List Request) :
    ∀ s, Same id (requestsLog p auth l s) (requestsLog p auth l ((World.awaySt q X) s)) := by
  induction l with
  | nil => intro s; unfold requestsLog; exact Same.pure (by away hp <;> rfl)
  | cons r l ih =>
    intro s
    unfold requestsLog
    away hp
    refine Same.bind (isol_requestLog X hp _ _) fun _ _ => Same.bind (isol_request X hp _ _ _) fun s' _ => ?_
    exact Same.bind (ih s') fun _ _ => Same.pure (by away hp <;> rfl)

theorem isol_callLog {p : Address} (hp : p ≠ q) (w : World) (auth : List Address) (c : Call) :
    Same id (callLog w p auth c) (callLog (w.away q X) p auth c) := by
  cases c with
  | submit =>
    unfold callLog
    away hp
    exact Same.same fun _ => isol_requestsLog X hp _ _ _
  | gulpEmissions =>
    unfold callLog
    refine Same.bind (Backstop.isol_gulpPool X _ _ _) fun x _ => ?_
    obtain ⟨n, w1⟩ := x
    simp only [World.bothA]
    away hp
    exact Same.refl
  | claim =>
    unfold callLog
    refine Same.bind (isol_claim X hp _ _ _ _) fun x _ => ?_
    obtain ⟨n, w1⟩ := x
    exact Same.refl
  | newLiquidation => unfold callLog; simp only [isol_createUserLiq X hp]; exact Same.refl
  | newBadDebt => unfold callLog; simp only [isol_createBadDebtData X hp]; away hp; exact Same.refl
  | newInterest => unfold callLog; simp only [isol_createInterestData X hp]; away hp; exact Same.refl
  | _ => unfold callLog; away hp; exact Same.refl

end Pool

namespace Backstop

theorem isol_executeQueueRet (w : World) (s p : Address) (n : Int) :
    Same (World.bothA q X) (executeQueueRet w s p n) (executeQueueRet (w.away q X) s p n) := by
  unfold executeQueueRet
  exact Same.same fun _ => Same.same fun _ => Same.same fun _ => Same.same fun _ => Same.same fun _ => Same.pure rfl

theorem isol_ret (w : World) (auth : List Address) (c : BackstopCall) :
    Same (World.bothA q X) (backstopRet w auth c) (backstopRet (w.away q X) auth c) := by
  cases c with
  | deposit => exact Same.bind (isol_deposit X _ _ _ _ _) fun _ _ => Same.pure rfl
  | queueWithdrawal => exact Same.same fun _ => Same.bind (isol_executeQueueRet X _ _ _ _) fun _ _ => Same.pure rfl
  | withdraw => exact Same.bind (isol_withdraw X _ _ _ _ _) fun _ _ => Same.pure rfl
  | gulpPoolEmissions => exact Same.bind (isol_gulpPool X _ _ _) fun _ _ => Same.pure rfl
  | claim => exact Same.bind (isol_claim X _ _ _ _ _) fun _ _ => Same.pure rfl
  | updateTknVal =>
    unfold backstopRet updateTknValRet
    refine Same.bind (f := fun x : Int × Int × World => (x.1, x.2.1, x.2.2.away q X)) ?_ fun _ _ => Same.pure rfl
    exact Same.same fun _ => Same.same fun _ => Same.same fun _ => Same.pure rfl
  | _ => exact same_unit_isol X (isol_call X w auth _)

theorem isol_log (w : World) (auth : List Address) (c : BackstopCall) :
    Same id (backstopLog w auth c) (backstopLog (w.away q X) auth c) := by
  cases c with
  | deposit => exact Same.bind (isol_deposit X _ _ _ _ _) fun _ _ => Same.pure rfl
  | queueWithdrawal => exact Same.bind (isol_executeQueueRet X _ _ _ _) fun _ _ => Same.pure rfl
  | withdraw => exact Same.bind (isol_withdraw X _ _ _ _ _) fun _ _ => Same.pure rfl
  | gulpEmissions => exact Same.bind (isol_gulp X _) fun _ _ => Same.pure rfl
  | drop => exact Same.same fun _ => Same.pure rfl
  | claim =>
    unfold backstopLog claimLog
    refine Same.same fun x => ?_
    obtain ⟨c, cs, b⟩ := x
    dsimp only
    refine Same.ite ?_ (Same.pure rfl)
    refine Same.same fun i => Same.bind (isol_comet X _ _ _ _ _) fun y _ => ?_
    obtain ⟨o, w2⟩ := y
    exact Same.same fun _ => Same.pure rfl
  | _ => exact Same.pure rfl

end Backstop

theorem Emitter.isol_ret (w : World) (auth : List Address) (c : EmitterCall) :
    Same (World.bothA q X) (emitterRet w auth c) (emitterRet (w.away q X) auth c) := by
  cases c with
  | distribute => exact Same.bind (isol_distribute X _) fun _ _ => Same.pure rfl
  | _ => exact same_unit_isol X (isol_call X w auth _)

theorem Emitter.isol_log (w : World) (auth : List Address) (c : EmitterCall) :
    Same id (emitterLog w c) (emitterLog (w.away q X) c) := by
  cases c with
  | distribute => exact Same.same fun _ => Same.bind (isol_distribute X _) fun _ _ => Same.pure rfl
  | queueSwap b t =>
    unfold emitterLog
    refine Same.bind (isol_call X w auth (.queueSwap b t)) fun w' _ => Same.same fun _ => Same.pure rfl
  | cancelSwap => exact Same.same fun _ => Same.pure rfl
  | swapBackstop => exact Same.same fun _ => Same.pure rfl
  | _ => exact Same.pure rfl

theorem isol_exec (w : World) (op : Op) (h : ¬ Spec.CallsPool w q op) : Same (World.bothA q X) (exec w op) (exec (w.away q X) op) := by
  cases op with
  | pool => exact Same.same fun _ => Same.same fun _ => Pool.isol_callRet X h _ _ _
  | backstop => exact Same.same fun _ => Backstop.isol_ret X _ _ _
  | emitter => exact Same.same fun _ => Emitter.isol_ret X _ _ _
  | factory auth c =>
    refine Same.same fun _ => ?_
    cases c with
    | «initialize» => exact same_unit_isol X (Factory.isol_call X w auth _ h)
    | deploy => exact Same.bind (Factory.isol_deploy X _ _ _ _ _ _ _ h) fun _ _ => Same.pure rfl
  | _ => exact same_unit_isol X (isol_step X w _ h)

theorem isol_log (w : World) (op : Op) (h : ¬ Spec.CallsPool w q op) : Same id (logOf w op) (logOf (w.away q X) op) := by
  cases op with
  | pool p auth c => exact Pool.isol_callLog X h _ auth _
  | backstop => exact Backstop.isol_log X _ _ _
  | emitter auth => exact Emitter.isol_log X _ auth _
  | factory auth c =>
    cases c with
    | «initialize» => exact Same.pure rfl
    | deploy => exact Same.bind (Factory.isol_deploy X _ _ _ _ _ _ _ h) fun _ _ => Same.pure rfl
  | _ => exact Same.pure rfl

end Blend
