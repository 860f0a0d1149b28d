import Verif.Lemmas.OracStep
import Verif.Model.Events
/-
  The simulation of `Lemmas/Orac` for what operations return and publish.
-/

namespace Blend

variable (o : Address → Oracle)

theorem same_unit {w w' : R World} (h : Same (World.told o) w w') : Same (World.both o (α := Ret)) (do let x ← w; pure (Ret.unit, x)) (do let x ← w'; pure (Ret.unit, x)) :=
  Same.bind h fun _ _ => Same.pure rfl

namespace Pool

theorem orac_callRet (w : World) (p : Address) (auth : List Address) (c : Call) (h : ¬ Spec.Asks (.pool p auth c)) :
    Same (World.both o) (callRet w p auth c) (callRet (w.told o) p auth c) := by
  cases c with
  | setReserve a =>
    unfold callRet
    refine Same.same fun x => ?_
    obtain ⟨i, ps⟩ := x
    exact Same.pure rfl
  | submit =>
    refine Same.same fun _ => Same.ite (Same.same fun _ => ?_) ?_
    · refine Same.bind (orac_submit o _ _ _ _ _ _ _ h) fun x _ => ?_
      obtain ⟨a, b⟩ := x
      exact Same.pure rfl
    · refine Same.bind (orac_submit o _ _ _ _ _ _ _ h) fun x _ => ?_
      obtain ⟨a, b⟩ := x
      exact Same.pure rfl
  | updateStatus => exact Same.same fun _ => Same.same fun _ => Same.same fun _ => Same.pure rfl
  | gulpEmissions =>
    refine Same.bind (orac_gulp o _ _) fun x _ => ?_
    obtain ⟨a, b⟩ := x
    exact Same.pure rfl
  | claim =>
    refine Same.same fun _ => Same.bind (orac_claim o _ _ _ _ _) fun x _ => ?_
    obtain ⟨a, b⟩ := x
    exact Same.pure rfl
  | newLiquidation => exact absurd trivial h
  | newBadDebt => exact absurd trivial h
  | newInterest => exact absurd trivial h
  | _ => exact same_unit o (orac_call o w p auth _ h)

theorem orac_fillBadDebtLog (fl : Flight) (p : Address) (a : AuctionData) :
    Same id (fillBadDebtLog fl p a) (fillBadDebtLog ((World.toldFl o) fl) p a) := by
  unfold fillBadDebtLog
  refine Same.same fun _ => Same.same fun c1 => Same.same fun c2 => Same.same fun _ => Same.same fun _ => ?_
  refine Same.bind (Backstop.orac_draw o _ _ _ _ _) fun w2 _ => ?_
  refine Same.ite (Same.pure rfl) ?_
  refine Same.same fun d => Same.ite ?_ (Same.pure rfl)
  exact Same.same fun _ => Same.pure rfl

theorem orac_fillLog (fl : Flight) (p : Address) (t : Nat) (u : Address) (n : Int) :
    Same id (fillLog fl p t u n) (fillLog ((World.toldFl o) fl) p t u n) := by
  unfold fillLog
  refine Same.same fun _ => Same.same fun x => ?_
  obtain ⟨a, r⟩ := x
  dsimp only
  refine Same.ite (Same.pure rfl) (Same.ite ?_ ?_)
  · exact Same.bind (orac_fillBadDebtLog o _ _ _) fun _ _ => Same.pure rfl
  · exact Same.same fun _ => Same.pure rfl

theorem orac_requestLog (p : Address) (s : SubmitState) (q : Request) : Same id (requestLog p s q) (requestLog p ((World.toldSt o) s) q) := by
  unfold requestLog
  obtain ⟨ty, a, n⟩ := q
  dsimp only
  split
  · exact Same.same fun _ => Same.same fun _ => Same.pure rfl
  · exact Same.same fun _ => Same.same fun _ => Same.pure rfl
  · exact Same.same fun _ => Same.same fun _ => Same.pure rfl
  · exact Same.same fun _ => Same.same fun _ => Same.pure rfl
  · exact Same.same fun _ => Same.same fun _ => Same.pure rfl
  · refine Same.same fun _ => Same.same fun _ => Same.ite ?_ (Same.pure rfl)
    exact Same.same fun _ => Same.same fun _ => Same.same fun _ => Same.pure rfl
  · exact orac_fillLog o _ _ _ _ _
  · exact orac_fillLog o _ _ _ _ _
  · exact orac_fillLog o _ _ _ _ _
  · exact Same.pure rfl
  · exact Same.error

theorem orac_requestsLog (p : Address) (auth : List Address) (l : List Request) :
    ∀ s, Same id (requestsLog p auth l s) (requestsLog p auth l ((World.toldSt o) s)) := by
  induction l with
  | nil => intro s; unfold requestsLog; exact Same.pure rfl
  | cons q l ih =>
    intro s
    unfold requestsLog
    refine Same.bind (orac_requestLog o _ _ _) fun _ _ => Same.bind (orac_request o _ _ _ _) fun s' _ => ?_
    exact Same.bind (ih s') fun _ _ => Same.pure rfl

theorem orac_callLog (w : World) (p : Address) (auth : List Address) (c : Call)
    (h : (∃ a b d l, c = .submit a b d l) ∨ ¬ Spec.Asks (.pool p auth c)) :
    Same id (callLog w p auth c) (callLog (w.told o) p auth c) := by
  cases c with
  | «initialize» => exact Same.pure rfl
  | setAdmin => exact Same.same fun _ => Same.pure rfl
  | updatePool => exact Same.same fun _ => Same.pure rfl
  | queueSetReserve => exact Same.same fun _ => Same.pure rfl
  | cancelSetReserve => exact Same.same fun _ => Same.pure rfl
  | setReserve => exact Same.same fun _ => Same.pure rfl
  | submit => exact Same.same fun _ => orac_requestsLog o _ _ _ _
  | badDebt => exact Same.refl
  | updateStatus => exact Same.same fun _ => Same.same fun _ => Same.same fun _ => Same.pure rfl
  | setStatus => exact Same.same fun _ => Same.pure rfl
  | gulpEmissions =>
    unfold callLog
    refine Same.bind (Backstop.orac_gulpPool o _ _ _) fun x _ => ?_
    obtain ⟨n, w1⟩ := x
    exact Same.same fun _ => Same.pure rfl
  | setEmissionsConfig => exact Same.pure rfl
  | claim =>
    unfold callLog
    refine Same.bind (orac_claim o _ _ _ _ _) fun x _ => ?_
    obtain ⟨n, w1⟩ := x
    exact Same.pure rfl
  | newLiquidation =>
    rcases h with ⟨_, _, _, _, h⟩ | h
    · cases h
    · exact absurd trivial h
  | newBadDebt =>
    rcases h with ⟨_, _, _, _, h⟩ | h
    · cases h
    · exact absurd trivial h
  | newInterest =>
    rcases h with ⟨_, _, _, _, h⟩ | h
    · cases h
    · exact absurd trivial h

end Pool

namespace Backstop

theorem orac_executeQueueRet (w : World) (s p : Address) (n : Int) :
    Same (World.both o) (executeQueueRet w s p n) (executeQueueRet (w.told o) s p n) := by
  unfold executeQueueRet
  exact Same.same fun _ => Same.same fun _ => Same.same fun _ => Same.same fun _ => Same.same fun _ => Same.pure rfl

theorem orac_ret (w : World) (auth : List Address) (c : BackstopCall) :
    Same (World.both o) (backstopRet w auth c) (backstopRet (w.told o) auth c) := by
  cases c with
  | deposit => exact Same.bind (orac_deposit o _ _ _ _ _) fun _ _ => Same.pure rfl
  | queueWithdrawal => exact Same.same fun _ => Same.bind (orac_executeQueueRet o _ _ _ _) fun _ _ => Same.pure rfl
  | withdraw => exact Same.bind (orac_withdraw o _ _ _ _ _) fun _ _ => Same.pure rfl
  | gulpPoolEmissions => exact Same.bind (orac_gulpPool o _ _ _) fun _ _ => Same.pure rfl
  | claim => exact Same.bind (orac_claim o _ _ _ _ _) fun _ _ => Same.pure rfl
  | updateTknVal =>
    unfold backstopRet updateTknValRet
    refine Same.bind (f := fun x : Int × Int × World => (x.1, x.2.1, x.2.2.told o)) ?_ fun _ _ => Same.pure rfl
    exact Same.same fun _ => Same.same fun _ => Same.same fun _ => Same.pure rfl
  | _ => exact same_unit o (orac_call o w auth _)

theorem orac_log (w : World) (auth : List Address) (c : BackstopCall) :
    Same id (backstopLog w auth c) (backstopLog (w.told o) auth c) := by
  cases c with
  | deposit => exact Same.bind (orac_deposit o _ _ _ _ _) fun _ _ => Same.pure rfl
  | queueWithdrawal => exact Same.bind (orac_executeQueueRet o _ _ _ _) fun _ _ => Same.pure rfl
  | withdraw => exact Same.bind (orac_withdraw o _ _ _ _ _) fun _ _ => Same.pure rfl
  | gulpEmissions => exact Same.bind (orac_gulp o _) fun _ _ => Same.pure rfl
  | drop => exact Same.same fun _ => Same.pure rfl
  | claim =>
    unfold backstopLog claimLog
    refine Same.same fun x => ?_
    obtain ⟨c, cs, b⟩ := x
    dsimp only
    refine Same.ite ?_ (Same.pure rfl)
    refine Same.same fun i => Same.bind (orac_comet o _ _ _ _ _) fun y _ => ?_
    obtain ⟨o, w2⟩ := y
    exact Same.same fun _ => Same.pure rfl
  | _ => exact Same.pure rfl

end Backstop

theorem Emitter.orac_ret (w : World) (auth : List Address) (c : EmitterCall) :
    Same (World.both o) (emitterRet w auth c) (emitterRet (w.told o) auth c) := by
  cases c with
  | distribute => exact Same.bind (orac_distribute o _) fun _ _ => Same.pure rfl
  | _ => exact same_unit o (orac_call o w auth _)

theorem Emitter.orac_log (w : World) (auth : List Address) (c : EmitterCall) :
    Same id (emitterLog w c) (emitterLog (w.told o) c) := by
  cases c with
  | distribute => exact Same.same fun _ => Same.bind (orac_distribute o _) fun _ _ => Same.pure rfl
  | queueSwap b t =>
    unfold emitterLog
    refine Same.bind (orac_call o w auth (.queueSwap b t)) fun w' _ => Same.same fun _ => Same.pure rfl
  | cancelSwap => exact Same.same fun _ => Same.pure rfl
  | swapBackstop => exact Same.same fun _ => Same.pure rfl
  | _ => exact Same.pure rfl

theorem Factory.orac_deploy (w : World) (auth : List Address) (a : Address) (s : Nat) (k : Address) (r m : Nat) :
    Same (World.both o) (Factory.deploy w auth a s k r m) (Factory.deploy (w.told o) auth a s k r m) := by
  unfold Factory.deploy
  refine Same.same fun _ => Same.same fun _ => Same.same fun _ => Same.same fun _ => Same.same fun _ => Same.same fun _ => ?_
  exact Same.bind (Pool.orac_call o _ _ _ _ id) fun _ _ => Same.pure rfl

theorem orac_exec (w : World) (op : Op) (h : ¬ Spec.Asks op) (hr : Spec.reports op = false) : Same (World.both o) (exec w op) (exec (w.told o) op) := by
  cases op with
  | pool => exact Same.same fun _ => Same.same fun _ => Pool.orac_callRet o _ _ _ _ h
  | backstop => exact Same.same fun _ => Backstop.orac_ret o _ _ _
  | emitter => exact Same.same fun _ => Emitter.orac_ret o _ _ _
  | factory auth c =>
    refine Same.same fun _ => ?_
    cases c with
    | «initialize» => exact same_unit o (Factory.orac_call o w auth _)
    | deploy => exact Same.bind (Factory.orac_deploy o _ _ _ _ _ _ _) fun _ _ => Same.pure rfl
  | _ => exact same_unit o (orac_step o w _ h hr)

theorem orac_log (w : World) (op : Op)
    (h : (∃ q auth a b d l, op = .pool q auth (.submit a b d l)) ∨ ¬ Spec.Asks op) : Same id (logOf w op) (logOf (w.told o) op) := by
  cases op with
  | pool q auth c =>
    refine Pool.orac_callLog o _ _ auth _ ?_
    rcases h with ⟨_, _, a, b, d, l, h⟩ | h
    · cases h; exact .inl ⟨a, b, d, l, rfl⟩
    · exact .inr h
  | backstop => exact Backstop.orac_log o _ _ _
  | emitter auth => exact Emitter.orac_log o _ auth _
  | factory auth c =>
    cases c with
    | «initialize» => exact Same.pure rfl
    | deploy => exact Same.bind (Factory.orac_deploy o _ _ _ _ _ _ _) fun _ _ => Same.pure rfl
  | _ => exact Same.pure rfl

end Blend
