import Verif.Lemmas.GiftStep
import Verif.Model.Events
/-
  The simulation of `Lemmas/Gift` for what operations return and publish.
-/

namespace Blend

variable (G : Gift)

theorem sim_unit {w w' : R World} (h : Sim G.give w w') : Sim (G.both (α := Ret)) (do let x ← w; pure (Ret.unit, x)) (do let x ← w'; pure (Ret.unit, x)) :=
  Sim.bind h fun _ _ => Sim.pure rfl

namespace Pool

theorem gift_callRet (w : World) (p : Address) (auth : List Address) (c : Call) :
    Sim G.both (callRet w p auth c) (callRet (G.give w) p auth c) := by
  cases c with
  | setReserve a =>
    unfold callRet
    refine Sim.same fun x => ?_
    obtain ⟨i, ps⟩ := x
    exact Sim.pure rfl
  | submit =>
    refine Sim.same fun _ => Sim.ite (Sim.same fun _ => ?_) ?_
    · refine Sim.bind (gift_submit G _ _ _ _ _ _ _) fun x _ => ?_
      obtain ⟨a, b⟩ := x
      exact Sim.pure rfl
    · refine Sim.bind (gift_submit G _ _ _ _ _ _ _) fun x _ => ?_
      obtain ⟨a, b⟩ := x
      exact Sim.pure rfl
  | updateStatus => exact Sim.same fun _ => Sim.same fun _ => Sim.same fun _ => Sim.pure rfl
  | gulpEmissions =>
    refine Sim.bind (gift_gulp G _ _) fun x _ => ?_
    obtain ⟨a, b⟩ := x
    exact Sim.pure rfl
  | claim =>
    refine Sim.same fun _ => Sim.bind (gift_claim G _ _ _ _ _) fun x _ => ?_
    obtain ⟨a, b⟩ := x
    exact Sim.pure rfl
  | newLiquidation u n =>
    unfold callRet
    refine Sim.same fun _ => Sim.same fun _ => ?_
    rw [show createUserLiq (G.give w) p u n = createUserLiq w p u n from rfl]
    refine Sim.same fun x => ?_
    obtain ⟨a, ps⟩ := x
    exact Sim.pure rfl
  | newBadDebt => unfold callRet; refine Sim.same fun _ => ?_; rw [gift_badDebtData]; exact Sim.same fun _ => Sim.pure rfl
  | newInterest => unfold callRet; refine Sim.same fun _ => ?_; rw [gift_interestData]; exact Sim.same fun _ => Sim.pure rfl
  | _ => exact sim_unit G (gift_call G w p auth _)

theorem gift_fillBadDebtLog (fl : Flight) (p : Address) (a : AuctionData) :
    Sim id (fillBadDebtLog fl p a) (fillBadDebtLog (G.flight fl) p a) := by
  unfold fillBadDebtLog
  refine Sim.same fun _ => Sim.same fun c1 => Sim.same fun c2 => Sim.same fun _ => Sim.same fun _ => ?_
  refine Sim.bind (Backstop.gift_draw G _ _ _ _ _) fun w2 _ => ?_
  refine Sim.ite (Sim.pure rfl) ?_
  refine Sim.same fun d => Sim.ite ?_ (Sim.pure rfl)
  exact Sim.same fun _ => Sim.pure rfl

theorem gift_fillLog (fl : Flight) (p : Address) (t : Nat) (u : Address) (n : Int) :
    Sim id (fillLog fl p t u n) (fillLog (G.flight fl) p t u n) := by
  unfold fillLog
  refine Sim.same fun _ => Sim.same fun x => ?_
  obtain ⟨a, r⟩ := x
  dsimp only
  refine Sim.ite (Sim.pure rfl) (Sim.ite ?_ ?_)
  · exact Sim.bind (gift_fillBadDebtLog G _ _ _) fun _ _ => Sim.pure rfl
  · exact Sim.same fun _ => Sim.pure rfl

theorem gift_requestLog (p : Address) (s : SubmitState) (q : Request) : Sim id (requestLog p s q) (requestLog p (G.state s) q) := by
  unfold requestLog
  obtain ⟨ty, a, n⟩ := q
  dsimp only
  split
  · exact Sim.same fun _ => Sim.same fun _ => Sim.pure rfl
  · exact Sim.same fun _ => Sim.same fun _ => Sim.pure rfl
  · exact Sim.same fun _ => Sim.same fun _ => Sim.pure rfl
  · exact Sim.same fun _ => Sim.same fun _ => Sim.pure rfl
  · exact Sim.same fun _ => Sim.same fun _ => Sim.pure rfl
  · refine Sim.same fun _ => Sim.same fun _ => Sim.ite ?_ (Sim.pure rfl)
    exact Sim.same fun _ => Sim.same fun _ => Sim.same fun _ => Sim.pure rfl
  · exact gift_fillLog G _ _ _ _ _
  · exact gift_fillLog G _ _ _ _ _
  · exact gift_fillLog G _ _ _ _ _
  · exact Sim.pure rfl
  · exact Sim.error

theorem gift_requestsLog (p : Address) (auth : List Address) (l : List Request) :
    ∀ s, Sim id (requestsLog p auth l s) (requestsLog p auth l (G.state s)) := by
  induction l with
  | nil => intro s; unfold requestsLog; exact Sim.pure rfl
  | cons q l ih =>
    intro s
    unfold requestsLog
    refine Sim.bind (gift_requestLog G _ _ _) fun _ _ => Sim.bind (gift_request G _ _ _ _) fun s' _ => ?_
    exact Sim.bind (ih s') fun _ _ => Sim.pure rfl

theorem gift_callLog (w : World) (p : Address) (auth : List Address) (c : Call) :
    Sim id (callLog w p auth c) (callLog (G.give w) p auth c) := by
  cases c with
  | «initialize» => exact Sim.pure rfl
  | setAdmin => exact Sim.same fun _ => Sim.pure rfl
  | updatePool => exact Sim.same fun _ => Sim.pure rfl
  | queueSetReserve => exact Sim.same fun _ => Sim.pure rfl
  | cancelSetReserve => exact Sim.same fun _ => Sim.pure rfl
  | setReserve => exact Sim.same fun _ => Sim.pure rfl
  | submit => exact Sim.same fun _ => gift_requestsLog G _ _ _ _
  | badDebt => exact Sim.refl
  | updateStatus => exact Sim.same fun _ => Sim.same fun _ => Sim.same fun _ => Sim.pure rfl
  | setStatus => exact Sim.same fun _ => Sim.pure rfl
  | gulpEmissions =>
    unfold callLog
    refine Sim.bind (Backstop.gift_gulpPool G _ _ _) fun x _ => ?_
    obtain ⟨n, w1⟩ := x
    exact Sim.same fun _ => Sim.pure rfl
  | setEmissionsConfig => exact Sim.pure rfl
  | claim =>
    unfold callLog
    refine Sim.bind (gift_claim G _ _ _ _ _) fun x _ => ?_
    obtain ⟨n, w1⟩ := x
    exact Sim.pure rfl
  | newLiquidation u n =>
    unfold callLog
    dsimp only
    rw [show createUserLiq (G.give w) p u n = createUserLiq w p u n from rfl]
    exact Sim.same fun _ => Sim.pure rfl
  | newBadDebt => unfold callLog; refine Sim.same fun _ => ?_; rw [gift_badDebtData]; exact Sim.same fun _ => Sim.pure rfl
  | newInterest => unfold callLog; refine Sim.same fun _ => ?_; rw [gift_interestData]; exact Sim.same fun _ => Sim.pure rfl

end Pool

namespace Backstop

theorem gift_executeQueueRet (w : World) (s p : Address) (n : Int) :
    Sim G.both (executeQueueRet w s p n) (executeQueueRet (G.give w) s p n) := by
  unfold executeQueueRet
  exact Sim.same fun _ => Sim.same fun _ => Sim.same fun _ => Sim.same fun _ => Sim.same fun _ => Sim.pure rfl

theorem gift_ret (w : World) (auth : List Address) (c : BackstopCall) (h : ¬ Spec.Measures w G.t G.x (.backstop auth c)) :
    Sim G.both (backstopRet w auth c) (backstopRet (G.give w) auth c) := by
  cases c with
  | deposit => exact Sim.bind (gift_deposit G _ _ _ _ _) fun _ _ => Sim.pure rfl
  | queueWithdrawal => exact Sim.same fun _ => Sim.bind (gift_executeQueueRet G _ _ _ _) fun _ _ => Sim.pure rfl
  | withdraw => exact Sim.bind (gift_withdraw G _ _ _ _ _) fun _ _ => Sim.pure rfl
  | gulpPoolEmissions => exact Sim.bind (gift_gulpPool G _ _ _) fun _ _ => Sim.pure rfl
  | claim => exact Sim.bind (gift_claim G _ _ _ _ _) fun _ _ => Sim.pure rfl
  | updateTknVal =>
    unfold backstopRet updateTknValRet
    refine Sim.bind (f := fun x : Int × Int × World => (x.1, x.2.1, G.give x.2.2)) ?_ fun _ _ => Sim.pure rfl
    refine Sim.sameEq fun i hi => ?_
    have hm : ¬ (G.x = i.backstopToken ∧ (G.t = i.blnd ∨ G.t = i.usdc)) := fun hc => h ⟨i, inst_some hi, hc⟩
    have h1 : (G.give w).balance i.blnd i.backstopToken = w.balance i.blnd i.backstopToken := by
      rw [G.balance, if_neg, add_zero]; rintro ⟨h1, h2⟩; exact hm ⟨h2.symm, .inl h1.symm⟩
    have h2 : (G.give w).balance i.usdc i.backstopToken = w.balance i.usdc i.backstopToken := by
      rw [G.balance, if_neg, add_zero]; rintro ⟨h1, h2⟩; exact hm ⟨h2.symm, .inr h1.symm⟩
    rw [h1, h2]
    exact Sim.same fun _ => Sim.same fun _ => Sim.pure rfl
  | _ => exact sim_unit G (gift_call G w auth _ h)

theorem gift_log (w : World) (auth : List Address) (c : BackstopCall) :
    Sim id (backstopLog w auth c) (backstopLog (G.give w) auth c) := by
  cases c with
  | deposit => exact Sim.bind (gift_deposit G _ _ _ _ _) fun _ _ => Sim.pure rfl
  | queueWithdrawal => exact Sim.bind (gift_executeQueueRet G _ _ _ _) fun _ _ => Sim.pure rfl
  | withdraw => exact Sim.bind (gift_withdraw G _ _ _ _ _) fun _ _ => Sim.pure rfl
  | gulpEmissions => exact Sim.bind (gift_gulp G _) fun _ _ => Sim.pure rfl
  | drop => exact Sim.same fun _ => Sim.pure rfl
  | claim =>
    unfold backstopLog claimLog
    refine Sim.same fun x => ?_
    obtain ⟨c, cs, b⟩ := x
    dsimp only
    refine Sim.ite ?_ (Sim.pure rfl)
    refine Sim.same fun i => Sim.bind (gift_comet G _ _ _ _ _) fun y _ => ?_
    obtain ⟨o, w2⟩ := y
    exact Sim.same fun _ => Sim.pure rfl
  | _ => exact Sim.pure rfl

end Backstop

theorem Emitter.gift_ret (w : World) (auth : List Address) (c : EmitterCall) (h : ¬ Spec.Measures w G.t G.x (.emitter auth c)) :
    Sim G.both (emitterRet w auth c) (emitterRet (G.give w) auth c) := by
  cases c with
  | distribute => exact Sim.bind (gift_distribute G _) fun _ _ => Sim.pure rfl
  | _ => exact sim_unit G (gift_call G w auth _ h)

theorem Emitter.gift_log (w : World) (auth : List Address) (c : EmitterCall) (h : ¬ Spec.Measures w G.t G.x (.emitter auth c)) :
    Sim id (emitterLog w c) (emitterLog (G.give w) c) := by
  cases c with
  | distribute => exact Sim.same fun _ => Sim.bind (gift_distribute G _) fun _ _ => Sim.pure rfl
  | queueSwap b t =>
    unfold emitterLog
    refine Sim.bind (gift_call G w auth (.queueSwap b t) h) fun w' _ => Sim.same fun _ => Sim.pure rfl
  | cancelSwap => exact Sim.same fun _ => Sim.pure rfl
  | swapBackstop => exact Sim.same fun _ => Sim.pure rfl
  | _ => exact Sim.pure rfl

theorem Factory.gift_deploy (w : World) (auth : List Address) (a : Address) (s : Nat) (o : Address) (r m : Nat) :
    Sim G.both (Factory.deploy w auth a s o r m) (Factory.deploy (G.give w) auth a s o r m) := by
  unfold Factory.deploy
  refine Sim.same fun _ => Sim.same fun _ => Sim.same fun _ => Sim.same fun _ => Sim.same fun _ => Sim.same fun _ => ?_
  exact Sim.bind (Pool.gift_call G _ _ _ _) fun _ _ => Sim.pure rfl

theorem Gift.exec (w : World) (op : Op) (h : ¬ Spec.Measures w G.t G.x op) : Sim G.both (exec w op) (exec (G.give w) op) := by
  cases op with
  | pool => exact Sim.same fun _ => Sim.same fun _ => Pool.gift_callRet G _ _ _ _
  | backstop => exact Sim.same fun _ => Backstop.gift_ret G _ _ _ h
  | emitter => exact Sim.same fun _ => Emitter.gift_ret G _ _ _ h
  | factory auth c =>
    refine Sim.same fun _ => ?_
    cases c with
    | «initialize» => exact sim_unit G (Factory.gift_call G w auth _)
    | deploy => exact Sim.bind (Factory.gift_deploy G _ _ _ _ _ _ _) fun _ _ => Sim.pure rfl
  | _ => exact sim_unit G (G.step w _ h)

theorem Gift.log (w : World) (op : Op) (h : ¬ Spec.Measures w G.t G.x op) : Sim id (logOf w op) (logOf (G.give w) op) := by
  cases op with
  | pool => exact Pool.gift_callLog G _ _ _ _
  | backstop => exact Backstop.gift_log G _ _ _
  | emitter auth => exact Emitter.gift_log G _ auth _ h
  | factory auth c =>
    cases c with
    | «initialize» => exact Sim.pure rfl
    | deploy => exact Sim.bind (Factory.gift_deploy G _ _ _ _ _ _ _) fun _ _ => Sim.pure rfl
  | _ => exact Sim.pure rfl

end Blend
