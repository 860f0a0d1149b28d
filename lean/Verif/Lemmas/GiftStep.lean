import Verif.Lemmas.Gift
import Verif.Spec.Gift
/-
  The simulation of `Lemmas/Gift` for the entry points.
-/

namespace Blend

variable (G : Gift)

/-- a result with a world -/
def Gift.both {α : Type} (r : α × World) : α × World := (r.1, G.give r.2)

namespace Emitter

theorem gift_executeDistribute (w : World) (b : Address) : Sim G.both (executeDistribute w b) (executeDistribute (G.give w) b) := by
  unfold executeDistribute
  refine Sim.same fun _ => Sim.same fun _ => Sim.same fun _ => ?_
  refine Sim.same fun i => ?_
  exact Sim.bind (G.mint _ _ _ _) fun _ _ => Sim.pure rfl

theorem gift_distribute (w : World) : Sim G.both (distribute w) (distribute (G.give w)) := by
  unfold distribute
  exact Sim.same fun _ => gift_executeDistribute G _ _

theorem gift_drop (w : World) (auth : List Address) (l : List (Address × Int)) : Sim G.give (drop w auth l) (drop (G.give w) auth l) := by
  unfold drop
  refine Sim.same fun i => Sim.same fun _ => Sim.same fun _ => Sim.same fun _ => Sim.same fun _ => ?_
  exact Sim.bind (Sim.foldlM (fun w x => G.mint w i.blnd x.1 x.2) l w) fun _ _ => Sim.pure rfl

end Emitter

namespace Backstop

theorem gift_deposit (w : World) (auth : List Address) (s p : Address) (n : Int) :
    Sim G.both (deposit w auth s p n) (deposit (G.give w) auth s p n) := by
  unfold deposit executeDeposit
  refine Sim.same fun _ => Sim.same fun _ => Sim.same fun _ => Sim.same fun _ => Sim.same fun x => ?_
  obtain ⟨_, b⟩ := x
  refine Sim.same fun i => ?_
  refine Sim.bind (G.transfer _ _ _ _ _) fun w2 _ => ?_
  exact Sim.same fun _ => Sim.same fun _ => Sim.same fun _ => Sim.same fun _ => Sim.pure rfl

theorem gift_queue (w : World) (auth : List Address) (s p : Address) (n : Int) :
    Sim G.give (queueWithdrawal w auth s p n) (queueWithdrawal (G.give w) auth s p n) := by
  unfold queueWithdrawal executeQueue
  refine Sim.same fun _ => Sim.same fun _ => Sim.same fun x => ?_
  exact Sim.same fun _ => Sim.same fun _ => Sim.pure rfl

theorem gift_dequeue (w : World) (auth : List Address) (s p : Address) (n : Int) :
    Sim G.give (dequeueWithdrawal w auth s p n) (dequeueWithdrawal (G.give w) auth s p n) := by
  unfold dequeueWithdrawal executeDequeue
  refine Sim.same fun _ => Sim.same fun _ => Sim.same fun x => ?_
  exact Sim.same fun _ => Sim.same fun _ => Sim.same fun _ => Sim.pure rfl

theorem gift_withdraw (w : World) (auth : List Address) (s p : Address) (n : Int) :
    Sim G.both (withdraw w auth s p n) (withdraw (G.give w) auth s p n) := by
  unfold withdraw executeWithdraw
  refine Sim.same fun _ => Sim.same fun _ => Sim.same fun _ => Sim.same fun _ => Sim.same fun _ => Sim.same fun _ => Sim.same fun _ => ?_
  exact Sim.bind (G.transfer _ _ _ _ _) fun _ _ => Sim.pure rfl

theorem gift_draw (w : World) (auth : List Address) (p : Address) (n : Int) (d : Address) :
    Sim G.give (draw w auth p n d) (draw (G.give w) auth p n d) := by
  unfold draw executeDraw
  refine Sim.same fun _ => Sim.same fun _ => Sim.same fun _ => Sim.same fun _ => ?_
  exact G.transfer _ _ _ _ _

theorem gift_donate (w : World) (auth : List Address) (s p : Address) (n : Int) :
    Sim G.give (donate w auth s p n) (donate (G.give w) auth s p n) := by
  unfold donate executeDonate
  refine Sim.same fun _ => Sim.same fun _ => Sim.same fun _ => Sim.same fun _ => Sim.same fun _ => Sim.same fun _ => ?_
  refine Sim.bind (G.transfer _ _ _ _ _) fun w2 _ => ?_
  exact Sim.same fun _ => Sim.pure rfl

theorem gift_comet (w : World) (lp blnd : Address) (n : Int) (u : Address) :
    Sim G.both (cometDeposit w lp blnd n u) (cometDeposit (G.give w) lp blnd n u) := by
  unfold cometDeposit
  refine Sim.bind (G.transfer _ _ _ _ _) fun w1 _ => ?_
  refine Sim.bind (G.mint _ _ _ _) fun w2 _ => ?_
  exact Sim.same fun _ => Sim.pure rfl

theorem gift_claim (w : World) (auth : List Address) (s : Address) (ps : List Address) (d : Address) :
    Sim G.both (claim w auth s ps d) (claim (G.give w) auth s ps d) := by
  unfold claim executeClaim
  refine Sim.same fun _ => Sim.same fun _ => Sim.same fun x => ?_
  obtain ⟨c, cs, b⟩ := x
  dsimp only
  refine Sim.ite ?_ (Sim.pure rfl)
  refine Sim.same fun i => Sim.bind (gift_comet G _ _ _ _ _) fun y _ => ?_
  obtain ⟨o, w2⟩ := y
  exact Sim.same fun _ => Sim.pure rfl

theorem gift_gulp (w : World) : Sim G.both (gulpEmissions w) (gulpEmissions (G.give w)) := by
  unfold gulpEmissions
  refine Sim.same fun _ => Sim.same fun _ => Sim.same fun _ => Sim.same fun _ => Sim.same fun _ => Sim.same fun _ => ?_
  exact Sim.same fun _ => Sim.same fun _ => Sim.same fun _ => Sim.same fun _ => Sim.pure rfl

theorem gift_gulpPool (w : World) (auth : List Address) (p : Address) :
    Sim G.both (gulpPoolEmissionsAuth w auth p) (gulpPoolEmissionsAuth (G.give w) auth p) := by
  unfold gulpPoolEmissionsAuth gulpPoolEmissions
  refine Sim.same fun _ => Sim.same fun _ => Sim.same fun _ => Sim.same fun _ => ?_
  exact Sim.bind (G.approve _ _ _ _ _ _) fun _ _ => Sim.pure rfl

theorem gift_addReward (w : World) (a b : Address) : Sim G.give (addReward w a b) (addReward (G.give w) a b) := by
  unfold addReward
  refine Sim.same fun _ => Sim.same fun _ => Sim.same fun _ => ?_
  refine Sim.ite (Sim.pure rfl) ?_
  exact Sim.same fun _ => Sim.same fun _ => Sim.same fun _ => Sim.same fun _ => Sim.pure rfl

theorem gift_init (w : World) (t e u b f : Address) (l : List (Address × Int)) :
    Sim G.give (init w t e u b f l) (init (G.give w) t e u b f l) := by
  unfold init
  exact Sim.same fun _ => Sim.same fun _ => Sim.same fun _ => Sim.pure rfl

theorem gift_drop (w : World) : Sim G.give (drop w) (drop (G.give w)) := by
  unfold drop
  exact Sim.same fun _ => Sim.same fun _ => Sim.same fun _ => Emitter.gift_drop G _ _ _

end Backstop

namespace Pool

/-- the flight with the gift -/
def _root_.Blend.Gift.flight (fl : Flight) : Flight := ⟨G.give fl.w, fl.cache, fl.user⟩

/-- the state of a submit with the gift -/
def _root_.Blend.Gift.state (s : SubmitState) : SubmitState := ⟨G.flight s.fl, s.actions, s.check⟩

theorem gift_fillUserLiq (fl : Flight) (p : Address) (a : AuctionData) (u : Address) :
    Sim G.flight (fillUserLiq fl p a u) (fillUserLiq (G.flight fl) p a u) := by
  unfold fillUserLiq
  exact Sim.same fun _ => Sim.same fun _ => Sim.pure rfl

theorem gift_fillBadDebt (fl : Flight) (p : Address) (a : AuctionData) :
    Sim G.flight (fillBadDebt fl p a) (fillBadDebt (G.flight fl) p a) := by
  unfold fillBadDebt
  refine Sim.same fun _ => Sim.same fun _ => Sim.same fun c1 => Sim.same fun c2 => Sim.same fun _ => Sim.same fun _ => ?_
  refine Sim.bind (Backstop.gift_draw G _ _ _ _ _) fun w2 _ => ?_
  refine Sim.ite (Sim.pure rfl) ?_
  refine Sim.same fun d => Sim.ite ?_ (Sim.pure rfl)
  exact Sim.same fun _ => Sim.same fun _ => Sim.pure rfl

theorem gift_fillInterestLoop (p f : Address) (l : List (Nat × Int)) :
    ∀ s : World × Cache, Sim (fun r : World × Cache => (G.give r.1, r.2)) (fillInterestLoop p f l s) (fillInterestLoop p f l (G.give s.1, s.2)) := by
  induction l with
  | nil => intro s; obtain ⟨w, c⟩ := s; unfold fillInterestLoop; exact Sim.pure rfl
  | cons x l ih =>
    rintro ⟨w, c⟩
    obtain ⟨a, n⟩ := x
    unfold fillInterestLoop
    refine Sim.same fun y => ?_
    obtain ⟨r, c'⟩ := y
    refine Sim.same fun _ => Sim.bind (G.transfer _ _ _ _ _) fun w' _ => ?_
    exact ih (w', _)

theorem gift_fillInterest (fl : Flight) (p : Address) (auth : List Address) (a : AuctionData) :
    Sim G.flight (fillInterest fl p auth a) (fillInterest (G.flight fl) p auth a) := by
  unfold fillInterest
  refine Sim.same fun _ => Sim.same fun _ => Sim.same fun _ => Sim.same fun _ => ?_
  refine Sim.bind (Backstop.gift_donate G _ _ _ _ _) fun w1 _ => ?_
  refine Sim.bind (gift_fillInterestLoop G _ _ _ (w1, _)) fun y _ => ?_
  obtain ⟨w2, c⟩ := y
  exact Sim.pure rfl

theorem gift_fill (fl : Flight) (p : Address) (auth : List Address) (t : Nat) (u : Address) (n : Nat) :
    Sim G.flight (fill fl p auth t u n) (fill (G.flight fl) p auth t u n) := by
  unfold fill
  refine Sim.same fun _ => Sim.same fun _ => Sim.same fun x => ?_
  obtain ⟨a, r⟩ := x
  dsimp only
  refine Sim.ite ?_ (Sim.ite ?_ ?_)
  · exact Sim.bind (gift_fillUserLiq G _ _ _ _) fun _ _ => Sim.pure rfl
  · exact Sim.bind (gift_fillBadDebt G _ _ _) fun _ _ => Sim.pure rfl
  · exact Sim.bind (gift_fillInterest G _ _ _ _) fun _ _ => Sim.pure rfl

theorem gift_supply (p : Address) (c : Bool) (s : SubmitState) (a : Address) (n : Int) :
    Sim G.state (reqSupply p c s a n) (reqSupply p c (G.state s) a n) := by
  unfold reqSupply
  refine Sim.same fun x => ?_
  obtain ⟨r, c⟩ := x
  refine Sim.same fun _ => Sim.same fun y => ?_
  exact Sim.same fun _ => Sim.pure rfl

theorem gift_reqWithdraw (p : Address) (s : SubmitState) (a : Address) (n : Int) :
    Sim G.state (reqWithdraw p s a n) (reqWithdraw p (G.state s) a n) := by
  unfold reqWithdraw
  refine Sim.same fun x => Sim.same fun y => Sim.same fun z => ?_
  exact Sim.same fun _ => Sim.pure rfl

theorem gift_withdrawColl (p : Address) (s : SubmitState) (a : Address) (n : Int) :
    Sim G.state (reqWithdrawColl p s a n) (reqWithdrawColl p (G.state s) a n) := by
  unfold reqWithdrawColl
  refine Sim.same fun x => Sim.same fun y => Sim.same fun z => ?_
  exact Sim.same fun _ => Sim.pure rfl

theorem gift_borrow (p : Address) (s : SubmitState) (a : Address) (n : Int) :
    Sim G.state (reqBorrow p s a n) (reqBorrow p (G.state s) a n) := by
  unfold reqBorrow
  refine Sim.same fun x => Sim.same fun y => Sim.same fun z => ?_
  exact Sim.same fun _ => Sim.same fun _ => Sim.pure rfl

theorem gift_repay (p : Address) (s : SubmitState) (a : Address) (n : Int) :
    Sim G.state (reqRepay p s a n) (reqRepay p (G.state s) a n) := by
  unfold reqRepay
  refine Sim.same fun x => Sim.same fun y => Sim.same fun z => ?_
  refine Sim.ite ?_ ?_
  · exact Sim.same fun _ => Sim.same fun _ => Sim.same fun _ => Sim.same fun _ => Sim.same fun _ => Sim.pure rfl
  · exact Sim.same fun _ => Sim.pure rfl

theorem gift_delete (p : Address) (s : SubmitState) : Sim G.state (reqDelete p s) (reqDelete p (G.state s)) := by
  unfold reqDelete
  exact Sim.same fun _ => Sim.pure rfl

theorem gift_reqFill (p : Address) (auth : List Address) (t : Nat) (s : SubmitState) (u : Address) (n : Int) :
    Sim G.state (reqFill p auth t s u n) (reqFill p auth t (G.state s) u n) := by
  unfold reqFill
  exact Sim.bind (gift_fill G _ _ _ _ _ _) fun _ _ => Sim.pure rfl

theorem gift_request (p : Address) (auth : List Address) (s : SubmitState) (q : Request) :
    Sim G.state (processRequest p auth s q) (processRequest p auth (G.state s) q) := by
  unfold processRequest
  refine Sim.same fun _ => Sim.same fun _ => ?_
  obtain ⟨ty, a, n⟩ := q
  dsimp only
  split
  · exact gift_supply G _ _ _ _ _
  · exact gift_reqWithdraw G _ _ _ _
  · exact gift_supply G _ _ _ _ _
  · exact gift_withdrawColl G _ _ _ _
  · exact gift_borrow G _ _ _ _
  · exact gift_repay G _ _ _ _
  · exact gift_reqFill G _ _ _ _ _ _
  · exact gift_reqFill G _ _ _ _ _ _
  · exact gift_reqFill G _ _ _ _ _ _
  · exact gift_delete G _ _
  · exact Sim.error

theorem gift_submit (w : World) (p : Address) (auth : List Address) (a b c : Address) (reqs : List Request) :
    Sim G.both (executeSubmit w p auth a b c reqs) (executeSubmit (G.give w) p auth a b c reqs) := by
  unfold executeSubmit buildActions
  refine Sim.same fun _ => Sim.same fun cache => ?_
  refine Sim.bind (f := G.state) ?_ fun s _ => ?_
  · refine Sim.bind (Sim.foldlM (gift_request G p auth) reqs _) fun s _ => ?_
    exact Sim.same fun _ => Sim.pure rfl
  · refine Sim.same fun cache' => ?_
    refine Sim.bind (Sim.foldlM (f := G.give) (k := fun w (kv : Nat × Int) => transfer w kv.1 b p kv.2)
      (fun w (kv : Nat × Int) => G.transfer w kv.1 b p kv.2) _ _) fun w1 _ => ?_
    refine Sim.same fun ps1 => ?_
    exact Sim.bind (Sim.foldlM (f := G.give) (k := fun w (kv : Nat × Int) => transfer w kv.1 p c kv.2)
      (fun w (kv : Nat × Int) => G.transfer w kv.1 p c kv.2) _ (w1.setPool p _)) fun w3 _ => Sim.pure rfl

theorem gift_claim (w : World) (p s : Address) (ids : List Nat) (d : Address) :
    Sim G.both (executeClaim w p s ids d) (executeClaim (G.give w) p s ids d) := by
  unfold executeClaim
  refine Sim.same fun x => ?_
  obtain ⟨n, ps⟩ := x
  refine Sim.ite ?_ (Sim.pure rfl)
  refine Sim.same fun i => ?_
  exact Sim.bind (G.transferFrom (w.setPool p ps) _ _ _ _ _) fun _ _ => Sim.pure rfl

theorem gift_gulp (w : World) (p : Address) : Sim G.both (gulpEmissions w p) (gulpEmissions (G.give w) p) := by
  unfold gulpEmissions
  refine Sim.same fun _ => Sim.same fun _ => Sim.bind (Backstop.gift_gulpPool G _ _ _) fun x _ => ?_
  obtain ⟨n, w1⟩ := x
  exact Sim.same fun _ => Sim.pure rfl

theorem gift_badDebtLoop (w : World) (ps : PoolState) (l : List (Nat × Int)) :
    ∀ s, badDebtLoop (G.give w) ps l s = badDebtLoop w ps l s := by
  induction l with
  | nil => intro s; unfold badDebtLoop; rfl
  | cons x l ih =>
    intro s
    unfold badDebtLoop
    simp only [ih]
    rfl

theorem gift_interestLoop (w : World) (ps : PoolState) (l : List Address) :
    ∀ s, interestLoop (G.give w) ps l s = interestLoop w ps l s := by
  induction l with
  | nil => intro s; unfold interestLoop; rfl
  | cons x l ih =>
    intro s
    unfold interestLoop
    simp only [ih]
    rfl

theorem gift_badDebtData (w : World) (p b : Address) : createBadDebtData (G.give w) p b = createBadDebtData w p b := by
  unfold createBadDebtData
  simp only [gift_badDebtLoop]
  rfl

theorem gift_interestData (w : World) (p b : Address) (l : List Address) : createInterestData (G.give w) p b l = createInterestData w p b l := by
  unfold createInterestData
  simp only [gift_interestLoop]
  rfl

theorem gift_call (w : World) (p : Address) (auth : List Address) (c : Call) : Sim G.give (call w p auth c) (call (G.give w) p auth c) := by
  cases c with
  | «initialize» => exact Sim.same fun _ => Sim.same fun _ => Sim.pure rfl
  | setAdmin => exact Sim.same fun _ => Sim.same fun _ => Sim.same fun _ => Sim.pure rfl
  | updatePool => exact Sim.same fun _ => Sim.same fun _ => Sim.pure rfl
  | queueSetReserve => exact Sim.same fun _ => Sim.same fun _ => Sim.pure rfl
  | cancelSetReserve => exact Sim.same fun _ => Sim.pure rfl
  | setReserve => exact Sim.same fun _ => Sim.pure rfl
  | submit =>
    refine Sim.same fun _ => Sim.ite (Sim.same fun _ => ?_) ?_
    · exact Sim.bind (gift_submit G _ _ _ _ _ _ _) fun _ _ => Sim.pure rfl
    · exact Sim.bind (gift_submit G _ _ _ _ _ _ _) fun _ _ => Sim.pure rfl
  | badDebt => unfold call transferBadDebt; exact Sim.same fun _ => Sim.same fun _ => Sim.same fun _ => Sim.same fun _ => Sim.same fun _ => Sim.same fun _ => Sim.pure rfl
  | updateStatus => unfold call updateStatus; exact Sim.same fun _ => Sim.same fun _ => Sim.same fun _ => Sim.pure rfl
  | setStatus => unfold call setStatus; exact Sim.same fun _ => Sim.same fun _ => Sim.same fun _ => Sim.same fun _ => Sim.pure rfl
  | gulpEmissions => exact Sim.bind (gift_gulp G _ _) fun _ _ => Sim.pure rfl
  | setEmissionsConfig => exact Sim.same fun _ => Sim.same fun _ => Sim.pure rfl
  | claim => exact Sim.same fun _ => Sim.bind (gift_claim G _ _ _ _ _) fun _ _ => Sim.pure rfl
  | newLiquidation u n =>
    unfold call createLiquidation
    refine Sim.same fun _ => Sim.same fun _ => ?_
    rw [show createUserLiq (G.give w) p u n = createUserLiq w p u n from rfl]
    refine Sim.same fun x => ?_
    obtain ⟨a, ps⟩ := x
    exact Sim.pure rfl
  | newBadDebt => unfold call createBadDebt; refine Sim.same fun _ => ?_; rw [gift_badDebtData]; exact Sim.same fun _ => Sim.pure rfl
  | newInterest => unfold call createInterest; refine Sim.same fun _ => ?_; rw [gift_interestData]; exact Sim.same fun _ => Sim.pure rfl

end Pool

namespace Emitter

theorem gift_larger (w : World) (i : EmitterInst) (b : Address) (h : ¬ (G.t = i.backstopToken ∧ (G.x = b ∨ G.x = i.backstop))) :
    newBackstopLarger (G.give w) i b = newBackstopLarger w i b := by
  unfold newBackstopLarger
  rw [G.balance, G.balance, if_neg, if_neg, add_zero, add_zero]
  · rintro ⟨h1, h2⟩; exact h ⟨h1.symm, .inr h2.symm⟩
  · rintro ⟨h1, h2⟩; exact h ⟨h1.symm, .inl h2.symm⟩

theorem inst_some {w : World} {i : EmitterInst} (h : inst w = .ok i) : w.emitter.inst = some i := by
  simpa only [inst, unwrap_ok] using h

theorem queued_some {w : World} {s : Swap} (h : queuedSwap w = .ok s) : w.emitter.swap = some s := by
  unfold queuedSwap at h
  split at h
  · rename_i s' hs; cases h; exact hs
  · cases h

theorem gift_call (w : World) (auth : List Address) (c : EmitterCall) (h : ¬ Spec.Measures w G.t G.x (.emitter auth c)) :
    Sim G.give (emitterCall w auth c) (emitterCall (G.give w) auth c) := by
  cases c with
  | «initialize» => exact Sim.same fun _ => Sim.pure rfl
  | distribute => exact Sim.bind (gift_distribute G _) fun _ _ => Sim.pure rfl
  | drop => exact gift_drop G _ _ _
  | queueSwap b t =>
    unfold emitterCall queueSwap
    refine Sim.same fun _ => Sim.sameEq fun i hi => ?_
    rw [gift_larger G w i b fun hc => h ⟨i, inst_some hi, hc⟩]
    exact Sim.same fun _ => Sim.pure rfl
  | cancelSwap =>
    unfold emitterCall cancelSwap
    refine Sim.sameEq fun s hs => Sim.sameEq fun i hi => ?_
    rw [gift_larger G w i _ fun hc => h ⟨i, s, inst_some hi, queued_some hs, hc⟩]
    exact Sim.same fun _ => Sim.pure rfl
  | swapBackstop =>
    unfold emitterCall swapBackstop
    refine Sim.sameEq fun s hs => Sim.same fun _ => Sim.sameEq fun i hi => ?_
    rw [gift_larger G w i _ fun hc => h ⟨i, s, inst_some hi, queued_some hs, hc⟩]
    refine Sim.same fun _ => Sim.bind (gift_executeDistribute G _ _) fun x _ => ?_
    obtain ⟨n, w1⟩ := x
    exact Sim.pure rfl

end Emitter

namespace Backstop

theorem inst_some {w : World} {i : BackstopInst} (h : inst w = .ok i) : w.backstop.inst = some i := by
  simpa only [inst, unwrap_ok] using h

theorem gift_call (w : World) (auth : List Address) (c : BackstopCall) (h : ¬ Spec.Measures w G.t G.x (.backstop auth c)) :
    Sim G.give (backstopCall w auth c) (backstopCall (G.give w) auth c) := by
  cases c with
  | «initialize» => exact gift_init G _ _ _ _ _ _ _
  | deposit => exact Sim.bind (gift_deposit G _ _ _ _ _) fun _ _ => Sim.pure rfl
  | queueWithdrawal => exact gift_queue G _ _ _ _ _
  | dequeueWithdrawal => exact gift_dequeue G _ _ _ _ _
  | withdraw => exact Sim.bind (gift_withdraw G _ _ _ _ _) fun _ _ => Sim.pure rfl
  | gulpEmissions => exact Sim.bind (gift_gulp G _) fun _ _ => Sim.pure rfl
  | addReward => exact gift_addReward G _ _ _
  | gulpPoolEmissions => exact Sim.bind (gift_gulpPool G _ _ _) fun _ _ => Sim.pure rfl
  | claim => exact Sim.bind (gift_claim G _ _ _ _ _) fun _ _ => Sim.pure rfl
  | drop => exact gift_drop G _
  | draw => exact gift_draw G _ _ _ _ _
  | donate => exact gift_donate G _ _ _ _ _
  | updateTknVal =>
    unfold backstopCall updateTknVal
    refine Sim.sameEq fun i hi => ?_
    have hm : ¬ (G.x = i.backstopToken ∧ (G.t = i.blnd ∨ G.t = i.usdc)) := fun hc => h ⟨i, inst_some hi, hc⟩
    have h1 : (G.give w).balance i.blnd i.backstopToken = w.balance i.blnd i.backstopToken := by
      rw [G.balance, if_neg, add_zero]; rintro ⟨h1, h2⟩; exact hm ⟨h2.symm, .inl h1.symm⟩
    have h2 : (G.give w).balance i.usdc i.backstopToken = w.balance i.usdc i.backstopToken := by
      rw [G.balance, if_neg, add_zero]; rintro ⟨h1, h2⟩; exact hm ⟨h2.symm, .inr h1.symm⟩
    rw [h1, h2]
    exact Sim.same fun _ => Sim.same fun _ => Sim.pure rfl

end Backstop

theorem Factory.gift_call (w : World) (auth : List Address) (c : FactoryCall) :
    Sim G.give (factoryCall w auth c) (factoryCall (G.give w) auth c) := by
  cases c with
  | «initialize» => exact Sim.same fun _ => Sim.pure rfl
  | deploy =>
    unfold factoryCall Factory.deploy
    refine Sim.bind (f := G.both) ?_ fun _ _ => Sim.pure rfl
    refine Sim.same fun _ => Sim.same fun _ => Sim.same fun _ => Sim.same fun _ => Sim.same fun _ => Sim.same fun _ => ?_
    exact Sim.bind (Pool.gift_call G _ _ _ _) fun _ _ => Sim.pure rfl

theorem Gift.step (w : World) (op : Op) (h : ¬ Spec.Measures w G.t G.x op) : Sim G.give (step w op) (step (G.give w) op) := by
  cases op with
  | pool => exact Sim.same fun _ => Sim.same fun _ => Pool.gift_call G _ _ _ _
  | backstop => exact Sim.same fun _ => Backstop.gift_call G _ _ _ h
  | emitter => exact Sim.same fun _ => Emitter.gift_call G _ _ _ h
  | factory => exact Sim.same fun _ => Factory.gift_call G _ _ _
  | ledger => exact Sim.pure rfl
  | oracles => exact Sim.pure rfl
  | comet => exact Sim.same fun _ => Sim.pure rfl
  | tokenTransfer => exact Sim.same fun _ => G.transfer _ _ _ _ _
  | tokenMint => exact Sim.same fun _ => G.mint _ _ _ _
  | tokenBurn t a n =>
    refine Sim.same fun _ => Sim.funds (fun hc => ?_) (Sim.pure (G.setBalance _ _ _ _ _ ?_))
    · refine ⟨hc.1, ?_⟩; have := G.pos; have := hc.2; rw [G.balance]; split <;> omega
    · rw [G.balance]; ring
  | tokenApprove => exact Sim.same fun _ => G.approve _ _ _ _ _ _
  | expireAuction => exact Sim.pure rfl
  | expireQueued => exact Sim.pure rfl
  | expireDropList => exact Sim.pure rfl

end Blend
