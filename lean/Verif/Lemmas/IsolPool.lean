import Verif.Lemmas.Isol
/-
  The simulation of `Lemmas/Isol` for the functions of a pool.
-/

set_option linter.unusedTactic false
set_option linter.unnecessarySeqFocus false

namespace Blend

variable {q : Address} (X : PoolState)

namespace Pool

/-- the flight -/
def _root_.Blend.World.awayFl (q : Address) (X : PoolState) (fl : Flight) : Flight := ⟨fl.w.away q X, fl.cache, fl.user⟩

/-- the state of a submit -/
def _root_.Blend.World.awaySt (q : Address) (X : PoolState) (s : SubmitState) : SubmitState := ⟨(World.awayFl q X) s.fl, s.actions, s.check⟩

theorem awayFl_w (fl : Flight) : (World.awayFl q X fl).w = fl.w.away q X := rfl
theorem awaySt_w (s : SubmitState) : (World.awaySt q X s).fl.w = s.fl.w.away q X := rfl
theorem awaySt_fl (s : SubmitState) : (World.awaySt q X s).fl = World.awayFl q X s.fl := rfl

theorem isol_backstopToken {p : Address} (hp : p ≠ q) (w : World) : backstopToken (w.away q X) p = backstopToken w p := by
  unfold backstopToken
  simp only [away_pools _ hp]
  rfl

theorem isol_backstopData {p : Address} (hp : p ≠ q) (w : World) : backstopData (w.away q X) p = backstopData w p := by
  unfold backstopData
  simp only [away_pools _ hp]
  rfl

theorem isol_calc (w : World) (ps : PoolState) (c : Cache) (pos : Positions) : calcPositionData (w.away q X) ps c pos = calcPositionData w ps c pos := rfl

theorem isol_badDebtLoop (w : World) (ps : PoolState) (l : List (Nat × Int)) :
    ∀ s, badDebtLoop (w.away q X) ps l s = badDebtLoop w ps l s := by
  induction l with
  | nil => intro s; unfold badDebtLoop; rfl
  | cons x l ih =>
    rintro ⟨v, b, c⟩
    obtain ⟨i, n⟩ := x
    unfold badDebtLoop
    simp only [ih]
    rfl

theorem isol_interestLoop (w : World) (ps : PoolState) (l : List Address) :
    ∀ s, interestLoop (w.away q X) ps l s = interestLoop w ps l s := by
  induction l with
  | nil => intro s; unfold interestLoop; rfl
  | cons x l ih =>
    rintro ⟨v, b, c⟩
    unfold interestLoop
    simp only [ih]
    rfl

/-- rewrite the contents of the called pool and its updates -/
macro "away" h:term : tactic => `(tactic| (try simp only [awaySt_fl, awayFl_w, away_pools _ $h, away_setPool _ $h, isol_backstopToken _ $h,
  isol_backstopData _ $h, isol_calc, isol_badDebtLoop, isol_interestLoop]))

theorem isol_createUserLiq {p : Address} (hp : p ≠ q) (w : World) (u : Address) (n : Nat) :
    createUserLiq (w.away q X) p u n = createUserLiq w p u n := by
  unfold createUserLiq
  away hp <;> rfl

theorem isol_createBadDebtData {p : Address} (hp : p ≠ q) (w : World) (b : Address) :
    createBadDebtData (w.away q X) p b = createBadDebtData w p b := by
  unfold createBadDebtData
  away hp <;> rfl

theorem isol_createInterestData {p : Address} (hp : p ≠ q) (w : World) (b : Address) (l : List Address) :
    createInterestData (w.away q X) p b l = createInterestData w p b l := by
  unfold createInterestData
  away hp <;> rfl

theorem isol_fillUserLiq {p : Address} (hp : p ≠ q) (fl : Flight) (a : AuctionData) (u : Address) :
    Same (World.awayFl q X) (fillUserLiq fl p a u) (fillUserLiq ((World.awayFl q X) fl) p a u) := by
  unfold fillUserLiq
  away hp
  exact Same.same fun _ => Same.same fun _ => Same.pure (by away hp <;> rfl)

theorem isol_fillBadDebt {p : Address} (hp : p ≠ q) (fl : Flight) (a : AuctionData) :
    Same (World.awayFl q X) (fillBadDebt fl p a) (fillBadDebt ((World.awayFl q X) fl) p a) := by
  unfold fillBadDebt
  away hp
  refine Same.same fun _ => Same.same fun _ => Same.same fun c1 => Same.same fun c2 => Same.same fun _ => Same.same fun _ => ?_
  refine Same.bind (Backstop.isol_draw X _ _ _ _ _) fun w2 _ => ?_
  away hp
  refine Same.ite (Same.pure (by away hp <;> rfl)) ?_
  refine Same.same fun d => Same.ite ?_ (Same.pure (by away hp <;> rfl))
  exact Same.same fun _ => Same.same fun _ => Same.pure (by away hp <;> rfl)

theorem isol_fillInterestLoop {p : Address} (hp : p ≠ q) (f : Address) (l : List (Nat × Int)) :
    ∀ s : World × Cache, Same (fun r : World × Cache => ((World.away q X) r.1, r.2)) (fillInterestLoop p f l s) (fillInterestLoop p f l ((World.away q X) s.1, s.2)) := by
  induction l with
  | nil => intro s; obtain ⟨w, c⟩ := s; unfold fillInterestLoop; exact Same.pure (by away hp <;> rfl)
  | cons x l ih =>
    rintro ⟨w, c⟩
    obtain ⟨a, n⟩ := x
    unfold fillInterestLoop
    away hp
    refine Same.same fun y => ?_
    obtain ⟨r, c'⟩ := y
    refine Same.same fun _ => Same.bind (isol_transfer X _ _ _ _ _) fun w' _ => ?_
    exact ih (w', _)

theorem isol_fillInterest {p : Address} (hp : p ≠ q) (fl : Flight) (auth : List Address) (a : AuctionData) :
    Same (World.awayFl q X) (fillInterest fl p auth a) (fillInterest ((World.awayFl q X) fl) p auth a) := by
  unfold fillInterest
  away hp
  refine Same.same fun _ => Same.same fun _ => Same.same fun _ => Same.same fun _ => ?_
  refine Same.bind (Backstop.isol_donate X _ _ _ _ _) fun w1 _ => ?_
  refine Same.bind (isol_fillInterestLoop X hp _ _ (w1, _)) fun y _ => ?_
  obtain ⟨w2, c⟩ := y
  exact Same.pure (by away hp <;> rfl)

theorem isol_fill {p : Address} (hp : p ≠ q) (fl : Flight) (auth : List Address) (t : Nat) (u : Address) (n : Nat) :
    Same (World.awayFl q X) (fill fl p auth t u n) (fill ((World.awayFl q X) fl) p auth t u n) := by
  unfold fill
  away hp
  refine Same.same fun _ => Same.same fun _ => Same.same fun x => ?_
  obtain ⟨a, r⟩ := x
  dsimp only
  refine Same.ite ?_ (Same.ite ?_ ?_)
  · exact Same.bind (isol_fillUserLiq X hp _ _ _) fun _ _ => Same.pure (by away hp <;> rfl)
  · exact Same.bind (isol_fillBadDebt X hp _ _) fun _ _ => Same.pure (by away hp <;> rfl)
  · exact Same.bind (isol_fillInterest X hp _ _ _) fun _ _ => Same.pure (by away hp <;> rfl)

theorem isol_supply {p : Address} (hp : p ≠ q) (c : Bool) (s : SubmitState) (a : Address) (n : Int) :
    Same (World.awaySt q X) (reqSupply p c s a n) (reqSupply p c ((World.awaySt q X) s) a n) := by
  unfold reqSupply
  away hp
  refine Same.same fun x => ?_
  obtain ⟨r, c⟩ := x
  refine Same.same fun _ => Same.same fun y => ?_
  exact Same.same fun _ => Same.pure (by away hp <;> rfl)

theorem isol_reqWithdraw {p : Address} (hp : p ≠ q) (s : SubmitState) (a : Address) (n : Int) :
    Same (World.awaySt q X) (reqWithdraw p s a n) (reqWithdraw p ((World.awaySt q X) s) a n) := by
  unfold reqWithdraw
  away hp
  refine Same.same fun x => Same.same fun y => Same.same fun z => ?_
  exact Same.same fun _ => Same.pure (by away hp <;> rfl)

theorem isol_withdrawColl {p : Address} (hp : p ≠ q) (s : SubmitState) (a : Address) (n : Int) :
    Same (World.awaySt q X) (reqWithdrawColl p s a n) (reqWithdrawColl p ((World.awaySt q X) s) a n) := by
  unfold reqWithdrawColl
  away hp
  refine Same.same fun x => Same.same fun y => Same.same fun z => ?_
  exact Same.same fun _ => Same.pure (by away hp <;> rfl)

theorem isol_borrow {p : Address} (hp : p ≠ q) (s : SubmitState) (a : Address) (n : Int) :
    Same (World.awaySt q X) (reqBorrow p s a n) (reqBorrow p ((World.awaySt q X) s) a n) := by
  unfold reqBorrow
  away hp
  refine Same.same fun x => Same.same fun y => Same.same fun z => ?_
  exact Same.same fun _ => Same.same fun _ => Same.pure (by away hp <;> rfl)

theorem isol_repay {p : Address} (hp : p ≠ q) (s : SubmitState) (a : Address) (n : Int) :
    Same (World.awaySt q X) (reqRepay p s a n) (reqRepay p ((World.awaySt q X) s) a n) := by
  unfold reqRepay
  away hp
  refine Same.same fun x => Same.same fun y => Same.same fun z => ?_
  refine Same.ite ?_ ?_
  · exact Same.same fun _ => Same.same fun _ => Same.same fun _ => Same.same fun _ => Same.same fun _ => Same.pure (by away hp <;> rfl)
  · exact Same.same fun _ => Same.pure (by away hp <;> rfl)

theorem isol_delete {p : Address} (hp : p ≠ q) (s : SubmitState) : Same (World.awaySt q X) (reqDelete p s) (reqDelete p ((World.awaySt q X) s)) := by
  unfold reqDelete
  away hp
  exact Same.same fun _ => Same.pure (by away hp <;> rfl)

theorem isol_reqFill {p : Address} (hp : p ≠ q) (auth : List Address) (t : Nat) (s : SubmitState) (u : Address) (n : Int) :
    Same (World.awaySt q X) (reqFill p auth t s u n) (reqFill p auth t ((World.awaySt q X) s) u n) := by
  unfold reqFill
  away hp
  exact Same.bind (isol_fill X hp _ _ _ _ _) fun _ _ => Same.pure (by away hp <;> rfl)

theorem isol_request {p : Address} (hp : p ≠ q) (auth : List Address) (s : SubmitState) (r : Request) :
    Same (World.awaySt q X) (processRequest p auth s r) (processRequest p auth ((World.awaySt q X) s) r) := by
  unfold processRequest
  away hp
  refine Same.same fun _ => Same.same fun _ => ?_
  obtain ⟨ty, a, n⟩ := r
  dsimp only
  split
  · exact isol_supply X hp _ _ _ _
  · exact isol_reqWithdraw X hp _ _ _
  · exact isol_supply X hp _ _ _ _
  · exact isol_withdrawColl X hp _ _ _
  · exact isol_borrow X hp _ _ _
  · exact isol_repay X hp _ _ _
  · exact isol_reqFill X hp _ _ _ _ _
  · exact isol_reqFill X hp _ _ _ _ _
  · exact isol_reqFill X hp _ _ _ _ _
  · exact isol_delete X hp _
  · exact Same.error

theorem isol_build {p : Address} (hp : p ≠ q) (w : World) (auth : List Address) (cache : Cache) (a : Address) (reqs : List Request) :
    Same (World.awaySt q X) (buildActions w p auth cache a reqs) (buildActions (w.away q X) p auth cache a reqs) := by
  unfold buildActions
  away hp
  refine Same.bind (Same.foldlM (isol_request X hp auth) reqs _) fun s _ => ?_
  exact Same.same fun _ => Same.pure (by away hp <;> rfl)


theorem isol_healthStep (ps : PoolState) (pos : Positions) (w : World) : healthStep (w.away q X) ps pos = healthStep w ps pos := rfl

theorem isol_health {p : Address} (hp : p ≠ q) (s : SubmitState) :
    healthCheck (World.awaySt q X s).fl.w ((World.awaySt q X s).fl.w.pools p) (World.awaySt q X s) = healthCheck s.fl.w (s.fl.w.pools p) s := by
  unfold healthCheck
  away hp <;> rfl

theorem isol_submit {p : Address} (hp : p ≠ q) (w : World) (auth : List Address) (a b c : Address) (reqs : List Request) :
    Same (World.bothA q X) (executeSubmit w p auth a b c reqs) (executeSubmit (w.away q X) p auth a b c reqs) := by
  unfold executeSubmit
  away hp
  refine Same.same fun _ => Same.same fun cache => Same.bind (isol_build X hp w auth cache a reqs) fun s _ => ?_
  rw [isol_health X hp]
  refine Same.same fun cache' => ?_
  refine Same.bind (Same.foldlM (f := (World.away q X)) (k := fun w (kv : Nat × Int) => transfer w kv.1 b p kv.2)
    (fun w (kv : Nat × Int) => isol_transfer X w kv.1 b p kv.2) _ _) fun w1 _ => ?_
  away hp
  refine Same.same fun ps1 => ?_
  exact Same.bind (Same.foldlM (f := (World.away q X)) (k := fun w (kv : Nat × Int) => transfer w kv.1 p c kv.2)
    (fun w (kv : Nat × Int) => isol_transfer X w kv.1 p c kv.2) _ (w1.setPool p _)) fun w3 _ => Same.pure rfl


theorem isol_claim {p : Address} (hp : p ≠ q) (w : World) (s : Address) (ids : List Nat) (d : Address) :
    Same (World.bothA q X) (executeClaim w p s ids d) (executeClaim (w.away q X) p s ids d) := by
  unfold executeClaim
  away hp
  refine Same.same fun x => ?_
  obtain ⟨n, ps⟩ := x
  refine Same.ite ?_ (Same.pure (by away hp <;> rfl))
  refine Same.same fun i => ?_
  exact Same.bind (isol_transferFrom X (w.setPool p ps) _ _ _ _ _) fun _ _ => Same.pure (by away hp <;> rfl)

theorem isol_gulp {p : Address} (hp : p ≠ q) (w : World) : Same (World.bothA q X) (gulpEmissions w p) (gulpEmissions (w.away q X) p) := by
  unfold gulpEmissions
  away hp
  refine Same.same fun _ => Same.same fun _ => Same.bind (Backstop.isol_gulpPool X _ _ _) fun x _ => ?_
  obtain ⟨n, w1⟩ := x
  simp only [World.bothA]
  away hp
  exact Same.same fun _ => Same.pure (by away hp <;> rfl)

theorem isol_call {p : Address} (hp : p ≠ q) (w : World) (auth : List Address) (c : Call) :
    Same (World.away q X) (call w p auth c) (call (w.away q X) p auth c) := by
  cases c <;> unfold call <;> away hp
  case «initialize» => exact Same.same fun _ => Same.same fun _ => Same.pure (by away hp <;> rfl)
  case setAdmin => exact Same.same fun _ => Same.same fun _ => Same.same fun _ => Same.pure (by away hp <;> rfl)
  case updatePool => exact Same.same fun _ => Same.same fun _ => Same.pure (by away hp <;> rfl)
  case queueSetReserve => exact Same.same fun _ => Same.same fun _ => Same.pure (by away hp <;> rfl)
  case cancelSetReserve => exact Same.same fun _ => Same.pure (by away hp <;> rfl)
  case setReserve => exact Same.same fun _ => Same.pure (by away hp <;> rfl)
  case submit =>
    refine Same.same fun _ => Same.ite (Same.same fun _ => ?_) ?_
    · exact Same.bind (isol_submit X hp _ _ _ _ _ _) fun _ _ => Same.pure (by away hp <;> rfl)
    · exact Same.bind (isol_submit X hp _ _ _ _ _ _) fun _ _ => Same.pure (by away hp <;> rfl)
  case badDebt =>
    unfold transferBadDebt
    away hp
    exact Same.same fun _ => Same.same fun _ => Same.same fun _ => Same.same fun _ => Same.same fun _ => Same.same fun _ => Same.pure (by away hp <;> rfl)
  case updateStatus =>
    unfold updateStatus
    away hp
    exact Same.same fun _ => Same.same fun _ => Same.same fun _ => Same.pure (by away hp <;> rfl)
  case setStatus =>
    unfold setStatus
    away hp
    exact Same.same fun _ => Same.same fun _ => Same.same fun _ => Same.same fun _ => Same.pure (by away hp <;> rfl)
  case gulpEmissions => exact Same.bind (isol_gulp X hp _) fun _ _ => Same.pure (by away hp <;> rfl)
  case setEmissionsConfig => exact Same.same fun _ => Same.same fun _ => Same.pure (by away hp <;> rfl)
  case claim => exact Same.same fun _ => Same.bind (isol_claim X hp _ _ _ _) fun _ _ => Same.pure (by away hp <;> rfl)
  case newLiquidation =>
    unfold createLiquidation
    simp only [isol_createUserLiq X hp]
    away hp
    exact Same.same fun _ => Same.same fun _ => Same.same fun _ => Same.pure (by away hp <;> rfl)
  case newBadDebt =>
    unfold createBadDebt
    simp only [isol_createBadDebtData X hp]
    away hp
    exact Same.same fun _ => Same.same fun _ => Same.pure (by away hp <;> rfl)
  case newInterest =>
    unfold createInterest
    simp only [isol_createInterestData X hp]
    away hp
    exact Same.same fun _ => Same.same fun _ => Same.pure (by away hp <;> rfl)

end Pool

end Blend
