import Verif.Lemmas.Orac
import Verif.Lemmas.Health
import Verif.Spec.Oracle
/-
  The simulation of `Lemmas/Orac` for the entry points.
-/

namespace Blend

variable (o : Address → Oracle)

namespace Emitter

theorem orac_executeDistribute (w : World) (b : Address) : Same (World.both o) (executeDistribute w b) (executeDistribute (w.told o) b) := by
  unfold executeDistribute
  refine Same.same fun _ => Same.same fun _ => Same.same fun _ => ?_
  refine Same.same fun i => ?_
  exact Same.bind (orac_mint o _ _ _ _) fun _ _ => Same.pure rfl

theorem orac_distribute (w : World) : Same (World.both o) (distribute w) (distribute (w.told o)) := by
  unfold distribute
  exact Same.same fun _ => orac_executeDistribute o _ _

theorem orac_drop (w : World) (auth : List Address) (l : List (Address × Int)) : Same (World.told o) (drop w auth l) (drop (w.told o) auth l) := by
  unfold drop
  refine Same.same fun i => Same.same fun _ => Same.same fun _ => Same.same fun _ => Same.same fun _ => ?_
  exact Same.bind (Same.foldlM (fun w x => orac_mint o w i.blnd x.1 x.2) l w) fun _ _ => Same.pure rfl

end Emitter

namespace Backstop

theorem orac_deposit (w : World) (auth : List Address) (s p : Address) (n : Int) :
    Same (World.both o) (deposit w auth s p n) (deposit (w.told o) auth s p n) := by
  unfold deposit executeDeposit
  refine Same.same fun _ => Same.same fun _ => Same.same fun _ => Same.same fun _ => Same.same fun x => ?_
  obtain ⟨_, b⟩ := x
  refine Same.same fun i => ?_
  refine Same.bind (orac_transfer o _ _ _ _ _) fun w2 _ => ?_
  exact Same.same fun _ => Same.same fun _ => Same.same fun _ => Same.same fun _ => Same.pure rfl

theorem orac_queue (w : World) (auth : List Address) (s p : Address) (n : Int) :
    Same (World.told o) (queueWithdrawal w auth s p n) (queueWithdrawal (w.told o) auth s p n) := by
  unfold queueWithdrawal executeQueue
  refine Same.same fun _ => Same.same fun _ => Same.same fun x => ?_
  exact Same.same fun _ => Same.same fun _ => Same.pure rfl

theorem orac_dequeue (w : World) (auth : List Address) (s p : Address) (n : Int) :
    Same (World.told o) (dequeueWithdrawal w auth s p n) (dequeueWithdrawal (w.told o) auth s p n) := by
  unfold dequeueWithdrawal executeDequeue
  refine Same.same fun _ => Same.same fun _ => Same.same fun x => ?_
  exact Same.same fun _ => Same.same fun _ => Same.same fun _ => Same.pure rfl

theorem orac_withdraw (w : World) (auth : List Address) (s p : Address) (n : Int) :
    Same (World.both o) (withdraw w auth s p n) (withdraw (w.told o) auth s p n) := by
  unfold withdraw executeWithdraw
  refine Same.same fun _ => Same.same fun _ => Same.same fun _ => Same.same fun _ => Same.same fun _ => Same.same fun _ => Same.same fun _ => ?_
  exact Same.bind (orac_transfer o _ _ _ _ _) fun _ _ => Same.pure rfl

theorem orac_draw (w : World) (auth : List Address) (p : Address) (n : Int) (d : Address) :
    Same (World.told o) (draw w auth p n d) (draw (w.told o) auth p n d) := by
  unfold draw executeDraw
  refine Same.same fun _ => Same.same fun _ => Same.same fun _ => Same.same fun _ => ?_
  exact orac_transfer o _ _ _ _ _

theorem orac_donate (w : World) (auth : List Address) (s p : Address) (n : Int) :
    Same (World.told o) (donate w auth s p n) (donate (w.told o) auth s p n) := by
  unfold donate executeDonate
  refine Same.same fun _ => Same.same fun _ => Same.same fun _ => Same.same fun _ => Same.same fun _ => Same.same fun _ => ?_
  refine Same.bind (orac_transfer o _ _ _ _ _) fun w2 _ => ?_
  exact Same.same fun _ => Same.pure rfl

theorem orac_comet (w : World) (lp blnd : Address) (n : Int) (u : Address) :
    Same (World.both o) (cometDeposit w lp blnd n u) (cometDeposit (w.told o) lp blnd n u) := by
  unfold cometDeposit
  refine Same.bind (orac_transfer o _ _ _ _ _) fun w1 _ => ?_
  refine Same.bind (orac_mint o _ _ _ _) fun w2 _ => ?_
  exact Same.same fun _ => Same.pure rfl

theorem orac_claim (w : World) (auth : List Address) (s : Address) (ps : List Address) (d : Address) :
    Same (World.both o) (claim w auth s ps d) (claim (w.told o) auth s ps d) := by
  unfold claim executeClaim
  refine Same.same fun _ => Same.same fun _ => Same.same fun x => ?_
  obtain ⟨c, cs, b⟩ := x
  dsimp only
  refine Same.ite ?_ (Same.pure rfl)
  refine Same.same fun i => Same.bind (orac_comet o _ _ _ _ _) fun y _ => ?_
  obtain ⟨o, w2⟩ := y
  exact Same.same fun _ => Same.pure rfl

theorem orac_gulp (w : World) : Same (World.both o) (gulpEmissions w) (gulpEmissions (w.told o)) := by
  unfold gulpEmissions
  refine Same.same fun _ => Same.same fun _ => Same.same fun _ => Same.same fun _ => Same.same fun _ => Same.same fun _ => ?_
  exact Same.same fun _ => Same.same fun _ => Same.same fun _ => Same.same fun _ => Same.pure rfl

theorem orac_gulpPool (w : World) (auth : List Address) (p : Address) :
    Same (World.both o) (gulpPoolEmissionsAuth w auth p) (gulpPoolEmissionsAuth (w.told o) auth p) := by
  unfold gulpPoolEmissionsAuth gulpPoolEmissions
  refine Same.same fun _ => Same.same fun _ => Same.same fun _ => Same.same fun _ => ?_
  exact Same.bind (orac_approve o _ _ _ _ _ _) fun _ _ => Same.pure rfl

theorem orac_addReward (w : World) (a b : Address) : Same (World.told o) (addReward w a b) (addReward (w.told o) a b) := by
  unfold addReward
  refine Same.same fun _ => Same.same fun _ => Same.same fun _ => ?_
  refine Same.ite (Same.pure rfl) ?_
  exact Same.same fun _ => Same.same fun _ => Same.same fun _ => Same.same fun _ => Same.pure rfl

theorem orac_init (w : World) (t e u b f : Address) (l : List (Address × Int)) :
    Same (World.told o) (init w t e u b f l) (init (w.told o) t e u b f l) := by
  unfold init
  exact Same.same fun _ => Same.same fun _ => Same.same fun _ => Same.pure rfl

theorem orac_drop (w : World) : Same (World.told o) (drop w) (drop (w.told o)) := by
  unfold drop
  exact Same.same fun _ => Same.same fun _ => Same.same fun _ => Emitter.orac_drop o _ _ _

end Backstop

namespace Pool

/-- the flight with other oracles -/
def _root_.Blend.World.toldFl (fl : Flight) : Flight := ⟨fl.w.told o, fl.cache, fl.user⟩

/-- the state of a submit with other oracles -/
def _root_.Blend.World.toldSt (s : SubmitState) : SubmitState := ⟨(World.toldFl o) s.fl, s.actions, s.check⟩

theorem orac_fillUserLiq (fl : Flight) (p : Address) (a : AuctionData) (u : Address) :
    Same (World.toldFl o) (fillUserLiq fl p a u) (fillUserLiq ((World.toldFl o) fl) p a u) := by
  unfold fillUserLiq
  exact Same.same fun _ => Same.same fun _ => Same.pure rfl

theorem orac_fillBadDebt (fl : Flight) (p : Address) (a : AuctionData) :
    Same (World.toldFl o) (fillBadDebt fl p a) (fillBadDebt ((World.toldFl o) fl) p a) := by
  unfold fillBadDebt
  refine Same.same fun _ => Same.same fun _ => Same.same fun c1 => Same.same fun c2 => Same.same fun _ => Same.same fun _ => ?_
  refine Same.bind (Backstop.orac_draw o _ _ _ _ _) fun w2 _ => ?_
  refine Same.ite (Same.pure rfl) ?_
  refine Same.same fun d => Same.ite ?_ (Same.pure rfl)
  exact Same.same fun _ => Same.same fun _ => Same.pure rfl

theorem orac_fillInterestLoop (p f : Address) (l : List (Nat × Int)) :
    ∀ s : World × Cache, Same (fun r : World × Cache => ((World.told o) r.1, r.2)) (fillInterestLoop p f l s) (fillInterestLoop p f l ((World.told o) s.1, s.2)) := by
  induction l with
  | nil => intro s; obtain ⟨w, c⟩ := s; unfold fillInterestLoop; exact Same.pure rfl
  | cons x l ih =>
    rintro ⟨w, c⟩
    obtain ⟨a, n⟩ := x
    unfold fillInterestLoop
    refine Same.same fun y => ?_
    obtain ⟨r, c'⟩ := y
    refine Same.same fun _ => Same.bind (orac_transfer o _ _ _ _ _) fun w' _ => ?_
    exact ih (w', _)

theorem orac_fillInterest (fl : Flight) (p : Address) (auth : List Address) (a : AuctionData) :
    Same (World.toldFl o) (fillInterest fl p auth a) (fillInterest ((World.toldFl o) fl) p auth a) := by
  unfold fillInterest
  refine Same.same fun _ => Same.same fun _ => Same.same fun _ => Same.same fun _ => ?_
  refine Same.bind (Backstop.orac_donate o _ _ _ _ _) fun w1 _ => ?_
  refine Same.bind (orac_fillInterestLoop o _ _ _ (w1, _)) fun y _ => ?_
  obtain ⟨w2, c⟩ := y
  exact Same.pure rfl

theorem orac_fill (fl : Flight) (p : Address) (auth : List Address) (t : Nat) (u : Address) (n : Nat) :
    Same (World.toldFl o) (fill fl p auth t u n) (fill ((World.toldFl o) fl) p auth t u n) := by
  unfold fill
  refine Same.same fun _ => Same.same fun _ => Same.same fun x => ?_
  obtain ⟨a, r⟩ := x
  dsimp only
  refine Same.ite ?_ (Same.ite ?_ ?_)
  · exact Same.bind (orac_fillUserLiq o _ _ _ _) fun _ _ => Same.pure rfl
  · exact Same.bind (orac_fillBadDebt o _ _ _) fun _ _ => Same.pure rfl
  · exact Same.bind (orac_fillInterest o _ _ _ _) fun _ _ => Same.pure rfl

theorem orac_supply (p : Address) (c : Bool) (s : SubmitState) (a : Address) (n : Int) :
    Same (World.toldSt o) (reqSupply p c s a n) (reqSupply p c ((World.toldSt o) s) a n) := by
  unfold reqSupply
  refine Same.same fun x => ?_
  obtain ⟨r, c⟩ := x
  refine Same.same fun _ => Same.same fun y => ?_
  exact Same.same fun _ => Same.pure rfl

theorem orac_reqWithdraw (p : Address) (s : SubmitState) (a : Address) (n : Int) :
    Same (World.toldSt o) (reqWithdraw p s a n) (reqWithdraw p ((World.toldSt o) s) a n) := by
  unfold reqWithdraw
  refine Same.same fun x => Same.same fun y => Same.same fun z => ?_
  exact Same.same fun _ => Same.pure rfl

theorem orac_withdrawColl (p : Address) (s : SubmitState) (a : Address) (n : Int) :
    Same (World.toldSt o) (reqWithdrawColl p s a n) (reqWithdrawColl p ((World.toldSt o) s) a n) := by
  unfold reqWithdrawColl
  refine Same.same fun x => Same.same fun y => Same.same fun z => ?_
  exact Same.same fun _ => Same.pure rfl

theorem orac_borrow (p : Address) (s : SubmitState) (a : Address) (n : Int) :
    Same (World.toldSt o) (reqBorrow p s a n) (reqBorrow p ((World.toldSt o) s) a n) := by
  unfold reqBorrow
  refine Same.same fun x => Same.same fun y => Same.same fun z => ?_
  exact Same.same fun _ => Same.same fun _ => Same.pure rfl

theorem orac_repay (p : Address) (s : SubmitState) (a : Address) (n : Int) :
    Same (World.toldSt o) (reqRepay p s a n) (reqRepay p ((World.toldSt o) s) a n) := by
  unfold reqRepay
  refine Same.same fun x => Same.same fun y => Same.same fun z => ?_
  refine Same.ite ?_ ?_
  · exact Same.same fun _ => Same.same fun _ => Same.same fun _ => Same.same fun _ => Same.same fun _ => Same.pure rfl
  · exact Same.same fun _ => Same.pure rfl

theorem orac_delete (p : Address) (s : SubmitState) : Same (World.toldSt o) (reqDelete p s) (reqDelete p ((World.toldSt o) s)) := by
  unfold reqDelete
  exact Same.same fun _ => Same.pure rfl

theorem orac_reqFill (p : Address) (auth : List Address) (t : Nat) (s : SubmitState) (u : Address) (n : Int) :
    Same (World.toldSt o) (reqFill p auth t s u n) (reqFill p auth t ((World.toldSt o) s) u n) := by
  unfold reqFill
  exact Same.bind (orac_fill o _ _ _ _ _ _) fun _ _ => Same.pure rfl

theorem orac_request (p : Address) (auth : List Address) (s : SubmitState) (q : Request) :
    Same (World.toldSt o) (processRequest p auth s q) (processRequest p auth ((World.toldSt o) s) q) := by
  unfold processRequest
  refine Same.same fun _ => Same.same fun _ => ?_
  obtain ⟨ty, a, n⟩ := q
  dsimp only
  split
  · exact orac_supply o _ _ _ _ _
  · exact orac_reqWithdraw o _ _ _ _
  · exact orac_supply o _ _ _ _ _
  · exact orac_withdrawColl o _ _ _ _
  · exact orac_borrow o _ _ _ _
  · exact orac_repay o _ _ _ _
  · exact orac_reqFill o _ _ _ _ _ _
  · exact orac_reqFill o _ _ _ _ _ _
  · exact orac_reqFill o _ _ _ _ _ _
  · exact orac_delete o _ _
  · exact Same.error

theorem orac_build (w : World) (p : Address) (auth : List Address) (cache : Cache) (a : Address) (reqs : List Request) :
    Same (World.toldSt o) (buildActions w p auth cache a reqs) (buildActions (w.told o) p auth cache a reqs) := by
  unfold buildActions
  refine Same.bind (Same.foldlM (orac_request o p auth) reqs _) fun s _ => ?_
  exact Same.same fun _ => Same.pure rfl

/-- what a submit does after the health check -/
def submitTail (p b c : Address) (s : SubmitState) (cache' : Cache) : R (Positions × World) := do
  let w1 ← s.actions.spender.toList.foldlM (fun w kv => transfer w kv.1 b p kv.2) s.fl.w
  let ps1 ← cache'.storeAll (w1.pools p)
  let w2 := w1.setPool p (s.fl.user.store ps1)
  let w3 ← s.actions.pool.toList.foldlM (fun w kv => transfer w kv.1 p c kv.2) w2
  pure (s.fl.user.pos, w3)

theorem executeSubmit_tail (w : World) (p : Address) (auth : List Address) (a b c : Address) (reqs : List Request) :
    executeSubmit w p auth a b c reqs = (do
      require (¬ (a = p ∨ b = p ∨ c = p)) (.pool .badRequest)
      let cache ← Cache.load (w.pools p)
      let s ← buildActions w p auth cache a reqs
      let cache' ← healthCheck s.fl.w (s.fl.w.pools p) s
      submitTail p b c s cache') := rfl

theorem orac_tail (p b c : Address) (s : SubmitState) (cache' : Cache) :
    Same (World.both o) (submitTail p b c s cache') (submitTail p b c (World.toldSt o s) cache') := by
  unfold submitTail
  refine Same.bind (Same.foldlM (f := (World.told o)) (k := fun w (kv : Nat × Int) => transfer w kv.1 b p kv.2)
    (fun w (kv : Nat × Int) => orac_transfer o w kv.1 b p kv.2) _ _) fun w1 _ => ?_
  refine Same.same fun ps1 => ?_
  exact Same.bind (Same.foldlM (f := (World.told o)) (k := fun w (kv : Nat × Int) => transfer w kv.1 p c kv.2)
    (fun w (kv : Nat × Int) => orac_transfer o w kv.1 p c kv.2) _ (w1.setPool p _)) fun w3 _ => Same.pure rfl

theorem tail_pos {p b c : Address} {s : SubmitState} {cache' : Cache} {r : Positions × World} (h : submitTail p b c s cache' = .ok r) :
    r.1 = s.fl.user.pos := by
  simp only [submitTail, bind_ok, pure_ok] at h
  obtain ⟨_, _, _, _, _, _, rfl⟩ := h
  rfl

theorem orac_submit_of (w : World) (p : Address) (auth : List Address) (a b c : Address) (reqs : List Request)
    (h : ∀ cache s, buildActions w p auth cache a reqs = .ok s → s.check = false) :
    Same (World.both o) (executeSubmit w p auth a b c reqs) (executeSubmit (w.told o) p auth a b c reqs) := by
  rw [executeSubmit_tail, executeSubmit_tail]
  refine Same.same fun _ => Same.same fun cache => Same.bind (orac_build o w p auth cache a reqs) fun s hs => ?_
  have h1 : healthCheck s.fl.w (s.fl.w.pools p) s = pure s.fl.cache := by
    unfold healthCheck; rw [if_neg]; rintro ⟨hc, _⟩; rw [h cache s hs] at hc; cases hc
  have h2 : healthCheck (World.toldSt o s).fl.w ((World.toldSt o s).fl.w.pools p) (World.toldSt o s) = pure s.fl.cache := by
    unfold healthCheck; rw [if_neg]; rotate_left
    · rintro ⟨hc, _⟩; replace hc : s.check = true := hc; rw [h cache s hs] at hc; cases hc
    · rfl
  rw [h1, h2]
  exact orac_tail o p b c s s.fl.cache

theorem orac_submit (w : World) (p : Address) (auth : List Address) (a b c : Address) (reqs : List Request)
    (h : ¬ ∃ q ∈ reqs, q.type = 3 ∨ q.type = 4 ∨ q.type = 6 ∨ q.type = 7 ∨ q.type = 9) :
    Same (World.both o) (executeSubmit w p auth a b c reqs) (executeSubmit (w.told o) p auth a b c reqs) := by
  refine orac_submit_of o w p auth a b c reqs fun cache s hs => ?_
  simp only [buildActions, bind_ok, pure_ok] at hs
  obtain ⟨s1, h1, _, _, rfl⟩ := hs
  rw [requests_check h1, Bool.false_or, List.any_eq_false]
  intro q hq hr
  exact h ⟨q, hq, by simpa [risky] using hr⟩

/-- a submit that leaves no debt goes the same way -/
theorem orac_submit_free {w : World} {p : Address} {auth : List Address} {a b c : Address} {reqs : List Request} {r : Positions × World}
    (h : executeSubmit w p auth a b c reqs = .ok r) (hd : r.1.liabilities.isEmpty = true) :
    executeSubmit (w.told o) p auth a b c reqs = .ok (World.both o r) := by
  rw [executeSubmit_tail] at h ⊢
  simp only [bind_ok] at h ⊢
  obtain ⟨_, h1, cache, h2, s, h3, cache', h4, h5⟩ := h
  refine ⟨_, h1, cache, h2, _, (orac_build o w p auth cache a reqs).ok h3, cache', ?_, (orac_tail o p b c s cache').ok h5⟩
  rw [tail_pos h5] at hd
  rw [healthCheck, if_neg (by rintro ⟨_, hc⟩; rw [hd] at hc; cases hc)] at h4
  rw [healthCheck, if_neg]
  · exact h4
  · rintro ⟨_, hc⟩; replace hc : s.fl.user.pos.liabilities.isEmpty = false := hc; rw [hd] at hc; cases hc

theorem healthStep_loads {w : World} {ps : PoolState} {pos : Positions} {d : PositionData} {c : Cache} {i : Nat} {x : PositionData × Cache}
    (h : healthStep w ps pos (d, c) i = .ok x) : (pos.collateral.bal i = 0 ∧ pos.liabilities.bal i = 0) ∧ x.2 = c ∨
      ¬ (pos.collateral.bal i = 0 ∧ pos.liabilities.bal i = 0) ∧ ∃ u r c1, unwrap (ps.resList[i]?) = .ok u ∧
        c.loadReserve ps w.time u false = .ok (r, c1) ∧ x.2 = c1.put r := by
  unfold healthStep at h
  simp only [ite_ok, bind_ok, pure_ok, Prod.exists] at h
  rcases h with ⟨hb, rfl⟩ | ⟨hb, u, hu, r, c1, hc, _, _, h⟩
  · exact .inl ⟨hb, rfl⟩
  · refine .inr ⟨hb, u, r, c1, hu, hc, ?_⟩
    rcases h with ⟨_, _, _, _, _, _, _, _, _, _, _, _, _, _, _, h⟩ | ⟨_, _, _, h⟩
    · rcases h with ⟨_, _, _, _, _, _, _, _, _, _, _, _, _, _, _, rfl⟩ | ⟨_, _, _, rfl⟩ <;> rfl
    · rcases h with ⟨_, _, _, _, _, _, _, _, _, _, _, _, _, _, _, rfl⟩ | ⟨_, _, _, rfl⟩ <;> rfl

/-- what is loaded for the health check does not depend on the prices -/
theorem health_cache {w g : World} {ps : PoolState} {pos : Positions} (ht : g.time = w.time) : ∀ {l : List Nat} {x y x' y' : PositionData × Cache},
    x.2 = y.2 → l.foldlM (healthStep w ps pos) x = .ok x' → l.foldlM (healthStep g ps pos) y = .ok y' → x'.2 = y'.2 := by
  intro l
  induction l with
  | nil =>
    intro x y x' y' hxy h h'
    cases h; cases h'; exact hxy
  | cons i l ih =>
    rintro ⟨d, c⟩ ⟨e, c'⟩ x' y' hxy h h'
    obtain rfl : c = c' := hxy
    simp only [List.foldlM_cons, bind_ok] at h h'
    obtain ⟨x1, h1, h2⟩ := h
    obtain ⟨y1, h1', h2'⟩ := h'
    refine ih ?_ h2 h2'
    rcases healthStep_loads h1 with ⟨hb, hx⟩ | ⟨hb, u, r, c1, hu, hc, hx⟩
    · rcases healthStep_loads h1' with ⟨_, hy⟩ | ⟨hb', _⟩
      · rw [hx, hy]
      · exact absurd hb hb'
    · rcases healthStep_loads h1' with ⟨hb', _⟩ | ⟨_, u', r', c1', hu', hc', hy⟩
      · exact absurd hb' hb
      · rw [ht] at hc'
        rw [hu] at hu'; cases hu'
        rw [hc] at hc'; cases hc'
        rw [hx, hy]

/-- a submit that goes through with both oracles does the same -/
theorem orac_submit_both {w : World} {p : Address} {auth : List Address} {a b c : Address} {reqs : List Request} {r r' : Positions × World}
    (h : executeSubmit w p auth a b c reqs = .ok r) (h' : executeSubmit (w.told o) p auth a b c reqs = .ok r') : r' = World.both o r := by
  rw [executeSubmit_tail] at h h'
  simp only [bind_ok] at h h'
  obtain ⟨_, h1, cache, h2, s, h3, cache', h4, h5⟩ := h
  obtain ⟨_, _, cache1, h2', s', h3', cache1', h4', h5'⟩ := h'
  replace h2' : Cache.load (w.pools p) = .ok cache1 := h2'
  rw [h2] at h2'; cases h2'
  rw [(orac_build o w p auth cache a reqs).ok h3] at h3'; cases h3'
  have : cache1' = cache' := by
    by_cases hc : s.check = true ∧ s.fl.user.pos.liabilities.isEmpty = false
    · rw [healthCheck, if_pos hc] at h4
      rw [healthCheck, if_pos (show (World.toldSt o s).check = true ∧ (World.toldSt o s).fl.user.pos.liabilities.isEmpty = false from hc)] at h4'
      simp only [bind_ok, pure_ok, calcPositionData, Prod.exists] at h4 h4'
      obtain ⟨_, c1, ⟨_, _, h4⟩, _, _, _, _, rfl⟩ := h4
      obtain ⟨_, c1', ⟨_, _, h4'⟩, _, _, _, _, rfl⟩ := h4'
      exact (health_cache (w := s.fl.w) (g := s.fl.w.told o) rfl (by exact rfl) h4 h4').symm
    · rw [healthCheck, if_neg hc] at h4
      rw [healthCheck, if_neg (show ¬ ((World.toldSt o s).check = true ∧ (World.toldSt o s).fl.user.pos.liabilities.isEmpty = false) from hc)] at h4'
      cases h4; cases h4'; rfl
  subst this
  rw [(orac_tail o p b c s cache1').ok h5] at h5'
  cases h5'; rfl

theorem orac_claim (w : World) (p s : Address) (ids : List Nat) (d : Address) :
    Same (World.both o) (executeClaim w p s ids d) (executeClaim (w.told o) p s ids d) := by
  unfold executeClaim
  refine Same.same fun x => ?_
  obtain ⟨n, ps⟩ := x
  refine Same.ite ?_ (Same.pure rfl)
  refine Same.same fun i => ?_
  exact Same.bind (orac_transferFrom o (w.setPool p ps) _ _ _ _ _) fun _ _ => Same.pure rfl

theorem orac_gulp (w : World) (p : Address) : Same (World.both o) (gulpEmissions w p) (gulpEmissions (w.told o) p) := by
  unfold gulpEmissions
  refine Same.same fun _ => Same.same fun _ => Same.bind (Backstop.orac_gulpPool o _ _ _) fun x _ => ?_
  obtain ⟨n, w1⟩ := x
  exact Same.same fun _ => Same.pure rfl

theorem orac_call (w : World) (p : Address) (auth : List Address) (c : Call) (h : ¬ Spec.Asks (.pool p auth c)) :
    Same (World.told o) (call w p auth c) (call (w.told o) p auth c) := by
  cases c with
  | «initialize» => exact Same.same fun _ => Same.same fun _ => Same.pure rfl
  | setAdmin => exact Same.same fun _ => Same.same fun _ => Same.same fun _ => Same.pure rfl
  | updatePool => exact Same.same fun _ => Same.same fun _ => Same.pure rfl
  | queueSetReserve => exact Same.same fun _ => Same.same fun _ => Same.pure rfl
  | cancelSetReserve => exact Same.same fun _ => Same.pure rfl
  | setReserve => exact Same.same fun _ => Same.pure rfl
  | submit =>
    refine Same.same fun _ => Same.ite (Same.same fun _ => ?_) ?_
    · exact Same.bind (orac_submit o _ _ _ _ _ _ _ h) fun _ _ => Same.pure rfl
    · exact Same.bind (orac_submit o _ _ _ _ _ _ _ h) fun _ _ => Same.pure rfl
  | badDebt => unfold call transferBadDebt; exact Same.same fun _ => Same.same fun _ => Same.same fun _ => Same.same fun _ => Same.same fun _ => Same.same fun _ => Same.pure rfl
  | updateStatus => unfold call updateStatus; exact Same.same fun _ => Same.same fun _ => Same.same fun _ => Same.pure rfl
  | setStatus => unfold call setStatus; exact Same.same fun _ => Same.same fun _ => Same.same fun _ => Same.same fun _ => Same.pure rfl
  | gulpEmissions => exact Same.bind (orac_gulp o _ _) fun _ _ => Same.pure rfl
  | setEmissionsConfig => exact Same.same fun _ => Same.same fun _ => Same.pure rfl
  | claim => exact Same.same fun _ => Same.bind (orac_claim o _ _ _ _ _) fun _ _ => Same.pure rfl
  | newLiquidation => exact absurd trivial h
  | newBadDebt => exact absurd trivial h
  | newInterest => exact absurd trivial h

end Pool

namespace Emitter

theorem orac_call (w : World) (auth : List Address) (c : EmitterCall) :
    Same (World.told o) (emitterCall w auth c) (emitterCall (w.told o) auth c) := by
  cases c with
  | «initialize» => exact Same.same fun _ => Same.pure rfl
  | distribute => exact Same.bind (orac_distribute o _) fun _ _ => Same.pure rfl
  | drop => exact orac_drop o _ _ _
  | queueSwap b t => unfold emitterCall queueSwap; exact Same.same fun _ => Same.same fun _ => Same.same fun _ => Same.pure rfl
  | cancelSwap => unfold emitterCall cancelSwap; exact Same.same fun _ => Same.same fun _ => Same.same fun _ => Same.pure rfl
  | swapBackstop =>
    unfold emitterCall swapBackstop
    refine Same.same fun _ => Same.same fun _ => Same.same fun _ => ?_
    refine Same.same fun _ => Same.bind (orac_executeDistribute o _ _) fun x _ => ?_
    obtain ⟨n, w1⟩ := x
    exact Same.pure rfl

end Emitter

namespace Backstop

theorem orac_call (w : World) (auth : List Address) (c : BackstopCall) :
    Same (World.told o) (backstopCall w auth c) (backstopCall (w.told o) auth c) := by
  cases c with
  | «initialize» => exact orac_init o _ _ _ _ _ _ _
  | deposit => exact Same.bind (orac_deposit o _ _ _ _ _) fun _ _ => Same.pure rfl
  | queueWithdrawal => exact orac_queue o _ _ _ _ _
  | dequeueWithdrawal => exact orac_dequeue o _ _ _ _ _
  | withdraw => exact Same.bind (orac_withdraw o _ _ _ _ _) fun _ _ => Same.pure rfl
  | gulpEmissions => exact Same.bind (orac_gulp o _) fun _ _ => Same.pure rfl
  | addReward => exact orac_addReward o _ _ _
  | gulpPoolEmissions => exact Same.bind (orac_gulpPool o _ _ _) fun _ _ => Same.pure rfl
  | claim => exact Same.bind (orac_claim o _ _ _ _ _) fun _ _ => Same.pure rfl
  | drop => exact orac_drop o _
  | draw => exact orac_draw o _ _ _ _ _
  | donate => exact orac_donate o _ _ _ _ _
  | updateTknVal => unfold backstopCall updateTknVal; exact Same.same fun _ => Same.same fun _ => Same.same fun _ => Same.pure rfl

end Backstop

theorem Factory.orac_call (w : World) (auth : List Address) (c : FactoryCall) :
    Same (World.told o) (factoryCall w auth c) (factoryCall (w.told o) auth c) := by
  cases c with
  | «initialize» => exact Same.same fun _ => Same.pure rfl
  | deploy =>
    unfold factoryCall Factory.deploy
    refine Same.bind (f := (World.both o)) ?_ fun _ _ => Same.pure rfl
    refine Same.same fun _ => Same.same fun _ => Same.same fun _ => Same.same fun _ => Same.same fun _ => Same.same fun _ => ?_
    exact Same.bind (Pool.orac_call o _ _ _ _ id) fun _ _ => Same.pure rfl

theorem orac_step (w : World) (op : Op) (h : ¬ Spec.Asks op) (hr : Spec.reports op = false) :
    Same (World.told o) (step w op) (step (w.told o) op) := by
  cases op with
  | pool => exact Same.same fun _ => Same.same fun _ => Pool.orac_call o _ _ _ _ h
  | backstop => exact Same.same fun _ => Backstop.orac_call o _ _ _
  | emitter => exact Same.same fun _ => Emitter.orac_call o _ _ _
  | factory => exact Same.same fun _ => Factory.orac_call o _ _ _
  | ledger => exact Same.pure rfl
  | oracles => cases hr
  | comet => exact Same.same fun _ => Same.pure rfl
  | tokenTransfer => exact Same.same fun _ => orac_transfer o _ _ _ _ _
  | tokenMint => exact Same.same fun _ => orac_mint o _ _ _ _
  | tokenBurn t a n => exact Same.same fun _ => Same.same fun _ => Same.pure rfl
  | tokenApprove => exact Same.same fun _ => orac_approve o _ _ _ _ _ _
  | expireAuction => exact Same.pure rfl
  | expireQueued => exact Same.pure rfl
  | expireDropList => exact Same.pure rfl

end Blend
