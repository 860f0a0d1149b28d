import Verif.Spec.Signers
import Verif.Spec.Access
import Verif.Lemmas.ReqFrame
import Verif.Lemmas.Exec
import Verif.Examples.Demo
/-
  C90: signatures decide whether a call goes through, never what it does.
-/

namespace Blend.Props
open Pool Spec

variable {w w' : World} {p : Address} {A B : List Address}

theorem requireAuth_mem {x : Address} (h : x ∈ A) : requireAuth A x = .ok () := by simp [requireAuth, require, h]

theorem fillInterest_auth {fl : Flight} {a : AuctionData} (hA : fl.user.addr ∈ A) (hB : fl.user.addr ∈ B) :
    fillInterest fl p A a = fillInterest fl p B a := by
  unfold fillInterest Backstop.donate
  simp only [requireAuth_mem (List.mem_cons_of_mem p hA), requireAuth_mem (List.mem_cons_of_mem p hB),
    requireAuth_mem (List.mem_cons_self (a := p) (l := A)), requireAuth_mem (List.mem_cons_self (a := p) (l := B))]

theorem processRequest_auth {s : SubmitState} {q : Request} (hA : s.fl.user.addr ∈ A) (hB : s.fl.user.addr ∈ B) :
    processRequest p A s q = processRequest p B s q := by
  unfold processRequest reqFill fill
  simp only [fillInterest_auth hA hB]

theorem requests_auth {l : List Request} {s : SubmitState} (hA : s.fl.user.addr ∈ A) (hB : s.fl.user.addr ∈ B) :
    l.foldlM (processRequest p A) s = l.foldlM (processRequest p B) s ∧ requestsLog p A l s = requestsLog p B l s := by
  induction l generalizing s with
  | nil => exact ⟨rfl, rfl⟩
  | cons q l ih =>
    rw [List.foldlM_cons, List.foldlM_cons, ← processRequest_auth (p := p) (q := q) hA hB]
    unfold requestsLog
    rw [← processRequest_auth (p := p) (q := q) hA hB]
    cases hq : processRequest p A s q with
    | error e => exact ⟨rfl, rfl⟩
    | ok s1 =>
      have e := (request_auctions hq).2.1
      obtain ⟨i1, i2⟩ := ih (s := s1) (by rw [e]; exact hA) (by rw [e]; exact hB)
      exact ⟨i1, by simp only [bind, Except.bind, i2]⟩

theorem executeSubmit_auth {sender spender dst : Address} {l : List Request} (hA : sender ∈ A) (hB : sender ∈ B) :
    executeSubmit w p A sender spender dst l = executeSubmit w p B sender spender dst l := by
  unfold executeSubmit buildActions
  have e : ∀ c, l.foldlM (processRequest p A) ⟨⟨w, c, User.load (w.pools p) sender⟩, ⟨.empty, .empty⟩, false⟩ =
      l.foldlM (processRequest p B) ⟨⟨w, c, User.load (w.pools p) sender⟩, ⟨.empty, .empty⟩, false⟩ :=
    fun c => (requests_auth hA hB).1
  simp only [e]

theorem requireAdmin_auth (hA : ∀ x, IsAdmin w p x → x ∈ A) (hB : ∀ x, IsAdmin w p x → x ∈ B) :
    requireAdmin (w.pools p) A = requireAdmin (w.pools p) B := by
  unfold requireAdmin PoolState.getInst
  cases hi : (w.pools p).inst with
  | none => rfl
  | some i =>
    show requireAuth A i.admin = requireAuth B i.admin
    rw [requireAuth_mem (hA _ ⟨i, hi, rfl⟩), requireAuth_mem (hB _ ⟨i, hi, rfl⟩)]

theorem call_auth {c : Call} (hA : ∀ x, PoolNeeds w p c x → x ∈ A) (hB : ∀ x, PoolNeeds w p c x → x ∈ B) :
    call w p A c = call w p B c := by
  cases c with
  | «initialize» a o r m b t =>
    simp only [call, requireAuth_mem (hA a rfl), requireAuth_mem (hB a rfl)]
  | setAdmin n =>
    cases hi : (w.pools p).inst with
    | none => simp only [call, PoolState.getInst, hi]; rfl
    | some i =>
      have e : (w.pools p).getInst = .ok i := by simp only [PoolState.getInst, hi]; rfl
      simp only [call, e, bind, Except.bind, requireAuth_mem (hA _ (.inl ⟨i, hi, rfl⟩)), requireAuth_mem (hB _ (.inl ⟨i, hi, rfl⟩)),
        requireAuth_mem (hA _ (.inr rfl)), requireAuth_mem (hB _ (.inr rfl))]
  | updatePool r m => simp only [call, requireAdmin_auth hA hB]
  | queueSetReserve a g => simp only [call, requireAdmin_auth hA hB]
  | cancelSetReserve a => simp only [call, requireAdmin_auth hA hB]
  | setStatus s => simp only [call, requireAdmin_auth hA hB]
  | setEmissionsConfig l => simp only [call, requireAdmin_auth hA hB]
  | submit a b d l =>
    simp only [call, requireAuth_mem (hA b (.inr rfl)), requireAuth_mem (hB b (.inr rfl)), requireAuth_mem (hA a (.inl rfl)),
      requireAuth_mem (hB a (.inl rfl)), executeSubmit_auth (hA a (.inl rfl)) (hB a (.inl rfl))]
  | claim a i d => simp only [call, requireAuth_mem (hA a rfl), requireAuth_mem (hB a rfl)]
  | setReserve a => rfl
  | badDebt u => rfl
  | updateStatus => rfl
  | gulpEmissions => rfl
  | newLiquidation u n => rfl
  | newBadDebt => rfl
  | newInterest l => rfl

theorem callRet_auth {c : Call} (hA : ∀ x, PoolNeeds w p c x → x ∈ A) (hB : ∀ x, PoolNeeds w p c x → x ∈ B) :
    callRet w p A c = callRet w p B c := by
  cases c with
  | submit a b d l =>
    simp only [callRet, requireAuth_mem (hA b (.inr rfl)), requireAuth_mem (hB b (.inr rfl)), requireAuth_mem (hA a (.inl rfl)),
      requireAuth_mem (hB a (.inl rfl)), executeSubmit_auth (hA a (.inl rfl)) (hB a (.inl rfl))]
  | claim a i d => simp only [callRet, requireAuth_mem (hA a rfl), requireAuth_mem (hB a rfl)]
  | setReserve a => rfl
  | updateStatus => rfl
  | gulpEmissions => rfl
  | newLiquidation u n => rfl
  | newBadDebt => rfl
  | newInterest l => rfl
  | _ => simp only [callRet, call_auth hA hB]

theorem callLog_auth {c : Call} (hA : ∀ x, PoolNeeds w p c x → x ∈ A) (hB : ∀ x, PoolNeeds w p c x → x ∈ B) :
    callLog w p A c = callLog w p B c := by
  cases c with
  | submit a b d l =>
    have e : ∀ c, requestsLog p A l ⟨⟨w, c, User.load (w.pools p) a⟩, ⟨.empty, .empty⟩, false⟩ =
        requestsLog p B l ⟨⟨w, c, User.load (w.pools p) a⟩, ⟨.empty, .empty⟩, false⟩ :=
      fun c => (requests_auth (hA a (.inl rfl)) (hB a (.inl rfl))).2
    simp only [callLog, e]
  | _ => rfl

theorem backstop_auth {c : BackstopCall} (hA : ∀ x, BackstopNeeds c x → x ∈ A) (hB : ∀ x, BackstopNeeds c x → x ∈ B) :
    backstopRet w A c = backstopRet w B c ∧ backstopLog w A c = backstopLog w B c ∧ backstopCall w A c = backstopCall w B c := by
  cases c with
  | donate s q a =>
    simp only [backstopRet, backstopLog, backstopCall, Backstop.donate, requireAuth_mem (hA s (.inl rfl)),
      requireAuth_mem (hB s (.inl rfl)), requireAuth_mem (hA q (.inr rfl)), requireAuth_mem (hB q (.inr rfl)), and_self]
  | _ =>
    first
    | exact ⟨rfl, rfl, rfl⟩
    | simp only [backstopRet, backstopLog, backstopCall, Backstop.deposit, Backstop.queueWithdrawal, Backstop.dequeueWithdrawal,
        Backstop.withdraw, Backstop.claim, Backstop.draw, Backstop.gulpPoolEmissionsAuth, requireAuth_mem (hA _ rfl),
        requireAuth_mem (hB _ rfl), and_self]

/-- Whoever signs in addition, or instead of somebody whose signature is not needed, changes nothing: with all signatures that are
needed a call goes the same way (result, changes and events, or the error). -/
theorem C90_same (op : Op) {A B : List Address} (hA : ∀ x, Required w op x → x ∈ A) (hB : ∀ x, Required w op x → x ∈ B)
    (nA : ∀ a ∈ A, ¬ w.isProtocol a) (nB : ∀ a ∈ B, ¬ w.isProtocol a) :
    exec w (signedBy A op) = exec w (signedBy B op) ∧ step w (signedBy A op) = step w (signedBy B op) ∧
      logOf w (signedBy A op) = logOf w (signedBy B op) := by
  have rA : require (∀ a ∈ A, ¬ w.isProtocol a) .unauthorized = .ok () := require_ok.2 nA
  have rB : require (∀ a ∈ B, ¬ w.isProtocol a) .unauthorized = .ok () := require_ok.2 nB
  cases op with
  | pool p l c =>
    simp only [signedBy, exec, step, logOf, rA, rB, callRet_auth hA hB, call_auth hA hB, callLog_auth hA hB, and_self]
  | backstop l c =>
    obtain ⟨h1, h2, h3⟩ := backstop_auth (w := w) hA hB
    simp only [signedBy, exec, step, logOf, rA, rB, h1, h2, h3, and_self]
  | emitter l c =>
    cases c with
    | drop m =>
      have e : Emitter.drop w A m = Emitter.drop w B m := by
        unfold Emitter.drop
        cases hi : Emitter.inst w with
        | error e => rfl
        | ok i =>
          have hi : w.emitter.inst = some i := by simpa [Emitter.inst, unwrap_ok] using hi
          have e1 := requireAuth_mem (hA i.backstop ⟨i, hi, rfl⟩)
          have e2 := requireAuth_mem (hB i.backstop ⟨i, hi, rfl⟩)
          simp only [bind, Except.bind, e1, e2]
      simp only [signedBy, exec, step, logOf, emitterRet, emitterCall, rA, rB, e, and_self]
    | _ => simp only [signedBy, exec, step, logOf, emitterRet, emitterCall, rA, rB, and_self]
  | factory l c =>
    cases c with
    | deploy a s o r m =>
      simp only [signedBy, exec, step, logOf, factoryRet, factoryCall, factoryLog, Factory.deploy, rA, rB, requireAuth_mem (hA _ rfl),
        requireAuth_mem (hB _ rfl), and_self]
    | _ => simp only [signedBy, exec, step, logOf, factoryRet, factoryCall, factoryLog, rA, rB, and_self]
  | _ => exact ⟨rfl, rfl, rfl⟩

theorem requireAdmin_needs (h : requireAdmin (w.pools p) A = .ok ()) {x : Address} (hx : IsAdmin w p x) : x ∈ A := by
  obtain ⟨i, hi, rfl⟩ := hx
  simpa [requireAdmin, PoolState.getInst, hi, unwrap, bind, Except.bind, requireAuth, require_ok] using h

/-- Without one of the signatures that are needed the call fails. -/
theorem C90_needed {op : Op} (h : step w op = .ok w') {x : Address} (hx : Required w op x) : x ∈ signers op := by
  cases op with
  | pool p l c =>
    simp only [step, bind_ok, require_ok] at h
    obtain ⟨_, _, _, _, h⟩ := h
    cases c with
    | «initialize» a o r m b t =>
      simp only [call, bind_ok, requireAuth, require_ok] at h
      obtain ⟨_, h, _⟩ := h
      cases hx; exact h
    | setAdmin n =>
      simp only [call, bind_ok, requireAuth, require_ok] at h
      obtain ⟨i, hi, _, h1, _, h2, _⟩ := h
      have hi : (w.pools p).inst = some i := by simpa [PoolState.getInst, unwrap_ok] using hi
      rcases hx with ⟨j, hj, rfl⟩ | rfl
      · rw [hi] at hj; cases hj; exact h1
      · exact h2
    | updatePool r m => simp only [call, bind_ok] at h; obtain ⟨_, h, _⟩ := h; exact requireAdmin_needs h hx
    | queueSetReserve a g => simp only [call, bind_ok] at h; obtain ⟨_, h, _⟩ := h; exact requireAdmin_needs h hx
    | cancelSetReserve a => simp only [call, bind_ok] at h; obtain ⟨_, h, _⟩ := h; exact requireAdmin_needs h hx
    | setStatus s => simp only [call, bind_ok] at h; obtain ⟨_, h, _⟩ := h; exact requireAdmin_needs h hx
    | setEmissionsConfig l => simp only [call, bind_ok] at h; obtain ⟨_, h, _⟩ := h; exact requireAdmin_needs h hx
    | submit a b d l =>
      simp only [call, bind_ok, requireAuth, require_ok, ite_ok] at h
      obtain ⟨_, h1, h⟩ := h
      rcases hx with rfl | rfl
      · rcases h with ⟨_, _, h2, _⟩ | ⟨h3, _⟩
        · exact h2
        · rw [not_ne_iff] at h3; rw [h3]; exact h1
      · exact h1
    | claim a i d =>
      simp only [call, bind_ok, requireAuth, require_ok] at h
      obtain ⟨_, h, _⟩ := h
      cases hx; exact h
    | _ => cases hx
  | backstop l c =>
    simp only [step, bind_ok, require_ok] at h
    obtain ⟨_, _, h⟩ := h
    cases c with
    | donate s q a =>
      simp only [backstopCall, Backstop.donate, bind_ok, requireAuth, require_ok] at h
      obtain ⟨_, h1, _, h2, _⟩ := h
      rcases hx with rfl | rfl
      · exact h1
      · exact h2
    | deposit s q a =>
      simp only [backstopCall, Backstop.deposit, bind_ok, requireAuth, require_ok] at h
      obtain ⟨_, ⟨_, h1, _⟩, _⟩ := h
      cases hx; exact h1
    | queueWithdrawal s q a =>
      simp only [backstopCall, Backstop.queueWithdrawal, bind_ok, requireAuth, require_ok] at h
      obtain ⟨_, h1, _⟩ := h
      cases hx; exact h1
    | dequeueWithdrawal s q a =>
      simp only [backstopCall, Backstop.dequeueWithdrawal, bind_ok, requireAuth, require_ok] at h
      obtain ⟨_, h1, _⟩ := h
      cases hx; exact h1
    | withdraw s q a =>
      simp only [backstopCall, Backstop.withdraw, bind_ok, requireAuth, require_ok] at h
      obtain ⟨_, ⟨_, h1, _⟩, _⟩ := h
      cases hx; exact h1
    | claim s q a =>
      simp only [backstopCall, Backstop.claim, bind_ok, requireAuth, require_ok] at h
      obtain ⟨_, ⟨_, h1, _⟩, _⟩ := h
      cases hx; exact h1
    | draw q a d =>
      simp only [backstopCall, Backstop.draw, bind_ok, requireAuth, require_ok] at h
      obtain ⟨_, h1, _⟩ := h
      cases hx; exact h1
    | gulpPoolEmissions q =>
      simp only [backstopCall, Backstop.gulpPoolEmissionsAuth, bind_ok, requireAuth, require_ok] at h
      obtain ⟨_, ⟨_, h1, _⟩, _⟩ := h
      cases hx; exact h1
    | _ => cases hx
  | emitter l c =>
    simp only [step, bind_ok, require_ok] at h
    obtain ⟨_, _, h⟩ := h
    cases c with
    | drop m =>
      simp only [emitterCall, Emitter.drop, bind_ok, requireAuth, require_ok] at h
      obtain ⟨i, hi, _, h1, _⟩ := h
      have hi : w.emitter.inst = some i := by simpa [Emitter.inst, unwrap_ok] using hi
      obtain ⟨j, hj, rfl⟩ := hx
      rw [hi] at hj; cases hj; exact h1
    | _ => cases hx
  | factory l c =>
    simp only [step, bind_ok, require_ok] at h
    obtain ⟨_, _, h⟩ := h
    cases c with
    | deploy a s o r m =>
      simp only [factoryCall, Factory.deploy, bind_ok, requireAuth, require_ok] at h
      obtain ⟨_, ⟨_, h1, _⟩, _⟩ := h
      cases hx; exact h1
    | _ => cases hx
  | _ => cases hx

/-- Two calls that differ only in who signed them, and both go through, do the same. -/
theorem C90_outcome {op : Op} {A B : List Address} {r r' : Ret} {w1 w2 : World} (h1 : exec w (signedBy A op) = .ok (r, w1))
    (h2 : exec w (signedBy B op) = .ok (r', w2)) : r' = r ∧ w2 = w1 ∧ logOf w (signedBy B op) = logOf w (signedBy A op) := by
  have key : ∀ {D : List Address} {r : Ret} {w1 : World}, exec w (signedBy D op) = .ok (r, w1) →
      (∀ D, signedBy D op = op) ∨ ((∀ a ∈ D, ¬ w.isProtocol a) ∧ ∀ x, Required w op x → x ∈ D) := by
    intro D r w1 h
    have hs := exec_step h
    cases op with
    | pool p l c =>
      right
      refine ⟨?_, fun x hx => C90_needed (x := x) hs hx⟩
      simp only [signedBy, step, bind_ok, require_ok] at hs
      obtain ⟨_, _, _, hn, _⟩ := hs; exact hn
    | backstop l c =>
      right
      refine ⟨?_, fun x hx => C90_needed (x := x) hs hx⟩
      simp only [signedBy, step, bind_ok, require_ok] at hs
      obtain ⟨_, hn, _⟩ := hs; exact hn
    | emitter l c =>
      right
      refine ⟨?_, fun x hx => C90_needed (op := .emitter D c) (x := x) hs (by cases c <;> exact hx)⟩
      simp only [signedBy, step, bind_ok, require_ok] at hs
      obtain ⟨_, hn, _⟩ := hs; exact hn
    | factory l c =>
      right
      refine ⟨?_, fun x hx => C90_needed (op := .factory D c) (x := x) hs (by cases c <;> exact hx)⟩
      simp only [signedBy, step, bind_ok, require_ok] at hs
      obtain ⟨_, hn, _⟩ := hs; exact hn
    | _ => exact .inl fun _ => rfl
  have fin : exec w (signedBy A op) = exec w (signedBy B op) ∧ logOf w (signedBy A op) = logOf w (signedBy B op) := by
    rcases key h1 with e | ⟨n1, q1⟩
    · rw [e A, e B]; exact ⟨rfl, rfl⟩
    · rcases key h2 with e | ⟨n2, q2⟩
      · rw [e A, e B]; exact ⟨rfl, rfl⟩
      · exact ⟨(C90_same op q1 q2 n1 n2).1, (C90_same op q1 q2 n1 n2).2.2⟩
  rw [fin.1, h2] at h1
  cases h1
  exact ⟨rfl, rfl, fin.2.symm⟩

open Demo in
/-- non-vacuity: bob supplies and borrows with dave's money, with the two signatures that are needed, and also if carol and the
admin sign as well, with the same result; without dave's signature it fails. -/
example : ∃ w w' r op, Reachable w ∧ op = .pool poolA [bob, dave] (.submit bob dave bob [⟨2, xlmA, 10000000000⟩, ⟨4, usdcA, 600000000⟩]) ∧
    (∀ x, Required w op x ↔ x = bob ∨ x = dave) ∧ exec w op = .ok (r, w') ∧
    exec w (signedBy [carol, dave, adminA, bob] op) = .ok (r, w') ∧ step w (signedBy [bob, carol] op) = .error .unauthorized := by
  have h : okAnd (Demo.run genesis (setup ++ trade)) (fun w =>
      okAnd (exec w (.pool poolA [bob, dave] (.submit bob dave bob [⟨2, xlmA, 10000000000⟩, ⟨4, usdcA, 600000000⟩]))) (fun _ =>
        decide (∀ a ∈ [carol, dave, adminA, bob], ¬ w.isProtocol a) &&
        errIs (step w (.pool poolA [bob, carol] (.submit bob dave bob [⟨2, xlmA, 10000000000⟩, ⟨4, usdcA, 600000000⟩]))) .unauthorized)) = true := by
    decide +kernel
  obtain ⟨w, _, hr, h⟩ := Demo.reach h
  obtain ⟨⟨r, w'⟩, hw', h⟩ := okAnd_iff.1 h
  rw [Bool.and_eq_true] at h
  have hn := of_decide_eq_true h.1
  refine ⟨w, w', r, _, hr, rfl, fun x => Iff.rfl, hw', ?_, errIs_iff.1 h.2⟩
  rw [← hw']
  refine (C90_same (A := [carol, dave, adminA, bob]) (B := [bob, dave]) _ ?_ ?_ hn ?_).1
  · rintro x (rfl | rfl) <;> simp
  · rintro x (rfl | rfl) <;> simp
  · intro a ha
    exact hn a (by simp only [List.mem_cons, List.not_mem_nil, or_false] at ha ⊢; rcases ha with rfl | rfl <;> simp)

end Blend.Props
