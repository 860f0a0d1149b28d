import Verif.Lemmas.Reach
/-
  Which parts of the system an operation can change.
-/

namespace Blend
open Pool

theorem Backstop.call_emitter {w w' : World} {auth : List Address} {c : BackstopCall} (hc : c ≠ .drop)
    (h : backstopCall w auth c = .ok w') : w'.emitter = w.emitter := by
  cases c with
  | «initialize» t e u b f l =>
    simp only [backstopCall, init, bind_ok, pure_ok] at h
    obtain ⟨_, _, _, _, _, _, rfl⟩ := h; rfl
  | deposit s p a =>
    simp only [backstopCall, deposit, executeDeposit, bind_ok, pure_ok, Prod.exists, requireAuth_ok,
      Prod.mk.injEq] at h
    obtain ⟨_, _, ⟨_, hm, _, _, _, _, _, _, _, b1, _, i, _, w2, ht, _, _, _, _, _, _, _, _, _, rfl⟩, rfl⟩ := h
    show w2.emitter = _; rw [(transfer_res ht).frame]; rfl
  | queueWithdrawal s p a =>
    simp only [backstopCall, queueWithdrawal, executeQueue, bind_ok, pure_ok, Prod.exists] at h
    obtain ⟨_, _, _, _, _, _, _, _, _, _, _, rfl⟩ := h; rfl
  | dequeueWithdrawal s p a =>
    simp only [backstopCall, dequeueWithdrawal, executeDequeue, bind_ok, pure_ok, Prod.exists] at h
    obtain ⟨_, _, _, _, _, _, _, _, _, _, _, _, _, rfl⟩ := h; rfl
  | withdraw s p a =>
    simp only [backstopCall, withdraw, executeWithdraw, bind_ok, pure_ok, Prod.exists, Prod.mk.injEq] at h
    obtain ⟨_, _, ⟨_, _, _, h0, ub, hq, tk, htk, _, hnz, pb', hpb, i, hi, w2, ht, _, rfl⟩, rfl⟩ := h
    rw [(transfer_res ht).frame]; rfl
  | gulpEmissions =>
    simp only [backstopCall, gulpEmissions, bind_ok, pure_ok, Prod.exists, Prod.mk.injEq] at h
    obtain ⟨_, _, ⟨_, _, i, _, _, _, el, _, _, _, ne, _, tb, htb, tp, _, tn, htn, b1, hf, _, rfl⟩, rfl⟩ := h
    rfl
  | addReward a r =>
    simp only [backstopCall, addReward, bind_ok, pure_ok, Prod.exists, ite_ok] at h
    obtain ⟨_, _, _, _, _, _, ⟨_, _, _, rfl⟩ | ⟨_, _, _, _, _, _, _, _, _, _, _, rfl⟩⟩ := h <;> rfl
  | gulpPoolEmissions p =>
    simp only [backstopCall, gulpPoolEmissionsAuth, gulpPoolEmissions, bind_ok, pure_ok, Prod.exists, Prod.mk.injEq] at h
    obtain ⟨_, _, ⟨_, _, _, _, i, _, _, _, w1, ha, _, rfl⟩, rfl⟩ := h
    obtain ⟨_, rfl⟩ := approve_res ha
    rfl
  | claim s ps d =>
    simp only [backstopCall, claim, executeClaim, cometDeposit, bind_ok, pure_ok, Prod.exists, ite_ok,
      Prod.mk.injEq] at h
    obtain ⟨_, _, ⟨_, _, _, _, c, cl, b1, hl, ⟨hc, i, hi, lp, w2, ⟨w3, ht, w4, hm, s', _, rfl, rfl⟩, b2, hd, _, rfl⟩ |
      ⟨_, _, rfl⟩⟩, rfl⟩ := h
    · show w4.emitter = _
      rw [(mint_res hm).frame]; show w3.emitter = _; rw [(transfer_res ht).frame]; rfl
    · rfl
  | drop => exact absurd rfl hc
  | draw p a d =>
    simp only [backstopCall, draw, bind_ok] at h
    obtain ⟨_, _, h⟩ := h
    obtain ⟨i, _, t⟩ := (executeDraw_res h).ex
    rw [t.frame]; rfl
  | donate s p a =>
    simp only [backstopCall, donate, bind_ok, requireAuth_ok] at h
    obtain ⟨_, hm, _, _, h⟩ := h
    obtain ⟨i, w1, _, t, rfl⟩ := (executeDonate_res h).ex
    show w1.emitter = _; rw [t.frame]
  | updateTknVal =>
    simp only [backstopCall, updateTknVal, bind_ok, pure_ok] at h
    obtain ⟨_, _, _, _, _, _, rfl⟩ := h
    rfl

/-- what an operation leaves alone -/
structure Frame (w : World) (op : Op) (w' : World) : Prop where
  factory : (∀ auth c, op ≠ .factory auth c) → w'.factory = w.factory
  emitter : (∀ auth c, op ≠ .emitter auth c) → (∀ auth, op ≠ .backstop auth .drop) → w'.emitter = w.emitter
  pools : ∀ q, (∀ auth c, op ≠ .pool q auth c) →
    (∀ auth a s o r m, op = .factory auth (.deploy a s o r m) → w.deployAddr a s ≠ q) →
    (∀ t u, op ≠ .expireAuction q t u) → (∀ a, op ≠ .expireQueued q a) → w'.pools q = w.pools q
  time : (∀ dt ds, op ≠ .ledger dt ds) → w'.time = w.time ∧ w'.seq = w.seq
  deployAddr : w'.deployAddr = w.deployAddr

theorem step_frame {w w' : World} {op : Op} (hb : Base w) (h : step w op = .ok w') : Frame w op w' := by
  cases op with
  | pool p auth c =>
    simp only [step, bind_ok, require_ok] at h
    obtain ⟨_, hp, _, ha, h⟩ := h
    obtain ⟨_, h1, h2, h3, h4⟩ := pool_step hb hp ha h
    exact ⟨fun _ => h4, fun _ _ => h3, fun q hq _ _ _ => h2 q fun e => hq auth c (by rw [e]), fun _ => ⟨h1.time, h1.seq⟩, h1.deployAddr⟩
  | backstop auth c =>
    simp only [step, bind_ok, require_ok] at h
    obtain ⟨_, ha, h⟩ := h
    obtain ⟨h1, h2, h3⟩ := Backstop.call_wf ha h
    exact ⟨fun _ => h3, fun _ hd => Backstop.call_emitter (fun e => hd auth (by rw [e])) h, fun q _ _ _ _ => by rw [h2],
      fun _ => ⟨h1.time, h1.seq⟩, h1.deployAddr⟩
  | emitter auth c =>
    simp only [step, bind_ok, require_ok] at h
    obtain ⟨_, ha, h⟩ := h
    obtain ⟨h1, h2, _, h3⟩ := Emitter.call_wf (L := fun _ => False) (A := w.approver) h
    exact ⟨fun _ => h3, fun hd => absurd rfl (hd auth c), fun q _ _ _ _ => by rw [h2], fun _ => ⟨h1.time, h1.seq⟩, h1.deployAddr⟩
  | factory auth c =>
    simp only [step, bind_ok, require_ok] at h
    obtain ⟨_, ha, h⟩ := h
    cases c with
    | «initialize» m =>
      simp only [factoryCall, Factory.init, bind_ok, pure_ok] at h
      obtain ⟨_, _, rfl⟩ := h
      exact ⟨fun hd => absurd rfl (hd auth _), fun _ _ => rfl, fun _ _ _ _ _ => rfl, fun _ => ⟨rfl, rfl⟩, rfl⟩
    | deploy a s o r m =>
      simp only [factoryCall, Factory.deploy, bind_ok, pure_ok, Prod.exists, require_ok, requireAuth_ok,
        Prod.mk.injEq] at h
      obtain ⟨x, w1, ⟨_, hm, mt, _, _, hr, _, _, _, hp, _, hi, w2, hc, rfl, rfl⟩, rfl⟩ := h
      obtain ⟨_, hw, k7, k8, _⟩ := pool_step hb hp (auth := [a])
        (by intro x hx; simp only [List.mem_singleton] at hx; subst hx; exact ha _ hm) hc
      exact ⟨fun hd => absurd rfl (hd auth _), fun _ _ => k8, fun q _ hq _ _ => k7 q (hq _ _ _ _ _ _ rfl).symm,
        fun _ => ⟨hw.time, hw.seq⟩, hw.deployAddr⟩
  | ledger dt ds =>
    simp only [step, pure_ok] at h
    subst h
    exact ⟨fun _ => rfl, fun _ _ => rfl, fun _ _ _ _ _ => rfl, fun hd => absurd rfl (hd dt ds), rfl⟩
  | oracles o =>
    simp only [step, pure_ok] at h
    subst h
    exact ⟨fun _ => rfl, fun _ _ => rfl, fun _ _ _ _ _ => rfl, fun _ => ⟨rfl, rfl⟩, rfl⟩
  | comet s o =>
    simp only [step, pure_ok, bind_ok] at h
    obtain ⟨_, _, rfl⟩ := h
    exact ⟨fun _ => rfl, fun _ _ => rfl, fun _ _ _ _ _ => rfl, fun _ => ⟨rfl, rfl⟩, rfl⟩
  | tokenTransfer t s d a =>
    simp only [step, bind_ok, require_ok] at h
    obtain ⟨_, hs, h⟩ := h
    have r := transfer_res h
    rw [r.frame]
    exact ⟨fun _ => rfl, fun _ _ => rfl, fun _ _ _ _ _ => rfl, fun _ => ⟨rfl, rfl⟩, rfl⟩
  | tokenMint t d a =>
    simp only [step, bind_ok, require_ok] at h
    obtain ⟨_, hs, h⟩ := h
    have r := mint_res h
    rw [r.frame]
    exact ⟨fun _ => rfl, fun _ _ => rfl, fun _ _ _ _ _ => rfl, fun _ => ⟨rfl, rfl⟩, rfl⟩
  | tokenBurn t s a =>
    simp only [step, bind_ok, require_ok, pure_ok] at h
    obtain ⟨_, hs, _, ha, rfl⟩ := h
    exact ⟨fun _ => rfl, fun _ _ => rfl, fun _ _ _ _ _ => rfl, fun _ => ⟨rfl, rfl⟩, rfl⟩
  | tokenApprove t o s a e =>
    simp only [step, bind_ok, require_ok] at h
    obtain ⟨_, hs, h⟩ := h
    obtain ⟨_, rfl⟩ := approve_res h
    exact ⟨fun _ => rfl, fun _ _ => rfl, fun _ _ _ _ _ => rfl, fun _ => ⟨rfl, rfl⟩, rfl⟩
  | expireAuction p t u =>
    simp only [step, pure_ok] at h
    subst h
    exact ⟨fun _ => rfl, fun _ _ => rfl, fun q _ _ hq _ => pools_setPool_ne _ _ _ _ fun e => hq t u (by rw [e]),
      fun _ => ⟨rfl, rfl⟩, rfl⟩
  | expireQueued p a =>
    simp only [step, pure_ok] at h
    subst h
    exact ⟨fun _ => rfl, fun _ _ => rfl, fun q _ _ _ hq => pools_setPool_ne _ _ _ _ fun e => hq a (by rw [e]),
      fun _ => ⟨rfl, rfl⟩, rfl⟩
  | expireDropList =>
    simp only [step, pure_ok] at h
    subst h
    exact ⟨fun _ => rfl, fun _ _ => rfl, fun _ _ _ _ _ => rfl, fun _ => ⟨rfl, rfl⟩, rfl⟩

/-- what the factory does -/
theorem factoryCall_ok {w w' : World} {auth : List Address} {c : FactoryCall} (h : factoryCall w auth c = .ok w') :
    (∃ m, c = .initialize m ∧ w.factory.meta? = none ∧ w' = { w with factory := { w.factory with meta? := some m } }) ∨
    ∃ a s o r n m, c = .deploy a s o r n ∧ a ∈ auth ∧ w.factory.meta? = some m ∧ r < 10000000 ∧ 2 ≤ n ∧
      w.poolAddr (w.deployAddr a s) = true ∧ (w.pools (w.deployAddr a s)).inst = none ∧
      w' = { (w.setPool (w.deployAddr a s) { (w.pools (w.deployAddr a s)) with
          inst := some ⟨a, m.backstop, m.blnd, ⟨o, r, 6, n⟩⟩ }) with
        factory := { w.factory with deployed := upd w.factory.deployed (w.deployAddr a s) true } } := by
  cases c with
  | «initialize» m =>
    simp only [factoryCall, Factory.init, bind_ok, pure_ok, require_ok] at h
    obtain ⟨_, hn, rfl⟩ := h
    exact .inl ⟨m, rfl, by simpa using hn, rfl⟩
  | deploy a s o r n =>
    right
    simp only [factoryCall, Factory.deploy, bind_ok, pure_ok, Prod.exists, require_ok, requireAuth_ok,
      Prod.mk.injEq, unwrap_ok] at h
    obtain ⟨x, w1, ⟨_, hm, mt, hmt, _, hr, _, hn, _, hp, _, hi, w2, hc, rfl, rfl⟩, rfl⟩ := h
    simp only [Pool.call, executeInit, bind_ok, pure_ok, require_ok, requireAuth_ok] at hc
    obtain ⟨_, _, _, ⟨_, _, _, _, _, _, rfl⟩, rfl⟩ := hc
    exact ⟨a, s, o, r, n, mt, rfl, hm, hmt, by omega, by omega, hp, by simpa using hi, rfl⟩

end Blend
