import Verif.Lemmas.MicroFill
/-
  `submit` as small steps.
-/

namespace Blend
namespace Pool

/-- the accounts whose positions a list of requests of `sender` may touch -/
def Touched (ps : PoolState) (sender : Address) (reqs : List Request) (x : Address) : Prop :=
  x = sender ∨ (∃ q ∈ reqs, q.type = 6 ∧ q.address = x) ∨
  ((∃ q ∈ reqs, q.type = 7) ∧ ∃ i, ps.inst = some i ∧ x = i.backstop)

theorem reqFill_ok {p : Address} {auth : List Address} {t : Nat} {s s' : SubmitState} {user : Address}
    {amt : Int} (h : reqFill p auth t s user amt = .ok s') :
    ∃ fl, fill s.fl p auth t user (asU64 amt) = .ok fl ∧
      s' = ⟨fl, s.actions, if t = 2 then s.check else true⟩ := by
  unfold reqFill at h
  simp only [bind_ok, pure_ok] at h
  obtain ⟨fl, h1, h2⟩ := h
  exact ⟨fl, h1, h2.symm⟩

theorem step_fill {U : Address → Prop} {p : Address} {s s' : SubmitState} {auth : List Address}
    {t : Nat} {user : Address} {amt : Int} (ok : CacheOk (s.fl.w.pools p) s.fl.w.time s.fl.cache)
    (hUf : U s.fl.user.addr) (hUl : t = 0 → U user)
    (hUb : t = 1 → ∀ i, (s.fl.w.pools p).inst = some i → U i.backstop)
    (hpb : p ≠ s.fl.w.backstopAddr) (hpf : p ≠ s.fl.user.addr)
    (h : reqFill p auth t s user amt = .ok s') : ReqStep U p s s' := by
  obtain ⟨fl, hf, rfl⟩ := reqFill_ok h
  have k := fill_step ok hUf hUl hUb hpb hpf hf
  refine ⟨?_, k.cacheOk, k.same, k.addr, k.time, k.backstop⟩
  have := k.micros (fun a => s.actions.spender.bal a - s.actions.pool.bal a)
  simp only [SubmitState.vs]
  convert this using 3 <;> omega

theorem processRequest_ok {p : Address} {auth : List Address} {s s' : SubmitState} {q : Request}
    (h : processRequest p auth s q = .ok s') :
    0 ≤ q.amount ∧ requireActionAllowed s.fl.cache.config q.type = .ok () ∧
    ((q.type = 0 ∧ reqSupply p false s q.address q.amount = .ok s') ∨
     (q.type = 1 ∧ reqWithdraw p s q.address q.amount = .ok s') ∨
     (q.type = 2 ∧ reqSupply p true s q.address q.amount = .ok s') ∨
     (q.type = 3 ∧ reqWithdrawColl p s q.address q.amount = .ok s') ∨
     (q.type = 4 ∧ reqBorrow p s q.address q.amount = .ok s') ∨
     (q.type = 5 ∧ reqRepay p s q.address q.amount = .ok s') ∨
     (q.type = 6 ∧ reqFill p auth 0 s q.address q.amount = .ok s') ∨
     (q.type = 7 ∧ reqFill p auth 1 s q.address q.amount = .ok s') ∨
     (q.type = 8 ∧ reqFill p auth 2 s q.address q.amount = .ok s') ∨
     (q.type = 9 ∧ reqDelete p s = .ok s')) := by
  unfold processRequest requireNonneg at h
  simp only [bind_ok, require_ok] at h
  obtain ⟨_, h0, _, h1, h2⟩ := h
  refine ⟨by omega, h1, ?_⟩
  split at h2 <;> simp_all

theorem step_request {U : Address → Prop} {p : Address} {s s' : SubmitState} {auth : List Address}
    {q : Request} (ok : CacheOk (s.fl.w.pools p) s.fl.w.time s.fl.cache)
    (hUf : U s.fl.user.addr) (hUl : q.type = 6 → U q.address)
    (hUb : q.type = 7 → ∀ i, (s.fl.w.pools p).inst = some i → U i.backstop)
    (hpb : p ≠ s.fl.w.backstopAddr) (hpf : p ≠ s.fl.user.addr)
    (h : processRequest p auth s q = .ok s') : ReqStep U p s s' := by
  obtain ⟨h0, _, h⟩ := processRequest_ok h
  rcases h with ⟨_, h⟩ | ⟨_, h⟩ | ⟨_, h⟩ | ⟨_, h⟩ | ⟨_, h⟩ | ⟨_, h⟩ | ⟨ht, h⟩ | ⟨ht, h⟩ | ⟨ht, h⟩ | ⟨_, h⟩
  · exact step_supply ok hUf h0 h
  · exact step_withdraw ok hUf h
  · exact step_supply ok hUf h0 h
  · exact step_withdrawColl ok hUf h
  · exact step_borrow ok hUf h0 h
  · exact step_repay ok hUf h
  · exact step_fill ok hUf (fun _ => hUl ht) (by simp) hpb hpf h
  · exact step_fill ok hUf (by simp) (fun _ => hUb ht) hpb hpf h
  · exact step_fill ok hUf (by simp) (by simp) hpb hpf h
  · exact step_delete ok h

theorem step_requests {U : Address → Prop} {p : Address} {auth : List Address} :
    ∀ (l : List Request) (s s' : SubmitState),
    CacheOk (s.fl.w.pools p) s.fl.w.time s.fl.cache → U s.fl.user.addr →
    (∀ q ∈ l, q.type = 6 → U q.address) →
    ((∃ q ∈ l, q.type = 7) → ∀ i, (s.fl.w.pools p).inst = some i → U i.backstop) →
    p ≠ s.fl.w.backstopAddr → p ≠ s.fl.user.addr →
    l.foldlM (processRequest p auth) s = .ok s' → ReqStep U p s s' := by
  intro l
  induction l with
  | nil =>
    intro s s' ok _ _ _ _ _ h
    rw [foldlM_nil] at h; subst h
    exact .refl ok
  | cons q l ih =>
    intro s s' ok hUf hUl hUb hpb hpf h
    rw [foldlM_cons] at h
    obtain ⟨s1, h1, h2⟩ := h
    have k1 := step_request ok hUf (hUl q (by simp)) (fun hq => hUb ⟨q, by simp, hq⟩) hpb hpf h1
    have k2 := ih s1 s' (k1.time ▸ k1.cacheOk) (k1.addr ▸ hUf)
      (fun q' hq' => hUl q' (by simp [hq']))
      (fun ⟨q', hq', ht⟩ i hi => hUb ⟨q', by simp [hq'], ht⟩ i (by rw [← k1.same.inst]; exact hi))
      (k1.backstop ▸ hpb) (k1.addr ▸ hpf) h2
    exact k1.trans k2

/-! ### the health check -/

/-- `cache'` extends `cache` by freshly loaded reserves -/
structure CacheExt (ps : PoolState) (now : Nat) (cache cache' : Cache) : Prop where
  toStore : cache'.toStore = cache.toStore
  config : cache'.config = cache.config
  old : ∀ a r, cache.reserves.get a = some r → cache'.reserves.get a = some r
  new : ∀ a r, cache'.reserves.get a = some r → ResMatch ps now a r ∧
    (cache.reserves.get a = some r ∨
      (cache.reserves.get a = none ∧ Reserve.load ps cache.config.bstopRate now a = .ok r))

theorem CacheExt.refl {ps : PoolState} {now : Nat} {cache : Cache}
    (h : ∀ a r, cache.reserves.get a = some r → ResMatch ps now a r) : CacheExt ps now cache cache :=
  ⟨rfl, rfl, fun _ _ h => h, fun a r hr => ⟨h a r hr, .inl hr⟩⟩

theorem CacheExt.trans {ps : PoolState} {now : Nat} {c c' c'' : Cache}
    (h : CacheExt ps now c c') (h' : CacheExt ps now c' c'') : CacheExt ps now c c'' := by
  refine ⟨h'.toStore.trans h.toStore, h'.config.trans h.config, fun a r hr => h'.old a r (h.old a r hr),
    fun a r hr => ?_⟩
  obtain ⟨hm, h1 | ⟨h1, h2⟩⟩ := h'.new a r hr
  · exact h.new a r h1
  · refine ⟨hm, .inr ⟨?_, by rw [← h.config]; exact h2⟩⟩
    cases hc : c.reserves.get a with
    | none => rfl
    | some r0 => rw [h.old a r0 hc] at h1; simp at h1

/-- a load for reading and the caching of its result -/
theorem loadReserve_false {ps : PoolState} {now : Nat} {cache cache' : Cache} {a : Address}
    {r : Reserve} (hm : ∀ a r, cache.reserves.get a = some r → ResMatch ps now a r)
    (h : cache.loadReserve ps now a false = .ok (r, cache')) :
    cache' = cache ∧ ResMatch ps now a r ∧ CacheExt ps now cache (cache.put r) ∧
    (cache.reserves.get a = some r ∨
      (cache.reserves.get a = none ∧ Reserve.load ps cache.config.bstopRate now a = .ok r)) := by
  unfold Cache.loadReserve at h
  simp only [Bool.false_eq_true, false_and, if_false] at h
  have key : cache' = cache ∧ ResMatch ps now a r ∧ (cache.reserves.get a = some r ∨
      (cache.reserves.get a = none ∧ Reserve.load ps cache.config.bstopRate now a = .ok r)) := by
    cases hr : cache.reserves.get a with
    | some r0 =>
      simp only [hr, pure_ok, Prod.mk.injEq] at h
      obtain ⟨rfl, rfl⟩ := h
      exact ⟨rfl, hm a r0 hr, .inl rfl⟩
    | none =>
      simp only [hr, bind_ok, pure_ok, Prod.mk.injEq] at h
      obtain ⟨r0, hl, rfl, rfl⟩ := h
      exact ⟨rfl, (load_match hl).1, .inr ⟨rfl, hl⟩⟩
  obtain ⟨rfl, k2, k3⟩ := key
  refine ⟨rfl, k2, ⟨rfl, rfl, fun b rb hb => ?_, fun b rb hb => ?_⟩, k3⟩
  · simp only [Cache.put, SMap.get_set, k2.asset]
    split
    · rename_i hba; subst hba
      rcases k3 with k3 | ⟨k3, _⟩
      · rw [k3] at hb; exact hb
      · rw [k3] at hb; simp at hb
    · exact hb
  · simp only [Cache.put, SMap.get_set, k2.asset] at hb
    split at hb
    · rename_i hba; subst hba
      cases hb
      exact ⟨k2, k3⟩
    · exact ⟨hm b rb hb, .inl hb⟩

theorem healthStep_cache {w : World} {ps : PoolState} {pos : Positions} {pd pd' : PositionData}
    {cache cache' : Cache} {i : Nat} (hm : ∀ a r, cache.reserves.get a = some r → ResMatch ps w.time a r)
    (h : healthStep w ps pos (pd, cache) i = .ok (pd', cache')) : CacheExt ps w.time cache cache' := by
  unfold healthStep at h
  simp only [ite_ok, bind_ok, pure_ok, Prod.exists, Prod.mk.injEq, unwrap_ok] at h
  rcases h with ⟨_, _, rfl⟩ | ⟨_, asset, _, r, c1, hl, price, _, h⟩
  · exact .refl hm
  · obtain ⟨rfl, _, he, _⟩ := loadReserve_false hm hl
    have : cache' = c1.put r := by
      rcases h with ⟨_, _, _, _, _, _, _, _, _, _, _, _, _, _, _, h⟩ | ⟨_, _, _, h⟩
      · rcases h with ⟨_, _, _, _, _, _, _, _, _, _, _, _, _, _, _, _, h⟩ | ⟨_, _, _, _, h⟩ <;> exact h.symm
      · rcases h with ⟨_, _, _, _, _, _, _, _, _, _, _, _, _, _, _, _, h⟩ | ⟨_, _, _, _, h⟩ <;> exact h.symm
    subst this
    exact he

theorem calcPositionData_cache {w : World} {ps : PoolState} {pos : Positions} {pd : PositionData}
    {cache cache' : Cache} (hm : ∀ a r, cache.reserves.get a = some r → ResMatch ps w.time a r)
    (h : calcPositionData w ps cache pos = .ok (pd, cache')) : CacheExt ps w.time cache cache' := by
  unfold calcPositionData at h
  simp only [bind_ok] at h
  obtain ⟨sc, _, h⟩ := h
  have := foldlM_inv (fun b : PositionData × Cache => CacheExt ps w.time cache b.2)
    (fun b b' i _ hb hs => by
      obtain ⟨pd1, c1⟩ := b
      obtain ⟨pd2, c2⟩ := b'
      exact hb.trans (healthStep_cache (fun a r hr => (hb.new a r hr).1) hs)) (CacheExt.refl hm) h
  exact this

/-! ### storing -/

theorem storeAll_ok {cache : Cache} :
    ∀ (l : List Address) (ps ps' : PoolState),
    (∀ a ∈ l, ∀ r, cache.reserves.get a = some r → r.asset = a) →
    (l.foldlM (fun ps a =>
      match cache.reserves.get a with
      | some r => pure (r.store ps)
      | none => .error (.pool .internalReserveNotFound)) ps : R PoolState) = .ok ps' →
    ps' = { ps with resData := fun a => if a ∈ l then (cache.reserves.get a).map (·.data) else ps.resData a } := by
  intro l
  induction l with
  | nil =>
    intro ps ps' _ h
    rw [foldlM_nil] at h; subst h; simp
  | cons a l ih =>
    intro ps ps' hl h
    rw [foldlM_cons] at h
    obtain ⟨p1, h1, h2⟩ := h
    cases hr : cache.reserves.get a with
    | none => rw [hr] at h1; simp at h1
    | some r =>
      rw [hr] at h1
      simp only [pure_ok] at h1
      subst h1
      rw [ih _ _ (fun b hb => hl b (by simp [hb])) h2]
      have hra := hl a (by simp) r hr
      unfold Reserve.store
      congr 1
      funext b
      by_cases hb : b ∈ l
      · simp [hb]
      · by_cases hba : b = a
        · subst hba; simp [hb, hra, hr]
        · simp [hb, hba, hra, upd_ne hba]

/-- storing the cache and the user makes the virtual storage real -/
theorem store_overlay {ps ps' : PoolState} {now : Nat} {cache cache' : Cache} {u : User}
    (ok : CacheOk ps now cache) (he : CacheExt ps now cache cache')
    (h : cache'.storeAll ps = .ok ps') : u.store ps' = overlay ps cache [u] := by
  unfold Cache.storeAll at h
  have := storeAll_ok _ _ _ (fun a _ r hr => (he.new a r hr).1.asset) h
  subst this
  unfold User.store setPositions overlay
  simp only [List.foldl_cons, List.foldl_nil]
  congr 1
  funext a
  rw [he.toStore]
  unfold overlayData
  by_cases ha : a ∈ cache.toStore
  · have hs := (ok.store a).1 ha
    rw [Option.isSome_iff_exists] at hs
    obtain ⟨r, hr⟩ := hs
    simp [ha, hr, he.old a r hr]
  · have hs : cache.reserves.get a = none := by
      have := fun h => ha ((ok.store a).2 h)
      simpa using this
    simp [ha, hs]

/-- many transfers between the same two parties -/
theorem transfers_fold {src dst : Address} :
    ∀ (l : List (Nat × Int)) (w w' : World),
    l.foldlM (fun w kv => transfer w kv.1 src dst kv.2) w = .ok w' →
    w' = { w with tok := w'.tok } ∧ (∀ kv ∈ l, 0 ≤ kv.2) ∧
    (∀ t x, w'.balance t x = w.balance t x + (if x = dst then lsum l t else 0) -
      (if x = src then lsum l t else 0)) ∧
    (∀ t, (w'.tok t).allow = (w.tok t).allow) ∧ (∀ t, (w'.tok t).minted = (w.tok t).minted) := by
  intro l
  induction l with
  | nil =>
    intro w w' h
    rw [foldlM_nil] at h; subst h; simp
  | cons kv l ih =>
    intro w w' h
    rw [foldlM_cons] at h
    obtain ⟨w1, h1, h2⟩ := h
    have r := transfer_res h1
    obtain ⟨i1, i2, i3, i4, i5⟩ := ih _ _ h2
    refine ⟨by rw [i1, r.frame], ?_, fun t x => ?_, fun t => (i4 t).trans (r.allow t),
      fun t => (i5 t).trans (r.minted t)⟩
    · intro x hx
      rcases List.mem_cons.1 hx with rfl | hx
      · exact r.nonneg
      · exact i2 x hx
    · rw [i3, r.bal, lsum_cons]
      unfold moved
      by_cases hk : kv.1 = t
      · simp only [hk, true_and, if_true]
        split <;> split <;> omega
      · simp [hk, Ne.symm hk]

/-- the parts of a successful submit -/
theorem executeSubmit_ok {w w' : World} {p : Address} {auth : List Address}
    {sender spender dst : Address} {reqs : List Request} {pos : Positions}
    (h : executeSubmit w p auth sender spender dst reqs = .ok (pos, w')) :
    (sender ≠ p ∧ spender ≠ p ∧ dst ≠ p) ∧ ∃ cache s cache' w1 ps1,
      Cache.load (w.pools p) = .ok cache ∧
      reqs.foldlM (processRequest p auth)
        ⟨⟨w, cache, User.load (w.pools p) sender⟩, ⟨.empty, .empty⟩, false⟩ = .ok s ∧
      requireUnderMax s.fl.cache.config s.fl.user.pos
        (getPositions (w.pools p) sender).effectiveCount = .ok () ∧
      healthCheck s.fl.w (s.fl.w.pools p) s = .ok cache' ∧
      s.actions.spender.toList.foldlM (fun w kv => transfer w kv.1 spender p kv.2) s.fl.w = .ok w1 ∧
      cache'.storeAll (w1.pools p) = .ok ps1 ∧
      s.actions.pool.toList.foldlM (fun w kv => transfer w kv.1 p dst kv.2)
        (w1.setPool p (s.fl.user.store ps1)) = .ok w' ∧
      pos = s.fl.user.pos := by
  unfold executeSubmit buildActions at h
  simp only [bind_ok, require_ok, pure_ok, Prod.mk.injEq] at h
  obtain ⟨_, h0, cache, hc, s, ⟨s', hs, _, hu, rfl⟩, cache', hh, w1, ht, ps1, hst, w3, hp, rfl, rfl⟩ := h
  push Not at h0
  exact ⟨h0, cache, s', cache', w1, ps1, hc, hs, hu, hh, ht, hst, hp, rfl⟩

/-- stored storage and token balances as a state of the small steps -/
def VS.of (w : World) (p : Address) : VS :=
  ⟨w.pools p, fun a => w.balance a p, fun _ => 0, fun _ => 0⟩

theorem load_ok {ps : PoolState} {now : Nat} {cache : Cache} (h : Cache.load ps = .ok cache) :
    CacheOk ps now cache ∧ cache.reserves = .empty ∧ cache.toStore = [] ∧
    ∃ i, ps.inst = some i ∧ cache.config = i.config := by
  unfold Cache.load PoolState.getInst at h
  simp only [bind_ok, unwrap_ok, pure_ok] at h
  obtain ⟨i, hi, rfl⟩ := h
  exact ⟨⟨by simp, by simp, i, hi, rfl⟩, rfl, rfl, i, hi, rfl⟩

theorem overlay_load {ps : PoolState} {cache : Cache} (h : cache.reserves = .empty) (us : List User) :
    overlay ps cache us = { ps with positions := us.foldl (fun m u => m.set u.addr u.pos) ps.positions } := by
  unfold overlay
  congr 1
  funext a
  simp [overlayData, h]

theorem healthCheck_ext {w : World} {ps : PoolState} {s : SubmitState} {cache' : Cache}
    (hm : ∀ a r, s.fl.cache.reserves.get a = some r → ResMatch ps w.time a r)
    (h : healthCheck w ps s = .ok cache') : CacheExt ps w.time s.fl.cache cache' := by
  unfold healthCheck at h
  simp only [ite_ok, bind_ok, Prod.exists, require_ok, pure_ok] at h
  rcases h with ⟨_, pd, c, hc, _, _, _, _, rfl⟩ | ⟨_, rfl⟩
  · exact calcPositionData_cache hm hc
  · exact .refl hm

theorem submit_micros {w w' : World} {p : Address} {auth : List Address}
    {sender spender dst : Address} {reqs : List Request} {pos : Positions}
    (hpb : p ≠ w.backstopAddr)
    (h : executeSubmit w p auth sender spender dst reqs = .ok (pos, w')) :
    PMicros w.time (Touched (w.pools p) sender reqs) (.of w p) (.of w' p) := by
  obtain ⟨⟨n1, n2, n3⟩, cache, s, cache', w1, ps1, hc, hs, _, hh, ht, hst, hp, _⟩ := executeSubmit_ok h
  obtain ⟨ok0, hr0, _, _⟩ := load_ok (now := w.time) hc
  have k := step_requests (U := Touched (w.pools p) sender reqs) reqs _ _ ok0 (.inl rfl)
    (fun q hq ht => .inr (.inl ⟨q, hq, ht, rfl⟩))
    (fun hq i hi => .inr (.inr ⟨hq, i, hi, rfl⟩)) hpb (Ne.symm n1) hs
  have ht0 : s.fl.w.time = w.time := k.time
  obtain ⟨f1, _, f3, _⟩ := transfers_fold _ _ _ ht
  obtain ⟨g1, _, g3, _⟩ := transfers_fold _ _ _ hp
  have hp1 : w1.pools = s.fl.w.pools := by rw [f1]
  rw [hp1] at hst
  have hext := healthCheck_ext (fun a r hr => by rw [ht0]; exact k.cacheOk.res a r hr) hh
  rw [ht0] at hext
  have hov := store_overlay (u := s.fl.user) k.cacheOk hext hst
  have touch := PMicro.touch (now := w.time) (U := Touched (w.pools p) sender reqs) (.of w p) sender (.inl rfl)
  have e0 : ({ VS.of w p with ps := setPositions (w.pools p) sender (getPositions (w.pools p) sender) } : VS)
      = SubmitState.vs p ⟨⟨w, cache, User.load (w.pools p) sender⟩, ⟨.empty, .empty⟩, false⟩ := by
    unfold SubmitState.vs VS.of
    simp only [overlay_load hr0]
    simp [setPositions, User.load]
  have touch' : PMicro w.time (Touched (w.pools p) sender reqs) (.of w p)
      (SubmitState.vs p ⟨⟨w, cache, User.load (w.pools p) sender⟩, ⟨.empty, .empty⟩, false⟩) := by
    rw [← e0]; exact touch
  refine ((PMicros.one touch').trans k.micros).trans ?_
  · have e : (SubmitState.vs p s) = .of w' p := by
      unfold SubmitState.vs VS.of
      have hpw : w'.pools p = overlay (s.fl.w.pools p) s.fl.cache [s.fl.user] := by
        rw [← hov, g1]; simp
      rw [hpw]
      congr 1
      funext a
      rw [g3, balance_setPool, f3, lsum_toList, lsum_toList]
      simp [Ne.symm n2, Ne.symm n3]
    rw [e]; exact .refl _

end Pool
end Blend
