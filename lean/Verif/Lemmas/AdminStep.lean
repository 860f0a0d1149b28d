import Verif.Lemmas.InstChange
/-
  All the ways the administrative part of a pool's storage (instance, reserve configurations, queued changes,
  reserve list, emission split) can change.
-/

namespace Blend
open Pool

/-- the effect of `initialize_reserve` -/
structure SetReserveRes (ps : PoolState) (asset : Address) (c : ReserveConfig) (ps' : PoolState) : Prop where
  inst : ps'.inst = ps.inst
  poolEmis : ps'.poolEmis = ps.poolEmis
  resInit : ps'.resInit = upd ps.resInit asset none
  resConfig : ∃ n, ps'.resConfig = upd ps.resConfig asset (some { c with index := n })
  resList : ps'.resList = ps.resList ∨ (ps.resConfig asset = none ∧ ps'.resList = ps.resList ++ [asset])

theorem initReserve_ok {ps ps' : PoolState} {now : Nat} {asset : Address} {c : ReserveConfig}
    (h : initReserve { ps with resInit := upd ps.resInit asset none } now asset c = .ok ps') : SetReserveRes ps asset c ps' := by
  unfold initReserve at h
  split at h
  · simp only [bind_ok, Prod.exists, pure_ok] at h
    obtain ⟨_, _, r, _, _, _, _, rfl⟩ := h
    exact ⟨by simp [Reserve.store], by simp [Reserve.store], by simp [Reserve.store], ⟨r.index, by simp [Reserve.store]⟩,
      .inl (by simp [Reserve.store])⟩
  · rename_i hn
    simp only [bind_ok, pure_ok] at h
    obtain ⟨_, _, rfl⟩ := h
    exact ⟨rfl, rfl, rfl, ⟨_, rfl⟩, .inr ⟨hn, rfl⟩⟩

/-- an administrative change of pool `p` and the operation that made it -/
inductive AdminChange (w : World) (p : Address) : Op → PoolState → Prop
  | inst (op i') : InstChange w p op i' → AdminChange w p op { w.pools p with inst := some i' }
  | queue (auth i a c) : (w.pools p).inst = some i → i.admin ∈ auth → (w.pools p).resInit a = none → validMetadata c = true →
      AdminChange w p (.pool p auth (.queueSetReserve a c)) { w.pools p with
        resInit := upd (w.pools p).resInit a (some ⟨c, if i.config.status ≠ 6 then w.time + 604800 else w.time⟩) }
  | cancel (auth i a) : (w.pools p).inst = some i → i.admin ∈ auth →
      AdminChange w p (.pool p auth (.cancelSetReserve a)) { w.pools p with resInit := upd (w.pools p).resInit a none }
  | setReserve (auth a q ps') : (w.pools p).resInit a = some q → q.unlockTime ≤ w.time →
      SetReserveRes (w.pools p) a q.newConfig ps' → AdminChange w p (.pool p auth (.setReserve a)) ps'
  | emis (auth i l ps') : (w.pools p).inst = some i → i.admin ∈ auth → setPoolEmissions (w.pools p) l = .ok ps' →
      AdminChange w p (.pool p auth (.setEmissionsConfig l)) ps'
  | expire (a) : AdminChange w p (.expireQueued p a) { w.pools p with resInit := upd (w.pools p).resInit a none }

theorem admin_step {w w' : World} {op : Op} (hb : Base w) (h : step w op = .ok w') (p : Address) :
    SameAdmin (w.pools p) (w'.pools p) ∨ AdminChange w p op (w'.pools p) := by
  have fr := step_frame hb h
  by_cases h1 : ∃ auth c, op = .pool p auth c
  · obtain ⟨auth, c, rfl⟩ := h1
    simp only [step, bind_ok, require_ok] at h
    obtain ⟨_, hp, _, ha, h⟩ := h
    by_cases hu : c.isUser = true
    · exact .inl (call_admin (hb.pool_ne hp) hu h)
    · right
      cases c with
      | «initialize» a o r m b l =>
        simp only [call, executeInit, bind_ok, pure_ok, require_ok, requireAuth_ok] at h
        obtain ⟨_, hm, _, ⟨_, hn, _, hr, _, hmx, rfl⟩, rfl⟩ := h
        rw [pools_setPool]
        exact .inst _ _ (.init auth a o r m b l (by simpa using hn) hm (by omega) (by omega))
      | setAdmin a =>
        simp only [call, PoolState.getInst, bind_ok, pure_ok, unwrap_ok, requireAuth_ok] at h
        obtain ⟨i, hi, _, h1, _, h2, rfl⟩ := h
        rw [pools_setPool]
        exact .inst _ _ (.setAdmin auth i a hi h1 h2)
      | updatePool r m =>
        simp only [call, executeUpdatePool, PoolState.getInst, bind_ok, pure_ok, require_ok, unwrap_ok] at h
        obtain ⟨_, hadm, _, ⟨_, hr, i, hi, rfl⟩, rfl⟩ := h
        obtain ⟨j, hj, hadm⟩ := requireAdmin_ok hadm
        rw [hi] at hj; cases hj
        rw [pools_setPool]
        exact .inst _ _ (.update auth i r m hi hadm (by omega))
      | queueSetReserve a c =>
        simp only [call, Pool.queueSetReserve, PoolState.getInst, bind_ok, pure_ok, require_ok, unwrap_ok] at h
        obtain ⟨_, hadm, ps, ⟨_, hn, _, hv, i, hi, rfl⟩, rfl⟩ := h
        obtain ⟨j, hj, hadm⟩ := requireAdmin_ok hadm
        rw [hi] at hj; cases hj
        rw [pools_setPool]
        exact .queue auth i a c hi hadm (by simpa using hn) hv
      | cancelSetReserve a =>
        simp only [call, bind_ok, pure_ok] at h
        obtain ⟨_, hadm, rfl⟩ := h
        obtain ⟨j, hj, hadm⟩ := requireAdmin_ok hadm
        rw [pools_setPool]
        exact .cancel auth j a hj hadm
      | setReserve a =>
        simp only [call, Pool.setReserve, bind_ok, pure_ok, unwrap_ok, require_ok] at h
        obtain ⟨ps, ⟨q, hq, _, hu, hi⟩, rfl⟩ := h
        rw [pools_setPool]
        exact .setReserve auth a q ps hq (by omega) (initReserve_ok hi)
      | updateStatus =>
        simp only [call, updateStatus, PoolState.getInst, bind_ok, pure_ok, unwrap_ok] at h
        obtain ⟨i, hi, d, hd, s, hs, rfl⟩ := h
        rw [pools_setPool]
        exact .inst _ _ (.updateStatus auth i d s hi hd hs)
      | setStatus s =>
        simp only [call, setStatus, PoolState.getInst, bind_ok, pure_ok, unwrap_ok] at h
        obtain ⟨_, hadm, i, hi, d, hd, _, hs, rfl⟩ := h
        obtain ⟨j, hj, hadm⟩ := requireAdmin_ok hadm
        rw [hi] at hj; cases hj
        rw [pools_setPool]
        exact .inst _ _ (.setStatus auth i d s hi hadm hd hs)
      | setEmissionsConfig l =>
        simp only [call, bind_ok, pure_ok] at h
        obtain ⟨_, hadm, ps, hs, rfl⟩ := h
        obtain ⟨j, hj, hadm⟩ := requireAdmin_ok hadm
        rw [pools_setPool]
        exact .emis auth j l ps hj hadm hs
      | submit _ _ _ _ => exact absurd rfl hu
      | badDebt _ => exact absurd rfl hu
      | gulpEmissions => exact absurd rfl hu
      | claim _ _ _ => exact absurd rfl hu
      | newLiquidation _ _ => exact absurd rfl hu
      | newBadDebt => exact absurd rfl hu
      | newInterest _ => exact absurd rfl hu
  · push Not at h1
    by_cases h2 : ∃ auth a s o r n, op = .factory auth (.deploy a s o r n) ∧ w.deployAddr a s = p
    · obtain ⟨auth, a, s, o, r, n, rfl, rfl⟩ := h2
      right
      simp only [step, bind_ok, require_ok] at h
      obtain ⟨_, _, h⟩ := h
      rcases factoryCall_ok h with ⟨m, h, _⟩ | ⟨a', s', o', r', n', m, he, hm, hmt, hr, hn, _, hi, rfl⟩
      · cases h
      · cases he
        show AdminChange w _ _ ((w.setPool _ _).pools _)
        rw [pools_setPool]
        exact .inst _ _ (.deploy auth a s o r n m hi hm rfl hmt hr hn)
    · push Not at h2
      by_cases h3 : ∃ t u, op = .expireAuction p t u
      · obtain ⟨t, u, rfl⟩ := h3
        simp only [step, pure_ok] at h
        subst h; left; rw [pools_setPool]; exact ⟨rfl, rfl, rfl, rfl, rfl⟩
      · by_cases h4 : ∃ a, op = .expireQueued p a
        · obtain ⟨a, rfl⟩ := h4
          simp only [step, pure_ok] at h
          subst h; right; rw [pools_setPool]; exact .expire a
        · push Not at h3 h4
          left
          rw [fr.pools p h1 (fun auth a s o r m e => h2 auth a s o r m e) h3 h4]
          exact .refl _

end Blend
