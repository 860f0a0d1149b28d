import Verif.Lemmas.CfgFrame
import Verif.Lemmas.Frames
/-
  All the ways the instance storage of a pool (admin, backstop, BLND, configuration) can change.
-/

namespace Blend
open Pool

/-- the new value of the instance storage of pool `p` and the operation that wrote it -/
inductive InstChange (w : World) (p : Address) : Op → PoolInst → Prop
  | init (auth a o r m b l) : (w.pools p).inst = none → a ∈ auth → r < 10000000 → 2 ≤ m →
      InstChange w p (.pool p auth (.initialize a o r m b l)) ⟨a, b, l, ⟨o, r, 6, m⟩⟩
  | deploy (auth a s o r n m) : (w.pools p).inst = none → a ∈ auth → p = w.deployAddr a s →
      w.factory.meta? = some m → r < 10000000 → 2 ≤ n →
      InstChange w p (.factory auth (.deploy a s o r n)) ⟨a, m.backstop, m.blnd, ⟨o, r, 6, n⟩⟩
  | setAdmin (auth i a) : (w.pools p).inst = some i → i.admin ∈ auth → a ∈ auth →
      InstChange w p (.pool p auth (.setAdmin a)) { i with admin := a }
  | update (auth i r m) : (w.pools p).inst = some i → i.admin ∈ auth → r < 10000000 →
      InstChange w p (.pool p auth (.updatePool r m)) { i with config := { i.config with bstopRate := r, maxPositions := m } }
  | updateStatus (auth i d s) : (w.pools p).inst = some i → backstopData w p = .ok d → nextStatus i.config.status d = .ok s →
      InstChange w p (.pool p auth .updateStatus) { i with config := { i.config with status := s } }
  | setStatus (auth i d s) : (w.pools p).inst = some i → i.admin ∈ auth → backstopData w p = .ok d →
      adminStatus s d = .ok () →
      InstChange w p (.pool p auth (.setStatus s)) { i with config := { i.config with status := s } }

theorem requireAdmin_ok {ps : PoolState} {auth : List Address} (h : requireAdmin ps auth = .ok ()) :
    ∃ i, ps.inst = some i ∧ i.admin ∈ auth := by
  unfold requireAdmin PoolState.getInst at h
  simp only [bind_ok, unwrap_ok, requireAuth_ok] at h
  exact h

theorem inst_step {w w' : World} {op : Op} (hb : Base w) (h : step w op = .ok w') (p : Address) :
    (w'.pools p).inst = (w.pools p).inst ∨ ∃ i', (w'.pools p).inst = some i' ∧ InstChange w p op i' := by
  have fr := step_frame hb h
  by_cases h1 : ∃ auth c, op = .pool p auth c
  · obtain ⟨auth, c, rfl⟩ := h1
    simp only [step, bind_ok, require_ok] at h
    obtain ⟨_, hp, _, ha, h⟩ := h
    by_cases hu : c.isUser = true
    · exact .inl (call_admin (hb.pool_ne hp) hu h).inst
    · cases c with
      | «initialize» a o r m b l =>
        right
        simp only [call, executeInit, bind_ok, pure_ok, require_ok, requireAuth_ok] at h
        obtain ⟨_, hm, _, ⟨_, hn, _, hr, _, hmx, rfl⟩, rfl⟩ := h
        exact ⟨_, by rw [pools_setPool], .init auth a o r m b l (by simpa using hn) hm (by omega) (by omega)⟩
      | setAdmin a =>
        right
        simp only [call, PoolState.getInst, bind_ok, pure_ok, unwrap_ok, requireAuth_ok] at h
        obtain ⟨i, hi, _, h1, _, h2, rfl⟩ := h
        exact ⟨_, by rw [pools_setPool], .setAdmin auth i a hi h1 h2⟩
      | updatePool r m =>
        right
        simp only [call, executeUpdatePool, PoolState.getInst, bind_ok, pure_ok, require_ok, unwrap_ok] at h
        obtain ⟨_, hadm, _, ⟨_, hr, i, hi, rfl⟩, rfl⟩ := h
        obtain ⟨j, hj, hadm⟩ := requireAdmin_ok hadm
        rw [hi] at hj; cases hj
        exact ⟨_, by rw [pools_setPool], .update auth i r m hi hadm (by omega)⟩
      | queueSetReserve a c =>
        left
        simp only [call, Pool.queueSetReserve, bind_ok, pure_ok] at h
        obtain ⟨_, _, ps, ⟨_, _, _, _, _, _, rfl⟩, rfl⟩ := h
        rw [pools_setPool]
      | cancelSetReserve a =>
        left
        simp only [call, bind_ok, pure_ok] at h
        obtain ⟨_, _, rfl⟩ := h
        rw [pools_setPool]; rfl
      | setReserve a =>
        left
        simp only [call, Pool.setReserve, bind_ok, pure_ok] at h
        obtain ⟨ps, ⟨q, _, _, _, hi⟩, rfl⟩ := h
        rw [pools_setPool]
        unfold initReserve at hi
        split at hi
        · simp only [bind_ok, Prod.exists, pure_ok] at hi
          obtain ⟨_, _, _, _, _, _, _, rfl⟩ := hi
          simp [Reserve.store]
        · simp only [bind_ok, pure_ok] at hi
          obtain ⟨_, _, rfl⟩ := hi
          rfl
      | updateStatus =>
        right
        simp only [call, updateStatus, PoolState.getInst, bind_ok, pure_ok, unwrap_ok] at h
        obtain ⟨i, hi, d, hd, s, hs, rfl⟩ := h
        exact ⟨_, by rw [pools_setPool], .updateStatus auth i d s hi hd hs⟩
      | setStatus s =>
        right
        simp only [call, setStatus, PoolState.getInst, bind_ok, pure_ok, unwrap_ok] at h
        obtain ⟨_, hadm, i, hi, d, hd, _, hs, rfl⟩ := h
        obtain ⟨j, hj, hadm⟩ := requireAdmin_ok hadm
        rw [hi] at hj; cases hj
        exact ⟨_, by rw [pools_setPool], .setStatus auth i d s hi hadm hd hs⟩
      | setEmissionsConfig l =>
        left
        simp only [call, setPoolEmissions, bind_ok, pure_ok, Prod.exists] at h
        obtain ⟨_, _, ps, ⟨_, _, _, _, _, rfl⟩, rfl⟩ := h
        rw [pools_setPool]
      | submit _ _ _ _ => exact absurd rfl hu
      | badDebt _ => exact absurd rfl hu
      | gulpEmissions => exact absurd rfl hu
      | claim _ _ _ => exact absurd rfl hu
      | newLiquidation _ _ => exact absurd rfl hu
      | newBadDebt => exact absurd rfl hu
      | newInterest _ => exact absurd rfl hu
  · push Not at h1
    by_cases h2 : ∃ auth a s o r n, op = .factory auth (.deploy a s o r n) ∧ w.deployAddr a s = p
    · obtain ⟨auth, a, s, o, r, n, rfl, rfl⟩ := h2
      right
      simp only [step, bind_ok, require_ok] at h
      obtain ⟨_, _, h⟩ := h
      rcases factoryCall_ok h with ⟨m, h, _⟩ | ⟨a', s', o', r', n', m, he, hm, hmt, hr, hn, _, hi, rfl⟩
      · cases h
      · cases he
        exact ⟨_, by show ((w.setPool _ _).pools _).inst = _; rw [pools_setPool], .deploy auth a s o r n m hi hm rfl hmt hr hn⟩
    · push Not at h2
      left
      by_cases h3 : ∃ t u, op = .expireAuction p t u
      · obtain ⟨t, u, rfl⟩ := h3
        simp only [step, pure_ok] at h
        subst h; rw [pools_setPool]; rfl
      · by_cases h4 : ∃ a, op = .expireQueued p a
        · obtain ⟨a, rfl⟩ := h4
          simp only [step, pure_ok] at h
          subst h; rw [pools_setPool]
        · push Not at h3 h4
          rw [fr.pools p h1 (fun auth a s o r m e => h2 auth a s o r m e) h3 h4]

/-- what never changes in a pool's instance storage -/
structure InstExt (i i' : PoolInst) : Prop where
  backstop : i'.backstop = i.backstop
  blnd : i'.blnd = i.blnd
  oracle : i'.config.oracle = i.config.oracle

theorem InstChange.ext {w : World} {p : Address} {op : Op} {i i' : PoolInst} (h : InstChange w p op i')
    (hi : (w.pools p).inst = some i) : InstExt i i' := by
  cases h with
  | init => rename_i h _ _ _; rw [hi] at h; cases h
  | deploy => rename_i h _ _ _ _ _; rw [hi] at h; cases h
  | setAdmin _ j _ h => rw [hi] at h; cases h; exact ⟨rfl, rfl, rfl⟩
  | update _ j _ _ h => rw [hi] at h; cases h; exact ⟨rfl, rfl, rfl⟩
  | updateStatus _ j _ _ h => rw [hi] at h; cases h; exact ⟨rfl, rfl, rfl⟩
  | setStatus _ j _ _ h => rw [hi] at h; cases h; exact ⟨rfl, rfl, rfl⟩

theorem inst_steps {w w' : World} (hb : Base w) (hs : Steps w w') {p : Address} {i : PoolInst}
    (hi : (w.pools p).inst = some i) : ∃ i', (w'.pools p).inst = some i' ∧ InstExt i i' := by
  induction hs with
  | refl => exact ⟨i, hi, rfl, rfl, rfl⟩
  | tail hab hst ih =>
    obtain ⟨op, hst⟩ := hst
    obtain ⟨j, hj, he⟩ := ih
    rcases inst_step (hab.base hb) hst p with h | ⟨k, hk, hc⟩
    · exact ⟨j, by rw [h]; exact hj, he⟩
    · have := hc.ext hj
      exact ⟨k, hk, this.backstop.trans he.backstop, this.blnd.trans he.blnd, this.oracle.trans he.oracle⟩

/-! ### Emitter -/

/-- all changes of the emitter's storage -/
inductive EmitterChange (w : World) : Op → World → Prop
  | init (auth b s t w') : w.emitter.inst = none →
      w' = { w with emitter := { w.emitter with
        inst := some ⟨b, s, t⟩
        lastDistro := upd w.emitter.lastDistro s (some w.time) } } →
      EmitterChange w (.emitter auth (.initialize b s t)) w'
  | distribute (auth i last w') : w.emitter.inst = some i → w.emitter.lastDistro i.backstop = some last → last ≤ w.time →
      MintRes { w with emitter := { w.emitter with lastDistro := upd w.emitter.lastDistro i.backstop (some w.time) } }
        i.blnd i.backstop (((w.time - last : Nat) : Int) * SCALAR_7) w' →
      EmitterChange w (.emitter auth .distribute) w'
  | queue (auth i b t w') : w.emitter.inst = some i → w.emitter.swap = none →
      w.balance i.backstopToken i.backstop < w.balance i.backstopToken b →
      w' = { w with emitter := { w.emitter with swap := some ⟨b, t, w.time + 31 * 24 * 60 * 60⟩ } } →
      EmitterChange w (.emitter auth (.queueSwap b t)) w'
  | cancel (auth i s w') : w.emitter.inst = some i → w.emitter.swap = some s →
      w.balance i.backstopToken s.newBackstop ≤ w.balance i.backstopToken i.backstop →
      w' = { w with emitter := { w.emitter with swap := none } } →
      EmitterChange w (.emitter auth .cancelSwap) w'
  | swap (auth i s last w1 w') : w.emitter.inst = some i → w.emitter.swap = some s → s.unlockTime ≤ w.time →
      w.balance i.backstopToken i.backstop < w.balance i.backstopToken s.newBackstop →
      w.emitter.lastDistro i.backstop = some last → last ≤ w.time →
      MintRes { w with emitter := { w.emitter with lastDistro := upd w.emitter.lastDistro i.backstop (some w.time) } }
        i.blnd i.backstop (((w.time - last : Nat) : Int) * SCALAR_7) w1 →
      w' = { w1 with emitter := { w.emitter with
        swap := none
        inst := some { i with backstop := s.newBackstop, backstopToken := s.newBackstopToken }
        lastDistro := upd (upd w.emitter.lastDistro i.backstop (some w.time)) s.newBackstop (some w.time) } } →
      EmitterChange w (.emitter auth .swapBackstop) w'
  | drop (op i l w1 w') : w.emitter.inst = some i →
      (∃ auth, op = .emitter auth (.drop l) ∧ i.backstop ∈ auth ∨
        op = .backstop auth .drop ∧ w.backstop.dropList = some l ∧ i.backstop = w.backstopAddr) →
      w.emitter.dropped i.backstop = false →
      (l.map (·.2)).sum ≤ 50000000 * 10000000 →
      l.foldlM (fun w x => mint w i.blnd x.1 x.2) w = .ok w1 →
      w' = { w1 with emitter := { w.emitter with dropped := upd w.emitter.dropped i.backstop true } } →
      EmitterChange w op w'

theorem sum_fold {l : List (Address × Int)} : ∀ {a r : Int},
    l.foldlM (fun acc x => chk (acc + x.2)) a = .ok r → r = a + (l.map (·.2)).sum := by
  induction l with
  | nil => intro a r h; rw [foldlM_nil] at h; simp [h]
  | cons x l ih =>
    intro a r h
    rw [foldlM_cons] at h
    obtain ⟨y, h1, h2⟩ := h
    rw [chk_ok] at h1
    rw [ih h2, h1.2]
    simp only [List.map_cons, List.sum_cons]
    omega

theorem Emitter.drop_full {w w' : World} {auth : List Address} {l : List (Address × Int)}
    (h : Emitter.drop w auth l = .ok w') : ∃ i w1, w.emitter.inst = some i ∧ i.backstop ∈ auth ∧
      w.emitter.dropped i.backstop = false ∧ (l.map (·.2)).sum ≤ 50000000 * 10000000 ∧
      l.foldlM (fun w x => mint w i.blnd x.1 x.2) w = .ok w1 ∧
      w' = { w1 with emitter := { w.emitter with dropped := upd w.emitter.dropped i.backstop true } } := by
  obtain ⟨_, _, _, _, i, w1, h1, h2, h3, h4, h5⟩ := Emitter.drop_ok (L := fun _ => True) (A := fun _ => True) h
  refine ⟨i, w1, h1, h2, h3, ?_, h4, h5⟩
  unfold Emitter.drop Emitter.inst at h
  simp only [bind_ok, unwrap_ok, require_ok] at h
  obtain ⟨_, _, _, _, _, _, tot, ht, _, hle, _⟩ := h
  have := sum_fold ht
  unfold SCALAR_7 at hle
  omega

theorem emitter_step {w w' : World} {op : Op} (hb : Base w) (h : step w op = .ok w') :
    (w'.emitter = w.emitter ∧ (∀ auth c, op ≠ .emitter auth c) ∧ ∀ auth, op ≠ .backstop auth .drop) ∨ EmitterChange w op w' := by
  have fr := step_frame hb h
  by_cases h1 : ∃ auth c, op = .emitter auth c
  · right
    obtain ⟨auth, c, rfl⟩ := h1
    simp only [step, bind_ok, require_ok] at h
    obtain ⟨_, _, h⟩ := h
    cases c with
    | «initialize» b s t =>
      simp only [emitterCall, Emitter.init, bind_ok, require_ok, pure_ok] at h
      obtain ⟨_, hn, rfl⟩ := h
      exact .init auth b s t _ hn rfl
    | distribute =>
      simp only [emitterCall, Emitter.distribute, Emitter.inst, bind_ok, pure_ok, Prod.exists, unwrap_ok] at h
      obtain ⟨n, w1, ⟨i, hi, h⟩, rfl⟩ := h
      obtain ⟨last, j, h1, h2, h3, rfl, h5⟩ := Emitter.distribute_ok h
      rw [hi] at h3; cases h3
      exact .distribute auth i last _ hi h1 h2 h5
    | queueSwap b t =>
      simp only [emitterCall, Emitter.queueSwap, Emitter.inst, Emitter.newBackstopLarger, bind_ok, pure_ok, require_ok,
        unwrap_ok, decide_eq_true_eq] at h
      obtain ⟨_, hs, i, hi, _, hl, rfl⟩ := h
      exact .queue auth i b t _ hi hs hl rfl
    | cancelSwap =>
      simp only [emitterCall, Emitter.cancelSwap, Emitter.queuedSwap, Emitter.inst, Emitter.newBackstopLarger, bind_ok,
        pure_ok, require_ok, unwrap_ok, decide_eq_true_eq] at h
      obtain ⟨s, hs, i, hi, _, hl, rfl⟩ := h
      cases hsw : w.emitter.swap with
      | none => rw [hsw] at hs; simp at hs
      | some s' =>
        rw [hsw] at hs; simp at hs; subst hs
        exact .cancel auth i s' _ hi hsw (by omega) rfl
    | swapBackstop =>
      simp only [emitterCall, Emitter.swapBackstop, Emitter.queuedSwap, Emitter.inst, Emitter.newBackstopLarger, bind_ok,
        pure_ok, require_ok, unwrap_ok, decide_eq_true_eq, Prod.exists] at h
      obtain ⟨s, hs, _, hu, i, hi, _, hl, n, w1, h, rfl⟩ := h
      obtain ⟨last, j, h1, h2, h3, rfl, h5⟩ := Emitter.distribute_ok h
      rw [hi] at h3; cases h3
      cases hsw : w.emitter.swap with
      | none => rw [hsw] at hs; simp at hs
      | some s' =>
        rw [hsw] at hs; simp at hs; subst hs
        refine .swap auth i s' last w1 _ hi hsw (by omega) hl h1 h2 h5 ?_
        have hf := h5.frame
        have e1 := congrArg World.emitter hf
        have e2 := congrArg World.time hf
        simp only at e1 e2
        rw [e1, e2]
    | drop l =>
      obtain ⟨i, w1, h1, h2, h3, h4, h5, h6⟩ := Emitter.drop_full h
      exact .drop _ i l w1 _ h1 ⟨auth, .inl ⟨rfl, h2⟩⟩ h3 h4 h5 h6
  · push Not at h1
    by_cases h2 : ∃ auth, op = .backstop auth .drop
    · right
      obtain ⟨auth, rfl⟩ := h2
      simp only [step, bind_ok, require_ok, backstopCall, Backstop.drop, unwrap_ok] at h
      obtain ⟨_, _, bi, _, _, _, l, hl, h⟩ := h
      obtain ⟨i, w1, h1, h2, h3, h4, h5, h6⟩ := Emitter.drop_full h
      exact .drop _ i l w1 _ h1 ⟨auth, .inr ⟨rfl, hl, by simpa using h2⟩⟩ h3 h4 h5 h6
    · push Not at h2
      exact .inl ⟨fr.emitter h1 h2, h1, h2⟩

end Blend
