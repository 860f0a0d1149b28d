import Verif.Spec.Manage
import Verif.Props.Admin
import Verif.Lemmas.BackstopLive
/-
  C68: exactly the management calls that are in order go through, and do exactly what is documented.
-/

namespace Blend
namespace Pool
open Spec

theorem split_table {rl : List Address} : ∀ {l : List EmisMeta} {e e' : SMap Nat} {t t' : Nat},
    setPoolEmisLoop rl l (e, t) = .ok (e', t') → e' = l.foldl (fun m x => m.set (x.resIndex * 2 + x.resType) x.share) e := by
  intro l
  induction l with
  | nil => intro e e' t t' h; simp only [setPoolEmisLoop, pure_ok, Prod.mk.injEq] at h; exact h.1.symm
  | cons m l ih =>
    intro e e' t t' h
    simp only [setPoolEmisLoop, bind_ok, chkU32_ok, chkU64_ok, require_ok] at h
    obtain ⟨_, ⟨_, rfl⟩, _, ⟨_, rfl⟩, _, _, _, ⟨_, rfl⟩, h⟩ := h
    exact ih h

theorem data_live {E : Err → Bool} (hov : E .overflow = false) {w : World} {p : Address} {i : PoolInst} (hi : (w.pools p).inst = some i)
    (hb : i.backstop = w.backstopAddr) (hv : w.backstop.lpVal ≠ none) : NoErr E (backstopData w p) := by
  unfold backstopData PoolState.getInst
  refine NoErr.bind (NoErr.unwrap hi) fun j hj => ?_
  simp only [unwrap_ok, hi, Option.some.injEq] at hj
  subst hj
  refine NoErr.bind (NoErr.req hb) fun _ _ => ?_
  unfold Backstop.loadPoolData
  obtain ⟨v, hv⟩ := Option.ne_none_iff_exists'.1 hv
  have : ∀ x, NoErr E (do
      let __discr ← unwrap w.backstop.lpVal
      match __discr with
        | (blndPer, usdcPer) => do
          let blnd ← fixedMulFloor (w.backstop.getPoolBal p).tokens blndPer SCALAR_7
          let usdc ← fixedMulFloor (w.backstop.getPoolBal p).tokens usdcPer SCALAR_7
          pure (⟨(w.backstop.getPoolBal p).tokens, x, blnd, usdc⟩ : Backstop.PoolData)) := fun x =>
    NoErr.bind (NoErr.unwrap hv) fun _ _ => NoErr.bind (Backstop.mulDiv_live hov (by decide)) fun _ _ =>
      NoErr.bind (Backstop.mulDiv_live hov (by decide)) fun _ _ => NoErr.pure
  simp only
  split
  · rename_i hs
    exact NoErr.bind (NoErr.mulDivCeil (by omega) fun h => by rw [hov] at h; cases h) fun _ _ => this _
  · exact NoErr.bind NoErr.pure fun _ _ => this _

theorem updateTable_unique {met : Prop} {q : Int → Prop} (hq : q 60 → q 30) {s a b : Nat} (h1 : UpdateTable met q s a) (h2 : UpdateTable met q s b) : a = b := by
  cases h1 <;> cases h2 <;> simp_all

theorem nextStatus_live {E : Err → Bool} {s : Nat} {d : BackstopData} (h6 : s ≠ 6) (h4 : s ≠ 4) : NoErr E (nextStatus s d) := by
  unfold nextStatus
  simp only
  rw [if_neg h6, if_neg h4]
  split
  · exact NoErr.pure
  split
  · exact NoErr.pure
  split
  · exact NoErr.pure
  split <;> exact NoErr.pure

end Pool

namespace Props
open Spec Pool
variable {w w' : World} {p : Address} {i : PoolInst} {auth : List Address} {c : Call} {ps : PoolState}

theorem data_some {d : BackstopData} (h : backstopData w p = .ok d) (hi : (w.pools p).inst = some i) :
    i.backstop = w.backstopAddr ∧ w.backstop.lpVal ≠ none := by
  unfold backstopData PoolState.getInst at h
  simp only [bind_ok, unwrap_ok, require_ok] at h
  obtain ⟨j, hj, _, hb, h⟩ := h
  rw [hi] at hj; cases hj
  refine ⟨hb, fun hn => ?_⟩
  unfold Backstop.loadPoolData at h
  simp only [hn] at h
  split at h
  all_goals
    simp only [bind_ok, unwrap_ok, Prod.exists] at h
    obtain ⟨_, _, _, _, h, _⟩ := h
    cases h

/-- nothing is queued for a pool that is not initialized -/
theorem uninit_resInit (hr : Reachable w) {p : Address} (hi : (w.pools p).inst = none) (a : Address) : (w.pools p).resInit a = none := by
  obtain ⟨w0, h0, hs⟩ := hr
  have : Base w ∧ ((w.pools p).inst = none → ∀ a, (w.pools p).resInit a = none) :=
    hs.inv (P := fun w => Base w ∧ ((w.pools p).inst = none → ∀ a, (w.pools p).resInit a = none)) (fun x y op hx hst => by
      refine ⟨(step_res hx.1 hst).base, fun hn a => ?_⟩
      rcases admin_step hx.1 hst p with h | h
      · rw [h.resInit]
        exact hx.2 (by rw [← h.inst]; exact hn) a
      · generalize y.pools p = ps at h hn
        cases h with
        | inst _ _ _ => cases hn
        | queue _ i _ _ hi => simp only [hi] at hn; cases hn
        | cancel _ i _ hi => simp only [hi] at hn; cases hn
        | setReserve auth b q _ hq ht r =>
          rw [r.inst] at hn
          rw [hx.2 hn b] at hq
          cases hq
        | emis _ i l _ hi _ h =>
          unfold setPoolEmissions at h
          simp only [bind_ok, pure_ok, Prod.exists] at h
          obtain ⟨_, _, _, _, _, rfl⟩ := h
          simp only [hi] at hn; cases hn
        | expire b =>
          simp only [upd_apply]
          split
          · rfl
          · exact hx.2 hn a) ⟨.of_genesis h0, fun _ a => by rw [h0.pools]⟩
  exact this.2 hi a

theorem _root_.Blend.Spec.QueuedAtLeast.mono {a b : Int} (h : QueuedAtLeast w p a) (hab : b ≤ a) : QueuedAtLeast w p b := by
  obtain ⟨h1, x, h2, h3⟩ := h
  exact ⟨h1, x, h2, by omega⟩

/-- **C68** A call that manages a pool and goes through is in order, and leaves the storage of the pool as specified and everything
else as it was. -/
theorem C68_only_if (hr : Reachable w) (hc : ManageCall c) (h : step w (.pool p auth c) = .ok w') :
    ∃ i ps, (w.pools p).inst = some i ∧ Managed w p i auth c ps ∧ w' = w.setPool p ps := by
  have h0 := h
  simp only [step, bind_ok, require_ok] at h
  obtain ⟨_, hp, _, ha, h⟩ := h
  rcases hc with ⟨a, rfl⟩ | ⟨r, m, rfl⟩ | ⟨a, k, rfl⟩ | ⟨a, rfl⟩ | ⟨a, rfl⟩ | ⟨l, rfl⟩ | rfl | ⟨s, rfl⟩
  · simp only [call, PoolState.getInst, bind_ok, unwrap_ok, requireAuth_ok, pure_ok] at h
    obtain ⟨i, hi, _, h1, _, h2, rfl⟩ := h
    exact ⟨i, _, hi, .setAdmin h1 h2, rfl⟩
  · simp only [call, bind_ok, pure_ok, executeUpdatePool, require_ok, PoolState.getInst, unwrap_ok] at h
    obtain ⟨_, hadm, _, ⟨_, hr, i, hi, rfl⟩, rfl⟩ := h
    obtain ⟨j, hj, hadm⟩ := requireAdmin_ok hadm
    rw [hi] at hj; cases hj
    exact ⟨i, _, hi, .updatePool hadm (by omega), rfl⟩
  · simp only [call, bind_ok, pure_ok, Pool.queueSetReserve, require_ok, PoolState.getInst, unwrap_ok] at h
    obtain ⟨_, hadm, _, ⟨_, hn, _, hv, i, hi, rfl⟩, rfl⟩ := h
    obtain ⟨j, hj, hadm⟩ := requireAdmin_ok hadm
    rw [hi] at hj; cases hj
    refine ⟨i, _, hi, .queue hadm (by simpa using hn) (validMetadata_iff.1 hv), ?_⟩
    have : (if i.config.status ≠ 6 then w.time + SECONDS_PER_WEEK else w.time) =
        if i.config.status = 6 then w.time else w.time + 7 * 24 * 60 * 60 := by
      by_cases h6 : i.config.status = 6
      · rw [if_neg (not_not.2 h6), if_pos h6]
      · rw [if_pos h6, if_neg h6]; rfl
    rw [this]
  · simp only [call, bind_ok, pure_ok] at h
    obtain ⟨_, hadm, rfl⟩ := h
    obtain ⟨j, hj, hadm⟩ := requireAdmin_ok hadm
    exact ⟨j, _, hj, .cancel hadm, rfl⟩
  · simp only [call, bind_ok, pure_ok, Pool.setReserve, unwrap_ok, require_ok] at h
    obtain ⟨_, ⟨q, hq, _, ht, h⟩, rfl⟩ := h
    obtain ⟨i, hi⟩ : ∃ i, (w.pools p).inst = some i := by
      cases hi : (w.pools p).inst with
      | some i => exact ⟨i, rfl⟩
      | none =>
        exfalso
        exact absurd hq (by rw [uninit_resInit hr hi]; simp)
    unfold initReserve at h
    cases hk : (w.pools p).resConfig a with
    | none =>
      simp only [hk, bind_ok, require_ok, pure_ok] at h
      obtain ⟨_, hl, rfl⟩ := h
      have := (hr.base.cfg p).len
      exact ⟨i, _, hi, .newReserve hq (by omega) hk (by omega), rfl⟩
    | some k =>
      simp only [hk, bind_ok, require_ok, pure_ok, Prod.exists] at h
      obtain ⟨cache, hc, r, cache', hlr, _, hdec, rfl⟩ := h
      obtain ⟨_, he, _, j, hj, hcfg⟩ := load_ok (now := w.time) hc
      change (w.pools p).inst = some j at hj
      rw [hi] at hj; cases hj
      obtain ⟨_, hx | ⟨_, hx⟩⟩ := loadReserve_reserves hlr
      · rw [he] at hx; simp at hx
      · unfold Reserve.load at hx
        simp only [bind_ok, unwrap_ok, pure_ok] at hx
        obtain ⟨k', hk', d, hd, sc, hsc, d', hacc, rfl⟩ := hx
        change (w.pools p).resConfig a = some k' at hk'
        rw [hk] at hk'; cases hk'
        rw [hcfg] at hacc
        have hcur : Current (w.pools p) w.time a d' := ⟨k, d, i, hk, hd, hi, hacc⟩
        by_cases hcv : SameCurve k q.newConfig
        · refine ⟨i, _, hi, .changeReserve hq (by omega) hk hdec hcur d'.irMod (fun _ => rfl) (fun h => absurd hcv h), ?_⟩
          obtain ⟨e1, e2, e3, e4, e5⟩ := hcv
          simp only [e1, e2, e3, e4, e5, ne_eq, not_true_eq_false, or_self, if_false, Reserve.store]
        · refine ⟨i, _, hi, .changeReserve hq (by omega) hk hdec hcur ONE9 (fun h => absurd h hcv) (fun _ => rfl), ?_⟩
          have : k.rBase ≠ q.newConfig.rBase ∨ k.rOne ≠ q.newConfig.rOne ∨ k.rTwo ≠ q.newConfig.rTwo ∨
              k.rThree ≠ q.newConfig.rThree ∨ k.util ≠ q.newConfig.util := by
            by_contra hcon
            push Not at hcon
            exact hcv hcon
          simp only [if_pos this, Reserve.store]
          rfl
  · simp only [call, bind_ok, pure_ok, setPoolEmissions, Prod.exists, require_ok] at h
    obtain ⟨_, hadm, _, ⟨e, t, hl, _, ht, rfl⟩, rfl⟩ := h
    obtain ⟨h1, h2, _⟩ := split_forward hl
    obtain ⟨j, hj, hadm⟩ := requireAdmin_ok hadm
    refine ⟨j, _, hj, .emissions hadm ⟨h1, by omega⟩, ?_⟩
    rw [split_table hl]
    rfl
  · simp only [call, updateStatus, PoolState.getInst, bind_ok, unwrap_ok, pure_ok] at h
    obtain ⟨i, hi, d, hd, s, hs, rfl⟩ := h
    obtain ⟨s', ht, he⟩ := C12_update hr hi h0
    rw [pools_setPool] at he
    have e : s = s' := by
      have := congrArg PoolState.inst he
      simp only [Option.some.injEq, PoolInst.mk.injEq, PoolConfig.mk.injEq, true_and, and_true] at this
      exact this
    subst e
    obtain ⟨d1, d2⟩ := data_some hd hi
    exact ⟨i, _, hi, .updateStatus d1 d2 ht, rfl⟩
  · simp only [call, setStatus, PoolState.getInst, bind_ok, unwrap_ok, pure_ok] at h
    obtain ⟨_, _, i, hi, d, hd, _, hs, rfl⟩ := h
    obtain ⟨hadm, ht, _⟩ := C12_set hr hi h0
    obtain ⟨d1, d2⟩ := data_some hd hi
    exact ⟨i, _, hi, .setStatus hadm d1 d2 ht, rfl⟩

/-- **C68** Conversely, a management call that is in order goes through. Only the two status calls can fail for another reason:
when the value of the backstop's tokens overflows. -/
theorem C68_accepted (hr : Reachable w) (hp : w.poolAddr p = true) (hauth : ∀ a ∈ auth, ¬ w.isProtocol a) (hi : (w.pools p).inst = some i)
    (h : Managed w p i auth c ps) :
    step w (.pool p auth c) = .ok (w.setPool p ps) ∨
    step w (.pool p auth c) = .error .overflow ∧ (c = .updateStatus ∨ ∃ s, c = .setStatus s) := by
  have hadm : ∀ {auth : List Address}, i.admin ∈ auth → requireAdmin (w.pools p) auth = .ok () := by
    intro auth h
    unfold requireAdmin PoolState.getInst
    simp only [bind_ok, unwrap_ok, requireAuth_ok]
    exact ⟨i, hi, h⟩
  cases h with
  | setAdmin h1 h2 =>
    refine .inl ?_
    simp only [step, bind_ok, require_ok, call, PoolState.getInst, unwrap_ok, requireAuth_ok, pure_ok]
    exact ⟨(), hp, (), hauth, i, hi, (), h1, (), h2, rfl⟩
  | updatePool h1 h2 =>
    refine .inl ?_
    simp only [step, bind_ok, require_ok, call, hadm h1, executeUpdatePool, PoolState.getInst, unwrap_ok, pure_ok]
    exact ⟨(), hp, (), hauth, (), trivial, _, ⟨(), by omega, i, hi, rfl⟩, rfl⟩
  | @queue a k h1 h2 h3 =>
    refine .inl ?_
    simp only [step, bind_ok, require_ok, call, hadm h1, Pool.queueSetReserve, PoolState.getInst, unwrap_ok, pure_ok]
    refine ⟨(), hp, (), hauth, (), trivial, _, ⟨(), by rw [h2]; rfl, (), validMetadata_iff.2 h3, i, hi, rfl⟩, ?_⟩
    have : (if i.config.status ≠ 6 then w.time + SECONDS_PER_WEEK else w.time) =
        if i.config.status = 6 then w.time else w.time + 7 * 24 * 60 * 60 := by
      by_cases h6 : i.config.status = 6
      · rw [if_neg (not_not.2 h6), if_pos h6]
      · rw [if_pos h6, if_neg h6]; rfl
    rw [this]
  | cancel h1 =>
    refine .inl ?_
    simp only [step, bind_ok, require_ok, call, hadm h1, pure_ok]
    exact ⟨(), hp, (), hauth, (), trivial, rfl⟩
  | @newReserve a q h1 h2 h3 h4 =>
    refine .inl ?_
    simp only [step, bind_ok, require_ok, call, Pool.setReserve, unwrap_ok, pure_ok]
    refine ⟨(), hp, (), hauth, _, ⟨q, h1, (), by omega, ?_⟩, rfl⟩
    unfold initReserve
    simp only [h3, bind_ok, require_ok, pure_ok]
    exact ⟨(), by omega, rfl⟩
  | @changeReserve a q k d h1 h2 h3 h4 h5 m h6 h7 =>
    refine .inl ?_
    simp only [step, bind_ok, require_ok, call, Pool.setReserve, unwrap_ok, pure_ok]
    refine ⟨(), hp, (), hauth, _, ⟨q, h1, (), by omega, ?_⟩, rfl⟩
    obtain ⟨k', d0, j, hk', hd0, hj, hacc⟩ := h5
    rw [hi] at hj; cases hj
    rw [h3] at hk'; cases hk'
    obtain ⟨sc, hsc⟩ : ∃ sc, pow10 k.decimals = .ok sc := by
      have := (hr.base.cfg p).valid a k h3
      have h1 : (10 : Int) ^ k.decimals ≤ 10 ^ 18 := pow_le_pow_right₀ (by norm_num) this.decimals
      have h0 : (0 : Int) ≤ 10 ^ k.decimals := by positivity
      exact ⟨10 ^ k.decimals, by rw [pow10_ok]; exact ⟨inI h0 (h1.trans (by norm_num)), rfl⟩⟩
    unfold initReserve Cache.load Cache.loadReserve Reserve.load PoolState.getInst
    simp only [h3, bind_ok, require_ok, pure_ok, unwrap_ok, Prod.exists]
    refine ⟨_, ⟨i, hi, rfl⟩, ⟨a, k.index, k.lFactor, k.cFactor, k.maxUtil, sc, d⟩, ⟨i.config, .empty, []⟩, ?_, (), h4, ?_⟩
    · simp only [SMap.get_empty, bind_ok, unwrap_ok, pure_ok, Prod.mk.injEq, Bool.false_eq_true, false_and, if_false]
      exact ⟨_, ⟨k, rfl, d0, hd0, sc, hsc, d, hacc, rfl⟩, rfl, trivial⟩
    · by_cases hcv : SameCurve k q.newConfig
      · rw [h6 hcv]
        obtain ⟨e1, e2, e3, e4, e5⟩ := hcv
        simp only [e1, e2, e3, e4, e5, ne_eq, not_true_eq_false, or_self, if_false, Reserve.store]
      · rw [h7 hcv]
        have : k.rBase ≠ q.newConfig.rBase ∨ k.rOne ≠ q.newConfig.rOne ∨ k.rTwo ≠ q.newConfig.rTwo ∨
            k.rThree ≠ q.newConfig.rThree ∨ k.util ≠ q.newConfig.util := by
          by_contra hcon
          push Not at hcon
          exact hcv hcon
        simp only [if_pos this, Reserve.store]
        rfl
  | @emissions l h1 h2 =>
    refine .inl ?_
    obtain ⟨e', he⟩ := split_backward (hr.base.cfg p).len (e := .empty) (t := 0) h2.1 (by have := h2.2; omega)
    simp only [step, bind_ok, require_ok, call, hadm h1, setPoolEmissions, Prod.exists, pure_ok]
    refine ⟨(), hp, (), hauth, (), trivial, _, ⟨e', _, he, (), by have := h2.2; omega, rfl⟩, ?_⟩
    rw [split_table he]
    rfl
  | @updateStatus s h1 h2 h3 =>
    have hov : Unexpected False .overflow = false := unexpected_overflow
    have key : NoErr (Unexpected False) (step w (.pool p auth .updateStatus)) := by
      unfold step
      refine NoErr.bind (NoErr.req hp) fun _ _ => NoErr.bind (NoErr.req hauth) fun _ _ => ?_
      show NoErr _ (Pool.updateStatus w p)
      unfold Pool.updateStatus PoolState.getInst
      refine NoErr.bind (NoErr.unwrap hi) fun j hj => NoErr.bind (data_live hov hi h1 h2) fun d _ => NoErr.bind ?_ fun _ _ => NoErr.pure
      simp only [unwrap_ok, hi, Option.some.injEq] at hj
      subst hj
      refine nextStatus_live (fun h => ?_) fun h => ?_ <;> rw [h] at h3 <;> cases h3 <;> omega
    cases hs : step w (.pool p auth .updateStatus) with
    | error e =>
      rcases of_unexpected key hs with h | ⟨_, h⟩
      · rw [h]; exact .inr ⟨rfl, .inl rfl⟩
      · exact h.elim
    | ok w' =>
      obtain ⟨j, ps, hj, hm, rfl⟩ := C68_only_if hr (.inr (.inr (.inr (.inr (.inr (.inr (.inl rfl))))))) hs
      rw [hi] at hj; cases hj
      cases hm with
      | @updateStatus s' _ _ h3' =>
        rw [updateTable_unique (fun h => h.mono (by norm_num)) h3 h3']
        exact .inl rfl
  | @setStatus s h0 h1 h2 h3 =>
    have hov : Unexpected False .overflow = false := unexpected_overflow
    have key : NoErr (Unexpected False) (step w (.pool p auth (.setStatus s))) := by
      unfold step
      refine NoErr.bind (NoErr.req hp) fun _ _ => NoErr.bind (NoErr.req hauth) fun _ _ => ?_
      show NoErr _ (requireAdmin (w.pools p) auth >>= fun _ => Pool.setStatus w p s)
      rw [hadm h0]
      show NoErr _ (Pool.setStatus w p s)
      unfold Pool.setStatus PoolState.getInst
      refine NoErr.bind (NoErr.unwrap hi) fun j hj => NoErr.bind (data_live hov hi h1 h2) fun d hd => NoErr.bind ?_ fun _ _ => NoErr.pure
      have hm := met_iff hr hd
      have q75 := queued_iff hd (k := 75) (by norm_num)
      have q50 := queued_iff hd (k := 50) (by norm_num)
      norm_num only at q75 q50
      cases h3 with
      | active a1 a2 => exact NoErr.req (by rw [not_or, ge_iff_le, q50, hm]; exact ⟨a1, a2⟩)
      | adminIce a1 => exact NoErr.req (by rw [ge_iff_le, q75]; exact a1)
      | ice a1 => exact NoErr.req (by rw [ge_iff_le, q75]; exact a1)
      | frozen => exact NoErr.pure
    cases hs : step w (.pool p auth (.setStatus s)) with
    | error e =>
      rcases of_unexpected key hs with h | ⟨_, h⟩
      · rw [h]; exact .inr ⟨rfl, .inr ⟨s, rfl⟩⟩
      · exact h.elim
    | ok w' =>
      obtain ⟨j, ps, hj, hm, rfl⟩ := C68_only_if hr (.inr (.inr (.inr (.inr (.inr (.inr (.inr ⟨s, rfl⟩))))))) hs
      rw [hi] at hj; cases hj
      cases hm
      exact .inl rfl

/-- the hypotheses are met: in the running demo pool the admin queues a steeper curve for XLM, a week later anybody sets it (after
which the reserve has the new curve and a fresh rate modifier), and the status is brought up to date -/
example : ∃ w w' i ps, Reachable w ∧ w.poolAddr Demo.poolA = true ∧ (∀ a ∈ [Demo.dave], ¬ w.isProtocol a) ∧
    (w.pools Demo.poolA).inst = some i ∧ Managed w Demo.poolA i [Demo.dave] (.setReserve Demo.xlmA) ps ∧
    step w (.pool Demo.poolA [Demo.dave] (.setReserve Demo.xlmA)) = .ok w' ∧
    ((w'.pools Demo.poolA).resConfig Demo.xlmA).map (·.rOne) ≠ ((w.pools Demo.poolA).resConfig Demo.xlmA).map (·.rOne) := by
  obtain ⟨w, w', _, hr, hs, h⟩ := Demo.reach_step
    (ops := Demo.setup ++ Demo.trade ++ [.pool Demo.poolA [Demo.adminA] (.queueSetReserve Demo.xlmA { Demo.xlmCfg with rOne := Demo.xlmCfg.rOne + 1 }),
      .ledger 604800 120960])
    (op := .pool Demo.poolA [Demo.dave] (.setReserve Demo.xlmA))
    (f := fun w w' => decide (((w'.pools Demo.poolA).resConfig Demo.xlmA).map (·.rOne) ≠
      ((w.pools Demo.poolA).resConfig Demo.xlmA).map (·.rOne))) (by decide +kernel)
  simp only [decide_eq_true_eq] at h
  have hs' := hs
  simp only [step, bind_ok, require_ok] at hs'
  obtain ⟨_, hp, _, ha, _⟩ := hs'
  obtain ⟨i, ps, hi, hm, _⟩ := C68_only_if hr (.inr (.inr (.inr (.inr (.inl ⟨_, rfl⟩))))) hs
  exact ⟨w, w', i, ps, hr, hp, ha, hi, hm, hs, h⟩

example : ∃ w i ps, Reachable w ∧ (w.pools Demo.poolA).inst = some i ∧ Managed w Demo.poolA i [] .updateStatus ps ∧
    i.config.status = 0 := by
  obtain ⟨w, w', _, hr, hs, h⟩ := Demo.reach_step (ops := Demo.setup ++ Demo.trade) (op := .pool Demo.poolA [] .updateStatus)
    (f := fun w _ => Demo.optAnd (w.pools Demo.poolA).inst fun i => decide (i.config.status = 0)) (by decide +kernel)
  obtain ⟨i, hi, h⟩ := Demo.optAnd_iff.1 h
  obtain ⟨j, ps, hj, hm, _⟩ := C68_only_if hr (.inr (.inr (.inr (.inr (.inr (.inr (.inl rfl))))))) hs
  rw [hi] at hj; cases hj
  exact ⟨w, i, ps, hr, hi, hm, by simpa using h⟩

end Props
end Blend
