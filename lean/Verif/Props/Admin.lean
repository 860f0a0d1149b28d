import Verif.Lemmas.AdminStep
import Verif.Lemmas.Threshold
import Verif.Lemmas.EmitterInv
import Verif.Spec.Admin
import Verif.Examples.Demo
/-
  C12, C22, C24, C27: administration of a pool.
-/

namespace Blend
namespace Props
open Spec Pool

theorem _root_.Blend.Spec.IsCeil.unique {v v' x y : Int} (hy : 0 < y) (h : IsCeil v x y) (h' : IsCeil v' x y) : v = v' := by
  obtain ⟨h1, h2⟩ := h
  obtain ⟨h3, h4⟩ := h'
  by_contra hne
  rcases lt_or_gt_of_ne hne with h | h
  · nlinarith [mul_le_mul_of_nonneg_right (show v ≤ v' - 1 by omega) hy.le]
  · nlinarith [mul_le_mul_of_nonneg_right (show v' ≤ v - 1 by omega) hy.le]

theorem backstopData_ok {w : World} {p : Address} {d : BackstopData} (h : backstopData w p = .ok d) :
    Backstop.loadPoolData w p = .ok d := by
  unfold backstopData at h
  simp only [bind_ok] at h
  obtain ⟨_, _, _, _, h⟩ := h
  exact h

theorem queued_iff {w : World} {p : Address} {d : BackstopData} (h : backstopData w p = .ok d) {k : Int} (hk : 0 < k) :
    k * 100000 ≤ d.q4wPct ↔ QueuedAtLeast w p k := by
  have h := backstopData_ok h
  unfold Backstop.loadPoolData at h
  unfold QueuedAtLeast
  by_cases hs : (w.backstop.getPoolBal p).shares > 0
  · simp only [if_pos hs, bind_ok, Prod.exists, pure_ok] at h
    obtain ⟨x, hx, _, _, _, _, _, _, _, rfl⟩ := h
    unfold fixedDivCeil at hx
    have := mulDivCeil_spec hx hs
    have hc : IsCeil x ((w.backstop.getPoolBal p).q4w * ONE7) (w.backstop.getPoolBal p).shares := by
      unfold SCALAR_7 at this
      exact ⟨by linarith [this.2], by linarith [this.1]⟩
    constructor
    · intro h; exact ⟨hs, x, hc, h⟩
    · rintro ⟨_, y, hy, h⟩; rw [hc.unique hs hy]; exact h
  · simp only [if_neg hs, bind_ok, Prod.exists, pure_ok] at h
    obtain ⟨_, rfl, _, _, _, _, _, _, _, rfl⟩ := h
    constructor
    · intro h; simp only at h; omega
    · rintro ⟨h, _⟩; exact absurd h hs

theorem met_iff {w : World} (hr : Reachable w) {p : Address} {d : BackstopData} (h : backstopData w p = .ok d) :
    ¬ backstopThreshold d < SCALAR_7 ↔ BackstopAtLeast w p 1 1 := by
  rw [not_lt]
  have := Backstop.pool_threshold_iff hr.lpOk hr.ball.inv (backstopData_ok h) (n := 10000000) (by norm_num) (by norm_num)
  unfold SCALAR_7
  rw [this]
  unfold BackstopAtLeast
  constructor <;> rintro ⟨b, u, h1, h2⟩ <;> exact ⟨b, u, h1, by linarith⟩

/-- a pool's status is one of the documented seven -/
theorem C12_status_range {w : World} (hr : Reachable w) {p : Address} {i : PoolInst} (hi : (w.pools p).inst = some i) :
    i.config.status ≤ 6 := by
  obtain ⟨w0, h0, hs⟩ := hr
  have : Base w ∧ ∀ i, (w.pools p).inst = some i → i.config.status ≤ 6 :=
    hs.inv (P := fun w => Base w ∧ ∀ i, (w.pools p).inst = some i → i.config.status ≤ 6) (fun a b op ha hst => by
      refine ⟨(step_res ha.1 hst).base, fun i hi => ?_⟩
      rcases inst_step ha.1 hst p with h | ⟨k, hk, hc⟩
      · rw [h] at hi; exact ha.2 i hi
      · rw [hi] at hk; cases hk
        cases hc with
        | init => exact le_refl _
        | deploy => exact le_refl _
        | setAdmin _ j _ h => exact ha.2 j h
        | update _ j _ _ h => exact ha.2 j h
        | updateStatus _ j d s h _ hn =>
          show s ≤ 6
          have := ha.2 j h
          unfold nextStatus at hn
          simp only [bind_ok] at hn
          split_ifs at hn <;> (simp only [pure_ok] at hn; omega)
        | setStatus _ j d s h _ _ hn =>
          show s ≤ 6
          unfold adminStatus at hn
          split at hn <;> first | omega | simp at hn) ⟨.of_genesis h0, fun i hi => by rw [h0.pools] at hi; cases hi⟩
  exact this.2 i hi

/-- **C12.** The permissionless update succeeds only along the documented table, and changes nothing but the status. -/
theorem C12_update {w w' : World} {p : Address} {auth : List Address} {i : PoolInst} (hr : Reachable w)
    (hi : (w.pools p).inst = some i) (h : step w (.pool p auth .updateStatus) = .ok w') :
    ∃ s, UpdateTable (BackstopAtLeast w p 1 1) (QueuedAtLeast w p) i.config.status s ∧
      w'.pools p = { w.pools p with inst := some { i with config := { i.config with status := s } } } := by
  have hle := C12_status_range hr hi
  simp only [step, bind_ok, call, updateStatus, PoolState.getInst, pure_ok, unwrap_ok] at h
  obtain ⟨_, _, _, _, j, hj, d, hd, s, hs, rfl⟩ := h
  rw [hi] at hj; cases hj
  refine ⟨s, ?_, by rw [pools_setPool]⟩
  have hm := met_iff hr hd
  have q75 := queued_iff hd (k := 75) (by norm_num)
  have q60 := queued_iff hd (k := 60) (by norm_num)
  have q50 := queued_iff hd (k := 50) (by norm_num)
  have q30 := queued_iff hd (k := 30) (by norm_num)
  norm_num only at q75 q60 q50 q30
  unfold nextStatus at hs
  simp only [decide_eq_false_iff_not] at hs
  by_cases e6 : i.config.status = 6
  · rw [if_pos e6] at hs; cases hs
  rw [if_neg e6] at hs
  by_cases e4 : i.config.status = 4
  · rw [if_pos e4] at hs; cases hs
  rw [if_neg e4] at hs
  by_cases e2 : i.config.status = 2
  · rw [if_pos e2, pure_ok] at hs
    subst hs
    rw [e2]
    by_cases hq : QueuedAtLeast w p 75
    · rw [if_pos (q75.2 hq)]; exact .adminIce_frozen hq
    · rw [if_neg (mt q75.1 hq)]; exact .adminIce_stays hq
  rw [if_neg e2] at hs
  by_cases e0 : i.config.status = 0
  · rw [if_pos e0, pure_ok] at hs
    subst hs
    rw [e0]
    by_cases hq : ¬ BackstopAtLeast w p 1 1 ∨ QueuedAtLeast w p 50
    · rw [if_pos (hq.imp (mt hm.1) q50.2)]; exact .adminActive_ice hq
    · push Not at hq
      rw [if_neg (not_or.2 ⟨not_not.2 (hm.2 hq.1), mt q50.1 hq.2⟩)]; exact .adminActive_stays hq.1 hq.2
  rw [if_neg e0] at hs
  have ho : i.config.status = 1 ∨ i.config.status = 3 ∨ i.config.status = 5 := by omega
  by_cases h60 : QueuedAtLeast w p 60
  · rw [if_pos (q60.2 h60), pure_ok] at hs; subst hs; exact .frozen ho h60
  rw [if_neg (mt q60.1 h60)] at hs
  by_cases h30 : QueuedAtLeast w p 30 ∨ ¬ BackstopAtLeast w p 1 1
  · rw [if_pos (h30.imp q30.2 (mt hm.1)), pure_ok] at hs; subst hs; exact .ice ho h30.symm h60
  · push Not at h30
    rw [if_neg (not_or.2 ⟨mt q30.1 h30.1, not_not.2 (hm.2 h30.2)⟩), pure_ok] at hs; subst hs; exact .active ho h30.2 h30.1

/-- **C12.** The admin's setter succeeds only with the admin's authorization, only for the documented values under
the documented conditions, and changes nothing but the status. -/
theorem C12_set {w w' : World} {p : Address} {auth : List Address} {i : PoolInst} {s : Nat} (hr : Reachable w)
    (hi : (w.pools p).inst = some i) (h : step w (.pool p auth (.setStatus s)) = .ok w') :
    i.admin ∈ auth ∧ AdminTable (BackstopAtLeast w p 1 1) (QueuedAtLeast w p) s ∧
      w'.pools p = { w.pools p with inst := some { i with config := { i.config with status := s } } } := by
  simp only [step, bind_ok, call, setStatus, PoolState.getInst, pure_ok, unwrap_ok] at h
  obtain ⟨_, _, _, _, _, hadm, j, hj, d, hd, _, hs, rfl⟩ := h
  rw [hi] at hj; cases hj
  obtain ⟨j, hj, hadm⟩ := requireAdmin_ok hadm
  rw [hi] at hj; cases hj
  refine ⟨hadm, ?_, by rw [pools_setPool]⟩
  have hm := met_iff hr hd
  have q75 := queued_iff hd (k := 75) (by norm_num)
  have q50 := queued_iff hd (k := 50) (by norm_num)
  norm_num only at q75 q50
  unfold adminStatus at hs
  split at hs
  · rw [require_ok, not_or, ge_iff_le, q50, hm] at hs
    exact .active hs.1 hs.2
  · rw [require_ok, ge_iff_le, q75] at hs; exact .adminIce hs
  · rw [require_ok, ge_iff_le, q75] at hs; exact .ice hs
  · exact .frozen
  · cases hs

/-- **C12.** Nothing else changes the status of an initialized pool, and a pool in setup (6) or frozen by the admin (4)
is only changed by the admin. -/
theorem C12_only {w w' : World} {op : Op} {p : Address} {i i' : PoolInst} (hr : Reachable w)
    (h : step w op = .ok w') (hi : (w.pools p).inst = some i) (hi' : (w'.pools p).inst = some i')
    (hne : i'.config.status ≠ i.config.status) :
    (∃ auth, op = .pool p auth .updateStatus ∧ i.config.status ≠ 6 ∧ i.config.status ≠ 4) ∨
    ∃ auth, op = .pool p auth (.setStatus i'.config.status) ∧ i.admin ∈ auth := by
  rcases inst_step hr.base h p with h' | ⟨k, hk, hc⟩
  · rw [hi, hi'] at h'; cases h'; exact absurd rfl hne
  · clear h
    rw [hi'] at hk; cases hk
    cases hc with
    | init => rename_i h _ _ _; rw [hi] at h; cases h
    | deploy => rename_i h _ _ _ _ _; rw [hi] at h; cases h
    | setAdmin _ j _ h => rw [hi] at h; cases h; exact absurd rfl hne
    | update _ j _ _ h => rw [hi] at h; cases h; exact absurd rfl hne
    | updateStatus auth j d s hj _ hn =>
      rw [hi] at hj; cases hj
      refine .inl ⟨auth, rfl, ?_, ?_⟩ <;> intro e <;> rw [e] at hn <;> simp [nextStatus] at hn
    | setStatus auth j d s hj ha _ hn =>
      rw [hi] at hj; cases hj
      exact .inr ⟨auth, rfl, ha⟩

/-- **C27.** The administrative entry points succeed only with the authorization of the pool's current admin;
`set_admin` also needs the new admin. -/
theorem C27_admin_auth {w w' : World} {p : Address} {auth : List Address} {c : Call} (h : step w (.pool p auth c) = .ok w')
    (hc : (∃ a, c = .setAdmin a) ∨ (∃ r m, c = .updatePool r m) ∨ (∃ a k, c = .queueSetReserve a k) ∨
      (∃ a, c = .cancelSetReserve a) ∨ (∃ s, c = .setStatus s) ∨ ∃ l, c = .setEmissionsConfig l) :
    ∃ i, (w.pools p).inst = some i ∧ i.admin ∈ auth ∧ ∀ a, c = .setAdmin a → a ∈ auth := by
  simp only [step, bind_ok] at h
  obtain ⟨_, _, _, _, h⟩ := h
  rcases hc with ⟨a, rfl⟩ | ⟨r, m, rfl⟩ | ⟨a, k, rfl⟩ | ⟨a, rfl⟩ | ⟨s, rfl⟩ | ⟨l, rfl⟩
  · simp only [call, PoolState.getInst, bind_ok, unwrap_ok, requireAuth_ok] at h
    obtain ⟨i, hi, _, h1, _, h2, _⟩ := h
    exact ⟨i, hi, h1, fun b hb => by cases hb; exact h2⟩
  all_goals
    simp only [call, bind_ok] at h
    obtain ⟨_, ha, _⟩ := h
    obtain ⟨i, hi, ha⟩ := requireAdmin_ok ha
    exact ⟨i, hi, ha, fun b hb => by cases hb⟩

/-- what the administrative part of a pool's storage is after an operation that changed it -/
theorem admin_or {w w' : World} {op : Op} {p : Address} (hr : Reachable w) (h : step w op = .ok w') :
    SameAdmin (w.pools p) (w'.pools p) ∨ AdminChange w p op (w'.pools p) := admin_step hr.base h p

/-- **C27.** Seen from the effects: whatever operation changes the admin, the take rate, the maximum number of positions, the emission
split or the queue of reserve changes of an initialized pool was authorized by its current admin (or, for the queue,
was the execution or the expiry of the queued change); the oracle, the backstop and BLND never change. -/
theorem C27_admin_effects {w w' : World} {op : Op} {p : Address} {i : PoolInst} (hr : Reachable w)
    (h : step w op = .ok w') (hi : (w.pools p).inst = some i) :
    ∃ i', (w'.pools p).inst = some i' ∧
      (i'.admin ≠ i.admin → ∃ auth, op = .pool p auth (.setAdmin i'.admin) ∧ i.admin ∈ auth ∧ i'.admin ∈ auth) ∧
      (i'.config.bstopRate ≠ i.config.bstopRate ∨ i'.config.maxPositions ≠ i.config.maxPositions →
        ∃ auth, op = .pool p auth (.updatePool i'.config.bstopRate i'.config.maxPositions) ∧ i.admin ∈ auth) ∧
      ((w'.pools p).poolEmis ≠ (w.pools p).poolEmis → ∃ auth l, op = .pool p auth (.setEmissionsConfig l) ∧ i.admin ∈ auth) ∧
      (∀ a q, (w'.pools p).resInit a = some q → (w.pools p).resInit a ≠ some q →
        ∃ auth, op = .pool p auth (.queueSetReserve a q.newConfig) ∧ i.admin ∈ auth) ∧
      (∀ a, (w'.pools p).resInit a = none → (w.pools p).resInit a ≠ none →
        (∃ auth, op = .pool p auth (.cancelSetReserve a) ∧ i.admin ∈ auth) ∨ (∃ auth, op = .pool p auth (.setReserve a)) ∨
        op = .expireQueued p a) ∧
      i'.config.oracle = i.config.oracle ∧ i'.backstop = i.backstop ∧ i'.blnd = i.blnd := by
  rcases admin_or (p := p) hr h with hs | hc
  · refine ⟨i, by rw [hs.inst, hi], fun h => absurd rfl h, fun h => ?_, fun h => absurd hs.poolEmis h, ?_, ?_, rfl, rfl, rfl⟩
    · rcases h with h | h <;> exact absurd rfl h
    · intro a q h1 h2; rw [hs.resInit] at h1; exact absurd h1 h2
    · intro a h1 h2; rw [hs.resInit] at h1; exact absurd h1 h2
  clear h
  generalize w'.pools p = ps' at *
  cases hc with
  | inst op i' hc =>
    refine ⟨i', rfl, ?_, ?_, fun h => absurd rfl h, fun a q h1 h2 => absurd h1 h2, fun a h1 h2 => absurd h1 h2, ?_⟩
    · intro hne
      cases hc with
      | init => rename_i h _ _ _; rw [hi] at h; cases h
      | deploy => rename_i h _ _ _ _ _; rw [hi] at h; cases h
      | setAdmin auth j a h h1 h2 => rw [hi] at h; cases h; exact ⟨auth, rfl, h1, h2⟩
      | update auth j r m h => rw [hi] at h; cases h; exact absurd rfl hne
      | updateStatus auth j d s h => rw [hi] at h; cases h; exact absurd rfl hne
      | setStatus auth j d s h => rw [hi] at h; cases h; exact absurd rfl hne
    · intro hne
      cases hc with
      | init => rename_i h _ _ _; rw [hi] at h; cases h
      | deploy => rename_i h _ _ _ _ _; rw [hi] at h; cases h
      | setAdmin auth j a h h1 h2 => rw [hi] at h; cases h; rcases hne with h | h <;> exact absurd rfl h
      | update auth j r m h h1 => rw [hi] at h; cases h; exact ⟨auth, rfl, h1⟩
      | updateStatus auth j d s h => rw [hi] at h; cases h; rcases hne with h | h <;> exact absurd rfl h
      | setStatus auth j d s h => rw [hi] at h; cases h; rcases hne with h | h <;> exact absurd rfl h
    · have := hc.ext hi
      exact ⟨this.oracle, this.backstop, this.blnd⟩
  | queue auth j a c hj ha hn hv =>
    rw [hi] at hj; cases hj
    refine ⟨i, hi, fun h => absurd rfl h, fun h => ?_, fun h => absurd rfl h, ?_, ?_, rfl, rfl, rfl⟩
    · rcases h with h | h <;> exact absurd rfl h
    · intro b q h1 h2
      simp only [upd] at h1
      split at h1
      · rename_i e; subst e; cases h1; exact ⟨auth, rfl, ha⟩
      · exact absurd h1 h2
    · intro b h1 h2
      simp only [upd] at h1
      split at h1
      · cases h1
      · exact absurd h1 h2
  | cancel auth j a hj ha =>
    rw [hi] at hj; cases hj
    refine ⟨i, hi, fun h => absurd rfl h, fun h => ?_, fun h => absurd rfl h, ?_, ?_, rfl, rfl, rfl⟩
    · rcases h with h | h <;> exact absurd rfl h
    · intro b q h1 h2
      simp only [upd] at h1
      split at h1
      · cases h1
      · exact absurd h1 h2
    · intro b h1 h2
      simp only [upd] at h1
      split at h1
      · rename_i e; subst e; exact .inl ⟨auth, rfl, ha⟩
      · exact absurd h1 h2
  | setReserve auth a q ps' hq hu r =>
    refine ⟨i, by rw [r.inst, hi], fun h => absurd rfl h, fun h => ?_, fun h => absurd r.poolEmis h, ?_, ?_, rfl, rfl, rfl⟩
    · rcases h with h | h <;> exact absurd rfl h
    · intro b q h1 h2
      simp only [r.resInit, upd] at h1
      split at h1
      · cases h1
      · exact absurd h1 h2
    · intro b h1 h2
      simp only [r.resInit, upd] at h1
      split at h1
      · rename_i e; subst e; exact .inr (.inl ⟨auth, rfl⟩)
      · exact absurd h1 h2
  | emis auth j l ps' hj ha hs =>
    rw [hi] at hj; cases hj
    simp only [setPoolEmissions, bind_ok, Prod.exists, pure_ok] at hs
    obtain ⟨_, _, _, _, _, rfl⟩ := hs
    refine ⟨i, hi, fun h => absurd rfl h, fun h => ?_, fun _ => ⟨auth, l, rfl, ha⟩,
      fun a q h1 h2 => absurd h1 h2, fun a h1 h2 => absurd h1 h2, rfl, rfl, rfl⟩
    rcases h with h | h <;> exact absurd rfl h
  | expire a =>
    refine ⟨i, hi, fun h => absurd rfl h, fun h => ?_, fun h => absurd rfl h, ?_, ?_, rfl, rfl, rfl⟩
    · rcases h with h | h <;> exact absurd rfl h
    · intro b q h1 h2
      simp only [upd] at h1
      split at h1
      · cases h1
      · exact absurd h1 h2
    · intro b h1 h2
      simp only [upd] at h1
      split at h1
      · rename_i e; subst e; exact .inr (.inr rfl)
      · exact absurd h1 h2

/-! ### Timelock -/

/-- how the queued change `q` of `asset` got there -/
def QueuedBy (w : World) (p asset : Address) (q : QueuedReserveInit) : Prop :=
  ∃ (a a' : World) (auth : List Address) (i : PoolInst), Reachable a ∧
    step a (.pool p auth (.queueSetReserve asset q.newConfig)) = .ok a' ∧ (a.pools p).inst = some i ∧ i.admin ∈ auth ∧
    History (KeepsQueued p asset) a' w ∧
    q.unlockTime = if i.config.status ≠ 6 then a.time + 604800 else a.time

theorem queuedBy_step {w w' : World} {op : Op} {p asset : Address} (hr : Reachable w) (h : step w op = .ok w')
    (ih : ∀ q, (w.pools p).resInit asset = some q → QueuedBy w p asset q) :
    ∀ q, (w'.pools p).resInit asset = some q → QueuedBy w' p asset q := by
  intro q hq
  have keep : (w.pools p).resInit asset = some q → KeepsQueued p asset op → QueuedBy w' p asset q := by
    intro h1 h2
    obtain ⟨a, a', auth, i, b1, b2, b3, b4, b5, b6⟩ := ih q h1
    exact ⟨a, a', auth, i, b1, b2, b3, b4, .tail b5 h2 h, b6⟩
  by_cases hk : KeepsQueued p asset op
  · by_cases h1 : (w.pools p).resInit asset = some q
    · exact keep h1 hk
    · rcases admin_or (p := p) hr h with hs | hc
      · rw [hs.resInit] at hq; exact absurd hq h1
      · generalize hps : w'.pools p = ps' at *
        cases hc with
        | inst => exact absurd hq h1
        | queue auth i a c hi ha hn hv =>
          simp only [upd] at hq
          split at hq
          · rename_i e; subst e
            cases hq
            exact ⟨w, w', auth, i, hr, h, hi, ha, .refl _, rfl⟩
          · exact absurd hq h1
        | cancel auth i a =>
          simp only [upd] at hq
          split at hq
          · cases hq
          · exact absurd hq h1
        | setReserve auth a q' ps' hq' hu r =>
          simp only [r.resInit, upd] at hq
          split at hq
          · cases hq
          · exact absurd hq h1
        | emis auth j l ps' hj ha hs =>
          simp only [setPoolEmissions, bind_ok, Prod.exists, pure_ok] at hs
          obtain ⟨_, _, _, _, _, rfl⟩ := hs
          exact absurd hq h1
        | expire a =>
          simp only [upd] at hq
          split at hq
          · cases hq
          · exact absurd hq h1
  · exfalso
    unfold KeepsQueued at hk
    push Not at hk
    obtain ⟨auth, hk⟩ := hk
    have hop : op = .pool p auth (.cancelSetReserve asset) ∨ op = .pool p auth (.setReserve asset) ∨ op = .expireQueued p asset := by
      by_cases h1 : op = .pool p auth (.cancelSetReserve asset)
      · exact .inl h1
      · by_cases h2 : op = .pool p auth (.setReserve asset)
        · exact .inr (.inl h2)
        · exact .inr (.inr (hk h1 h2))
    have hn : (w'.pools p).resInit asset = none := by
      rcases hop with rfl | rfl | rfl
      · simp only [step, bind_ok, call, pure_ok] at h
        obtain ⟨_, _, _, _, _, _, rfl⟩ := h
        rw [pools_setPool]; simp [Pool.cancelSetReserve, upd]
      · simp only [step, bind_ok, call, Pool.setReserve, pure_ok] at h
        obtain ⟨_, _, _, _, ps, ⟨q, _, _, _, hi⟩, rfl⟩ := h
        rw [pools_setPool, (initReserve_ok hi).resInit]; simp [upd]
      · simp only [step, pure_ok] at h
        subst h
        rw [pools_setPool]; simp [upd]
    rw [hn] at hq; cases hq

theorem _root_.Blend.Reachable.queuedBy {w : World} (hr : Reachable w) (p asset : Address) :
    ∀ q, (w.pools p).resInit asset = some q → QueuedBy w p asset q := by
  obtain ⟨w0, h0, hs⟩ := hr
  have : Reachable w ∧ ∀ q, (w.pools p).resInit asset = some q → QueuedBy w p asset q :=
    hs.inv (P := fun w => Reachable w ∧ ∀ q, (w.pools p).resInit asset = some q → QueuedBy w p asset q)
      (fun a b op ha hst => ⟨ha.1.step hst, queuedBy_step ha.1 hst ha.2⟩)
      ⟨⟨w0, h0, .refl _⟩, fun s hs => by rw [h0.pools] at hs; cases hs⟩
  exact this.2

/-- **C22.** If an operation adds or changes the configuration of a reserve of a pool, it executes a change that the admin of that
time queued with the very same parameters, that was neither cancelled nor executed nor expired since, and that
was queued at least 7 days before unless the pool was still in setup when it was queued. The queued change is used up. -/
theorem C22_timelock {w w' : World} {op : Op} {p asset : Address} (hr : Reachable w) (h : step w op = .ok w')
    (hne : (w'.pools p).resConfig asset ≠ (w.pools p).resConfig asset) :
    ∃ (auth auth' : List Address) (c : ReserveConfig) (n : Nat) (a a' : World) (i : PoolInst),
      op = .pool p auth (.setReserve asset) ∧ (w'.pools p).resConfig asset = some { c with index := n } ∧
      Reachable a ∧ step a (.pool p auth' (.queueSetReserve asset c)) = .ok a' ∧ (a.pools p).inst = some i ∧ i.admin ∈ auth' ∧
      History (KeepsQueued p asset) a' w ∧ (i.config.status ≠ 6 → a.time + 7 * 24 * 60 * 60 ≤ w.time) ∧
      (w'.pools p).resInit asset = none := by
  rcases admin_or (p := p) hr h with hs | hc
  · exact absurd (by rw [hs.resConfig]) hne
  generalize hps : w'.pools p = ps' at *
  cases hc with
  | inst => exact absurd rfl hne
  | queue => exact absurd rfl hne
  | cancel => exact absurd rfl hne
  | setReserve auth a q ps' hq hu r =>
    obtain ⟨n, hn⟩ := r.resConfig
    have : a = asset := by
      by_contra hc
      rw [hn] at hne
      exact hne (by simp [upd, Ne.symm hc])
    subst this
    obtain ⟨b, b', auth', i, b1, b2, b3, b4, b5, b6⟩ := hr.queuedBy p a q hq
    refine ⟨auth, auth', q.newConfig, n, b, b', i, rfl, by rw [hn]; simp [upd], b1, b2, b3, b4, b5, fun hs => ?_, by rw [r.resInit]; simp [upd]⟩
    rw [if_pos hs] at b6
    omega
  | emis auth j l ps' hj ha hs =>
    simp only [setPoolEmissions, bind_ok, Prod.exists, pure_ok] at hs
    obtain ⟨_, _, _, _, _, rfl⟩ := hs
    exact absurd rfl hne
  | expire => exact absurd rfl hne

/-! ### Emission split -/

theorem split_forward {rl : List Address} : ∀ {l : List EmisMeta} {e e' : SMap Nat} {t t' : Nat},
    setPoolEmisLoop rl l (e, t) = .ok (e', t') → (∀ m ∈ l, m.resType ≤ 1 ∧ m.resIndex < rl.length) ∧
      t' = t + (l.map (·.share)).sum ∧ e'.sum (fun _ v => (v : Int)) ≤ e.sum (fun _ v => (v : Int)) + (l.map (·.share)).sum ∧
      ∀ k v, e'.get k = some v → e.get k = some v ∨ k < 2 * rl.length := by
  intro l
  induction l with
  | nil =>
    intro e e' t t' h
    simp only [setPoolEmisLoop, pure_ok, Prod.mk.injEq] at h
    obtain ⟨rfl, rfl⟩ := h
    exact ⟨by simp, by simp, by simp, fun k v h => .inl h⟩
  | cons m l ih =>
    intro e e' t t' h
    simp only [setPoolEmisLoop, bind_ok, chkU32_ok, chkU64_ok, require_ok, not_or] at h
    obtain ⟨_, ⟨_, rfl⟩, _, ⟨_, rfl⟩, _, ⟨h1, h2⟩, _, ⟨_, rfl⟩, h⟩ := h
    obtain ⟨i1, i2, i3, i4⟩ := ih h
    have hlt : m.resIndex < rl.length := by
      by_contra hc
      exact h2 (by simp; omega)
    refine ⟨?_, ?_, ?_, ?_⟩
    · intro x hx
      rcases List.mem_cons.1 hx with rfl | hx
      · exact ⟨by omega, hlt⟩
      · exact i1 x hx
    · simp only [List.map_cons, List.sum_cons]; omega
    · rw [SMap.sum_set] at i3
      simp only [List.map_cons, List.sum_cons, Nat.cast_add]
      have : (0 : Int) ≤ ((e.get (m.resIndex * 2 + m.resType)).map (fun v : Nat => (v : Int))).getD 0 := by
        cases e.get (m.resIndex * 2 + m.resType) <;> simp
      linarith
    · intro k v hk
      rcases i4 k v hk with h | h
      · rw [SMap.get_set] at h
        split at h
        · right; omega
        · exact .inl h
      · exact .inr h

theorem split_backward {rl : List Address} (hrl : rl.length ≤ 32) : ∀ {l : List EmisMeta} {e : SMap Nat} {t : Nat},
    (∀ m ∈ l, m.resType ≤ 1 ∧ m.resIndex < rl.length) → t + (l.map (·.share)).sum ≤ 10000000 →
    ∃ e', setPoolEmisLoop rl l (e, t) = .ok (e', t + (l.map (·.share)).sum) := by
  intro l
  induction l with
  | nil => intro e t _ _; exact ⟨e, rfl⟩
  | cons m l ih =>
    intro e t hv hs
    simp only [List.map_cons, List.sum_cons] at hs ⊢
    obtain ⟨h1, h2⟩ := hv m (by simp)
    obtain ⟨e', he⟩ := ih (e := e.set (m.resIndex * 2 + m.resType) m.share) (t := t + m.share)
      (fun x hx => hv x (by simp [hx])) (by omega)
    refine ⟨e', ?_⟩
    simp only [setPoolEmisLoop, bind_ok, chkU32_ok, chkU64_ok, require_ok, not_or]
    refine ⟨_, ⟨by unfold InU32; omega, rfl⟩, _, ⟨by unfold InU32; omega, rfl⟩, (), ⟨by omega, ?_⟩, _, ⟨by unfold InU64; omega, rfl⟩, ?_⟩
    · rw [List.getElem?_eq_getElem h2]; simp
    · rw [he]; congr 2; omega

/-- **C24.** Setting the emission split succeeds exactly for the admin of an initialized pool and a valid split. -/
theorem C24_accepts {w : World} {p : Address} {auth : List Address} {l : List EmisMeta} (hr : Reachable w) (hp : w.poolAddr p = true)
    (ha : ∀ a ∈ auth, ¬ w.isProtocol a) :
    (∃ w', step w (.pool p auth (.setEmissionsConfig l)) = .ok w') ↔
      (∃ i, (w.pools p).inst = some i ∧ i.admin ∈ auth) ∧ ValidSplit (w.pools p).resList.length l := by
  have hlen : (w.pools p).resList.length ≤ 32 := (hr.base.cfg p).len
  constructor
  · rintro ⟨w', h⟩
    simp only [step, bind_ok, call, setPoolEmissions, Prod.exists, require_ok] at h
    obtain ⟨_, _, _, _, _, hadm, _, ⟨e, t, hl, _, ht, _⟩, _⟩ := h
    obtain ⟨h1, h2, _⟩ := split_forward hl
    exact ⟨requireAdmin_ok hadm, h1, by omega⟩
  · rintro ⟨⟨i, hi, hadm⟩, hv, hs⟩
    obtain ⟨e', he⟩ := split_backward hlen (e := .empty) (t := 0) hv (by omega)
    refine ⟨w.setPool p { w.pools p with poolEmis := e' }, ?_⟩
    simp only [step, bind_ok, call, setPoolEmissions, Prod.exists, require_ok]
    refine ⟨(), hp, (), ha, (), ?_, _, ⟨e', _, he, (), by omega, rfl⟩, rfl⟩
    unfold requireAdmin PoolState.getInst
    simp only [bind_ok, unwrap_ok, requireAuth_ok]
    exact ⟨i, hi, hadm⟩

/-- **C24.** In every reachable state the stored split of every pool adds up to at most 100 percent and only has entries for
listed reserves (entry `2 * index` for the liabilities, `2 * index + 1` for the supply). -/
theorem C24_split_bounded {w : World} (hr : Reachable w) (p : Address) :
    (w.pools p).poolEmis.sum (fun _ v => (v : Int)) ≤ 10000000 ∧
      ∀ k v, (w.pools p).poolEmis.get k = some v → k < 2 * (w.pools p).resList.length := by
  obtain ⟨w0, h0, hs⟩ := hr
  have : Base w ∧ (w.pools p).poolEmis.sum (fun _ v => (v : Int)) ≤ 10000000 ∧
      ∀ k v, (w.pools p).poolEmis.get k = some v → k < 2 * (w.pools p).resList.length :=
    hs.inv (P := fun w => Base w ∧ (w.pools p).poolEmis.sum (fun _ v => (v : Int)) ≤ 10000000 ∧
      ∀ k v, (w.pools p).poolEmis.get k = some v → k < 2 * (w.pools p).resList.length) (fun a b op ha hst => by
      refine ⟨(step_res ha.1 hst).base, ?_⟩
      obtain ⟨hb, h1, h2⟩ := ha
      rcases admin_step hb hst p with hs | hc
      · rw [hs.poolEmis, hs.resList]; exact ⟨h1, h2⟩
      clear hst
      generalize b.pools p = ps' at *
      cases hc with
      | inst => exact ⟨h1, h2⟩
      | queue => exact ⟨h1, h2⟩
      | cancel => exact ⟨h1, h2⟩
      | setReserve auth a q ps' hq hu r =>
        rw [r.poolEmis]
        refine ⟨h1, fun k v hk => ?_⟩
        have := h2 k v hk
        rcases r.resList with e | ⟨_, e⟩ <;> rw [e]
        · exact this
        · rw [List.length_append]; omega
      | emis auth j l ps' hj ha hs =>
        simp only [setPoolEmissions, bind_ok, Prod.exists, pure_ok, require_ok] at hs
        obtain ⟨e, t, hl, _, ht, rfl⟩ := hs
        obtain ⟨_, f2, f3, f4⟩ := split_forward hl
        refine ⟨?_, fun k v hk => ?_⟩
        · simp only [SMap.sum_empty] at f3
          show e.sum _ ≤ _
          have : (((l.map (·.share)).sum : Nat) : Int) ≤ 10000000 := by exact_mod_cast (by omega : (l.map (·.share)).sum ≤ 10000000)
          linarith
        · rcases f4 k v hk with h | h
          · simp at h
          · exact h
      | expire => exact ⟨h1, h2⟩) ⟨.of_genesis h0, by rw [h0.pools]; simp, by rw [h0.pools]; simp⟩
  exact this.2

/-! ### Initialization -/

/-- **C28.** An initialized pool cannot be initialized again, neither directly nor through the factory; its oracle, backstop
and BLND token never change. -/
theorem C28_pool {w : World} {p : Address} {i : PoolInst} (hr : Reachable w) (hi : (w.pools p).inst = some i) :
    (∀ auth a o r m b l w', step w (.pool p auth (.initialize a o r m b l)) ≠ .ok w') ∧
    (∀ auth a s o r m w', w.deployAddr a s = p → step w (.factory auth (.deploy a s o r m)) ≠ .ok w') ∧
    ∀ w', Steps w w' → ∃ i', (w'.pools p).inst = some i' ∧ i'.config.oracle = i.config.oracle ∧ i'.backstop = i.backstop ∧
      i'.blnd = i.blnd := by
  refine ⟨?_, ?_, ?_⟩
  · intro auth a o r m b l w' h
    simp only [step, bind_ok, call, executeInit, require_ok] at h
    obtain ⟨_, _, _, _, _, _, _, ⟨_, hn, _⟩, _⟩ := h
    rw [hi] at hn; cases hn
  · intro auth a s o r m w' e h
    simp only [step, bind_ok] at h
    obtain ⟨_, _, h⟩ := h
    rcases factoryCall_ok h with ⟨m, h, _⟩ | ⟨a', s', o', r', n', m, he, hm, hmt, hr, hn, _, hn', _⟩
    · cases h
    · cases he
      rw [e, hi] at hn'; cases hn'
  · intro w' hs
    obtain ⟨i', h1, h2, h3, h4⟩ := inst_steps hr.base hs hi
    exact ⟨i', h1, h4, h2, h3⟩

/-- **C28.** An initialized backstop cannot be initialized again and its addresses never change. -/
theorem C28_backstop {w : World} {i : BackstopInst} (hr : Reachable w) (hi : w.backstop.inst = some i) :
    (∀ auth t e u b f l w', step w (.backstop auth (.initialize t e u b f l)) ≠ .ok w') ∧
    ∀ w', Steps w w' → w'.backstop.inst = some i := by
  refine ⟨?_, fun w' hs => Backstop.inst_keep hr hs hi⟩
  intro auth t e u b f l w' h
  simp only [step, bind_ok, backstopCall, Backstop.init, require_ok] at h
  obtain ⟨_, _, _, hn, _⟩ := h
  rw [hi] at hn; cases hn

/-- **C28.** An initialized emitter cannot be initialized again and its BLND token never changes (its backstop changes as in
C41). -/
theorem C28_emitter {w : World} {i : EmitterInst} (hr : Reachable w) (hi : w.emitter.inst = some i) :
    (∀ auth b s t w', step w (.emitter auth (.initialize b s t)) ≠ .ok w') ∧
    ∀ w', Steps w w' → ∃ i', w'.emitter.inst = some i' ∧ i'.blnd = i.blnd := by
  refine ⟨?_, fun w' hs => ?_⟩
  · intro auth b s t w' h
    simp only [step, bind_ok, emitterCall, Emitter.init, require_ok] at h
    obtain ⟨_, _, _, hn, _⟩ := h
    rw [hi] at hn; cases hn
  · have : Base w' ∧ ∃ i', w'.emitter.inst = some i' ∧ i'.blnd = i.blnd :=
      hs.inv (P := fun w => Base w ∧ ∃ i', w.emitter.inst = some i' ∧ i'.blnd = i.blnd) (fun a b op ha hst => by
        obtain ⟨hb, j, hj, hjb⟩ := ha
        refine ⟨(step_res hb hst).base, ?_⟩
        rcases emitter_step hb hst with ⟨h1, _⟩ | hc
        · exact ⟨j, by rw [h1]; exact hj, hjb⟩
        · cases hc with
          | init auth b s t w' hn => rw [hj] at hn; cases hn
          | distribute auth k last w' hk hl hle r =>
            have e1 := congrArg World.emitter r.frame
            simp only at e1
            exact ⟨j, by rw [e1]; exact hj, hjb⟩
          | queue _ _ _ _ _ _ _ _ e => subst e; exact ⟨j, hj, hjb⟩
          | cancel _ _ _ _ _ _ _ e => subst e; exact ⟨j, hj, hjb⟩
          | drop op k l' w1 w' hk hop hd hsum hf e => subst e; exact ⟨j, hj, hjb⟩
          | swap auth k s last w1 w' hk hs hu hlt hl hle r e =>
            subst e
            rw [hj] at hk; cases hk
            exact ⟨_, rfl, hjb⟩) ⟨hr.base, i, hi, rfl⟩
    exact this.2

/-- **C28.** An initialized factory cannot be initialized again and its parameters never change. -/
theorem C28_factory {w : World} {m : PoolInitMeta} (hr : Reachable w) (hm : w.factory.meta? = some m) :
    (∀ auth m' w', step w (.factory auth (.initialize m')) ≠ .ok w') ∧
    ∀ w', Steps w w' → w'.factory.meta? = some m := by
  refine ⟨?_, fun w' hs => ?_⟩
  · intro auth m' w' h
    simp only [step, bind_ok, factoryCall, Factory.init, require_ok] at h
    obtain ⟨_, _, _, hn, _⟩ := h
    rw [hm] at hn; cases hn
  · have : Base w' ∧ w'.factory.meta? = some m :=
      hs.inv (P := fun w => Base w ∧ w.factory.meta? = some m) (fun a b op ha hst => by
        obtain ⟨hb, hj⟩ := ha
        refine ⟨(step_res hb hst).base, ?_⟩
        by_cases ho : ∃ auth c, op = .factory auth c
        · obtain ⟨auth, c, rfl⟩ := ho
          simp only [step, bind_ok] at hst
          obtain ⟨_, _, hst⟩ := hst
          rcases factoryCall_ok hst with ⟨m, h, hn, _⟩ | ⟨a', s', o', r', n', m, he, _, _, _, _, _, _, rfl⟩
          · rw [hj] at hn; cases hn
          · exact hj
        · push Not at ho
          rw [(step_frame hb hst).factory ho]; exact hj) ⟨hr.base, hm⟩
    exact this.2

/-! ### The hypotheses are met -/

section Examples
open Demo

/-- carol queues 60 percent of the only backstop deposit: the active pool goes on ice, then (after more is queued) freezes,
and the admin freezes it for good -/
def statusOps : List Op := setup ++ [.backstop [carol] (.queueWithdrawal carol poolA 260000000000)]

/-- `C12_update`, `C12_only`: a status update from admin active (0) to on ice (3) by anybody -/
example : ∃ w w', Reachable w ∧ step w (.pool poolA [] .updateStatus) = .ok w' ∧
    (((w.pools poolA).inst.map (·.config.status)) = some 0 ∧ ((w'.pools poolA).inst.map (·.config.status)) = some 3) := by
  obtain ⟨w, w', _, hr, hs, h⟩ := Demo.reach_step (ops := statusOps) (op := .pool poolA [] .updateStatus)
    (f := fun w w' => decide (((w.pools poolA).inst.map (·.config.status)) = some 0 ∧
      ((w'.pools poolA).inst.map (·.config.status)) = some 3)) (by decide +kernel)
  exact ⟨w, w', hr, hs, of_decide_eq_true h⟩

/-- `C12_update`: frozen (5) after more than 60 percent is queued, and active (1) again after dequeueing -/
example : ∃ w w', Reachable w ∧ run w [.pool poolA [] .updateStatus,
      .backstop [carol] (.queueWithdrawal carol poolA 100000000000), .pool poolA [] .updateStatus] = .ok w' ∧
    (((w'.pools poolA).inst.map (·.config.status)) = some 5) := by
  obtain ⟨w, w', hr, hs, h⟩ := Demo.reach_runs (ops := statusOps) (ops' := [.pool poolA [] .updateStatus,
      .backstop [carol] (.queueWithdrawal carol poolA 100000000000), .pool poolA [] .updateStatus])
    (f := fun w w' => decide ((w'.pools poolA).inst.map (·.config.status) = some 5)) (by decide +kernel)
  exact ⟨w, w', hr, hs, of_decide_eq_true h⟩

/-- `C12_set`: the admin freezes the pool; nobody else can thaw it, the admin cannot set it active while too much is queued -/
example : ∃ w w', Reachable w ∧ step w (.pool poolA [adminA] (.setStatus 4)) = .ok w' ∧
    (((w'.pools poolA).inst.map (·.config.status)) = some 4 ∧ errIs (step w' (.pool poolA [] .updateStatus)) (.pool .statusNotAllowed) = true ∧
      errIs (step w' (.pool poolA [adminA] (.setStatus 0))) (.pool .statusNotAllowed) = true ∧
      errIs (step w' (.pool poolA [bob] (.setStatus 3))) .unauthorized = true) := by
  obtain ⟨w, w', _, hr, hs, h⟩ := Demo.reach_step (ops := statusOps) (op := .pool poolA [adminA] (.setStatus 4))
    (f := fun w w' => decide (((w'.pools poolA).inst.map (·.config.status)) = some 4 ∧
      errIs (step w' (.pool poolA [] .updateStatus)) (.pool .statusNotAllowed) = true ∧
      errIs (step w' (.pool poolA [adminA] (.setStatus 0))) (.pool .statusNotAllowed) = true ∧
      errIs (step w' (.pool poolA [bob] (.setStatus 3))) .unauthorized = true)) (by decide +kernel)
  exact ⟨w, w', hr, hs, of_decide_eq_true h⟩

/-- `C22_timelock`, `C27_admin_effects`: a change of a reserve of an active pool, executed after 7 days -/
example : ∃ w w', Reachable w ∧ step w (.pool poolA [] (.setReserve usdcA)) = .ok w' ∧
    (((w'.pools poolA).resConfig usdcA).map (·.cFactor) = some 8000000 ∧ ((w.pools poolA).resConfig usdcA).map (·.cFactor) = some 9000000) := by
  obtain ⟨w, w', _, hr, hs, h⟩ := Demo.reach_step
    (ops := setup ++ trade ++ [.pool poolA [adminA] (.queueSetReserve usdcA { usdcCfg with cFactor := 8000000 }), .ledger 604800 120960])
    (op := .pool poolA [] (.setReserve usdcA))
    (f := fun w w' => decide (((w'.pools poolA).resConfig usdcA).map (·.cFactor) = some 8000000 ∧
      ((w.pools poolA).resConfig usdcA).map (·.cFactor) = some 9000000)) (by decide +kernel)
  exact ⟨w, w', hr, hs, of_decide_eq_true h⟩

/-- `C22_timelock`: one second earlier it reverts -/
example : ∃ w, Reachable w ∧ (errIs (step w (.pool poolA [] (.setReserve usdcA))) (.pool .initNotUnlocked) = true) := by
  obtain ⟨w, _, hr, h⟩ := Demo.reach
    (ops := setup ++ trade ++ [.pool poolA [adminA] (.queueSetReserve usdcA { usdcCfg with cFactor := 8000000 }), .ledger 604799 120960])
    (f := fun w => errIs (step w (.pool poolA [] (.setReserve usdcA))) (.pool .initNotUnlocked)) (by decide +kernel)
  exact ⟨w, hr, h⟩

/-- `C24`, `C27`, `C28`: an initialized pool with a split of 90 percent, whose admin is then replaced -/
example : ∃ w w', Reachable w ∧ step w (.pool poolA [adminA, bob] (.setAdmin bob)) = .ok w' ∧
    ((w.pools poolA).poolEmis.toList = [(0, 4000000), (3, 5000000)] ∧ w.poolAddr poolA = true ∧
     ((w'.pools poolA).inst.map (·.admin)) = some bob ∧ w.backstop.inst.isSome = true ∧ w.emitter.inst.isSome = true ∧
     w.factory.meta?.isSome = true ∧
     errIs (step w (.pool poolA [adminA] (.setEmissionsConfig [⟨0, 0, 4000000⟩, ⟨1, 1, 6000001⟩]))) (.pool .badRequest) = true ∧
     errIs (step w (.pool poolA [adminA] (.setEmissionsConfig [⟨2, 0, 4000000⟩]))) (.pool .badRequest) = true) := by
  obtain ⟨w, w', _, hr, hs, h⟩ := Demo.reach_step (ops := setup) (op := .pool poolA [adminA, bob] (.setAdmin bob))
    (f := fun w w' => decide ((w.pools poolA).poolEmis.toList = [(0, 4000000), (3, 5000000)] ∧ w.poolAddr poolA = true ∧
     ((w'.pools poolA).inst.map (·.admin)) = some bob ∧ w.backstop.inst.isSome = true ∧ w.emitter.inst.isSome = true ∧
     w.factory.meta?.isSome = true ∧
     errIs (step w (.pool poolA [adminA] (.setEmissionsConfig [⟨0, 0, 4000000⟩, ⟨1, 1, 6000001⟩]))) (.pool .badRequest) = true ∧
     errIs (step w (.pool poolA [adminA] (.setEmissionsConfig [⟨2, 0, 4000000⟩]))) (.pool .badRequest) = true)) (by decide +kernel)
  exact ⟨w, w', hr, hs, of_decide_eq_true h⟩

end Examples

end Props
end Blend
