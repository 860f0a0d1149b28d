import Verif.Lemmas.AuctionStep
import Verif.Lemmas.Frames
/-
  Emissions are claimed only by claims.
-/

namespace Blend
namespace Pool

theorem call_claimed {w w' : World} {p : Address} {auth : List Address} {c : Call} (hpb : p ≠ w.backstopAddr)
    (hc : ∀ s l d, c ≠ .claim s l d) (h : call w p auth c = .ok w') : (w'.pools p).claimed = (w.pools p).claimed := by
  cases c with
  | submit sender spender dst reqs =>
    have key : ∀ {pos}, executeSubmit w p auth sender spender dst reqs = .ok (pos, w') →
        (w'.pools p).claimed = (w.pools p).claimed := by
      intro pos h
      obtain ⟨s, d, _, hs, _, _, e⟩ := submit_flight hpb h
      rw [e]
      exact hs.claimed
    simp only [call, bind_ok, pure_ok, requireAuth_ok, ite_ok, Prod.exists] at h
    obtain ⟨_, hs, ⟨_, _, _, pos, w1, h, rfl⟩ | ⟨_, pos, w1, h, rfl⟩⟩ := h
    · exact key h
    · exact key h
  | badDebt u =>
    simp only [call, transferBadDebt, PoolState.getInst, bind_ok, unwrap_ok, require_ok, Prod.exists, pure_ok] at h
    obtain ⟨i, hi, _, hne, _, hc, cache, hcl, ps1, cache', bs', u', hl, ps2, hst, rfl⟩ := h
    obtain ⟨a1, _⟩ := badDebtLoop_same _ _ _ _ _ _ _ _ _ hl
    have hd := storeAll_data hst
    rw [pools_setPool, hd]
    exact a1.claimed
  | «initialize» a o r m b l =>
    simp only [call, executeInit, bind_ok, pure_ok] at h
    obtain ⟨_, _, _, ⟨_, _, _, _, _, _, rfl⟩, rfl⟩ := h
    rw [pools_setPool]
  | setAdmin a =>
    simp only [call, bind_ok, pure_ok] at h
    obtain ⟨_, _, _, _, _, _, rfl⟩ := h
    rw [pools_setPool]
  | updatePool r m =>
    simp only [call, executeUpdatePool, bind_ok, pure_ok] at h
    obtain ⟨_, _, _, ⟨_, _, _, _, rfl⟩, rfl⟩ := h
    rw [pools_setPool]
  | queueSetReserve a c =>
    simp only [call, queueSetReserve, bind_ok, pure_ok] at h
    obtain ⟨_, _, _, ⟨_, _, _, _, _, _, rfl⟩, rfl⟩ := h
    rw [pools_setPool]
  | cancelSetReserve a =>
    simp only [call, cancelSetReserve, bind_ok, pure_ok] at h
    obtain ⟨_, _, rfl⟩ := h
    rw [pools_setPool]
  | setReserve a =>
    simp only [call, bind_ok, pure_ok] at h
    obtain ⟨ps, hs, rfl⟩ := h
    rw [pools_setPool]
    obtain ⟨q, _, _, h | h⟩ := setReserve_ok hs
    · obtain ⟨_, _, _, _, _, _, _, _, _, rfl⟩ := h; rfl
    · obtain ⟨_, _, rfl⟩ := h; rfl
  | updateStatus =>
    simp only [call, updateStatus, bind_ok, pure_ok] at h
    obtain ⟨_, _, _, _, _, _, rfl⟩ := h
    rw [pools_setPool]
  | setStatus s =>
    simp only [call, setStatus, bind_ok, pure_ok] at h
    obtain ⟨_, _, _, _, _, _, _, _, rfl⟩ := h
    rw [pools_setPool]
  | gulpEmissions =>
    simp only [call, gulpEmissions, doGulp, PoolState.getInst, bind_ok, unwrap_ok, require_ok, Prod.exists, pure_ok,
      Prod.mk.injEq] at h
    obtain ⟨n, w2, ⟨i, hi, _, _, n1, w1, hg, ps, ⟨_, hn, hl⟩, rfl, rfl⟩, rfl⟩ := h
    obtain ⟨_, _, _, bi, _, rfl⟩ := gulpPoolAuth_frame hg
    rw [pools_setPool]
    refine foldlM_inv (fun q : PoolState => q.claimed = (w.pools p).claimed) (fun b d kv _ hb hs => ?_) rfl hl
    simp only [bind_ok, unwrap_ok] at hs
    obtain ⟨a, _, m, _, hs⟩ := hs
    obtain ⟨ed, ec, rfl⟩ := updateReserveEmisConfig_other hs
    exact hb
  | setEmissionsConfig l =>
    simp only [call, setPoolEmissions, bind_ok, pure_ok, Prod.exists] at h
    obtain ⟨_, _, _, ⟨_, _, _, _, _, rfl⟩, rfl⟩ := h
    rw [pools_setPool]
  | claim sender ids dst => exact absurd rfl (hc sender ids dst)
  | newLiquidation u n =>
    simp only [call, createLiquidation, createUserLiq, bind_ok, require_ok, Prod.exists, pure_ok, ite_ok, Prod.mk.injEq] at h
    obtain ⟨i, hi, _, _, a, ps, h, rfl⟩ := h
    rw [pools_setPool]
    show ps.claimed = _
    obtain ⟨_, _, _, _, blk, _, cache, hc, pd, cache1, hpd, _, _, pct, wd, sh, _, lot, _, bid, _,
      ⟨_, _, _, rfl, rfl⟩ | ⟨_, c, hrm, nd, _, _, _, _, _, _, _, _, _, _, rfl, rfl⟩⟩ := h
    · rfl
    · exact (rmPositions_same hrm).1.claimed
  | newBadDebt =>
    simp only [call, createBadDebt, bind_ok, pure_ok] at h
    obtain ⟨i, hi, a, _, rfl⟩ := h
    rw [pools_setPool]; rfl
  | newInterest l =>
    simp only [call, createInterest, bind_ok, pure_ok] at h
    obtain ⟨i, hi, a, _, rfl⟩ := h
    rw [pools_setPool]; rfl

theorem claimLoop_received {now : Nat} {u : Address} {pos : Positions} : ∀ {ids : List Nat} {n n' : Int} {ps ps' : PoolState},
    claimLoop now u pos ids (n, ps) = .ok (n', ps') → ps'.received = ps.received := by
  intro ids
  induction ids with
  | nil => intro n n' ps ps' h; simp only [claimLoop, pure_ok, Prod.mk.injEq] at h; obtain ⟨rfl, rfl⟩ := h; rfl
  | cons id ids ih =>
    intro n n' ps ps' h
    simp only [claimLoop] at h
    cases ha : ps.resList[id / 2]? with
    | none => rw [ha] at h; cases h
    | some asset =>
      rw [ha] at h
      simp only [bind_ok, Prod.exists, ite_ok] at h
      obtain ⟨c, _, d, _, ⟨_, bal, _, sc, _, amt, ps1, hu, t, _, h⟩ | ⟨_, bal, _, sc, _, amt, ps1, hu, t, _, h⟩⟩ := h
      · rw [ih h]
        exact (updateEmissions_other hu).1.received
      · rw [ih h]
        exact (updateEmissions_other hu).1.received

theorem call_received {w w' : World} {p : Address} {auth : List Address} {c : Call} (hpb : p ≠ w.backstopAddr)
    (hc : c ≠ .gulpEmissions) (h : call w p auth c = .ok w') : (w'.pools p).received = (w.pools p).received := by
  cases c with
  | submit sender spender dst reqs =>
    have key : ∀ {pos}, executeSubmit w p auth sender spender dst reqs = .ok (pos, w') →
        (w'.pools p).received = (w.pools p).received := by
      intro pos h
      obtain ⟨s, d, _, hs, _, _, e⟩ := submit_flight hpb h
      rw [e]
      exact hs.received
    simp only [call, bind_ok, pure_ok, requireAuth_ok, ite_ok, Prod.exists] at h
    obtain ⟨_, hs, ⟨_, _, _, pos, w1, h, rfl⟩ | ⟨_, pos, w1, h, rfl⟩⟩ := h
    · exact key h
    · exact key h
  | badDebt u =>
    simp only [call, transferBadDebt, PoolState.getInst, bind_ok, unwrap_ok, require_ok, Prod.exists, pure_ok] at h
    obtain ⟨i, hi, _, hne, _, hc, cache, hcl, ps1, cache', bs', u', hl, ps2, hst, rfl⟩ := h
    obtain ⟨a1, _⟩ := badDebtLoop_same _ _ _ _ _ _ _ _ _ hl
    have hd := storeAll_data hst
    rw [pools_setPool, hd]
    exact a1.received
  | «initialize» a o r m b l =>
    simp only [call, executeInit, bind_ok, pure_ok] at h
    obtain ⟨_, _, _, ⟨_, _, _, _, _, _, rfl⟩, rfl⟩ := h
    rw [pools_setPool]
  | setAdmin a =>
    simp only [call, bind_ok, pure_ok] at h
    obtain ⟨_, _, _, _, _, _, rfl⟩ := h
    rw [pools_setPool]
  | updatePool r m =>
    simp only [call, executeUpdatePool, bind_ok, pure_ok] at h
    obtain ⟨_, _, _, ⟨_, _, _, _, rfl⟩, rfl⟩ := h
    rw [pools_setPool]
  | queueSetReserve a c =>
    simp only [call, queueSetReserve, bind_ok, pure_ok] at h
    obtain ⟨_, _, _, ⟨_, _, _, _, _, _, rfl⟩, rfl⟩ := h
    rw [pools_setPool]
  | cancelSetReserve a =>
    simp only [call, cancelSetReserve, bind_ok, pure_ok] at h
    obtain ⟨_, _, rfl⟩ := h
    rw [pools_setPool]
  | setReserve a =>
    simp only [call, bind_ok, pure_ok] at h
    obtain ⟨ps, hs, rfl⟩ := h
    rw [pools_setPool]
    obtain ⟨q, _, _, h | h⟩ := setReserve_ok hs
    · obtain ⟨_, _, _, _, _, _, _, _, _, rfl⟩ := h; rfl
    · obtain ⟨_, _, rfl⟩ := h; rfl
  | updateStatus =>
    simp only [call, updateStatus, bind_ok, pure_ok] at h
    obtain ⟨_, _, _, _, _, _, rfl⟩ := h
    rw [pools_setPool]
  | setStatus s =>
    simp only [call, setStatus, bind_ok, pure_ok] at h
    obtain ⟨_, _, _, _, _, _, _, _, rfl⟩ := h
    rw [pools_setPool]
  | gulpEmissions => exact absurd rfl hc
  | setEmissionsConfig l =>
    simp only [call, setPoolEmissions, bind_ok, pure_ok, Prod.exists] at h
    obtain ⟨_, _, _, ⟨_, _, _, _, _, rfl⟩, rfl⟩ := h
    rw [pools_setPool]
  | claim sender ids dst =>
    simp only [call, executeClaim, bind_ok, pure_ok, Prod.exists, ite_ok, Prod.mk.injEq] at h
    obtain ⟨_, _, n, w1, ⟨n1, ps1, hl, h⟩, rfl⟩ := h
    have e := claimLoop_received hl
    rcases h with ⟨hpos, i, hi, w2, ht, _, rfl⟩ | ⟨_, _, rfl⟩
    · rw [(transferFrom_res ht).frame]
      show ((w.setPool _ _).pools _).received = _
      rw [pools_setPool, e]
    · rw [pools_setPool, e]
  | newLiquidation u n =>
    simp only [call, createLiquidation, createUserLiq, bind_ok, require_ok, Prod.exists, pure_ok, ite_ok, Prod.mk.injEq] at h
    obtain ⟨i, hi, _, _, a, ps, h, rfl⟩ := h
    rw [pools_setPool]
    show ps.received = _
    obtain ⟨_, _, _, _, blk, _, cache, hc, pd, cache1, hpd, _, _, pct, wd, sh, _, lot, _, bid, _,
      ⟨_, _, _, rfl, rfl⟩ | ⟨_, c, hrm, nd, _, _, _, _, _, _, _, _, _, _, rfl, rfl⟩⟩ := h
    · rfl
    · exact (rmPositions_same hrm).1.received
  | newBadDebt =>
    simp only [call, createBadDebt, bind_ok, pure_ok] at h
    obtain ⟨i, hi, a, _, rfl⟩ := h
    rw [pools_setPool]; rfl
  | newInterest l =>
    simp only [call, createInterest, bind_ok, pure_ok] at h
    obtain ⟨i, hi, a, _, rfl⟩ := h
    rw [pools_setPool]; rfl

end Pool

open Pool

theorem step_claimed {w w' : World} {op : Op} (hr : Reachable w) (h : step w op = .ok w') {p : Address}
    (hop : ∀ auth s l d, op ≠ .pool p auth (.claim s l d)) : (w'.pools p).claimed = (w.pools p).claimed := by
  have hf := step_frame hr.base h
  cases op with
  | pool q auth c =>
    by_cases e : q = p
    · subst e
      simp only [step, bind_ok, require_ok] at h
      obtain ⟨_, hp, _, ha, h⟩ := h
      exact call_claimed (hr.base.pool_ne hp) (fun s l d e => hop auth s l d (by rw [e])) h
    · rw [hf.pools p (by simp [e]) (by simp) (by simp) (by simp)]
  | factory auth c =>
    simp only [step, bind_ok] at h
    obtain ⟨_, _, h⟩ := h
    rcases factoryCall_ok h with ⟨m, rfl, _, rfl⟩ | ⟨x, s, o, r, n, m, rfl, _, _, _, _, _, _, rfl⟩
    · rfl
    · by_cases hp : p = w.deployAddr x s
      · subst hp
        show ((w.setPool _ _).pools _).claimed = _
        rw [pools_setPool]
      · show ((w.setPool _ _).pools _).claimed = _
        rw [pools_setPool_ne _ _ _ _ hp]
  | expireAuction q t u =>
    cases h
    by_cases hp : p = q
    · subst hp; rw [pools_setPool]; rfl
    · rw [pools_setPool_ne _ _ _ _ hp]
  | expireQueued q a =>
    cases h
    by_cases hp : p = q
    · subst hp; rw [pools_setPool]
    · rw [pools_setPool_ne _ _ _ _ hp]
  | _ => rw [hf.pools p (by simp) (by simp) (by simp) (by simp)]

theorem step_received {w w' : World} {op : Op} (hr : Reachable w) (h : step w op = .ok w') {p : Address}
    (hop : ∀ auth, op ≠ .pool p auth .gulpEmissions) : (w'.pools p).received = (w.pools p).received := by
  have hf := step_frame hr.base h
  cases op with
  | pool q auth c =>
    by_cases e : q = p
    · subst e
      simp only [step, bind_ok, require_ok] at h
      obtain ⟨_, hp, _, ha, h⟩ := h
      exact call_received (hr.base.pool_ne hp) (fun e => hop auth (by rw [e])) h
    · rw [hf.pools p (by simp [e]) (by simp) (by simp) (by simp)]
  | factory auth c =>
    simp only [step, bind_ok] at h
    obtain ⟨_, _, h⟩ := h
    rcases factoryCall_ok h with ⟨m, rfl, _, rfl⟩ | ⟨x, s, o, r, n, m, rfl, _, _, _, _, _, _, rfl⟩
    · rfl
    · by_cases hp : p = w.deployAddr x s
      · subst hp
        show ((w.setPool _ _).pools _).received = _
        rw [pools_setPool]
      · show ((w.setPool _ _).pools _).received = _
        rw [pools_setPool_ne _ _ _ _ hp]
  | expireAuction q t u =>
    cases h
    by_cases hp : p = q
    · subst hp; rw [pools_setPool]; rfl
    · rw [pools_setPool_ne _ _ _ _ hp]
  | expireQueued q a =>
    cases h
    by_cases hp : p = q
    · subst hp; rw [pools_setPool]
    · rw [pools_setPool_ne _ _ _ _ hp]
  | _ => rw [hf.pools p (by simp) (by simp) (by simp) (by simp)]

end Blend
