import Verif.Lemmas.Curve
import Verif.Lemmas.FullSubmit
import Verif.Lemmas.BadDebtView
import Verif.Lemmas.AuctionStep
/-
  How the rates of a reserve change in one operation.
-/

namespace Blend
namespace Pool
open Spec

/-- calls that never touch the data of reserves -/
def Call.keepsData : Call → Bool
  | .submit .. => false
  | .badDebt .. => false
  | .setReserve .. => false
  | _ => true

theorem claimLoop_data {now : Nat} {sender : Address} {pos : Positions} : ∀ {l : List Nat} {n n' : Int} {ps ps' : PoolState},
    claimLoop now sender pos l (n, ps) = .ok (n', ps') → ps'.resData = ps.resData := by
  intro l
  induction l with
  | nil =>
    intro n n' ps ps' h
    simp only [claimLoop, pure_ok, Prod.mk.injEq] at h
    rw [h.2]
  | cons id l ih =>
    intro n n' ps ps' h
    simp only [claimLoop] at h
    split at h
    · simp at h
    · simp only [bind_ok, unwrap_ok, Prod.exists, ite_ok, chk_ok] at h
      obtain ⟨c, _, d, _, h⟩ := h
      have key : ∀ {supply scalar bal amt : Int} {ps1 : PoolState} {n1 : Int},
          updateEmissions ps now id supply scalar sender bal true = .ok (amt, ps1) →
          claimLoop now sender pos l (n1, { ps1 with claimed := upd ps1.claimed id (ps1.claimed id + amt) }) = .ok (n', ps') →
          ps'.resData = ps.resData := by
        intro supply scalar bal amt ps1 n1 hu hrest
        exact (ih hrest).trans (updateEmissions_other hu).1.resData
      rcases h with ⟨_, _, _, _, _, a, ps1, hu, x, _, h⟩ | ⟨_, _, _, _, _, a, ps1, hu, x, _, h⟩
      · exact key hu h
      · exact key hu h

theorem call_resData {w w' : World} {p : Address} {auth : List Address} {c : Call} (hk : c.keepsData = true)
    (h : call w p auth c = .ok w') : (w'.pools p).resData = (w.pools p).resData := by
  cases c with
  | submit => simp [Call.keepsData] at hk
  | badDebt => simp [Call.keepsData] at hk
  | «initialize» a o r m b l =>
    simp only [call, executeInit, bind_ok, pure_ok] at h
    obtain ⟨_, _, _, ⟨_, _, _, _, _, _, rfl⟩, rfl⟩ := h
    rw [pools_setPool]
  | setAdmin a =>
    simp only [call, bind_ok, pure_ok] at h
    obtain ⟨_, _, _, _, _, _, rfl⟩ := h
    rw [pools_setPool]
  | updatePool r m =>
    simp only [call, executeUpdatePool, bind_ok, pure_ok] at h
    obtain ⟨_, _, _, ⟨_, _, _, _, rfl⟩, rfl⟩ := h
    rw [pools_setPool]
  | queueSetReserve a c =>
    simp only [call, queueSetReserve, bind_ok, pure_ok] at h
    obtain ⟨_, _, _, ⟨_, _, _, _, _, _, rfl⟩, rfl⟩ := h
    rw [pools_setPool]
  | cancelSetReserve a =>
    simp only [call, cancelSetReserve, bind_ok, pure_ok] at h
    obtain ⟨_, _, rfl⟩ := h
    rw [pools_setPool]
  | setReserve a => simp [Call.keepsData] at hk
  | updateStatus =>
    simp only [call, updateStatus, bind_ok, pure_ok] at h
    obtain ⟨_, _, _, _, _, _, rfl⟩ := h
    rw [pools_setPool]
  | setStatus s =>
    simp only [call, setStatus, bind_ok, pure_ok] at h
    obtain ⟨_, _, _, _, _, _, _, _, rfl⟩ := h
    rw [pools_setPool]
  | gulpEmissions =>
    simp only [call, gulpEmissions, doGulp, PoolState.getInst, bind_ok, unwrap_ok, require_ok, Prod.exists, pure_ok,
      Prod.mk.injEq] at h
    obtain ⟨n, w2, ⟨i, hi, _, _, n1, w1, hg, ps, ⟨_, hn, hl⟩, rfl, rfl⟩, rfl⟩ := h
    obtain ⟨_, _, _, bi, _, rfl⟩ := gulpPoolAuth_frame hg
    rw [pools_setPool]
    refine foldlM_inv (fun q : PoolState => q.resData = (w.pools p).resData) (fun b d kv _ hb hs => ?_) rfl hl
    simp only [bind_ok, unwrap_ok] at hs
    obtain ⟨a, _, m, _, hs⟩ := hs
    obtain ⟨ed, ec, rfl⟩ := updateReserveEmisConfig_other hs
    exact hb
  | setEmissionsConfig l =>
    simp only [call, setPoolEmissions, bind_ok, pure_ok, Prod.exists] at h
    obtain ⟨_, _, _, ⟨_, _, _, _, _, rfl⟩, rfl⟩ := h
    rw [pools_setPool]
  | claim sender ids dst =>
    simp only [call, executeClaim, PoolState.getInst, bind_ok, Prod.exists, ite_ok, unwrap_ok, pure_ok, Prod.mk.injEq] at h
    obtain ⟨_, _, _, _, ⟨n1, ps1, hl, h⟩, rfl⟩ := h
    have hp := claimLoop_data hl
    rcases h with ⟨hpos, i, hi, w2, ht, _, rfl⟩ | ⟨_, _, rfl⟩
    · rw [(transferFrom_res ht).frame]
      show ((w.setPool p ps1).pools p).resData = _
      rw [pools_setPool]; exact hp
    · rw [pools_setPool]; exact hp
  | newLiquidation u n =>
    simp only [call, createLiquidation, createUserLiq, bind_ok, require_ok, Prod.exists, pure_ok, ite_ok, Prod.mk.injEq] at h
    obtain ⟨i, hi, _, _, a, ps, h, rfl⟩ := h
    rw [pools_setPool]
    show ps.resData = _
    obtain ⟨_, _, _, _, blk, _, cache, hc, pd, cache1, hpd, _, _, pct, wd, sh, _, lot, _, bid, _,
      ⟨_, _, _, rfl, rfl⟩ | ⟨_, c, hrm, nd, _, _, _, _, _, _, _, _, _, _, rfl, rfl⟩⟩ := h
    · rfl
    · exact (rmPositions_same hrm).1.resData
  | newBadDebt =>
    simp only [call, createBadDebt, bind_ok, pure_ok] at h
    obtain ⟨i, hi, a, _, rfl⟩ := h
    rw [pools_setPool]; rfl
  | newInterest l =>
    simp only [call, createInterest, bind_ok, pure_ok] at h
    obtain ⟨i, hi, a, _, rfl⟩ := h
    rw [pools_setPool]; rfl

end Pool
end Blend
