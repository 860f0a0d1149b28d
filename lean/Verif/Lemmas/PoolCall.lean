import Verif.Lemmas.PoolStep
/-
  Every call of a pool as small steps of its storage.
-/

namespace Blend
namespace Pool

theorem PMicro.mono {now : Nat} {U U' : Address → Prop} {a b : VS} (hU : ∀ x, U x → U' x)
    (h : PMicro now U a b) : PMicro now U' a b := by
  cases h with
  | touch _ h => exact .touch _ _ (hU _ h)
  | accrue _ _ _ _ _ h1 h2 h3 h4 => exact .accrue _ _ _ _ _ _ h1 h2 h3 h4
  | share _ _ _ _ _ _ _ _ _ _ _ _ h0 h1 h2 h3 h4 h5 h6 =>
    exact .share _ _ _ _ _ _ _ _ _ _ _ _ _ (hU _ h0) h1 h2 h3 h4 h5 h6
  | credit _ _ _ h1 h2 => exact .credit _ _ _ _ h1 h2
  | auction _ _ _ => exact .auction _ _ _ _
  | emis _ _ _ _ _ _ _ _ _ h0 h1 h2 h3 h4 => exact .emis _ _ _ _ _ _ _ _ _ _ (hU _ h0) h1 h2 h3 h4
  | gulp _ _ _ _ h1 h2 h3 => exact .gulp _ _ _ _ _ h1 h2 h3
  | setInst _ h1 h2 => exact .setInst _ _ h1 h2
  | queueReserve _ _ _ h => exact .queueReserve _ _ _ _ h
  | unqueue _ => exact .unqueue _ _
  | setReserve _ _ h => exact .setReserve _ _ _ h
  | poolEmis _ _ h => exact .poolEmis _ _ _ h
  | writeOff _ h => exact .writeOff _ _ h
  | gain _ h => exact .gain _ _ h

theorem PMicros.mono {now : Nat} {U U' : Address → Prop} {a b : VS} (hU : ∀ x, U x → U' x)
    (h : PMicros now U a b) : PMicros now U' a b := by
  induction h with
  | refl => exact .refl _
  | tail _ hs ih => exact .tail ih (hs.mono hU)

theorem vs_setPool (w : World) (p : Address) (ps : PoolState) :
    VS.of (w.setPool p ps) p = { VS.of w p with ps := ps } := by
  unfold VS.of; simp [balance_setPool]

/-- the accounts whose positions or emissions a call may touch -/
def CallTouches (ps : PoolState) : Call → Address → Prop
  | .submit sender _ _ reqs => Touched ps sender reqs
  | .badDebt u => fun x => x = u ∨ ∃ i, ps.inst = some i ∧ x = i.backstop
  | .claim sender _ _ => fun x => x = sender
  | .newLiquidation u _ => fun x => x = u
  | _ => fun _ => False

theorem call_micros {w w' : World} {p : Address} {auth : List Address} {c : Call}
    (cfg : CfgOk (w.pools p)) (hal : ∀ t s, (w.tok t).allow p s = (0, 0)) (hpb : p ≠ w.backstopAddr)
    (h : call w p auth c = .ok w') :
    PMicros w.time (CallTouches (w.pools p) c) (.of w p) (.of w' p) := by
  cases c with
  | «initialize» a o r m b l =>
    simp only [call, executeInit, bind_ok, pure_ok, require_ok] at h
    obtain ⟨_, _, _, ⟨_, hn, _, hr, _, _, rfl⟩, rfl⟩ := h
    rw [vs_setPool]
    refine .one (.setInst (.of w p) _ (.inl (by simpa using hr)) ?_)
    intro i hi
    have hi' : (w.pools p).inst = some i := hi
    rw [hi'] at hn; simp at hn
  | setAdmin a =>
    simp only [call, PoolState.getInst, bind_ok, pure_ok, unwrap_ok] at h
    obtain ⟨i, hi, _, _, _, _, rfl⟩ := h
    rw [vs_setPool]
    refine .one (.setInst (.of w p) _ (.inr ⟨i, hi, rfl⟩) ?_)
    intro j hj
    have hj' : (w.pools p).inst = some j := hj
    rw [hi] at hj'; cases hj'; exact ⟨rfl, rfl⟩
  | updatePool r m =>
    simp only [call, executeUpdatePool, PoolState.getInst, bind_ok, pure_ok, require_ok, unwrap_ok] at h
    obtain ⟨_, _, _, ⟨_, hr, i, hi, rfl⟩, rfl⟩ := h
    rw [vs_setPool]
    refine .one (.setInst (.of w p) _ (.inl (by simpa using hr)) ?_)
    intro j hj
    have hj' : (w.pools p).inst = some j := hj
    rw [hi] at hj'; cases hj'; exact ⟨rfl, rfl⟩
  | queueSetReserve a c =>
    simp only [call, bind_ok, pure_ok] at h
    obtain ⟨_, _, ps, hq, rfl⟩ := h
    rw [vs_setPool]
    exact .one (.queueReserve (.of w p) _ _ _ hq)
  | cancelSetReserve a =>
    simp only [call, bind_ok, pure_ok] at h
    obtain ⟨_, _, rfl⟩ := h
    rw [vs_setPool]
    exact .one (.unqueue (.of w p) _)
  | setReserve a =>
    simp only [call, bind_ok, pure_ok] at h
    obtain ⟨ps, hs, rfl⟩ := h
    rw [vs_setPool]
    exact .one (.setReserve (.of w p) _ _ hs)
  | submit sender spender dst reqs =>
    simp only [call, bind_ok, pure_ok, requireAuth_ok, ite_ok, Prod.exists] at h
    obtain ⟨_, hs, ⟨_, _, _, pos, w1, h, rfl⟩ | ⟨_, pos, w1, h, rfl⟩⟩ := h
    · exact submit_micros hpb h
    · exact submit_micros hpb h
  | badDebt u => exact badDebt_micros cfg h
  | updateStatus =>
    simp only [call, updateStatus, PoolState.getInst, bind_ok, pure_ok, unwrap_ok] at h
    obtain ⟨i, hi, _, _, _, _, rfl⟩ := h
    rw [vs_setPool]
    refine .one (.setInst (.of w p) _ (.inr ⟨i, hi, rfl⟩) ?_)
    intro j hj
    have hj' : (w.pools p).inst = some j := hj
    rw [hi] at hj'; cases hj'; exact ⟨rfl, rfl⟩
  | setStatus s =>
    simp only [call, setStatus, PoolState.getInst, bind_ok, pure_ok, unwrap_ok] at h
    obtain ⟨_, _, i, hi, _, _, _, _, rfl⟩ := h
    rw [vs_setPool]
    refine .one (.setInst (.of w p) _ (.inr ⟨i, hi, rfl⟩) ?_)
    intro j hj
    have hj' : (w.pools p).inst = some j := hj
    rw [hi] at hj'; cases hj'; exact ⟨rfl, rfl⟩
  | gulpEmissions =>
    simp only [call, bind_ok, pure_ok, Prod.exists] at h
    obtain ⟨n, w1, h, rfl⟩ := h
    exact gulp_micros h
  | setEmissionsConfig l =>
    simp only [call, bind_ok, pure_ok] at h
    obtain ⟨_, _, ps, hs, rfl⟩ := h
    rw [vs_setPool]
    exact .one (.poolEmis (.of w p) _ _ hs)
  | claim sender ids dst =>
    simp only [call, bind_ok, pure_ok, Prod.exists] at h
    obtain ⟨_, _, n, w1, h, rfl⟩ := h
    exact claim_micros hal h
  | newLiquidation u n => exact (liquidation_micros cfg h).1
  | newBadDebt => exact (badDebtAuction_micros h).1
  | newInterest l => exact (interestAuction_micros h).1

end Pool
end Blend
