import Verif.Model.Views
import Verif.Lemmas.SubmitView

/-
  `exec` runs exactly what `step` runs.
-/

namespace Blend

theorem Pool.initReserveRet_snd (ps : PoolState) (now : Nat) (a : Address) (c : ReserveConfig) :
    Prod.snd <$> Pool.initReserveRet ps now a c = Pool.initReserve ps now a c := by
  unfold Pool.initReserveRet Pool.initReserve
  cases ps.resConfig a <;> simp only [map_bind, map_pure]

theorem Pool.setReserveRet_snd (ps : PoolState) (now : Nat) (a : Address) :
    Prod.snd <$> Pool.setReserveRet ps now a = Pool.setReserve ps now a := by
  unfold Pool.setReserveRet Pool.setReserve
  simp [map_bind, Pool.initReserveRet_snd]

theorem Pool.callRet_snd (w : World) (p : Address) (auth : List Address) (c : Pool.Call) :
    Prod.snd <$> Pool.callRet w p auth c = Pool.call w p auth c := by
  cases c
  case setReserve a =>
    simp only [Pool.callRet, Pool.call, ← Pool.setReserveRet_snd, map_bind, bind_map_left, map_pure]
  case updateStatus => simp [Pool.callRet, Pool.call, map_bind, Pool.updateStatus]
  case newLiquidation => simp [Pool.callRet, Pool.call, map_bind, Pool.createLiquidation]
  case newBadDebt => simp [Pool.callRet, Pool.call, map_bind, Pool.createBadDebt]
  case newInterest => simp [Pool.callRet, Pool.call, map_bind, Pool.createInterest]
  case submit sender spender dst reqs =>
    simp only [Pool.callRet, Pool.call, map_bind]
    congr 1; funext _
    split <;> simp [map_bind]
  all_goals simp [Pool.callRet, Pool.call, map_bind]

theorem backstopRet_snd (w : World) (auth : List Address) (c : BackstopCall) :
    Prod.snd <$> backstopRet w auth c = backstopCall w auth c := by
  cases c
  case updateTknVal => simp [backstopRet, backstopCall, map_bind, Backstop.updateTknValRet, Backstop.updateTknVal]
  case queueWithdrawal s p a =>
    simp only [backstopRet, backstopCall, map_bind, bind_assoc, Backstop.executeQueueRet, Backstop.queueWithdrawal, Backstop.executeQueue]
    congr 1; funext _; congr 1; funext _; congr 1; funext x
    cases e : Backstop.queueShares (w.backstop.getUserBal p s) w.time a with
    | error y => rfl
    | ok ub =>
      simp only [Backstop.queueShares, bind_ok, require_ok, chk_ok, pure_ok] at e
      obtain ⟨_, _, _, _, _, _, rfl⟩ := e
      show (Backstop.pbQueue _ a >>= _) = (Backstop.pbQueue _ a >>= _)
      congr 1; funext y
      simp [unwrap]
      rfl
  all_goals simp [backstopRet, backstopCall, map_bind]

theorem emitterRet_snd (w : World) (auth : List Address) (c : EmitterCall) :
    Prod.snd <$> emitterRet w auth c = emitterCall w auth c := by
  cases c <;> simp [emitterRet, emitterCall, map_bind]

theorem factoryRet_snd (w : World) (auth : List Address) (c : FactoryCall) :
    Prod.snd <$> factoryRet w auth c = factoryCall w auth c := by
  cases c <;> simp [factoryRet, factoryCall, map_bind]

/-- `exec` changes the world as `step` does -/
theorem exec_snd (w : World) (op : Op) : Prod.snd <$> exec w op = step w op := by
  cases op <;> simp [exec, step, map_bind, Pool.callRet_snd, backstopRet_snd, emitterRet_snd, factoryRet_snd]

theorem exec_step {w w' : World} {op : Op} {r : Ret} (h : exec w op = .ok (r, w')) : step w op = .ok w' := by
  rw [← exec_snd, h]; rfl

theorem step_exec {w w' : World} {op : Op} (h : step w op = .ok w') : ∃ r, exec w op = .ok (r, w') := by
  rw [← exec_snd] at h
  cases e : exec w op with
  | error x => rw [e] at h; cases h
  | ok y => rw [e] at h; cases h; exact ⟨y.1, rfl⟩

end Blend
