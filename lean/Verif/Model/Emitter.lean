import Verif.Model.Types
/-
  The emitter contract: `emitter/src/contract.rs`, `emitter/src/emitter.rs`,
  `emitter/src/backstop_manager.rs`.
-/

namespace Blend
namespace Emitter

/-- the instance storage, `emitter/src/storage.rs` 59-64, 79-84, 135-140: unwraps -/
def inst (w : World) : R EmitterInst := unwrap w.emitter.inst

/-- `initialize`, `emitter/src/contract.rs` 77-89 -/
def init (w : World) (blnd backstop backstopToken : Address) : R World := do
  require (w.emitter.inst = none) (.emitter .alreadyInitialized)
  pure { w with emitter := { w.emitter with
    inst := some ⟨blnd, backstop, backstopToken⟩
    lastDistro := upd w.emitter.lastDistro backstop (some w.time) } }

/-- `execute_distribute`, `emitter/src/emitter.rs` 6-18. Returns the amount minted. -/
def executeDistribute (w : World) (backstop : Address) : R (Int × World) := do
  let last ← unwrap (w.emitter.lastDistro backstop)
  let secs ← subU w.time last
  let amount ← chk ((secs : Int) * SCALAR_7)
  let w1 := { w with emitter := { w.emitter with
    lastDistro := upd w.emitter.lastDistro backstop (some w.time) } }
  let i ← inst w1
  let w2 ← mint w1 i.blnd backstop amount
  pure (amount, w2)

/-- `distribute`, `emitter/src/contract.rs` 91-102 -/
def distribute (w : World) : R (Int × World) := do
  let i ← inst w
  executeDistribute w i.backstop

/-- `get_last_distro`, `emitter/src/contract.rs` 104-106 -/
def getLastDistro (w : World) (backstop : Address) : R Nat := unwrap (w.emitter.lastDistro backstop)

/-- `is_new_backstop_is_larger`, `emitter/src/backstop_manager.rs` 17-24 -/
def newBackstopLarger (w : World) (i : EmitterInst) (newBackstop : Address) : Bool :=
  w.balance i.backstopToken newBackstop > w.balance i.backstopToken i.backstop

/-- `execute_queue_swap_backstop`, `emitter/src/backstop_manager.rs` 27-49 -/
def queueSwap (w : World) (newBackstop newToken : Address) : R World := do
  require (w.emitter.swap = none) (.emitter .swapAlreadyExists)
  let i ← inst w
  require (newBackstopLarger w i newBackstop) (.emitter .insufficientBackstopSize)
  pure { w with emitter := { w.emitter with
    swap := some ⟨newBackstop, newToken, w.time + 31 * 24 * 60 * 60⟩ } }

/-- `get_queued_swap(..).unwrap_or_else(panic SwapNotQueued)`,
`emitter/src/backstop_manager.rs` 53-54, 67-68 -/
def queuedSwap (w : World) : R Swap :=
  match w.emitter.swap with
  | some s => .ok s
  | none => .error (.emitter .swapNotQueued)

/-- `execute_cancel_swap_backstop`, `emitter/src/backstop_manager.rs` 52-63 -/
def cancelSwap (w : World) : R World := do
  let s ← queuedSwap w
  let i ← inst w
  require (¬ newBackstopLarger w i s.newBackstop) (.emitter .swapCannotBeCanceled)
  pure { w with emitter := { w.emitter with swap := none } }

/-- `execute_swap_backstop`, `emitter/src/backstop_manager.rs` 66-91 -/
def swapBackstop (w : World) : R World := do
  let s ← queuedSwap w
  require (¬ s.unlockTime > w.time) (.emitter .swapNotUnlocked)
  let i ← inst w
  require (newBackstopLarger w i s.newBackstop) (.emitter .insufficientBackstopSize)
  let (_, w1) ← executeDistribute w i.backstop
  pure { w1 with emitter := { w1.emitter with
    swap := none
    inst := some { i with backstop := s.newBackstop, backstopToken := s.newBackstopToken }
    lastDistro := upd w1.emitter.lastDistro s.newBackstop (some w1.time) } }

/-- `execute_drop`, `emitter/src/emitter.rs` 21-44 -/
def drop (w : World) (auth : List Address) (list : List (Address × Int)) : R World := do
  let i ← inst w
  requireAuth auth i.backstop
  require (w.emitter.dropped i.backstop = false) (.emitter .badDrop)
  let total ← list.foldlM (fun acc x => chk (acc + x.2)) (0 : Int)
  require (¬ total > 50000000 * SCALAR_7) (.emitter .badDrop)
  let w1 ← list.foldlM (fun w x => mint w i.blnd x.1 x.2) w
  pure { w1 with emitter := { w1.emitter with dropped := upd w1.emitter.dropped i.backstop true } }

end Emitter
end Blend
