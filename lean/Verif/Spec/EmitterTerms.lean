import Verif.Spec.Emitter
/-
  Specification of the calls of the emitter and of the factory (C69): when a call is in order and what it does.
-/

namespace Blend
namespace Spec

/-- 31 days -/
def days31 : Nat := 31 * 24 * 60 * 60

/-- The operation `op` of the emitter is in order in `w`. It leaves `e` as the state of the emitter and mints the payments `l` in the
token `t`. -/
inductive EmitterPlan (w : World) : Op → EmitterState → Address → List (Address × Int) → Prop
  /-- once, by anybody -/
  | init {auth b s k} : w.emitter.inst = none →
      EmitterPlan w (.emitter auth (.initialize b s k))
        { w.emitter with inst := some ⟨b, s, k⟩, lastDistro := upd w.emitter.lastDistro s (some w.time) } b []
  /-- by anybody at any time: one token per second since the last distribution, to the backstop -/
  | distribute {auth i last} : w.emitter.inst = some i → w.emitter.lastDistro i.backstop = some last →
      EmitterPlan w (.emitter auth .distribute) { w.emitter with lastDistro := upd w.emitter.lastDistro i.backstop (some w.time) }
        i.blnd [(i.backstop, ((w.time : Int) - last) * ONE7)]
  /-- by anybody, if no swap is queued and the new backstop has more of the backstop's token; to wait for 31 days -/
  | queue {auth i b k} : w.emitter.inst = some i → w.emitter.swap = none →
      w.balance i.backstopToken i.backstop < w.balance i.backstopToken b →
      EmitterPlan w (.emitter auth (.queueSwap b k)) { w.emitter with swap := some ⟨b, k, w.time + days31⟩ } i.blnd []
  /-- by anybody, if the new backstop has no more of the token than the old one -/
  | cancel {auth i s} : w.emitter.inst = some i → w.emitter.swap = some s →
      w.balance i.backstopToken s.newBackstop ≤ w.balance i.backstopToken i.backstop →
      EmitterPlan w (.emitter auth .cancelSwap) { w.emitter with swap := none } i.blnd []
  /-- by anybody, if the swap is unlocked and the new backstop still has more: the old one gets its last emissions, those of the new
  one start now -/
  | swap {auth i s last} : w.emitter.inst = some i → w.emitter.swap = some s → s.unlockTime ≤ w.time →
      w.balance i.backstopToken i.backstop < w.balance i.backstopToken s.newBackstop → w.emitter.lastDistro i.backstop = some last →
      EmitterPlan w (.emitter auth .swapBackstop)
        { w.emitter with
          swap := none
          inst := some ⟨i.blnd, s.newBackstop, s.newBackstopToken⟩
          lastDistro := upd (upd w.emitter.lastDistro i.backstop (some w.time)) s.newBackstop (some w.time) }
        i.blnd [(i.backstop, ((w.time : Int) - last) * ONE7)]
  /-- by the backstop, once, at most 50 million tokens; the modelled backstop drops the list it was set up with, for anybody -/
  | drop {op i l} : w.emitter.inst = some i → w.emitter.dropped i.backstop = false →
      (∃ auth, op = .emitter auth (.drop l) ∧ i.backstop ∈ auth) ∨
        (∃ auth b, op = .backstop auth .drop ∧ w.backstop.inst = some b ∧ b.emitter = w.emitterAddr ∧ w.backstop.dropList = some l ∧
          i.backstop = w.backstopAddr) →
      (∀ x ∈ l, 0 ≤ x.2) → (l.map (·.2)).sum ≤ 50000000 * ONE7 →
      EmitterPlan w op { w.emitter with dropped := upd w.emitter.dropped i.backstop true } i.blnd l

/-- the balances after the payments are in the range of i128 -/
def PaymentsFit (w : World) (t : Address) (l : List (Address × Int)) : Prop :=
  ∀ x ∈ l, w.balance t x.1 + paidTo l x.1 ≤ 2 ^ 127 - 1

/-- `w'` is `w` with the state `e` of the emitter and with the payments `l` made -/
structure EmitterOutcome (w w' : World) (e : EmitterState) (t : Address) (l : List (Address × Int)) : Prop where
  rest : w' = { w with emitter := e, tok := w'.tok }
  tokens : ∀ t' x, w'.balance t' x = w.balance t' x + if t' = t then paidTo l x else 0
  allow : ∀ t', (w'.tok t').allow = (w.tok t').allow

/-- The call of the factory is in order in `w` and leaves the world `w'`. -/
inductive FactoryPlan (w : World) (auth : List Address) : FactoryCall → World → Prop
  /-- once, by anybody -/
  | init {m} : w.factory.meta? = none → FactoryPlan w auth (.initialize m) { w with factory := { w.factory with meta? := some m } }
  /-- by the admin of the new pool, to a free address; the pool is registered and starts in setup -/
  | deploy {a salt o r n m} : a ∈ auth → w.factory.meta? = some m → r < 10000000 → 2 ≤ n →
      w.poolAddr (w.deployAddr a salt) = true → (w.pools (w.deployAddr a salt)).inst = none →
      FactoryPlan w auth (.deploy a salt o r n)
        { w with
          pools := upd w.pools (w.deployAddr a salt)
            { w.pools (w.deployAddr a salt) with inst := some ⟨a, m.backstop, m.blnd, ⟨o, r, 6, n⟩⟩ }
          factory := { w.factory with deployed := upd w.factory.deployed (w.deployAddr a salt) true } }

/-- the operation is one of the emitter -/
def EmitterOp (op : Op) : Prop := (∃ auth c, op = .emitter auth c) ∨ ∃ auth, op = .backstop auth .drop

/-- nobody can sign for the contracts of the protocol -/
def SignedBy (w : World) : Op → Prop
  | .emitter auth _ | .backstop auth _ | .factory auth _ | .pool _ auth _ => ∀ a ∈ auth, ¬ w.isProtocol a
  | _ => True

end Spec
end Blend
