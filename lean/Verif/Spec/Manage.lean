import Verif.Spec.Admin
import Verif.Spec.Health
/-
  Specification of the calls that manage a pool (C68): when such a call is in order and what it does.
-/

namespace Blend
namespace Spec
open Pool

/-- a call that manages the pool -/
def ManageCall (c : Call) : Prop :=
  (∃ a, c = .setAdmin a) ∨ (∃ r m, c = .updatePool r m) ∨ (∃ a k, c = .queueSetReserve a k) ∨ (∃ a, c = .cancelSetReserve a) ∨
  (∃ a, c = .setReserve a) ∨ (∃ l, c = .setEmissionsConfig l) ∨ c = .updateStatus ∨ ∃ s, c = .setStatus s

/-- the parts of the configuration that make up the interest rate curve -/
def SameCurve (c k : ReserveConfig) : Prop :=
  c.rBase = k.rBase ∧ c.rOne = k.rOne ∧ c.rTwo = k.rTwo ∧ c.rThree = k.rThree ∧ c.util = k.util

/-- the emission shares per debt token (`2 * index`) and supply token (`2 * index + 1`); a later entry replaces an earlier one -/
def splitTable (l : List EmisMeta) : SMap Nat :=
  l.foldl (fun m e => m.set (e.resIndex * 2 + e.resType) e.share) .empty

/-- The call `c`, authorized by `auth`, is in order for the pool `p` with the settings `i`, and `ps` is what the storage of the pool
will be: everything that is not mentioned stays as it is. -/
inductive Managed (w : World) (p : Address) (i : PoolInst) (auth : List Address) : Call → PoolState → Prop
  /-- the old and the new admin agree -/
  | setAdmin {a} : i.admin ∈ auth → a ∈ auth →
      Managed w p i auth (.setAdmin a) { w.pools p with inst := some { i with admin := a } }
  /-- the take rate of the backstop is below 100 percent -/
  | updatePool {r m} : i.admin ∈ auth → r < 10000000 →
      Managed w p i auth (.updatePool r m)
        { w.pools p with inst := some { i with config := { i.config with bstopRate := r, maxPositions := m } } }
  /-- nothing is queued for the asset, and the parameters are valid; a week to wait unless the pool is in setup -/
  | queue {a k} : i.admin ∈ auth → (w.pools p).resInit a = none → ValidConfig k →
      Managed w p i auth (.queueSetReserve a k)
        { w.pools p with
          resInit := upd (w.pools p).resInit a (some ⟨k, if i.config.status = 6 then w.time else w.time + 7 * 24 * 60 * 60⟩) }
  | cancel {a} : i.admin ∈ auth →
      Managed w p i auth (.cancelSetReserve a) { w.pools p with resInit := upd (w.pools p).resInit a none }
  /-- a new reserve: queued, unlocked, at most 32 reserves; it starts empty, with all rates 1 -/
  | newReserve {a q} : (w.pools p).resInit a = some q → q.unlockTime ≤ w.time → (w.pools p).resConfig a = none →
      (w.pools p).resList.length < 32 →
      Managed w p i auth (.setReserve a)
        { w.pools p with
          resInit := upd (w.pools p).resInit a none
          resList := (w.pools p).resList ++ [a]
          resConfig := upd (w.pools p).resConfig a (some { q.newConfig with index := (w.pools p).resList.length })
          resData := upd (w.pools p).resData a (some ⟨ONE9, ONE9, ONE9, 0, 0, 0, w.time⟩) }
  /-- a change of a reserve: queued, unlocked, the same decimals. Interest is accrued by the old parameters first, the index stays,
  and the rate modifier starts over when the curve changes. -/
  | changeReserve {a q k d} : (w.pools p).resInit a = some q → q.unlockTime ≤ w.time → (w.pools p).resConfig a = some k →
      k.decimals = q.newConfig.decimals → Current (w.pools p) w.time a d → ∀ m, (SameCurve k q.newConfig → m = d.irMod) →
      (¬ SameCurve k q.newConfig → m = ONE9) →
      Managed w p i auth (.setReserve a)
        { w.pools p with
          resInit := upd (w.pools p).resInit a none
          resConfig := upd (w.pools p).resConfig a (some { q.newConfig with index := k.index })
          resData := upd (w.pools p).resData a (some { d with irMod := m }) }
  | emissions {l} : i.admin ∈ auth → ValidSplit (w.pools p).resList.length l →
      Managed w p i auth (.setEmissionsConfig l) { w.pools p with poolEmis := splitTable l }
  /-- anybody may bring the status up to date once the backstop's tokens have a value -/
  | updateStatus {s} : i.backstop = w.backstopAddr → w.backstop.lpVal ≠ none →
      UpdateTable (BackstopAtLeast w p 1 1) (QueuedAtLeast w p) i.config.status s →
      Managed w p i auth .updateStatus { w.pools p with inst := some { i with config := { i.config with status := s } } }
  | setStatus {s} : i.admin ∈ auth → i.backstop = w.backstopAddr → w.backstop.lpVal ≠ none →
      AdminTable (BackstopAtLeast w p 1 1) (QueuedAtLeast w p) s →
      Managed w p i auth (.setStatus s) { w.pools p with inst := some { i with config := { i.config with status := s } } }

end Spec
end Blend
