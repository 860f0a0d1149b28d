import Verif.Spec
/-
  Vocabulary of the administrative properties of a pool (C12, C22, C24, C27).
-/

namespace Blend
namespace Spec

/-- At least `k` percent of the shares of pool `p`'s backstop deposits are queued for withdrawal; the percentage is
taken with 7 decimals, rounded up. -/
def QueuedAtLeast (w : World) (p : Address) (k : Int) : Prop :=
  0 < (w.backstop.getPoolBal p).shares ∧
    ∃ x, IsCeil x ((w.backstop.getPoolBal p).q4w * ONE7) (w.backstop.getPoolBal p).shares ∧ k * 100000 ≤ x

/-- The documented transitions of the permissionless status update (`pool/src/contract.rs` 133-148). `met`: the
backstop deposit reaches the minimum; `q k`: at least `k` percent of it is queued for withdrawal. 0 and 1 are
active, 2 and 3 on ice, 4 and 5 frozen, 6 setup; even ones were set by the admin. -/
inductive UpdateTable (met : Prop) (q : Int → Prop) : Nat → Nat → Prop
  | adminActive_stays : met → ¬ q 50 → UpdateTable met q 0 0
  | adminActive_ice : ¬ met ∨ q 50 → UpdateTable met q 0 3
  | adminIce_stays : ¬ q 75 → UpdateTable met q 2 2
  | adminIce_frozen : q 75 → UpdateTable met q 2 5
  | active {s} : s = 1 ∨ s = 3 ∨ s = 5 → met → ¬ q 30 → UpdateTable met q s 1
  | ice {s} : s = 1 ∨ s = 3 ∨ s = 5 → ¬ met ∨ q 30 → ¬ q 60 → UpdateTable met q s 3
  | frozen {s} : s = 1 ∨ s = 3 ∨ s = 5 → q 60 → UpdateTable met q s 5

/-- What the admin may set (`pool/src/contract.rs` 150-162), whatever the status was. -/
inductive AdminTable (met : Prop) (q : Int → Prop) : Nat → Prop
  | active : met → ¬ q 50 → AdminTable met q 0
  | adminIce : ¬ q 75 → AdminTable met q 2
  | ice : ¬ q 75 → AdminTable met q 3
  | frozen : AdminTable met q 4

/-- a valid emission split for a pool with `n` reserves: every entry is for the liabilities (0) or the supply (1)
of a listed reserve, and the shares add up to at most 100 percent -/
def ValidSplit (n : Nat) (l : List Pool.EmisMeta) : Prop :=
  (∀ m ∈ l, m.resType ≤ 1 ∧ m.resIndex < n) ∧ (l.map (·.share)).sum ≤ 10000000

/-- the operation does not end the queued change of `asset` in pool `p` -/
def KeepsQueued (p asset : Address) (op : Op) : Prop :=
  ∀ auth, op ≠ .pool p auth (.cancelSetReserve asset) ∧ op ≠ .pool p auth (.setReserve asset) ∧ op ≠ .expireQueued p asset

end Spec
end Blend
