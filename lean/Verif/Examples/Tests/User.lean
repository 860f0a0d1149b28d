import Verif.Examples.Tests.Base
/-
  `pool/src/pool/user.rs`, tests (from line 205 on)
-/

namespace Blend
namespace Conformance
namespace UserTests
open Pool

/-- `default_reserve`, `pool/src/testutils.rs` 164-180 -/
def rsv (i : Nat) : Reserve :=
  ⟨u0 + i, i, 7500000, 7500000, 9500000, 10000000,
    ⟨1000000000, 1000000000, 1000000000, 1000000000, 750000000, 0, 0⟩⟩
def nobody : User := ⟨samwise, .default⟩
def ps0 : PoolState := (base 10001000 0 ⟨oracleA, 1000000, 0, 4⟩).pools poolA

/-- `test_load_and_store` -/
example : (User.load (User.store ⟨samwise, ⟨mp [], mp [(0, 10000)], mp []⟩⟩ ps0) samwise).pos.view =
    ([], [(0, 10000)], []) := by decide +kernel

/-- one share operation without emissions: user and reserve -/
def op (f : ShareOp) (u : User) (r : Reserve) (x : Int) : R (User × Reserve) :=
  (f ps0 10001000 u r x).map fun s => (s.2.1, s.2.2)

/-- the sequence of `test_liabilities`, `test_collateral` and `test_supply`: all balances met on the way -/
def seqOf (add rm : ShareOp) (sel : User → SMap Int) (tot : Reserve → Int) :
    R (List (List (Nat × Int)) × List Int) := do
  let (a, r0) ← op add nobody (rsv 0) 123
  let (b, r1) ← op add a (rsv 1) 456
  let (c, r2) ← op rm b r1 100
  let (d, r3) ← op rm c r2 356
  let (e, r4) ← op rm d r0 123
  pure ([a, b, c, d, e].map (fun u => (sel u).toList), [r0, r1, r2, r3, r4].map tot)

example : seqOf addLiabilities removeLiabilities (·.pos.liabilities) (·.data.dSupply - 750000000) ≗
    .ok ([[(0, 123)], [(0, 123), (1, 456)], [(0, 123), (1, 356)], [(0, 123)], []], [123, 456, 356, 0, 0]) := by
  decide +kernel
example : seqOf addCollateral removeCollateral (·.pos.collateral) (·.data.bSupply - 1000000000) ≗
    .ok ([[(0, 123)], [(0, 123), (1, 456)], [(0, 123), (1, 356)], [(0, 123)], []], [123, 456, 356, 0, 0]) := by
  decide +kernel
example : seqOf addSupply removeSupply (·.pos.supply) (·.data.bSupply - 1000000000) ≗
    .ok ([[(0, 123)], [(0, 123), (1, 456)], [(0, 123), (1, 356)], [(0, 123)], []], [123, 456, 356, 0, 0]) := by
  decide +kernel

/-- the `_zero_mint`, `_zero_burn` and `_over_balance_panics` tests -/
def mintZero (add : ShareOp) : R Unit := (op add nobody (rsv 0) 0).map fun _ => ()
def rmAfter (add rm : ShareOp) (x : Int) : R Unit := do
  let (a, r0) ← op add nobody (rsv 0) 123
  let _ ← op rm a r0 x
example : mintZero addLiabilities ≗ .error (.pool .invalidDTokenMint) := by decide +kernel
example : mintZero addCollateral ≗ .error (.pool .invalidBTokenMint) := by decide +kernel
example : mintZero addSupply ≗ .error (.pool .invalidBTokenMint) := by decide +kernel
example : rmAfter addLiabilities removeLiabilities 0 ≗ .error (.pool .invalidDTokenBurn) := by decide +kernel
example : rmAfter addCollateral removeCollateral 0 ≗ .error (.pool .invalidBTokenBurn) := by decide +kernel
example : rmAfter addSupply removeSupply 0 ≗ .error (.pool .invalidBTokenBurn) := by decide +kernel
example : rmAfter addLiabilities removeLiabilities 124 ≗ .error (.pool .negativeAmount) := by decide +kernel
example : rmAfter addCollateral removeCollateral 124 ≗ .error (.pool .negativeAmount) := by decide +kernel
example : rmAfter addSupply removeSupply 124 ≗ .error (.pool .negativeAmount) := by decide +kernel

/-- the `_accrues_emissions` tests -/
def emis (id : Nat) : PoolState :=
  { ps0 with
    emisConfig := upd ps0.emisConfig id (some ⟨20000000, 1000000⟩)
    emisData := upd ps0.emisData id (some ⟨1000, 10000000⟩)
    userEmis := upd ps0.userEmis id (mp [(samwise, ⟨900, 0⟩)]) }
def debtor : User := ⟨samwise, ⟨mp [(0, 1000)], mp [], mp []⟩⟩
def holder : User := ⟨samwise, ⟨mp [], mp [(0, 700)], mp [(0, 300)]⟩⟩
/-- positions, the two supplies, reserve index and time, the user's accrual -/
def accrued (f : ShareOp) (id : Nat) (u : User) : R ((List (Nat × Int) × List (Nat × Int) × List (Nat × Int)) ×
    Int × Int × Option (Int × Nat) × Option Int) :=
  (f (emis id) 10001000 u (rsv 0) 123).map fun s => (s.2.1.pos.view, s.2.2.data.bSupply, s.2.2.data.dSupply,
    (s.1.emisData id).map (fun d => (d.index, d.lastTime)), ((s.1.userEmis id).get samwise).map (·.accrued))
/-- the indices the tests compute -/
def newIndex (supply : Int) : Int := 1000 + 1000 * 1000000 * 10000000 / supply
def newAccrual (supply : Int) : Int := (newIndex supply - 900) * 1000 / 10000000

example : accrued addLiabilities 0 debtor ≗ .ok (([(0, 1123)], [], []), 1000000000, 750000123,
    some (newIndex 750000000, 10001000), some (newAccrual 750000000)) := by decide +kernel
example : accrued removeLiabilities 0 debtor ≗ .ok (([(0, 877)], [], []), 1000000000, 750000000 - 123,
    some (newIndex 750000000, 10001000), some (newAccrual 750000000)) := by decide +kernel
example : accrued addCollateral 1 holder ≗ .ok (([], [(0, 823)], [(0, 300)]), 1000000123, 750000000,
    some (newIndex 1000000000, 10001000), some (newAccrual 1000000000)) := by decide +kernel
example : accrued removeCollateral 1 holder ≗ .ok (([], [(0, 577)], [(0, 300)]), 1000000000 - 123, 750000000,
    some (newIndex 1000000000, 10001000), some (newAccrual 1000000000)) := by decide +kernel
example : accrued addSupply 1 holder ≗ .ok (([], [(0, 700)], [(0, 423)]), 1000000123, 750000000,
    some (newIndex 1000000000, 10001000), some (newAccrual 1000000000)) := by decide +kernel
example : accrued removeSupply 1 holder ≗ .ok (([], [(0, 700)], [(0, 177)]), 1000000000 - 123, 750000000,
    some (newIndex 1000000000, 10001000), some (newAccrual 1000000000)) := by decide +kernel

/-- `test_total_supply` -/
example : (do
    let (a, _) ← op addSupply nobody (rsv 0) 123
    let (b, r1) ← op addSupply a (rsv 1) 456
    let (c, _) ← op addCollateral b r1 789
    let x ← c.totalSupply 0
    let y ← c.totalSupply 1
    pure (x, y)) ≗ .ok (123, 456 + 789) := by decide +kernel

end UserTests
end Conformance
end Blend
