import Verif.Examples.Tests.Base
/-
  `pool/src/pool/submit.rs` (from line 68 on) and `pool/src/pool/bad_debt.rs` (from line 55 on), tests
-/

namespace Blend
namespace Conformance
namespace Submit
open Pool

/-- `test_submit` -/
def submit : World := mk 600 1234 ⟨oracleA, 1000000, 0, 2⟩ 7 [(u0, 10000000), (u1, 50000000)]
  [(⟨0, 7, 7500000, 7500000, 7500000, 9500000, 100000, 500000, 5000000, 15000000, 20⟩,
     ⟨1000000000, 1000000000, 1000000000, 1000000000, 750000000, 0, 0⟩),
   (⟨1, 7, 7500000, 7500000, 7500000, 9500000, 100000, 500000, 5000000, 15000000, 20⟩,
     ⟨1000000000, 1000000000, 1000000000, 1000000000, 750000000, 0, 0⟩)]
  []

/-- positions; then, relative to before, the balances of the pool and of the user (who had 16 of the first
token) -/
def ran (w : World) (f s d : Address) (reqs : List Request) (payee : Address) :
    R ((List (Nat × Int) × List (Nat × Int) × List (Nat × Int)) × Int × Int × Int × Int) := do
  let (p, w') ← executeSubmit w poolA [f, s] f s d reqs
  pure (p.view, w'.balance u0 poolA - w.balance u0 poolA, w'.balance u1 poolA - w.balance u1 poolA,
    w'.balance u0 s, w'.balance u1 payee)

example : ran (submit.give u0 frodo 160000000) samwise frodo merry [⟨2, u0, 150000000⟩, ⟨4, u1, 15000000⟩] merry ≗
    .ok (([(1, 14999983)], [(0, 149999884)], []), 150000000, -15000000, 10000000, 15000000) := by decide +kernel

/-- `test_submit_no_liabilities_does_not_load_oracle` -/
def noOracle : World := mk 600 1234 ⟨oracleA, 1000000, 0, 2⟩ 7 []
  [(⟨0, 7, 7500000, 7500000, 7500000, 9500000, 100000, 500000, 5000000, 15000000, 20⟩,
     ⟨1000000000, 1000000000, 1000000000, 1000000000, 750000000, 0, 0⟩),
   (⟨1, 7, 7500000, 7500000, 7500000, 9500000, 100000, 500000, 5000000, 15000000, 20⟩,
     ⟨1000000000, 1000000000, 1000000000, 1000000000, 750000000, 0, 0⟩)]
  []

example : ran (((noOracle.give u0 frodo 160000000).give u1 frodo 100000000).price []) samwise frodo frodo
      [⟨2, u0, 150000000⟩, ⟨4, u1, 15000000⟩, ⟨5, u1, 15000001⟩] frodo ≗
    .ok (([], [(0, 149999884)], []), 150000000, 1, 10000000, 100000000 - 1) := by decide +kernel

/-- `test_submit_requires_healhty` -/
def unhealthy : World := mk 600 1234 ⟨oracleA, 1000000, 0, 2⟩ 7 [(u0, 10000000), (u1, 50000000)]
  [(⟨0, 7, 7500000, 7500000, 7500000, 9500000, 100000, 500000, 5000000, 15000000, 20⟩,
     ⟨1000000000, 1000000000, 1000000000, 1000000000, 750000000, 0, 0⟩),
   (⟨1, 7, 7500000, 7500000, 7500000, 9500000, 100000, 500000, 5000000, 15000000, 20⟩,
     ⟨1000000000, 1000000000, 1000000000, 1000000000, 750000000, 0, 0⟩)]
  []

example : ran (unhealthy.give u0 frodo 160000000) samwise frodo merry [⟨2, u0, 150000000⟩, ⟨4, u1, 17500000⟩] merry ≗
    .error (.pool .invalidHf) := by decide +kernel

/-- `test_submit_from_is_not_self`, `test_submit_spender_is_not_self`, `test_submit_to_is_not_self` -/
example : ran (submit.give u0 samwise 160000000) poolA samwise samwise [⟨2, u0, 150000000⟩] merry ≗
    .error (.pool .badRequest) := by decide +kernel
example : ran (submit.give u0 samwise 160000000) samwise poolA samwise [⟨2, u0, 150000000⟩] merry ≗
    .error (.pool .badRequest) := by decide +kernel
example : ran (submit.give u0 samwise 160000000) samwise samwise poolA [⟨2, u0, 150000000⟩] merry ≗
    .error (.pool .badRequest) := by decide +kernel

/-- `test_transfer_bad_debt_happy_path` -/
def happy : World := mk 600 123 ⟨oracleA, 1000000, 0, 2⟩ 7 []
  [(⟨0, 7, 7500000, 7500000, 7500000, 9500000, 100000, 500000, 5000000, 15000000, 20⟩,
     ⟨1000000000, 1000000000, 1000000000, 1000000000, 750000000, 0, 0⟩),
   (⟨1, 7, 7500000, 7500000, 7500000, 9500000, 100000, 500000, 5000000, 15000000, 20⟩,
     ⟨1000000000, 1000000000, 1000000000, 1000000000, 750000000, 0, 0⟩)]
  [(samwise, ⟨(mp [(0, 240000000), (1, 250000000)]), (mp []), (mp [])⟩)]

example : (transferBadDebt happy poolA samwise).map (fun w =>
      ((getPositions (w.pools poolA) samwise).view, (getPositions (w.pools poolA) backstopA).view)) ≗
    .ok (([], [], []), ([(0, 240000000), (1, 250000000)], [], [])) := by decide +kernel

/-- `test_transfer_bad_debt_with_collateral_panics` -/
def withColl : World := mk 600 123 ⟨oracleA, 1000000, 0, 2⟩ 7 []
  [(⟨0, 7, 7500000, 7500000, 7500000, 9500000, 100000, 500000, 5000000, 15000000, 20⟩,
     ⟨1000000000, 1000000000, 1000000000, 1000000000, 750000000, 0, 0⟩),
   (⟨1, 7, 7500000, 7500000, 7500000, 9500000, 100000, 500000, 5000000, 15000000, 20⟩,
     ⟨1000000000, 1000000000, 1000000000, 1000000000, 750000000, 0, 0⟩)]
  [(samwise, ⟨(mp [(0, 240000000), (1, 250000000)]), (mp [(0, 1)]), (mp [])⟩)]

example : (transferBadDebt withColl poolA samwise).map (fun w =>
      ((getPositions (w.pools poolA) samwise).view, (getPositions (w.pools poolA) backstopA).view)) ≗
    .error (.pool .badRequest) := by decide +kernel

/-- `test_transfer_bad_debt_without_liabilities_panics` -/
def noLiab : World := mk 600 123 ⟨oracleA, 1000000, 0, 2⟩ 7 []
  [(⟨0, 7, 7500000, 7500000, 7500000, 9500000, 100000, 500000, 5000000, 15000000, 20⟩,
     ⟨1000000000, 1000000000, 1000000000, 1000000000, 750000000, 0, 0⟩),
   (⟨1, 7, 7500000, 7500000, 7500000, 9500000, 100000, 500000, 5000000, 15000000, 20⟩,
     ⟨1000000000, 1000000000, 1000000000, 1000000000, 750000000, 0, 0⟩)]
  []

example : (transferBadDebt noLiab poolA samwise).map (fun w => w.time) ≗ .error (.pool .badRequest) := by
  decide +kernel

/-- `test_transfer_bad_debt_with_backstop_panics` -/
def self : World := mk 600 123 ⟨oracleA, 1000000, 0, 2⟩ 7 []
  [(⟨0, 7, 7500000, 7500000, 7500000, 9500000, 100000, 500000, 5000000, 15000000, 20⟩,
     ⟨1000000000, 1000000000, 1000000000, 1000000000, 750000000, 0, 0⟩),
   (⟨1, 7, 7500000, 7500000, 7500000, 9500000, 100000, 500000, 5000000, 15000000, 20⟩,
     ⟨1000000000, 1000000000, 1000000000, 1000000000, 750000000, 0, 0⟩)]
  [(samwise, ⟨(mp [(0, 240000000), (1, 250000000)]), (mp []), (mp [])⟩)]

example : (transferBadDebt self poolA backstopA).map (fun w =>
      ((getPositions (w.pools poolA) samwise).view, (getPositions (w.pools poolA) backstopA).view)) ≗
    .error (.pool .badRequest) := by decide +kernel

end Submit
end Conformance
end Blend
