import Verif.Examples.Tests.Base
import Verif.Model.Events
/-
  The fixture of the repository's integration tests, `test-suites/src/setup.rs` 10-139 and `test-suites/src/test_fixture.rs` 66-170:
  all contracts are deployed, wired and run together through their entry points (`step`). What the fixture does to other contracts
  (minting, joining Comet) is written into the balances.
-/

namespace Blend
namespace Conformance
open Pool

abbrev wethA : Address := 14
abbrev xlmA : Address := 15
abbrev stableA : Address := 16

/-- a test fails with this error -/
def assertT (b : Bool) : R Unit := if b then pure () else .error .unwrapNone

/-- the test passes -/
def passes {α : Type} (r : R α) : Bool := match r with | .ok _ => true | .error _ => false

/-- the test fails with this error of the pool contract -/
def failsWith {α : Type} (r : R α) (e : Err) : R Unit := assertT (match r with | .ok _ => false | .error x => decide (x = e))

/-- `assert_approx_eq_abs`, `test-suites/src/assertions.rs` 4-13 -/
def approx (a b delta : Int) : Bool := decide (b - delta < a ∧ a < b + delta)

/-- run a list of operations -/
def steps (w : World) : List Op → R World
  | [] => pure w
  | op :: l => do
    let w1 ← step w op
    steps w1 l

/-- `jump`, `test_fixture.rs` 281-292: the sequence number stays; the mock oracle reports its prices as of now -/
def _root_.Blend.World.jump (w : World) (t : Nat) : World := w.goto (w.time + t) w.seq

/-- `jump_with_sequence`, `test_fixture.rs` 294-306 -/
def _root_.Blend.World.jumpSeq (w : World) (t : Nat) : World := w.goto (w.time + t) (w.seq + t / 5)

/-- a submit of an account for itself -/
def submitT (w : World) (u : Address) (l : List Request) : R World := step w (.pool poolA [u] (.submit u u u l))

/-- nothing is initialized, `test_fixture.rs` 66-85 -/
def empty : World where
  time := 1441065600
  seq := 150
  tok := fun _ => {}
  oracle := fun _ => {}
  cometShares := 0
  cometOut := fun x => x
  emitterAddr := emitterA
  backstopAddr := backstopA
  factoryAddr := factoryA
  deployAddr := fun _ s => 100 + s
  poolAddr := fun a => decide (100 ≤ a ∧ a < 200)
  emitter := {}
  backstop := {}
  factory := {}
  pools := fun _ => {}

/-- `set_price_stable` of the fixture's oracle: eth, usdc, xlm, stable -/
def _root_.Blend.World.prices (w : World) (eth usdc xlm stable : Int) : World :=
  w.price [(wethA, eth), (usdcA, usdc), (xlmA, xlm), (stableA, stable)]

/-- `TestFixture::create` -/
def created : R World := do
  -- Comet pool of 1000 BLND, 25 USDC and 100 shares
  let w := ((empty.give blndA lpA 10000000000).give usdcA lpA 250000000).give lpA bombadil 1000000000
  let w := { w with cometShares := 1000000000 }
  let w ← steps w [
    .emitter [] (.initialize blndA backstopA lpA),
    .backstop [] (.initialize lpA emitterA usdcA blndA factoryA [(bombadil, 100000000000000), (frodo, 400000000000000)]),
    .factory [] (.initialize ⟨backstopA, blndA⟩),
    .backstop [] .drop]
  let w := { w with oracle := upd w.oracle oracleA { decimals := 7, price := fun _ => none } }
  pure ((w.prices 20000000000 10000000 1000000 10000000).jump 604800)

/-- `default_reserve_metadata`, `test-suites/src/pool.rs` 8-22, with decimals, factors and target utilization -/
def metadata (dec cf lf util : Nat) : ReserveConfig :=
  ⟨0, dec, cf, lf, util, 9500000, 100000, 500000, 5000000, 15000000, 20⟩

/-- `create_fixture_with_data` -/
def withData : R World := do
  let w ← created
  let w := ((w.give stableA frodo 100000000000).give xlmA frodo 10000000000000).give wethA frodo 100000000000
  let w := (w.give blndA frodo 700000000000000).give usdcA frodo 26000000000000
  -- frodo joins Comet for 10 million shares: 100 million BLND and 2.5 million USDC
  let w := ((w.give blndA frodo (-1000000000000000)).give blndA lpA 1000000000000000)
  let w := ((w.give usdcA frodo (-25000000000000)).give usdcA lpA 25000000000000)
  let w := { w.give lpA frodo 100000000000000 with cometShares := 1000000000 + 100000000000000 }
  let w ← steps w [
    .factory [bombadil] (.deploy bombadil 0 oracleA 1000000 6),
    .pool poolA [bombadil] (.queueSetReserve stableA (metadata 6 9000000 9500000 8500000)),
    .pool poolA [] (.setReserve stableA),
    .pool poolA [bombadil] (.queueSetReserve xlmA (metadata 7 7500000 7500000 5000000)),
    .pool poolA [] (.setReserve xlmA),
    .pool poolA [bombadil] (.queueSetReserve wethA (metadata 9 8000000 8000000 7000000)),
    .pool poolA [] (.setReserve wethA),
    .pool poolA [bombadil] (.setEmissionsConfig [⟨0, 0, 6000000⟩, ⟨1, 1, 4000000⟩]),
    .backstop [frodo] (.deposit frodo poolA 500000000000),
    .backstop [] .updateTknVal,
    .backstop [] (.addReward poolA 999),
    .pool poolA [bombadil] (.setStatus 3),
    .pool poolA [] .updateStatus,
    .emitter [] .distribute,
    .backstop [] .gulpEmissions,
    .pool poolA [] .gulpEmissions]
  let w := w.jump 60
  let w ← submitT w frodo [⟨2, stableA, 10000000000⟩, ⟨4, stableA, 8000000000⟩]
  let w ← submitT w frodo [⟨2, wethA, 10000000000⟩, ⟨4, wethA, 5000000000⟩]
  let w ← submitT w frodo [⟨2, xlmA, 1000000000000⟩, ⟨4, xlmA, 650000000000⟩]
  pure (w.jump 3600)

/-- `test_create_fixture_with_data_rlib`, `test-suites/src/setup.rs` 206-261 -/
def fixtureTest : R Unit := do
  let w ← withData
  assertT (w.balance lpA backstopA = 500000000000)
  assertT (w.balance blndA bombadil = 100000000000000)
  assertT (w.balance stableA poolA = 2000000000)
  assertT (w.balance xlmA poolA = 350000000000)
  assertT (w.balance wethA poolA = 5000000000)
  assertT (w.balance stableA frodo = 98000000000)
  assertT (w.balance xlmA frodo = 9650000000000)
  assertT (w.balance wethA frodo = 95000000000)
  let c ← unwrap ((w.pools poolA).emisConfig 0)
  let d ← unwrap ((w.pools poolA).emisData 0)
  assertT (d.lastTime = w.time - 3660)
  assertT (d.index = 0)
  assertT (c.eps = 1800000)
  assertT (c.expiration = w.time + 604800 - 3660)

example : passes fixtureTest = true := by decide +kernel

end Conformance
end Blend
