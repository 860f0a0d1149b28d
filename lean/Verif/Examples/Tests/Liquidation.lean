import Verif.Examples.Tests.Fixture
/-
  `test_liquidations`, `test-suites/tests/test_liquidation.rs` 15-922, and `test_user_restore_position_and_delete_liquidation`, 924-1126:
  the repository's own integration tests, played by the model through all contracts. The numbers are those the tests assert, with the
  tolerances they allow; the bad debt and the debt shares at the end are exact.
-/

namespace Blend
namespace Conformance
open Pool

/-- the lot and the bid of the stored auction -/
def auctionT (w : World) (t : Nat) (u : Address) : R AuctionData := unwrap ((w.pools poolA).auctions t u)

/-- the positions of an account -/
def posT (w : World) (u : Address) : Positions := getPositions (w.pools poolA) u

/-- a week passes, emissions are distributed and gulped -/
def weeks : Nat → World → R World
  | 0, w => pure w
  | n + 1, w => do
    let w ← steps (w.jump 604800) [.emitter [] .distribute, .backstop [] .gulpEmissions, .pool poolA [] .gulpEmissions]
    weeks n w

/-- the test disables the rate modifiers by writing into the storage of the pool (58-83) -/
def noReactivity (w : World) : World :=
  w.ps fun ps => { ps with resConfig := fun a => (ps.resConfig a).map fun c => { c with reactivity := 0 } }

/-- 17-136: interest is accrued, samwise supplies XLM and WETH and borrows STABLE and XLM -/
def liq1 : R World := do
  let w ← withData
  let w ← submitT w frodo [⟨4, stableA, 10⟩, ⟨5, stableA, 10⟩, ⟨4, xlmA, 10⟩, ⟨5, xlmA, 10⟩, ⟨4, wethA, 10⟩, ⟨5, wethA, 10⟩]
  let w := noReactivity w
  let w := ((w.give xlmA samwise 5000000000000).give wethA samwise 50000000000).give usdcA frodo 1000000000000
  let w ← submitT w frodo [⟨2, stableA, 30000000000⟩]
  submitT w samwise [⟨2, xlmA, 1600000000000⟩, ⟨2, wethA, 17000000000⟩, ⟨4, stableA, 28000000000⟩, ⟨4, xlmA, 650000000000⟩]

/-- 145-228: three months go by; an interest auction and a liquidation of 30 percent are created -/
def liq2 : R World := do
  let w ← liq1
  let w0 := w
  let w ← weeks 12 w
  let w ← step w (.pool poolA [] (.newInterest [stableA, wethA, xlmA]))
  let a ← auctionT w 2 backstopA
  assertT (approx (a.lot.bal stableA) 256746831 5000000)
  assertT (approx (a.lot.bal xlmA) 1795067018 5000000)
  assertT (approx (a.lot.bal wethA) 2671545 5000)
  assertT (approx (a.bid.bal lpA) 3137415968 10000000)
  assertT (a.block = 151)
  let w ← step w (.pool poolA [] (.newLiquidation samwise 30))
  let a ← auctionT w 0 samwise
  let x ← fixedMulCeil ((posT w0 samwise).liabilities.bal 0) 3000000 10000000
  assertT (approx (a.bid.bal stableA) x 10000000)
  let x ← fixedMulCeil ((posT w0 samwise).liabilities.bal 1) 3000000 10000000
  assertT (approx (a.bid.bal xlmA) x 10000000)
  assertT (approx (a.lot.bal xlmA) 401006654560 10000000)
  assertT (approx (a.lot.bal wethA) 4260750195 1000)
  pure w

/-- 246-308: frodo fills both after 100 blocks -/
def liq3 : R World := do
  let w ← liq2
  let i ← auctionT w 2 backstopA
  let a ← auctionT w 0 samwise
  let w := w.jumpSeq 505
  let w0 := w
  let w ← submitT w frodo [⟨6, samwise, 25⟩, ⟨6, samwise, 100⟩, ⟨8, backstopA, 99⟩, ⟨8, backstopA, 100⟩, ⟨5, stableA, a.bid.bal stableA⟩]
  assertT (approx ((posT w frodo).collateral.bal 2) (a.lot.bal wethA / 2 + 10000000000) 1000)
  assertT (approx ((posT w frodo).collateral.bal 1) (a.lot.bal xlmA / 2 + 1000000000000) 1000)
  assertT (approx ((posT w frodo).liabilities.bal 1) (a.bid.bal xlmA + 650000000000) 1000)
  assertT (approx ((posT w frodo).liabilities.bal 0) (8000000000 + 559285757) 100000)
  assertT (approx (w.balance stableA frodo) (w0.balance stableA frodo - a.bid.bal stableA + i.lot.bal stableA / 2) 1000000)
  assertT (approx (w.balance xlmA frodo) (w0.balance xlmA frodo + i.lot.bal xlmA / 2) 10000000)
  assertT (approx (w.balance wethA frodo) (w0.balance wethA frodo + i.lot.bal wethA / 2) 1000000000)
  pure w

/-- 398-530: the price of ETH falls, samwise is liquidated, frodo fills after 250 blocks -/
def liq4 : R World := do
  let w ← liq3
  let w1 := w
  let w := w.prices 5000000000 10000000 1000000 10000000
  let w ← submitT w samwise []
  let w ← step w (.pool poolA [] (.newLiquidation samwise 100))
  let a ← auctionT w 0 samwise
  assertT (approx (a.bid.bal stableA) 19599872330 100000)
  assertT (approx (a.bid.bal xlmA) 454988226700 10000000)
  assertT (approx (a.lot.bal xlmA) 1399472453890 10000000)
  assertT (approx (a.lot.bal wethA) 14869584990 100000000)
  let w := w.jumpSeq 1255
  let w0 := w
  let w ← submitT w frodo [⟨6, samwise, 100⟩, ⟨5, stableA, a.bid.bal stableA / 2⟩, ⟨5, xlmA, a.bid.bal xlmA / 2⟩]
  assertT (approx ((posT w1 frodo).collateral.bal 1 + a.lot.bal xlmA) ((posT w frodo).collateral.bal 1) 10000000)
  assertT (approx ((posT w1 frodo).collateral.bal 2 + a.lot.bal wethA) ((posT w frodo).collateral.bal 2) 10000000)
  assertT (approx ((posT w1 frodo).liabilities.bal 0 + a.bid.bal stableA * 3 / 4 - 9147499950) ((posT w frodo).liabilities.bal 0) 1000000)
  assertT (approx ((posT w1 frodo).liabilities.bal 1 + a.bid.bal xlmA * 3 / 4 - 224386298700) ((posT w frodo).liabilities.bal 1) 10000000)
  assertT (approx (w0.balance stableA frodo - 9799936164) (w.balance stableA frodo) 1000000)
  assertT (approx (w0.balance xlmA frodo - 227494113400) (w.balance xlmA frodo) 10000000)
  pure w

/-- 528-592: the bad debt goes to the backstop and is auctioned -/
def liq5 : R World := do
  let w ← liq4
  let w ← submitT w samwise []
  let p0 := posT w samwise
  let w ← step w (.pool poolA [] (.badDebt samwise))
  assertT (decide (p0.liabilities.bal 0 = (posT w backstopA).liabilities.bal 0))
  assertT (decide (p0.liabilities.bal 1 = (posT w backstopA).liabilities.bal 1))
  let w ← step w (.pool poolA [] .newBadDebt)
  let a ← auctionT w 1 backstopA
  assertT (a.bid.toList.length = 2)
  assertT (a.lot.toList.length = 1)
  assertT (a.bid.bal stableA = p0.liabilities.bal 0)
  assertT (a.bid.bal xlmA = p0.liabilities.bal 1)
  assertT (approx (a.lot.bal lpA) 71710435309 10000000)
  pure w

/-- 593-769: frodo fills it in two pieces -/
def liq6 : R World := do
  let w ← liq5
  let a ← auctionT w 1 backstopA
  let p0 := posT w backstopA
  let w := w.jumpSeq 505
  let w0 := w
  let w ← submitT w frodo [⟨7, backstopA, 20⟩]
  let x ← fixedMulCeil (p0.liabilities.bal 0) 20 100
  assertT (decide ((posT w frodo).liabilities.bal 0 = (posT w0 frodo).liabilities.bal 0 + x))
  let x ← fixedMulCeil (p0.liabilities.bal 1) 20 100
  assertT (decide ((posT w frodo).liabilities.bal 1 = (posT w0 frodo).liabilities.bal 1 + x))
  assertT (approx (w.balance lpA frodo) (w0.balance lpA frodo + 7171043530) 10000000)
  assertT (approx (w.balance lpA backstopA) (w0.balance lpA backstopA - 7171043531) 10000000)
  let b ← auctionT w 1 backstopA
  assertT (b.bid.toList.length = 2)
  assertT (b.lot.toList.length = 1)
  let x ← fixedMulFloor (p0.liabilities.bal 0) 80 100
  assertT (b.bid.bal stableA = x)
  let x ← fixedMulFloor (p0.liabilities.bal 1) 80 100
  assertT (b.bid.bal xlmA = x)
  assertT (approx (b.lot.bal lpA) (a.lot.bal lpA - 14342087060) 10000000)
  assertT (b.block = a.block)
  let w := w.jumpSeq 250
  let w1 := w
  let w ← submitT w frodo [⟨7, backstopA, 100⟩]
  assertT (decide ((posT w frodo).liabilities.bal 0 = (posT w0 frodo).liabilities.bal 0 + p0.liabilities.bal 0))
  assertT (decide ((posT w frodo).liabilities.bal 1 = (posT w0 frodo).liabilities.bal 1 + p0.liabilities.bal 1))
  assertT (approx (w.balance lpA frodo) (w1.balance lpA frodo + 43026261190) 10000000)
  assertT (approx (w.balance lpA backstopA) (w1.balance lpA backstopA - 43026261190) 10000000)
  pure w

/-- 771-796: frodo gets his backstop deposit back, minus the draws, plus the donation -/
def liq7 : R World := do
  let w ← liq6
  let w0 := w
  let w ← step w (.backstop [frodo] (.queueWithdrawal frodo poolA 500000000000))
  let w := w.jump 3888000
  let w ← step w (.backstop [frodo] (.withdraw frodo poolA 500000000000))
  assertT (approx (w.balance lpA frodo - w0.balance lpA frodo) (500000000000 - 7171043530 - 43026261190 + 3137415968) 10000000)
  step w (.backstop [frodo] (.deposit frodo poolA 100000000))

/-- 798-907: samwise borrows again and ETH crashes; with hardly any backstop his bad debt is 0.92903008 STABLE shares, exactly, the
debt shares of the pool are 19104605847, exactly, and the fill writes the debt off -/
def liq8 : R Unit := do
  let w ← liq7
  let w ← submitT w samwise [⟨2, wethA, 1000000000⟩, ⟨4, stableA, 100000000⟩]
  let p0 := posT w samwise
  let w := w.prices 100000000 10000000 1000000 10000000
  let w ← step w (.pool poolA [] (.newLiquidation samwise 100))
  let a ← auctionT w 0 samwise
  assertT (approx (a.bid.bal stableA) (p0.liabilities.bal 0) 10000000)
  let w := w.jumpSeq 2005
  let w ← submitT w frodo [⟨6, samwise, 100⟩]
  let w ← submitT w samwise []
  let op := Op.pool poolA [] (.badDebt samwise)
  let es ← logOf w op
  assertT (match es with | [.badDebt p u t x] => decide (p = poolA ∧ u = samwise ∧ t = stableA ∧ x = 92903008) | _ => false)
  let w ← step w op
  let w ← step w (.pool poolA [] .newBadDebt)
  let w := w.jumpSeq 2005
  let w ← submitT w frodo [⟨4, stableA, 1⟩]
  let p1 := posT w frodo
  assertT (decide ((posT w backstopA).liabilities.toList = [(0, 92903008)]))
  let d ← unwrap ((w.pools poolA).resData stableA)
  assertT (d.dSupply = 19104605847)
  let op := Op.pool poolA [frodo] (.submit frodo frodo frodo [⟨7, backstopA, 100⟩])
  let es ← logOf w op
  let w ← step w op
  assertT (decide ((posT w frodo).liabilities.bal 0 = p1.liabilities.bal 0))
  assertT (decide ((posT w backstopA).liabilities.toList = []))
  let d ← unwrap ((w.pools poolA).resData stableA)
  assertT (d.dSupply = 19104605847 - 92903008)
  -- the last events are the bad debt and the fill
  assertT (match es.reverse with
    | .fillAuction _ u t f n :: .badDebt _ u' t' x :: _ =>
      decide (u = backstopA ∧ t = 1 ∧ f = frodo ∧ n = 100 ∧ u' = backstopA ∧ t' = stableA ∧ x = 92903008)
    | _ => false)

example : passes liq8 = true := by decide +kernel

/-- `test_user_restore_position_and_delete_liquidation` -/
def restoreTest : R Unit := do
  let w ← withData
  let w := w.give stableA samwise 1100000000
  let w ← submitT w samwise [⟨2, stableA, 1000000000⟩, ⟨4, xlmA, 60750000000⟩]
  let w := w.prices 20000000000 10000000 1200000 10000000
  let w ← step w (.pool poolA [] (.newLiquidation samwise 50))
  assertT ((w.pools poolA).auctions 0 samwise).isSome
  let w := w.jumpSeq 1000
  let m : Int := 170141183460469231731687303715884105727
  failsWith (submitT w samwise [⟨9, 999, m⟩]) (.pool .invalidHf)
  failsWith (submitT w samwise [⟨2, stableA, 79000000⟩, ⟨9, 999, m⟩]) (.pool .invalidHf)
  failsWith (submitT w samwise [⟨9, 999, m⟩, ⟨5, xlmA, 4490000000⟩]) (.pool .invalidHf)
  let w ← submitT w samwise [⟨2, stableA, 41000000⟩, ⟨9, 999, m⟩, ⟨5, xlmA, 2260000000⟩]
  assertT (approx ((posT w samwise).collateral.bal 0) 1041000000 10000)
  assertT (approx ((posT w samwise).liabilities.bal 1) 58490000000 10000000)
  assertT ((w.pools poolA).auctions 0 samwise).isNone

example : passes restoreTest = true := by decide +kernel

end Conformance
end Blend
