import Verif.Examples.Tests.PoolUser
/-
  `test_wasm_happy_path`, `test-suites/tests/test_wasm_happy_path.rs`, `test_backstop`, `test-suites/tests/test_backstop.rs`, and
  `test_emitter_no_reward_zone` and `test_emitter`, `test-suites/tests/test_emitter.rs`, played by the model. All claims are
  compared exactly. How many LP tokens Comet mints for BLND is taken from its formula, `supply * ((1 + in * (1 - 0.2 * fee) / balance) ^ 0.8 - 1)`
  (for the second claim two units of 1e-7 below its value: Comet rounds down on the way).
-/

namespace Blend
namespace Conformance
open Pool

/-- a claim of pool emissions and what it pays -/
def claimT (w : World) (u : Address) : R (Int × World) := do
  let w1 ← step w (.pool poolA [u] (.claim u [0, 3] u))
  assertT (w1.balance blndA backstopA = w.balance blndA backstopA - (w1.balance blndA u - w.balance blndA u))
  pure (w1.balance blndA u - w.balance blndA u, w1)

/-- a claim of backstop emissions and what it pays into Comet -/
def claimB (w : World) (u : Address) : R (Int × World) := do
  let w1 ← step w (.backstop [u] (.claim u [poolA] u))
  assertT (w1.balance blndA lpA - w.balance blndA lpA = w.balance blndA backstopA - w1.balance blndA backstopA)
  pure (w.balance blndA backstopA - w1.balance blndA backstopA, w1)

/-- emissions are distributed and gulped by the backstop and the pool -/
def gulpT (w : World) : R World := steps w [.emitter [] .distribute, .backstop [] .gulpEmissions, .pool poolA [] .gulpEmissions]

/-- 15-165: sam supplies XLM and borrows STABLE, merry supplies STABLE and borrows XLM -/
def happy1 : R World := do
  let w ← withData
  let w := ((w.give stableA samwise 60000000000).give stableA merry 250000000000)
  let w := ((w.give xlmA samwise 25000000000000).give xlmA merry 6000000000000)
  let w := { w with cometOut := fun x => if x = 25620000000 then 2048364995 else if x = 4207979972539 then 336293443148 else x / 13 }
  let s0 := w.balance stableA poolA
  let x0 := w.balance xlmA poolA
  let w ← submitT w merry [⟨2, stableA, 190000000000⟩]
  let r ← dataT w stableA
  assertT (w.balance stableA merry = 60000000000)
  assertT (w.balance stableA poolA = s0 + 190000000000)
  assertT (approx ((posT w merry).collateral.bal 0) (190000000000 * 1000000000 / r.bRate) 10)
  let w ← submitT w samwise [⟨2, xlmA, 19000000000000⟩]
  let r ← dataT w xlmA
  assertT (w.balance xlmA samwise = 6000000000000)
  assertT (w.balance xlmA poolA = x0 + 19000000000000)
  assertT (approx ((posT w samwise).collateral.bal 1) (19000000000000 * 1000000000 / r.bRate) 10)
  let w ← submitT w samwise [⟨4, stableA, 112000000000⟩]
  let r ← dataT w stableA
  assertT (w.balance stableA samwise = 172000000000)
  assertT (w.balance stableA poolA = s0 + 78000000000)
  assertT (approx ((posT w samwise).liabilities.bal 0) (112000000000 * 1000000000 / r.dRate) 10)
  let w ← submitT w merry [⟨4, xlmA, 11350000000000⟩]
  let r ← dataT w xlmA
  assertT (w.balance xlmA merry = 17350000000000)
  assertT (w.balance xlmA poolA = x0 + 7650000000000)
  assertT (approx ((posT w merry).liabilities.bal 1) (11350000000000 * 1000000000 / r.dRate) 10)
  pure w

/-- 167-250: claims of the emissions of the set-up and of three days -/
def happy2 : R World := do
  let w ← happy1
  let (n, w) ← claimT w frodo
  assertT (n = 10980000000)
  let (n, w) ← claimB w frodo
  assertT (n = 25620000000)
  let w := w.jump 259200
  let (n, w) ← claimT w frodo
  assertT (n = 46656384000)
  let (n, w) ← claimT w samwise
  assertT (n = 730943066650)
  pure w

/-- 252-360: repayments and withdrawals -/
def happy3 : R World := do
  let w ← happy2
  let w0 := w
  let w ← submitT w samwise [⟨5, stableA, 55000000000⟩]
  let r ← dataT w stableA
  assertT (w.balance stableA samwise = w0.balance stableA samwise - 55000000000)
  assertT (w.balance stableA poolA = w0.balance stableA poolA + 55000000000)
  assertT (approx ((posT w samwise).liabilities.bal 0) ((posT w0 samwise).liabilities.bal 0 - 55000000000 * 1000000000 / r.dRate) 10)
  let w ← submitT w merry [⟨5, xlmA, 5750000000000⟩]
  let r ← dataT w xlmA
  assertT (w.balance xlmA merry = w0.balance xlmA merry - 5750000000000)
  assertT (w.balance xlmA poolA = w0.balance xlmA poolA + 5750000000000)
  assertT (approx ((posT w merry).liabilities.bal 1) ((posT w0 merry).liabilities.bal 1 - 5750000000000 * 1000000000 / r.dRate) 10)
  let w1 := w
  let w ← submitT w samwise [⟨3, xlmA, 10000000000000⟩]
  let r ← dataT w xlmA
  assertT (w.balance xlmA samwise = w1.balance xlmA samwise + 10000000000000)
  assertT (w.balance xlmA poolA = w1.balance xlmA poolA - 10000000000000)
  assertT (approx ((posT w samwise).collateral.bal 1) ((posT w1 samwise).collateral.bal 1 - 10000000000000 * 1000000000 / r.bRate) 10)
  let w ← submitT w merry [⟨3, stableA, 100000000000⟩]
  let r ← dataT w stableA
  assertT (w.balance stableA merry = w1.balance stableA merry + 100000000000)
  assertT (w.balance stableA poolA = w1.balance stableA poolA - 100000000000)
  assertT (approx ((posT w merry).collateral.bal 0) ((posT w1 merry).collateral.bal 0 - 100000000000 * 1000000000 / r.bRate) 10)
  pure w

/-- 362-460: the rest of the week, then a year, with claims -/
def happy4 : R World := do
  let w ← happy3
  let w ← gulpT (w.jump 341940)
  let (n, w) ← claimT w frodo
  assertT (n = 116731656000)
  let (n, w) ← claimB w frodo
  assertT (n = 4207979972539)
  let (n, w) ← claimT w samwise
  assertT (n = 909088243725)
  let w ← gulpT (w.jump 30844800)
  let w ← gulpT (w.jump 604800)
  let (n, w) ← claimB w frodo
  assertT (n = 220147199950114)
  let (n, w) ← claimT w frodo
  assertT (n = 10736281628000)
  let (n, w) ← claimT w samwise
  assertT (n = 83612516449409)
  pure w

/-- 462-617: everything is repaid and withdrawn, and a part of the backstop deposit -/
def happy5 : R Unit := do
  let w ← happy4
  let d := (posT w samwise).liabilities.bal 0
  let w0 := w
  let w ← submitT w samwise [⟨5, stableA, -(-(d * 1100000000) / 1000000000)⟩]
  let r ← dataT w stableA
  let e := -(-(d * r.dRate) / 1000000000)
  assertT (approx (w.balance stableA samwise) (w0.balance stableA samwise - e) 100)
  assertT (approx (w.balance stableA poolA) (w0.balance stableA poolA + e) 100)
  assertT ((posT w samwise).liabilities.toList.length = 0)
  let d := (posT w merry).liabilities.bal 1
  let w ← submitT w merry [⟨5, xlmA, -(-(d * 1250000000) / 1000000000)⟩]
  let r ← dataT w xlmA
  let e := -(-(d * r.dRate) / 1000000000)
  assertT (approx (w.balance xlmA merry) (w0.balance xlmA merry - e) 100)
  assertT (approx (w.balance xlmA poolA) (w0.balance xlmA poolA + e) 100)
  assertT ((posT w merry).liabilities.toList.length = 0)
  let w0 := w
  let e := -(-((posT w samwise).collateral.bal 1 * r.bRate) / 1000000000)
  let w ← submitT w samwise [⟨3, xlmA, e⟩]
  assertT (approx (w.balance xlmA samwise) (w0.balance xlmA samwise + e) 10)
  assertT (approx (w.balance xlmA poolA) (w0.balance xlmA poolA - e) 10)
  assertT ((posT w samwise).collateral.get 1).isNone
  let r ← dataT w stableA
  let e := -(-((posT w merry).collateral.bal 0 * r.bRate) / 1000000000)
  let w ← submitT w merry [⟨3, stableA, e⟩]
  assertT (approx (w.balance stableA merry) (w0.balance stableA merry + e) 10)
  assertT (approx (w.balance stableA poolA) (w0.balance stableA poolA - e) 10)
  assertT ((posT w merry).collateral.get 0).isNone
  let w0 := w
  let w ← step w (.backstop [frodo] (.queueWithdrawal frodo poolA 5000000000))
  assertT (decide ((w.backstop.getUserBal poolA frodo).q4w = [⟨5000000000, w.time + 1814400⟩]))
  assertT (w.balance lpA frodo = w0.balance lpA frodo)
  let w := w.jump 2592001
  let (n, w) ← Backstop.withdraw w [frodo] frodo poolA 5000000000
  assertT (n = 5000000000)
  assertT (w.balance lpA frodo = w0.balance lpA frodo + 5000000000)
  assertT (w.balance lpA backstopA = w0.balance lpA backstopA - 5000000000)

example : passes happy5 = true := by decide +kernel

/-- `test_backstop`: the donation and the draw need the authorization of the pool, which the test mocks -/
def backstopTest : R Unit := do
  let w ← withData
  assertT (¬ passes (step w (.backstop [] (.initialize 300 301 302 303 304 []))))
  let w := joined (joined w samwise 125000000000) frodo 50000000000
  let w0 := w
  failsWith (step w (.backstop [] (.deposit samwise poolA 125000000000))) .unauthorized
  let (n, w) ← Backstop.deposit w [samwise] samwise poolA 125000000000
  assertT (n = 125000000000)
  assertT (w.balance lpA samwise = 0)
  assertT (w.balance lpA backstopA = w0.balance lpA backstopA + 125000000000)
  let w := w.jump 601200
  let w ← Backstop.donate w [frodo, poolA] frodo poolA 20000000000
  assertT (w.balance lpA frodo = w0.balance lpA frodo - 20000000000)
  assertT (w.balance lpA backstopA = w0.balance lpA backstopA + 145000000000)
  let w ← steps w [.emitter [] .distribute, .backstop [] .gulpEmissions]
  let es ← logOf w (.backstop [samwise] (.queueWithdrawal samwise poolA 125000000000))
  let w ← step w (.backstop [samwise] (.queueWithdrawal samwise poolA 125000000000))
  assertT (match es with
    | [.queueWithdrawal p u n e] => decide (p = poolA ∧ u = samwise ∧ n = 125000000000 ∧ e = w.time + 1814400)
    | _ => false)
  assertT (w.balance lpA samwise = 0)
  let w ← steps (w.jump 604800) [.emitter [] .distribute, .backstop [] .gulpEmissions]
  let w ← step w (.backstop [samwise] (.dequeueWithdrawal samwise poolA 62500000000))
  assertT (w.balance lpA samwise = 0)
  let w ← steps (w.jump 604800) [.emitter [] .distribute, .backstop [] .gulpEmissions]
  let w ← Backstop.draw w [poolA] poolA 10000000000 frodo
  assertT (w.balance lpA frodo = w0.balance lpA frodo - 10000000000)
  assertT (w.balance lpA backstopA = w0.balance lpA backstopA + 135000000000)
  let w := w.jump 1382401
  let (n, w) ← Backstop.withdraw w [samwise] samwise poolA 62500000000
  assertT (n = 62500000000 + 1000000000)
  assertT (w.balance lpA samwise = n)
  assertT (w.balance lpA backstopA = w0.balance lpA backstopA + 135000000000 - n)
  -- emissions of 6 days and 23 hours at a fifth, and of two weeks at a ninth, exactly
  let a : Int := (604800 - 3660) * 10000000 * (7000000 * 2000000 / 10000000) / 10000000
  let b : Int := (1209601 * 10000000 + 2096022) * (7000000 * 1111111 / 10000000) / 10000000
  let es ← logOf w (.backstop [samwise] (.claim samwise [poolA] samwise))
  let (m, w) ← claimB w samwise
  assertT (approx m (a + b) 10000000)
  assertT (match es.reverse with | .backstopClaim u n :: _ => decide (u = samwise ∧ n = a + b) | _ => false)

example : passes backstopTest = true := by decide +kernel

/-- `test_emitter_no_reward_zone` -/
def emitterNoZoneTest : R Unit := do
  let w ← created
  let w := w.give xlmA frodo 10000000000000
  let w := joined w frodo 100000000000000
  let w ← steps w [
    .factory [bombadil] (.deploy bombadil 0 oracleA 1000000 6),
    .pool poolA [bombadil] (.queueSetReserve stableA (metadata 6 9000000 9500000 8500000)),
    .pool poolA [] (.setReserve stableA),
    .pool poolA [bombadil] (.queueSetReserve xlmA (metadata 7 7500000 7500000 5000000)),
    .pool poolA [] (.setReserve xlmA),
    .pool poolA [bombadil] (.queueSetReserve wethA (metadata 9 8000000 8000000 7000000)),
    .pool poolA [] (.setReserve wethA),
    .pool poolA [bombadil] (.setEmissionsConfig [⟨1, 1, 10000000⟩])]
  assertT (w.balance blndA backstopA = 0)
  let w := w.jump 518400
  let (n, w) ← Emitter.distribute w
  assertT (n = 1123200 * 10000000)
  assertT (¬ passes (step w (.backstop [] .gulpEmissions)))
  assertT (w.balance blndA backstopA = 1123200 * 10000000)
  let (n, w) ← claimT w frodo
  assertT (n = 0)
  let (n, w) ← claimB w frodo
  assertT (n = 0)
  let w ← steps w [
    .backstop [frodo] (.deposit frodo poolA 500000000000),
    .backstop [] .updateTknVal,
    .pool poolA [bombadil] (.setStatus 3),
    .pool poolA [] .updateStatus]
  let w ← submitT w frodo [⟨2, xlmA, 1000000000000⟩]
  let w ← steps w [.backstop [] (.addReward poolA 999), .backstop [] .gulpEmissions]
  let es ← logOf w (.pool poolA [] .gulpEmissions)
  assertT (match es.reverse with | .updateEmissions p n :: _ => decide (p = poolA ∧ n = 1123200 * 3000000) | _ => false)
  let w ← step w (.pool poolA [] .gulpEmissions)
  let w := w.jump 604800
  let w0 := w
  let w ← step w (.pool poolA [frodo] (.claim frodo [0, 1, 2, 3] frodo))
  assertT (w.balance blndA frodo - w0.balance blndA frodo = 1123200 * 3000000 - 400000)
  let (n, _) ← claimB w frodo
  assertT (n = 1123200 * 7000000)

example : passes emitterNoZoneTest = true := by decide +kernel

/-- `test_emitter` -/
def emitterTest : R Unit := do
  let w ← withData
  assertT (¬ passes (step w (.emitter [] (.initialize 300 301 302))))
  let b0 := w.balance blndA backstopA
  let w := w.jump 518400
  let (n, w) ← Emitter.distribute w
  assertT (n = (518400 + 3660) * 10000000)
  assertT (w.balance blndA emitterA = 0)
  assertT (w.balance blndA backstopA = b0 + n)
  let w := joined w 400 (w.balance lpA backstopA + 1)
  let swap : Swap := ⟨400, lpA, w.time + 2678400⟩
  let es ← logOf w (.emitter [] (.queueSwap 400 lpA))
  assertT (match es with | [.queueSwap s] => decide (s = swap) | _ => false)
  let w ← step w (.emitter [] (.queueSwap 400 lpA))
  assertT (decide (w.emitter.inst.map (·.backstop) = some backstopA))
  let w := w.jump 432000
  let w ← step w (.tokenTransfer lpA 400 bombadil 5)
  let es ← logOf w (.emitter [] .cancelSwap)
  assertT (match es with | [.cancelSwap s] => decide (s = swap) | _ => false)
  let w ← step w (.emitter [] .cancelSwap)
  assertT (decide (w.emitter.inst.map (·.backstop) = some backstopA))
  let w ← step w (.tokenTransfer lpA bombadil 400 5)
  let w ← step w (.emitter [] (.queueSwap 400 lpA))
  let swap : Swap := ⟨400, lpA, w.time + 2678400⟩
  let w := w.jump (swap.unlockTime + 1)
  let es ← logOf w (.emitter [] .swapBackstop)
  assertT (match es with | [.swap s] => decide (s = swap) | _ => false)
  let w ← step w (.emitter [] .swapBackstop)
  assertT (decide (w.emitter.inst.map (·.backstop) = some 400))

example : passes emitterTest = true := by decide +kernel

/-- `test_pool_deposit_overflow_panics`, `test-suites/tests/test_overflow_flag.rs` 14-34 -/
def depositOverflowTest : R Unit := do
  let w ← withData
  let w := w.setBalance stableA poolA 0
  let w := w.give stableA samwise 170141183460469231731687303715884105727
  failsWith (submitT w samwise [⟨0, stableA, 170141183460469231731687303715884105717⟩]) .overflow

example : passes depositOverflowTest = true := by decide +kernel

/-- `test_auction_underflow_panics`, `test-suites/tests/test_overflow_flag.rs` 36-100 -/
def auctionUnderflowTest : R Unit := do
  let w ← withData
  let w := w.give xlmA samwise 5000000000000
  let w ← submitT w samwise [⟨2, xlmA, 60000000000⟩, ⟨4, stableA, 200000000⟩]
  let w := w.prices 10000000000 10000000 100 10000000
  let w ← step w (.pool poolA [] (.newLiquidation samwise 100))
  let a ← auctionT w 0 samwise
  failsWith (submitT w frodo [⟨6, samwise, 1⟩, ⟨5, stableA, a.bid.bal stableA⟩]) .overflow

example : passes auctionUnderflowTest = true := by decide +kernel

end Conformance
end Blend
