import Verif.Examples.Tests.Liquidation
/-
  `test_pool_user` and `test_pool_config`, `test-suites/tests/test_pool.rs` 18-530 and 535-897, and the two inflation attacks,
  `test_pool_inflation_attack.rs` and `test_backstop_inflation_attack.rs`, played by the model. Where a test reads `auths()`, the
  model is given exactly these authorizations, and refuses the call without them.
-/

namespace Blend
namespace Conformance
open Pool

/-- a call of the pool that needs exactly the authorization of these accounts; its events -/
def callAs (w : World) (auth : List Address) (c : Call) : R (List Event × World) := do
  if auth ≠ [] then failsWith (step w (.pool poolA (auth.drop 1) c)) .unauthorized
  let es ← logOf w (.pool poolA auth c)
  let w1 ← step w (.pool poolA auth c)
  pure (es, w1)

/-- `read_reserve_data` -/
def dataT (w : World) (a : Address) : R ReserveData := unwrap ((w.pools poolA).resData a)

/-- `test_pool_user` -/
def poolUserTest : R Unit := do
  let w ← withData
  let w := (w.give xlmA samwise 100000000000).give wethA samwise 1000000000
  let x0 := w.balance xlmA poolA
  let e0 := w.balance wethA poolA
  -- supply 0.5 WETH
  let (es, w) ← callAs w [samwise] (.submit samwise samwise samwise [⟨0, wethA, 500000000⟩])
  let r ← dataT w wethA
  assertT (w.balance wethA samwise = 500000000)
  assertT (w.balance wethA poolA = e0 + 500000000)
  let b1 ← fixedDivFloor 500000000 r.bRate 1000000000
  assertT (approx ((posT w samwise).supply.bal 2) b1 10)
  assertT (match es with
    | [.supply p t u n s] =>
      decide (p = poolA ∧ t = wethA ∧ u = samwise ∧ n = 500000000 ∧ s = (posT w samwise).supply.bal 2)
    | _ => false)
  -- a day later withdraw it
  let w := w.jump 86400
  let (es, w) ← callAs w [samwise] (.submit samwise samwise samwise [⟨1, wethA, 500000000⟩])
  let r ← dataT w wethA
  assertT (w.balance wethA samwise = 1000000000)
  assertT (w.balance wethA poolA = e0)
  let b2 ← fixedDivCeil 500000000 r.bRate 1000000000
  assertT (approx ((posT w samwise).supply.bal 2) (b1 - b2) 10)
  assertT (b1 - b2 ≠ 0)
  assertT (match es with
    | [.withdraw p t u n s] =>
      decide (p = poolA ∧ t = wethA ∧ u = samwise ∧ n = 500000000 ∧ s = b2)
    | _ => false)
  -- supply 5000 XLM as collateral
  let (es, w) ← callAs w [samwise] (.submit samwise samwise samwise [⟨2, xlmA, 50000000000⟩])
  let r ← dataT w xlmA
  assertT (w.balance xlmA samwise = 50000000000)
  assertT (w.balance xlmA poolA = x0 + 50000000000)
  let c1 ← fixedDivFloor 50000000000 r.bRate 1000000000
  assertT (approx ((posT w samwise).collateral.bal 1) c1 10)
  assertT (match es with
    | [.supplyCollateral p t u n s] =>
      decide (p = poolA ∧ t = xlmA ∧ u = samwise ∧ n = 50000000000 ∧ s = (posT w samwise).collateral.bal 1)
    | _ => false)
  -- borrow 0.1 WETH
  let (es, w) ← callAs w [samwise] (.submit samwise samwise samwise [⟨4, wethA, 100000000⟩])
  let r ← dataT w wethA
  assertT (w.balance wethA samwise = 1100000000)
  assertT (w.balance wethA poolA = e0 - 100000000)
  let d1 ← fixedDivCeil 100000000 r.dRate 1000000000
  assertT ((posT w samwise).liabilities.bal 2 = d1)
  assertT (match es with
    | [.borrow p t u n s] =>
      decide (p = poolA ∧ t = wethA ∧ u = samwise ∧ n = 100000000 ∧ s = (posT w samwise).liabilities.bal 2)
    | _ => false)
  -- six days later emissions are gulped, without authorization
  let w ← steps (w.jump 518400) [.emitter [] .distribute, .backstop [] .gulpEmissions, .pool poolA [] .gulpEmissions]
  -- withdraw and repay too much
  let (es, w) ← callAs w [samwise] (.submit samwise samwise samwise [⟨3, xlmA, 50100000000⟩, ⟨5, wethA, 110000000⟩])
  let r ← dataT w xlmA
  let x1 ← fixedMulFloor c1 r.bRate 1000000000
  assertT (approx (w.balance xlmA samwise) (50000000000 + x1) 10)
  assertT (approx (w.balance xlmA poolA) (x0 + 50000000000 - x1) 10)
  assertT ((posT w samwise).collateral.toList.length = 0)
  let r ← dataT w wethA
  let e1 ← fixedMulCeil d1 r.dRate 1000000000
  assertT (w.balance wethA samwise = 1100000000 - e1)
  assertT (approx (w.balance wethA poolA) (e0 - 100000000 + e1) 10)
  assertT ((posT w samwise).liabilities.toList.length = 0)
  assertT (match es with
    | [.withdrawCollateral p t u n s, .repay p' t' u' n' s'] =>
      decide (p = poolA ∧ t = xlmA ∧ u = samwise ∧ n = x1 ∧ s = c1 ∧ p' = poolA ∧ t' = wethA ∧ u' = samwise ∧ n' = e1 ∧ s' = d1)
    | _ => false)
  -- claim: 2940.3113155 BLND, exactly
  let w0 := w
  let (es, w) ← callAs w [samwise] (.claim samwise [3] samwise)
  assertT (w.balance blndA samwise = w0.balance blndA samwise + 29403113155)
  assertT (match es with
    | [.claim p u l n] =>
      decide (p = poolA ∧ u = samwise ∧ l = [3] ∧ n = 29403113155)
    | _ => false)

example : passes poolUserTest = true := by decide +kernel

/-- the status of the pool -/
def statusT (w : World) : R Nat := do
  let i ← unwrap (w.pools poolA).inst
  pure i.config.status

/-- `test_pool_config` -/
def poolConfigTest : R Unit := do
  let w ← withData
  assertT (¬ passes (step w (.pool poolA [] (.initialize 300 301 10000 4 302 303))))
  let (es, w) ← callAs w [bombadil] (.updatePool 500000 6)
  let i ← unwrap (w.pools poolA).inst
  assertT (i.config.bstopRate = 500000)
  assertT (match es with
    | [.updatePool p a r m] =>
      decide (p = poolA ∧ a = bombadil ∧ r = 500000 ∧ m = 6)
    | _ => false)
  let c := metadata 7 2000000 5000000 7500000
  let (_, w) ← callAs w [bombadil] (.queueSetReserve blndA c)
  let w := w.jump 604800
  let (es, w) ← callAs w [] (.setReserve blndA)
  let c' ← unwrap ((w.pools poolA).resConfig blndA)
  assertT (c'.lFactor = 5000000 ∧ c'.cFactor = 2000000 ∧ c'.index = 3)
  assertT (match es with
    | [.setReserve p a n] =>
      decide (p = poolA ∧ a = blndA ∧ n = 3)
    | _ => false)
  let (_, w) ← callAs w [bombadil] (.queueSetReserve blndA { c with cFactor := 0 })
  let w := w.jump 604800
  let (es, w) ← callAs w [] (.setReserve blndA)
  let c' ← unwrap ((w.pools poolA).resConfig blndA)
  assertT (c'.lFactor = 5000000 ∧ c'.cFactor = 0 ∧ c'.index = 3)
  assertT (match es with
    | [.setReserve p a n] =>
      decide (p = poolA ∧ a = blndA ∧ n = 3)
    | _ => false)
  -- a new admin; both authorize
  failsWith (step w (.pool poolA [bombadil] (.setAdmin merry))) .unauthorized
  let (es, w) ← callAs w [bombadil, merry] (.setAdmin merry)
  assertT (match es with
    | [.setAdmin p a b] =>
      decide (p = poolA ∧ a = bombadil ∧ b = merry)
    | _ => false)
  let (es, w) ← callAs w [merry] (.setStatus 2)
  assertT ((← statusT w) = 2)
  assertT (match es with
    | [.setStatus p a s] =>
      decide (p = poolA ∧ a = some merry ∧ s = 2)
    | _ => false)
  let (es, w) ← callAs w [merry] (.setStatus 0)
  assertT ((← statusT w) = 0)
  assertT (match es with
    | [.setStatus p a s] =>
      decide (p = poolA ∧ a = some merry ∧ s = 0)
    | _ => false)
  let w ← step w (.backstop [frodo] (.queueWithdrawal frodo poolA 250000000000))
  let (es, w) ← callAs w [] .updateStatus
  assertT ((← statusT w) = 3)
  assertT (match es with
    | [.setStatus p a s] =>
      decide (p = poolA ∧ a = none ∧ s = 3)
    | _ => false)
  let w ← step w (.backstop [frodo] (.dequeueWithdrawal frodo poolA 250000000000))
  let (es, w) ← callAs w [] .updateStatus
  assertT ((← statusT w) = 1)
  assertT (match es with
    | [.setStatus p a s] =>
      decide (p = poolA ∧ a = none ∧ s = 1)
    | _ => false)
  let (_, w) ← callAs w [merry] (.setEmissionsConfig [⟨0, 0, 4000000⟩, ⟨1, 1, 4000000⟩, ⟨3, 1, 2000000⟩])
  assertT (decide ((w.pools poolA).poolEmis.toList = [(0, 4000000), (3, 4000000), (7, 2000000)]))

example : passes poolConfigTest = true := by decide +kernel

/-- a pool with one reserve, `create_pool` and `create_pool_reserve` of the inflation attacks -/
def attackPool : R World := do
  let w ← created
  steps w [
    .factory [bombadil] (.deploy bombadil 0 oracleA 0 6),
    .pool poolA [bombadil] (.queueSetReserve xlmA (metadata 7 7500000 7500000 7500000)),
    .pool poolA [] (.setReserve xlmA)]

/-- somebody joins Comet for `n` shares, at 10 BLND and a quarter USDC each -/
def joined (w : World) (u : Address) (n : Int) : World :=
  let w := ((w.give blndA lpA (10 * n)).give usdcA lpA (n / 4)).give lpA u n
  { w with cometShares := w.cometShares + n }

/-- `test_pool_inflation_attack` -/
def poolInflationTest : R Unit := do
  let w ← attackPool
  let w := joined w merry 500000000000
  let w ← steps w [
    .backstop [merry] (.deposit merry poolA 500000000000),
    .backstop [] .updateTknVal,
    .pool poolA [bombadil] (.setStatus 0)]
  let w := w.jumpSeq 60
  let w := (w.give xlmA sauron 10000000000000).give xlmA pippin 10000000000000
  let w ← submitT w sauron [⟨0, xlmA, 1⟩]
  let w := w.jumpSeq 5
  let w ← step w (.tokenTransfer xlmA sauron poolA 1000000000)
  let w ← submitT w pippin [⟨0, xlmA, 420000000⟩]
  let w := w.jumpSeq 5
  let w ← submitT w sauron [⟨1, xlmA, 1420000000⟩]
  let w ← submitT w pippin [⟨1, xlmA, 1420000000⟩]
  assertT (w.balance xlmA pippin = 10000000000000)
  assertT (w.balance xlmA sauron = 10000000000000 - 1000000000)
  assertT (w.balance xlmA poolA = 1000000000)

example : passes poolInflationTest = true := by decide +kernel

/-- `test_backstop_inflation_attack` (the donation needs the authorization of the pool, which the test mocks) -/
def backstopInflationTest : R Unit := do
  let w ← attackPool
  let w := joined w merry 4000000000000
  let w ← steps w [.tokenTransfer lpA merry sauron 2000000000000, .tokenTransfer lpA merry pippin 2000000000000]
  let (n, w) ← Backstop.deposit w [sauron] sauron poolA 100
  let w ← step w (.tokenTransfer lpA sauron poolA 100000000000)
  let (m, w) ← Backstop.deposit w [pippin] pippin poolA 100
  assertT (m = 100)
  assertT (n = m)
  let w ← Backstop.donate w [sauron, poolA] sauron poolA 100000000000
  failsWith (Backstop.deposit w [pippin] pippin poolA 100) (.backstop .invalidShareMint)

example : passes backstopInflationTest = true := by decide +kernel

end Conformance
end Blend
