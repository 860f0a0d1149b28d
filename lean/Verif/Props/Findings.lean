import Verif.Props.Exits
import Verif.Props.Submit
import Verif.Props.Liquidatable
import Verif.Props.Backstop
/-
  Further runs that show what the contracts do not guarantee.
-/

namespace Blend
namespace Props
open Spec Pool Demo

/-- **C14** (finding) Utilization is not bounded at all after withdrawals, which are not checked: a supplier who sends tokens
to the pool (or uses tokens that are there for the backstop) can withdraw deposits that back debts. Here the debts of the
reserve are sixty times its deposits, and a day later every borrower owes four times as much as before. -/
theorem C14_above_one : ∃ w w' d d' n i c, Reachable w ∧ Reachable w' ∧
    (∃ w0, step w (.pool poolA [alice] (.submit alice alice alice [⟨1, usdcA, n⟩])) = .ok w0 ∧ step w0 (.ledger 86400 10000) = .ok w') ∧
    (w'.pools poolA).inst = some i ∧ (w'.pools poolA).resConfig usdcA = some c ∧ (w'.pools poolA).resData usdcA = some d ∧
    60 * (d.bSupply * d.bRate) ≤ d.dSupply * d.dRate ∧ Current (w'.pools poolA) w'.time usdcA d' ∧ 4 * d.dRate ≤ d'.dRate := by
  obtain ⟨w, w0, _, hr, hs, h⟩ := Demo.reach_step (ops := setup ++ trade ++ [.tokenTransfer usdcA dave poolA 60000000000])
    (op := .pool poolA [alice] (.submit alice alice alice [⟨1, usdcA, 499000000000⟩]))
    (f := fun _ w0 => okAnd (step w0 (.ledger 86400 10000)) fun w' => optAnd (w'.pools poolA).inst fun i =>
      optAnd ((w'.pools poolA).resConfig usdcA) fun c => optAnd ((w'.pools poolA).resData usdcA) fun d =>
      okAnd (accrue c i.config.bstopRate w'.time d) fun d' =>
      decide (60 * (d.bSupply * d.bRate) ≤ d.dSupply * d.dRate) && decide (4 * d.dRate ≤ d'.dRate)) (by decide +kernel)
  obtain ⟨w', hs', h⟩ := okAnd_iff.1 h
  obtain ⟨i, hi, h⟩ := optAnd_iff.1 h
  obtain ⟨c, hc, h⟩ := optAnd_iff.1 h
  obtain ⟨d, hd, h⟩ := optAnd_iff.1 h
  obtain ⟨d', hd', h⟩ := okAnd_iff.1 h
  rw [Bool.and_eq_true] at h
  exact ⟨w, w', d, d', _, i, c, hr, (hr.step hs).step hs', ⟨w0, hs, hs'⟩, hi, hc, hd, of_decide_eq_true h.1,
    ⟨c, d, i, hc, hd, hi, hd'⟩, of_decide_eq_true h.2⟩

/-- **C18, C20** (finding) A liquidation auction outlives its reason. Here bob's account could be liquidated; he repays all of his
debt and owes nothing, but the auction stands until he deletes it, and after 400 ledgers dave takes all of bob's collateral
and pays nothing. -/
theorem C18_debt_free_account_is_liquidated : ∃ w w1 w2 w' n, Reachable w ∧
    step w (.pool poolA [] (.newLiquidation bob 100)) = .ok w1 ∧
    step w1 (.pool poolA [bob] (.submit bob bob bob [⟨5, usdcA, n⟩])) = .ok w2 ∧
    (∀ i, i < (w2.pools poolA).resList.length → (accountOf (w2.pools poolA) bob).debt i = 0) ∧
    (accountOf (w2.pools poolA) bob).collateral 1 = 1000000000000 ∧
    (∃ w3, step w2 (.ledger 2000 401) = .ok w3 ∧ step w3 (.pool poolA [dave] (.submit dave dave dave [⟨6, bob, 100⟩])) = .ok w') ∧
    (accountOf (w'.pools poolA) bob).collateral 1 = 0 ∧ (accountOf (w'.pools poolA) dave).collateral 1 = 1000000000000 ∧
    (∀ i, i < (w'.pools poolA).resList.length → (accountOf (w'.pools poolA) dave).debt i = 0) ∧
    ∀ t, t ∈ [usdcA, xlmA, blndA, lpA] → w'.balance t dave = w.balance t dave := by
  obtain ⟨w, w1, _, hr, hs, h⟩ := Demo.reach_step (ops := setup ++ trade ++ emissions ++ [prices 1713150200 10000000 500000])
    (op := .pool poolA [] (.newLiquidation bob 100))
    (f := fun w w1 => okAnd (step w1 (.pool poolA [bob] (.submit bob bob bob [⟨5, usdcA, 100000000000⟩]))) fun w2 =>
      okAnd (step w2 (.ledger 2000 401)) fun w3 => okAnd (step w3 (.pool poolA [dave] (.submit dave dave dave [⟨6, bob, 100⟩]))) fun w' =>
      decide ((∀ i, i < (w2.pools poolA).resList.length → (accountOf (w2.pools poolA) bob).debt i = 0) ∧
        (accountOf (w2.pools poolA) bob).collateral 1 = 1000000000000 ∧
        (accountOf (w'.pools poolA) bob).collateral 1 = 0 ∧ (accountOf (w'.pools poolA) dave).collateral 1 = 1000000000000 ∧
        (∀ i, i < (w'.pools poolA).resList.length → (accountOf (w'.pools poolA) dave).debt i = 0) ∧
        ∀ t, t ∈ [usdcA, xlmA, blndA, lpA] → w'.balance t dave = w.balance t dave)) (by decide +kernel)
  obtain ⟨w2, hs2, h⟩ := okAnd_iff.1 h
  obtain ⟨w3, hs3, h⟩ := okAnd_iff.1 h
  obtain ⟨w', hs', h⟩ := okAnd_iff.1 h
  obtain ⟨h1, h2, h3, h4, h5, h6⟩ := of_decide_eq_true h
  exact ⟨w, w1, w2, w', _, hr, hs, hs2, h1, h2, ⟨w3, hs3, hs'⟩, h3, h4, h5, h6⟩

/-- **C58** (finding) The account under liquidation can make a fill fail: by repaying ten units of its asset just before it, bob
makes dave's fill of the whole auction, which would have gone through, fail, since less debt is left than the auction hands
over. (Fills of a smaller percentage, or later ones which hand over less debt, still go through.) -/
theorem C58_repayment_blocks_fill : ∃ w w', Reachable w ∧
    (∃ w1, step w (.pool poolA [dave] (.submit dave dave dave [⟨2, usdcA, 100000000000⟩, ⟨6, bob, 100⟩])) = .ok w1) ∧
    step w (.pool poolA [bob] (.submit bob bob bob [⟨5, usdcA, 10⟩])) = .ok w' ∧
    step w' (.pool poolA [dave] (.submit dave dave dave [⟨2, usdcA, 100000000000⟩, ⟨6, bob, 100⟩])) = .error (.pool .negativeAmount) := by
  obtain ⟨w, w', _, hr, hs, h⟩ := Demo.reach_step
    (ops := setup ++ trade ++ emissions ++ [prices 1713150200 10000000 500000, .pool poolA [] (.newLiquidation bob 100), .ledger 1000 101])
    (op := .pool poolA [bob] (.submit bob bob bob [⟨5, usdcA, 10⟩]))
    (f := fun w w' => okAnd (step w (.pool poolA [dave] (.submit dave dave dave [⟨2, usdcA, 100000000000⟩, ⟨6, bob, 100⟩]))) fun _ =>
      errIs (step w' (.pool poolA [dave] (.submit dave dave dave [⟨2, usdcA, 100000000000⟩, ⟨6, bob, 100⟩]))) (.pool .negativeAmount))
    (by decide +kernel)
  obtain ⟨w1, hw1, h⟩ := okAnd_iff.1 h
  exact ⟨w, w', hr, ⟨w1, hw1⟩, hs, errIs_iff.1 h⟩

/-- the way to a drained backstop: the depositors withdraw almost everything, then bad debt takes the rest -/
def drain : List Op := setup ++ trade ++ [
  .backstop [carol] (.queueWithdrawal carol poolA 499999000000),
  .ledger 1814400 362880,
  .backstop [carol] (.withdraw carol poolA 499999000000),
  prices 1714953600 10000000 1000,
  .pool poolA [] (.newLiquidation bob 100),
  .ledger 1000 201,
  .pool poolA [dave] (.submit dave dave dave [⟨2, usdcA, 500000000000⟩, ⟨6, bob, 99⟩]),
  .ledger 1000 200,
  prices 1714955600 10000000 1000,
  .pool poolA [dave] (.submit dave dave dave [⟨6, bob, 100⟩]),
  .pool poolA [] (.badDebt bob),
  .pool poolA [] .newBadDebt,
  .ledger 1000 201,
  prices 1714956600 10000000 1000,
  .pool poolA [dave] (.submit dave dave dave [⟨7, backstopA, 100⟩])]

/-- **C54** (finding) Once bad debt has taken all backstop tokens of a pool while there are still shares, nobody can deposit for
the pool again, and no interest or bad debt auction can be created for it: all of these divide by the number of tokens. -/
theorem C54_drained_backstop_blocks {w w' : World} {p : Address} {auth : List Address}
    (hsh : (w.backstop.getPoolBal p).shares ≠ 0) (htk : (w.backstop.getPoolBal p).tokens = 0) :
    (∀ u n, step w (.backstop auth (.deposit u p n)) ≠ .ok w') ∧ (∀ l, step w (.pool p auth (.newInterest l)) ≠ .ok w') ∧
      step w (.pool p auth .newBadDebt) ≠ .ok w' := by
  have key : ∀ {d : BackstopData} {s v : Int}, backstopData w p = .ok d → backstopTokenToBase d s = .ok v → False := by
    intro d s v h1 h2
    have hd : d.tokens = 0 := by
      unfold backstopData Backstop.loadPoolData at h1
      simp only [bind_ok] at h1
      obtain ⟨_, _, _, _, h1⟩ := h1
      split at h1
      · simp only [bind_ok, Prod.exists, pure_ok] at h1
        obtain ⟨_, _, _, _, _, _, _, _, _, rfl⟩ := h1
        exact htk
      · simp only [bind_ok, Prod.exists, pure_ok] at h1
        obtain ⟨_, _, _, _, _, _, _, _, _, rfl⟩ := h1
        exact htk
    simp only [backstopTokenToBase, fixedDivFloor, bind_ok, mulDivFloor_ok] at h2
    obtain ⟨_, _, _, _, _, hz, _⟩ := h2
    exact hz hd
  refine ⟨fun u n h => ?_, fun l h => ?_, fun h => ?_⟩
  · simp only [step, bind_ok, require_ok, backstopCall, Prod.exists, pure_ok] at h
    obtain ⟨_, _, m, w1, h, _⟩ := h
    have := (Backstop.deposit_res h).minted
    unfold Backstop.toShares at this
    rw [if_neg hsh] at this
    simp only [fixedMulFloor, mulDivFloor_ok] at this
    exact this.2.1 htk
  · simp only [step, bind_ok, require_ok, call, createInterest, createInterestData, Prod.exists] at h
    obtain ⟨_, _, _, _, _, _, _, ⟨_, _, _, _, _, _, _, _, _, _, _, _, _, _, _, _, _, _, _, hd, _, hb, _⟩, _⟩ := h
    exact key hd hb
  · simp only [step, bind_ok, require_ok, call, createBadDebt, createBadDebtData, Prod.exists] at h
    obtain ⟨_, _, _, _, _, _, _, ⟨_, _, _, _, _, _, _, _, _, _, _, _, _, _, _, _, _, hd, _, hb, _⟩, _⟩ := h
    exact key hd hb

/-- non-vacuity: the backstop of the demo pool is drained; carol has shares and backstop tokens, her deposit fails -/
example : ∃ w, Reachable w ∧ (w.backstop.getPoolBal poolA).shares ≠ 0 ∧ (w.backstop.getPoolBal poolA).tokens = 0 ∧
    10000000000 ≤ w.balance lpA carol ∧ step w (.backstop [carol] (.deposit carol poolA 10000000000)) = .error .divByZero := by
  obtain ⟨w, _, hr, h⟩ := Demo.reach (ops := drain)
    (f := fun w => decide ((w.backstop.getPoolBal poolA).shares ≠ 0 ∧ (w.backstop.getPoolBal poolA).tokens = 0 ∧ 10000000000 ≤ w.balance lpA carol) &&
      errIs (step w (.backstop [carol] (.deposit carol poolA 10000000000))) .divByZero) (by decide +kernel)
  rw [Bool.and_eq_true] at h
  obtain ⟨h1, h2, h3⟩ := of_decide_eq_true h.1
  exact ⟨w, hr, h1, h2, h3, errIs_iff.1 h.2⟩

/-- **C58** (finding) A liability factor of 0 is accepted as a reserve setting, and then nobody who owes to the reserve can be
liquidated, however insolvent. -/
theorem C58_zero_liability_factor {w w' : World} (hr : Reachable w) {p a u : Address} {auth : List Address} {c : ReserveConfig} {n : Nat}
    (hpr : PricesOk w (w.pools p)) (hc : (w.pools p).resConfig a = some c) (hz : c.lFactor = 0)
    (hd : (accountOf (w.pools p) u).debt c.index ≠ 0) : step w (.pool p auth (.newLiquidation u n)) ≠ .ok w' := by
  intro h
  obtain ⟨_, _, _, _, hcr⟩ := liquidation_created hr h hpr
  obtain ⟨pd, _, _, _, _, va, _⟩ := hcr.values
  obtain ⟨f, hf, _⟩ := va.liab
  have cfg := hr.base.cfg p
  have hl := cfg.idx a c hc
  obtain ⟨hlt, _⟩ := List.getElem?_eq_some_iff.1 hl
  rcases hf c.index hlt with ⟨h0, _⟩ | ⟨a', c', _, _, _, _, h1, h2, _, _, _, h3, _⟩
  · exact hd h0
  · rw [hl] at h1; cases h1
    rw [hc] at h2; cases h2
    omega

/-- non-vacuity: bob owes 6000 USDC against collateral worth 10; liability factor 0 has been set after a week -/
example : ∃ w c, Reachable w ∧ PricesOk w (w.pools poolA) ∧ (w.pools poolA).resConfig usdcA = some c ∧ c.lFactor = 0 ∧
    (accountOf (w.pools poolA) bob).debt c.index = 60000000000 ∧ (accountOf (w.pools poolA) bob).collateral 1 = 1000000000000 ∧
    FreshPrice w (w.pools poolA) xlmA 1000 := by
  obtain ⟨w, _, hr, h⟩ := Demo.reach (ops := setup ++ trade ++ [.pool poolA [adminA] (.queueSetReserve usdcA { usdcCfg with lFactor := 0 }),
      .ledger 604800 120960, .pool poolA [] (.setReserve usdcA), prices 1713744000 10000000 1000])
    (f := fun w => pricesOk w (w.pools poolA) && optAnd ((w.pools poolA).resConfig usdcA) fun c => decide (c.lFactor = 0 ∧
      (accountOf (w.pools poolA) bob).debt c.index = 60000000000 ∧ (accountOf (w.pools poolA) bob).collateral 1 = 1000000000000) &&
      okAnd (Cache.load (w.pools poolA)) fun cache => okAnd (loadPrice w cache.config xlmA) fun x => decide (x = 1000)) (by decide +kernel)
  rw [Bool.and_eq_true] at h
  obtain ⟨c, hc, h2⟩ := optAnd_iff.1 h.2
  rw [Bool.and_eq_true] at h2
  obtain ⟨e1, e2, e3⟩ := of_decide_eq_true h2.1
  obtain ⟨cache, hca, h3⟩ := okAnd_iff.1 h2.2
  obtain ⟨x, hx, h4⟩ := okAnd_iff.1 h3
  have := of_decide_eq_true h4
  subst this
  obtain ⟨ok0, _, _, i, hi, hci⟩ := load_ok (now := w.time) hca
  obtain ⟨ts, h5, h6⟩ := loadPrice_ok hx
  exact ⟨w, c, hr, pricesOk_iff h.1, hc, e1, e2, e3, i, ts, hi, by rw [← hci]; exact h5, h6⟩

/-- **C34** (finding) The last hypothesis of `C34_no_profit` is needed: an interest auction can be filled while nobody
holds backstop shares of the pool, and what was paid for the interest then belongs to whoever deposits first. Here the deposit of
one LP token is worth more than a hundred right after it. -/
theorem C34_first_deposit_takes_donations : ∃ w w', Reachable w ∧ step w (.backstop [carol] (.deposit carol poolA 10000000)) = .ok w' ∧
    (w.backstop.getPoolBal poolA).shares = 0 ∧ (w'.backstop.getUserBal poolA carol).shares = (w'.backstop.getPoolBal poolA).shares ∧
    100 * 10000000 < (w'.backstop.getPoolBal poolA).tokens := by
  obtain ⟨w, w', _, hr, hs, h⟩ := Demo.reach_step (ops := setup ++ trade ++ [
      .backstop [carol] (.queueWithdrawal carol poolA 500000000000),
      .ledger 630720000 362880,
      prices (1713139200 + 630720000) 10000000 1000000,
      .pool poolA [] (.newInterest [usdcA]),
      .backstop [carol] (.withdraw carol poolA 500000000000),
      .ledger 500 101,
      .pool poolA [carol] (.submit carol carol carol [⟨8, backstopA, 100⟩])])
    (op := .backstop [carol] (.deposit carol poolA 10000000))
    (f := fun w w' => decide ((w.backstop.getPoolBal poolA).shares = 0 ∧
      (w'.backstop.getUserBal poolA carol).shares = (w'.backstop.getPoolBal poolA).shares ∧
      100 * 10000000 < (w'.backstop.getPoolBal poolA).tokens)) (by decide +kernel)
  have h := of_decide_eq_true h
  exact ⟨w, w', hr, hs, h.1, h.2.1, h.2.2⟩

end Props
end Blend
