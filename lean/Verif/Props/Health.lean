import Verif.Lemmas.Liquidation
import Verif.Examples.HealthDemo
/-
  C09 health after risky submits, C18 creation of liquidations, C20 deletion of liquidations.
-/

namespace Blend
namespace Props
open Spec Pool Demo

/-- **C09**: after a submit with a withdrawal of collateral (3), a borrow (4), a fill of a liquidation (6) or bad debt
auction (7) or a deletion of a liquidation auction (9), an account with debt is healthy: at the oracle's prices and the
current rates its risk adjusted collateral is at least its risk adjusted debt, and at least 1.00001 times that if the
oracle has 5 or more decimals. -/
theorem C09_health {w w' : World} (hr : Reachable w) {p : Address} {auth : List Address} {sender spender dst : Address}
    {reqs : List Request} (h : step w (.pool p auth (.submit sender spender dst reqs)) = .ok w') (hprice : PricesOk w (w.pools p))
    (hq : ∃ q ∈ reqs, q.type = 3 ∨ q.type = 4 ∨ q.type = 6 ∨ q.type = 7 ∨ q.type = 9)
    {i : Nat} (hd : (accountOf (w'.pools p) sender).debt i ≠ 0) :
    Healthy w' (w'.pools p) (getPositions (w'.pools p) sender) := by
  refine submit_healthy hr h hprice ?_ ?_
  · obtain ⟨q, hm, ht⟩ := hq
    exact List.any_eq_true.2 ⟨q, hm, by simpa [risky] using ht⟩
  · intro he
    apply hd
    show (getPositions (w'.pools p) sender).liabilities.bal i = 0
    unfold SMap.bal
    cases hg : (getPositions (w'.pools p) sender).liabilities.get i with
    | none => rfl
    | some v => have := SMap.mem_toList.2 hg; rw [he] at this; cases this

/-- non-vacuity: bob borrows against his collateral -/
example : ∃ w w', Reachable w ∧ step w (.pool poolA [bob] (.submit bob bob bob [⟨2, xlmA, 1000000000000⟩, ⟨4, usdcA, 60000000000⟩])) = .ok w' ∧
    PricesOk w (w.pools poolA) ∧ (accountOf (w'.pools poolA) bob).debt 0 ≠ 0 := by
  obtain ⟨w, w', _, hr, hs, h⟩ := Demo.reach_step (ops := setup ++ trade.take 2)
    (op := .pool poolA [bob] (.submit bob bob bob [⟨2, xlmA, 1000000000000⟩, ⟨4, usdcA, 60000000000⟩]))
    (f := fun w w' => pricesOk w (w.pools poolA) && decide ((accountOf (w'.pools poolA) bob).debt 0 ≠ 0)) (by decide +kernel)
  rw [Bool.and_eq_true] at h
  exact ⟨w, w', hr, hs, pricesOk_iff h.1, of_decide_eq_true h.2⟩

/-- **C09 (limit)**: with an oracle of less than 5 decimals the buffer of 1.00001 is lost: the same borrow that leaves no
buffer at all is accepted with an oracle of 4 decimals and rejected with one of 7 decimals. -/
theorem C09_buffer_needs_decimals :
    (∃ w w' v, Reachable w ∧ step w (.pool poolA [bob] (.submit bob bob bob [⟨2, xlmA, 400000000000⟩, ⟨4, usdcA, 270000000000⟩])) = .ok w' ∧
      PriceDecimals w' (w'.pools poolA) 4 ∧ 0 < v ∧ CollateralValue w' (w'.pools poolA) (getPositions (w'.pools poolA) bob) v ∧
      LiabilityValue w' (w'.pools poolA) (getPositions (w'.pools poolA) bob) v) ∧
    ∃ w, Reachable w ∧ step w (.pool poolA [bob] (.submit bob bob bob [⟨2, xlmA, 400000000000⟩, ⟨4, usdcA, 270000000000⟩])) =
      .error (.pool .invalidHf) := by
  constructor
  · obtain ⟨w, w', _, hr, hs, h⟩ := Demo.reach_step (ops := setup ++ trade.take 2 ++ [oracleWith 4 1713139200 10000 10000])
      (op := .pool poolA [bob] (.submit bob bob bob [⟨2, xlmA, 400000000000⟩, ⟨4, usdcA, 270000000000⟩]))
      (f := fun _ w' => w'.poolAddr poolA && okAnd (Cache.load (w'.pools poolA)) fun c =>
        okAnd (calcPositionData w' (w'.pools poolA) c (getPositions (w'.pools poolA) bob)) fun x =>
          decide (x.1.collateralBase = 300000000 ∧ x.1.liabilityBase = 300000000 ∧ x.1.scalar = 10 ^ 4)) (by decide +kernel)
    rw [Bool.and_eq_true] at h
    obtain ⟨hp, h⟩ := h
    obtain ⟨c, hc, h⟩ := okAnd_iff.1 h
    obtain ⟨⟨pd, c'⟩, hpd, h⟩ := okAnd_iff.1 h
    obtain ⟨e1, e2, e3⟩ := of_decide_eq_true h
    obtain ⟨ok0, hr0, _, _⟩ := load_ok (now := w'.time) hc
    have cur0 : CacheCur (w'.pools poolA) (w'.pools poolA) w'.time c := by
      have := CacheCur.of ok0 []
      rwa [overlay_loaded hr0] at this
    have hr' := hr.step hs
    obtain ⟨_, va⟩ := calcPositionData_ok cur0 (hr'.bal_nonneg hp bob .coll) (hr'.bal_nonneg hp bob .liab) hpd
    refine ⟨w, w', 300000000, hr, hs, ?_, by decide, e1 ▸ va.coll, e2 ▸ va.liab⟩
    obtain ⟨n, hn, hsc⟩ := va.scalar
    have : n = 4 := Nat.pow_right_injective (le_refl 2) (by
      have : (10 : Int) ^ n = 10 ^ 4 := hsc.symm.trans e3
      have h10 : n = 4 := Nat.pow_right_injective (by decide : 2 ≤ 10) (by exact_mod_cast this)
      rw [h10])
    exact this ▸ hn
  · obtain ⟨w, _, hr, h⟩ := Demo.reach (ops := setup ++ trade.take 2)
      (f := fun w => errIs (step w (.pool poolA [bob] (.submit bob bob bob [⟨2, xlmA, 400000000000⟩, ⟨4, usdcA, 270000000000⟩]))) (.pool .invalidHf))
      (by decide +kernel)
    exact ⟨w, hr, errIs_iff.1 h⟩

/-- **C20**: an account that deletes its liquidation auction in a submit has no debt or is healthy after it. -/
theorem C20_healthy {w w' : World} (hr : Reachable w) {p : Address} {auth : List Address} {sender spender dst : Address}
    {reqs : List Request} (h : step w (.pool p auth (.submit sender spender dst reqs)) = .ok w') (hprice : PricesOk w (w.pools p))
    (hq : ∃ q ∈ reqs, q.type = 9) :
    (∀ i, (accountOf (w'.pools p) sender).debt i = 0) ∨ Healthy w' (w'.pools p) (getPositions (w'.pools p) sender) := by
  by_cases hd : ∀ i, (accountOf (w'.pools p) sender).debt i = 0
  · exact .inl hd
  · push Not at hd
    obtain ⟨i, hi⟩ := hd
    obtain ⟨q, hm, ht⟩ := hq
    exact .inr (C09_health hr h hprice ⟨q, hm, by simp [ht]⟩ hi)

/-- **C20**: a liquidation auction disappears or changes only in a submit of the account itself that deletes it (9), in a
submit of someone else that fills it (6), or when the ledger drops the temporary entry. -/
theorem C20_only_owner {w w' : World} (hr : Reachable w) {op : Op} (h : step w op = .ok w') {p u : Address} {a : AuctionData}
    (ha : (w.pools p).auctions 0 u = some a) (hc : (w'.pools p).auctions 0 u ≠ some a) :
    (∃ auth spender dst reqs, op = .pool p auth (.submit u spender dst reqs) ∧ u ∈ auth ∧ ∃ q ∈ reqs, q.type = 9) ∨
    (∃ auth sender spender dst reqs, op = .pool p auth (.submit sender spender dst reqs) ∧ ∃ q ∈ reqs, q.type = 6 ∧ q.address = u) ∨
    op = .expireAuction p 0 u := by
  rcases auction_step hr.base h p 0 u with e | hch
  · rw [e] at hc; exact absurd ha hc
  · generalize (w'.pools p).auctions 0 u = x at hch
    cases hch with
    | liquidation auth n i a' ps _ _ _ _ hcr =>
      unfold createUserLiq at hcr
      simp only [bind_ok, require_ok] at hcr
      obtain ⟨_, hn, _⟩ := hcr
      rw [ha] at hn; simp at hn
    | badDebt _ _ _ h0 => cases h0
    | interest _ _ _ _ h0 => cases h0
    | submit auth sender spender dst reqs q _ hq hr' =>
      unfold reqAuction at hr'
      by_cases h6 : q.type = 6
      · rw [if_pos h6] at hr'; cases hr'
        exact .inr (.inl ⟨_, _, _, _, _, rfl, q, hq, h6, rfl⟩)
      · rw [if_neg h6] at hr'
        split at hr'
        · cases hr'
        · split at hr'
          · cases hr'
          · split at hr'
            · rename_i h9
              cases hr'
              have hauth := (submit_view hr h).2
              obtain ⟨_, _, v⟩ := hauth
              exact .inl ⟨_, _, _, _, rfl, v.auths.1, q, hq, h9⟩
            · cases hr'
    | expire => exact .inr (.inr rfl)

/-- **C18**: a liquidation auction is created only for 1 to 100 percent, never against the pool or the backstop, and only if
the account's risk adjusted collateral does not exceed its risk adjusted debt at the current prices and rates. -/
theorem C18_only_unhealthy {w w' : World} (hr : Reachable w) {p u : Address} {auth : List Address} {n : Nat}
    (h : step w (.pool p auth (.newLiquidation u n)) = .ok w') (hprice : PricesOk w (w.pools p)) :
    1 ≤ n ∧ n ≤ 100 ∧ u ≠ p ∧ (∀ i, (w.pools p).inst = some i → u ≠ i.backstop) ∧
    ∃ C L, CollateralValue w (w.pools p) (getPositions (w.pools p) u) C ∧
      LiabilityValue w (w.pools p) (getPositions (w.pools p) u) L ∧ C ≤ L := by
  obtain ⟨h1, h2, a, _, c⟩ := liquidation_created hr h hprice
  obtain ⟨pd, dec, pct, wd, share, va, _, hle, _⟩ := c.values
  exact ⟨c.range.1, c.range.2, h1, h2, _, _, va.coll, va.liab, hle⟩

/-- **C18**: the terms of a new liquidation auction: it starts in the next ledger and lists, for each reserve of the pool,
`n` percent of the debt (rounded up) and the share of the collateral given by the documented incentive (rounded up),
never more than what the account has, and nothing else. -/
theorem C18_terms {w w' : World} (hr : Reachable w) {p u : Address} {auth : List Address} {n : Nat}
    (h : step w (.pool p auth (.newLiquidation u n)) = .ok w') (hprice : PricesOk w (w.pools p)) :
    ∃ a, (w'.pools p).auctions 0 u = some a ∧ a.block = w.seq + 1 ∧
    ∃ C Cr L Lr dec pct wd share, CollateralValue w (w.pools p) (getPositions (w.pools p) u) C ∧
      RawCollateral w (w.pools p) (getPositions (w.pools p) u) Cr ∧ LiabilityValue w (w.pools p) (getPositions (w.pools p) u) L ∧
      RawLiability w (w.pools p) (getPositions (w.pools p) u) Lr ∧ PriceDecimals w (w.pools p) dec ∧
      LiquidationShare (10 ^ dec) C Cr L Lr n pct wd share ∧
      (∀ i x, (w.pools p).resList[i]? = some x →
        IsCeil (a.lot.bal x) ((accountOf (w.pools p) u).collateral i * share) (10 ^ dec) ∧ a.lot.bal x ≤ (accountOf (w.pools p) u).collateral i ∧
        IsCeil (a.bid.bal x) ((accountOf (w.pools p) u).debt i * pct) (10 ^ dec) ∧ a.bid.bal x ≤ (accountOf (w.pools p) u).debt i) ∧
      (∀ x, x ∉ (w.pools p).resList → a.lot.get x = none ∧ a.bid.get x = none) := by
  obtain ⟨_, _, a, ha, c⟩ := liquidation_created hr h hprice
  have hp : w.poolAddr p = true := by
    simp only [step, bind_ok, require_ok] at h; exact h.choose_spec.1
  obtain ⟨pd, dec, pct, wd, share, va, hdec, hle, h0, hr0, hq, hamt, hnone, _⟩ := c.values
  refine ⟨a, ha, c.block, _, _, _, _, dec, pct, wd, share, va.coll, va.collRaw, va.liab, va.liabRaw, hdec, hq, fun i x hi => ?_, hnone⟩
  obtain ⟨e1, e2⟩ := hamt i x hi
  have hS : (0 : Int) < 10 ^ dec := by positivity
  have p1 : pct ≤ 10 ^ dec := by
    have := hq.1.1
    have hn : (n : Int) ≤ 100 := by exact_mod_cast c.range.2
    nlinarith
  have p2 : share ≤ 10 ^ dec := by
    obtain ⟨_, _, _, _, _, _, sh, _, _, _, _, _, _, _, e⟩ := hq
    rw [e]; exact min_le_left _ _
  refine ⟨e1, ?_, e2, ?_⟩
  · have b0 := hr.bal_nonneg hp u .coll i
    exact ceil_le e1 hS b0 p2
  · have b0 := hr.bal_nonneg hp u .liab i
    exact ceil_le e2 hS b0 p1

/-- **C18**: after the whole of a partial liquidation (less than 100 percent) the account would have a health factor of at
least 1.03 and of at most 1.15 up to one unit of the oracle's precision; otherwise the creation is rejected. (For an oracle
of 2 or more decimals.) -/
theorem C18_health_after {w w' : World} (hr : Reachable w) {p u : Address} {auth : List Address} {n : Nat}
    (h : step w (.pool p auth (.newLiquidation u n)) = .ok w') (hprice : PricesOk w (w.pools p)) (hn : n < 100)
    {dec : Nat} (hdec : PriceDecimals w (w.pools p) dec) (h2 : 2 ≤ dec) :
    ∃ a pos' C L, (w'.pools p).auctions 0 u = some a ∧ LeftAfter (w.pools p) (getPositions (w.pools p) u) a.lot a.bid pos' ∧
      CollateralValue w (w.pools p) pos' C ∧ LiabilityValue w (w.pools p) pos' L ∧ 0 < L ∧
      103 * L ≤ 100 * C ∧ 100 * 10 ^ dec * C < (115 * 10 ^ dec + 100) * L := by
  obtain ⟨_, _, a, ha, c⟩ := liquidation_created hr h hprice
  obtain ⟨pd, dec', pct, wd, share, _, hdec', _, _, _, _, _, _, _, hpart⟩ := c.values
  obtain ⟨pos', pd', hleft, va, hC, hL, hsc, hover, hunder⟩ := hpart hn
  have : dec' = dec := by
    obtain ⟨i, hi, e⟩ := hdec
    obtain ⟨i', hi', e'⟩ := hdec'
    rw [hi] at hi'; cases hi'
    rw [← e, ← e']
  subst this
  obtain ⟨k', e1, e2, e3⟩ := isHfOver_false hsc hL hover
  obtain ⟨k, ⟨f1, f2⟩ | f0⟩ := isHfUnder_false hsc hC hL hunder
  · obtain ⟨g1, g2⟩ := hf_bounds h2 f1 e1 f2 e2
    exact ⟨a, pos', _, _, ha, hleft, va.coll, va.liab, e3, g1, g2⟩
  · omega

/-- **C18**: a liquidation of 100 percent takes over all the collateral and all the debt of the account. -/
theorem C18_full {w w' : World} (hr : Reachable w) {p u : Address} {auth : List Address}
    (h : step w (.pool p auth (.newLiquidation u 100)) = .ok w') (hprice : PricesOk w (w.pools p)) :
    ∃ a, (w'.pools p).auctions 0 u = some a ∧ ∀ i x, (w.pools p).resList[i]? = some x →
      a.lot.bal x = (accountOf (w.pools p) u).collateral i ∧ a.bid.bal x = (accountOf (w.pools p) u).debt i := by
  obtain ⟨_, _, a, ha, c⟩ := liquidation_created hr h hprice
  obtain ⟨pd, dec, pct, wd, share, va, hdec, hle, h0, hr0, hq, hamt, hnone, hfull, _⟩ := c.values
  have hw := hfull rfl
  obtain ⟨hp1, cf, lf, ratio, half, x', sh, _, _, _, _, _, _, hsh, hshare⟩ := hq
  have hS : (0 : Int) < 10 ^ dec := by positivity
  have e1 : pct = 10 ^ dec := by
    obtain ⟨a1, a2⟩ := hp1
    simp only [Nat.cast_ofNat] at a1 a2
    omega
  have e2 : share = 10 ^ dec := by
    rw [hshare]
    refine min_eq_left ?_
    obtain ⟨_, b2⟩ := hsh
    by_contra hlt
    push Not at hlt
    have : sh * pd.collateralRaw < 10 ^ dec * pd.collateralRaw := Int.mul_lt_mul_of_pos_right hlt hr0
    nlinarith
  refine ⟨a, ha, fun i x hi => ?_⟩
  obtain ⟨e3, e4⟩ := hamt i x hi
  rw [e2] at e3
  rw [e1] at e4
  exact ⟨ceil_unit e3 hS, ceil_unit e4 hS⟩

/-- non-vacuity of the C18 theorems: bob is liquidated for 60 percent -/
example : ∃ w w', Reachable w ∧ step w (.pool poolA [] (.newLiquidation bob 60)) = .ok w' ∧ PricesOk w (w.pools poolA) ∧
    PriceDecimals w (w.pools poolA) 7 := by
  obtain ⟨w, w', _, hr, hs, h⟩ := Demo.reach_step (ops := setup ++ trade ++ emissions ++ claims ++ liquidation.take 1)
    (op := .pool poolA [] (.newLiquidation bob 60))
    (f := fun w w' => pricesOk w (w.pools poolA) && optAnd (w.pools poolA).inst fun i => decide ((w.oracle i.config.oracle).decimals = 7))
    (by decide +kernel)
  rw [Bool.and_eq_true] at h
  obtain ⟨i, hi, h2⟩ := optAnd_iff.1 h.2
  exact ⟨w, w', hr, hs, pricesOk_iff h.1, i, hi, of_decide_eq_true h2⟩

/-- non-vacuity of `C18_full`: bob is liquidated for 100 percent after a crash -/
example : ∃ w w', Reachable w ∧ step w (.pool poolA [] (.newLiquidation bob 100)) = .ok w' ∧ PricesOk w (w.pools poolA) := by
  obtain ⟨w, w', _, hr, hs, h⟩ := Demo.reach_step (ops := setup ++ trade ++ emissions ++ claims ++ liquidation ++ queue ++ crash.take 3)
    (op := .pool poolA [] (.newLiquidation bob 100)) (f := fun w w' => pricesOk w (w.pools poolA)) (by decide +kernel)
  exact ⟨w, w', hr, hs, pricesOk_iff h⟩

/-- non-vacuity of the C20 theorems: bob repays some debt and deletes his liquidation auction -/
example : ∃ w w' a, Reachable w ∧
    step w (.pool poolA [bob] (.submit bob bob bob [⟨5, usdcA, 30000000000⟩, ⟨9, usdcA, 0⟩])) = .ok w' ∧ PricesOk w (w.pools poolA) ∧
    (w.pools poolA).auctions 0 bob = some a ∧ (w'.pools poolA).auctions 0 bob = none ∧ (accountOf (w'.pools poolA) bob).debt 0 ≠ 0 := by
  obtain ⟨w, w', _, hr, hs, h⟩ := Demo.reach_step (ops := setup ++ trade ++ emissions ++ claims ++ liquidation.take 2)
    (op := .pool poolA [bob] (.submit bob bob bob [⟨5, usdcA, 30000000000⟩, ⟨9, usdcA, 0⟩]))
    (f := fun w w' => pricesOk w (w.pools poolA) && optAnd ((w.pools poolA).auctions 0 bob) fun _ =>
      decide (((w'.pools poolA).auctions 0 bob).isNone = true ∧ (accountOf (w'.pools poolA) bob).debt 0 ≠ 0)) (by decide +kernel)
  rw [Bool.and_eq_true] at h
  obtain ⟨a, ha, h2⟩ := optAnd_iff.1 h.2
  obtain ⟨h3, h4⟩ := of_decide_eq_true h2
  exact ⟨w, w', a, hr, hs, pricesOk_iff h.1, ha, Option.isNone_iff_eq_none.1 h3, h4⟩

end Props
end Blend
