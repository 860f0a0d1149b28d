import Verif.Lemmas.LiveLiq
import Verif.Props.Exits
import Verif.Examples.HealthDemo
/-
  C58: insolvent accounts can always be liquidated; some merely unhealthy accounts cannot.
-/

namespace Blend
namespace Props
open Spec Pool Demo

variable {w : World} {p u : Address} {auth : List Address} {i : PoolInst} {C Cr L Lr : Int}

/-- **C58** Whenever an account with some collateral is insolvent (its debt is worth at least its collateral, both at fresh
oracle prices and with interest accrued) and has no liquidation auction yet, anybody can put all of it up for auction: the
call can fail only by an arithmetic overflow, whatever the status of the pool, the auctions of others, or the state of its
reserves. -/
theorem C58_insolvent_fails_only (hr : Reachable w) (hp : w.poolAddr p = true) (hauth : ∀ x ∈ auth, ¬ w.isProtocol x)
    (hi : (w.pools p).inst = some i) (hup : u ≠ p) (hub : u ≠ i.backstop) (hnone : (w.pools p).auctions 0 u = none)
    (hpr : PricesOk w (w.pools p)) (hv : Values w (w.pools p) (getPositions (w.pools p) u) C Cr L Lr) (hC : 0 < Cr) (hin : Cr ≤ Lr)
    {e : Err} (h : step w (.pool p auth (.newLiquidation u 100)) = .error e) : e = .overflow := by
  obtain ⟨o1, o2, o3, o4⟩ := values_order hv hpr (hr.ratesPos hp) (hr.base.cfg p) (hr.bal_nonneg hp u .coll) (hr.bal_nonneg hp u .liab)
  have := newLiquidation_live (E := Unexpected False) hr hp hauth hi hup hub hnone hpr hv (by omega) hC (by omega)
    (fun n pct wd share _ hls => le_trans hin (liqQuote_all (one_le_pow₀ (by decide)) o2 hC o4 (by omega) hls))
    (fun hE => by rw [unexpected_overflow] at hE; cases hE)
  rcases of_unexpected this h with h | ⟨_, h⟩
  · exact h
  · exact h.elim

/-- **C58** For accounts of ordinary size no overflow happens: the auction of all of the account is created, offering all of
its collateral for all of its debt. -/
theorem C58_insolvent_succeeds (hr : Reachable w) (hp : w.poolAddr p = true) (hauth : ∀ x ∈ auth, ¬ w.isProtocol x)
    (hi : (w.pools p).inst = some i) (hup : u ≠ p) (hub : u ≠ i.backstop) (hnone : (w.pools p).auctions 0 u = none)
    (hpr : PricesOk w (w.pools p)) (hv : Values w (w.pools p) (getPositions (w.pools p) u) C Cr L Lr) (hC : 0 < Cr) (hin : Cr ≤ Lr)
    (ho : Ordinary w (w.pools p) (getPositions (w.pools p) u) Cr L) :
    ∃ w' a, step w (.pool p auth (.newLiquidation u 100)) = .ok w' ∧ (w'.pools p).auctions 0 u = some a ∧ a.block = w.seq + 1 ∧
      ∀ k x, (w.pools p).resList[k]? = some x → a.lot.bal x = (accountOf (w.pools p) u).collateral k ∧
        a.bid.bal x = (accountOf (w.pools p) u).debt k := by
  obtain ⟨o1, o2, o3, o4⟩ := values_order hv hpr (hr.ratesPos hp) (hr.base.cfg p) (hr.bal_nonneg hp u .coll) (hr.bal_nonneg hp u .liab)
  have hq : ∀ n pct wd share, LiquidationShare (10 ^ n) C Cr L Lr 100 pct wd share → Lr ≤ wd := fun n pct wd share hls =>
    liqQuote_all (one_le_pow₀ (by decide)) o2 hC o4 (by omega) hls
  obtain ⟨w', hw'⟩ := ok_of_noErr (newLiquidation_live hr hp hauth hi hup hub hnone hpr hv (by omega) hC (by omega)
    (fun n pct wd share _ hls => le_trans hin (hq n pct wd share hls)) (fun _ => ho))
  obtain ⟨_, _, a, ha, hcr⟩ := liquidation_created hr hw' hpr
  refine ⟨w', a, hw', ha, hcr.block, fun k x hk => ?_⟩
  obtain ⟨pd, n, pct, wd, share, va, hn, _, _, hcr0, hls, hamt, _⟩ := hcr.values
  obtain ⟨rfl, rfl, rfl, rfl⟩ := values_unique hv ⟨va.coll, va.collRaw, va.liab, va.liabRaw⟩
  have hS : (0 : Int) < 10 ^ n := by positivity
  have hwd := hq n pct wd share hls
  obtain ⟨hpc, cf, lf, ratio, half, y, sh, _, _, _, _, _, _, h7, h8⟩ := hls
  have hpct : pct = 10 ^ n := floor_unique hpc (⟨by push_cast; omega, by push_cast; omega⟩ : IsFloor (10 ^ n) (((100 : Nat) : Int) * 10 ^ n) 100) (by decide)
  have hsh : (10 : Int) ^ n ≤ sh := by
    have k2 := h7.2
    by_contra hlt
    have e1 : sh * pd.collateralRaw ≤ (10 ^ n - 1) * pd.collateralRaw := mul_le_mul_of_nonneg_right (by omega) hC.le
    have e2 : pd.collateralRaw * 10 ^ n ≤ wd * 10 ^ n := mul_le_mul_of_nonneg_right (by omega) hS.le
    nlinarith
  have hshare : share = 10 ^ n := by rw [h8]; omega
  obtain ⟨l1, l2⟩ := hamt k x hk
  rw [hpct] at l2
  rw [hshare] at l1
  exact ⟨ceil_unit l1 hS, ceil_unit l2 hS⟩

/-- the values of an account, computed -/
def valuesOf (w : World) (p u : Address) : R PositionData := do
  let cache ← Cache.load (w.pools p)
  let (pd, _) ← calcPositionData w (w.pools p) cache (getPositions (w.pools p) u)
  pure pd

theorem valuesOf_ok (hr : Reachable w) (hp : w.poolAddr p = true) {pd : PositionData} (h : valuesOf w p u = .ok pd) :
    Values w (w.pools p) (getPositions (w.pools p) u) pd.collateralBase pd.collateralRaw pd.liabilityBase pd.liabilityRaw := by
  unfold valuesOf at h
  simp only [bind_ok, Prod.exists, pure_ok] at h
  obtain ⟨cache, hc, pd', c1, hpd, rfl⟩ := h
  obtain ⟨ok0, hr0, _, _⟩ := load_ok (now := w.time) hc
  have cur0 : CacheCur (w.pools p) (w.pools p) w.time cache := by
    have := CacheCur.of ok0 []
    rwa [overlay_loaded hr0] at this
  obtain ⟨_, va⟩ := calcPositionData_ok cur0 (hr.bal_nonneg hp u .coll) (hr.bal_nonneg hp u .liab) hpd
  exact ⟨va.coll, va.collRaw, va.liab, va.liabRaw⟩

/-- an executable version of `Ordinary` -/
def ordinary (w : World) (ps : PoolState) (pos : Positions) (Cr L : Int) : Bool :=
  optAnd ps.inst fun i =>
    decide ((w.oracle i.config.oracle).decimals ≤ 14 ∧ Cr ≤ 10 ^ 23 ∧ L ≤ 10 ^ 23 ∧ w.seq < 4294967295) &&
    (ps.resList.all fun a => (match (w.oracle i.config.oracle).price a with
      | some (x, ts) => decide (x ≤ 10 ^ 18 ∧ ts ≤ 1000000000000000000)
      | none => true) && (match ps.resConfig a with
      | some c => decide (1000000 ≤ c.lFactor)
      | none => true)) &&
    ((List.range ps.resList.length).all fun k => optAnd ps.resList[k]? fun a => optAnd (ps.resConfig a) fun c => optAnd (ps.resData a) fun d =>
      match accrue c i.config.bstopRate w.time d with
      | .ok d => decide (pos.collateral.bal k * d.bRate ≤ 10 ^ 27 ∧ pos.liabilities.bal k * d.dRate ≤ 10 ^ 27)
      | .error _ => true)

theorem ordinary_iff {ps : PoolState} {pos : Positions} (h : ordinary w ps pos Cr L = true) : Ordinary w ps pos Cr L := by
  obtain ⟨i, hi, h⟩ := optAnd_iff.1 h
  simp only [Bool.and_eq_true, List.all_eq_true, decide_eq_true_eq, List.mem_range] at h
  obtain ⟨⟨⟨h1, h2, h3, h4⟩, h5⟩, h6⟩ := h
  refine ⟨?_, ⟨h2, h3⟩, ?_, ?_, ?_, ?_, h4⟩
  · rintro n ⟨j, hj, rfl⟩
    rw [hi] at hj; cases hj
    exact h1
  · rintro a x ha ⟨j, ts, hj, hx, _⟩
    rw [hi] at hj; cases hj
    have := (h5 a ha).1
    rw [hx] at this
    exact (of_decide_eq_true this).1
  · intro j a x ts hj ha hx
    rw [hi] at hj; cases hj
    have := (h5 a ha).1
    rw [hx] at this
    exact (of_decide_eq_true this).2
  · rintro k a d hk ⟨c, d0, j, hc, hd, hj, hac⟩
    rw [hi] at hj; cases hj
    have hlt : k < ps.resList.length := by
      by_contra hn
      rw [List.getElem?_eq_none (by omega)] at hk
      cases hk
    have := h6 k hlt
    obtain ⟨a', ha', this⟩ := optAnd_iff.1 this
    rw [hk] at ha'; cases ha'
    obtain ⟨c', hc', this⟩ := optAnd_iff.1 this
    rw [hc] at hc'; cases hc'
    obtain ⟨d', hd', this⟩ := optAnd_iff.1 this
    rw [hd] at hd'; cases hd'
    rw [hac] at this
    exact of_decide_eq_true this
  · intro a c ha hc
    have := (h5 a ha).2
    rw [hc] at this
    exact of_decide_eq_true this

/-- non-vacuity of the theorems: after a crash of the XLM price bob's debt is worth more than his collateral -/
example : ∃ w C Cr L Lr i, Reachable w ∧ w.poolAddr poolA = true ∧ (∀ x ∈ [], ¬ w.isProtocol x) ∧ (w.pools poolA).inst = some i ∧ bob ≠ poolA ∧
    bob ≠ i.backstop ∧ (w.pools poolA).auctions 0 bob = none ∧ PricesOk w (w.pools poolA) ∧
    Values w (w.pools poolA) (getPositions (w.pools poolA) bob) C Cr L Lr ∧ 0 < Cr ∧ Cr ≤ Lr ∧
    Ordinary w (w.pools poolA) (getPositions (w.pools poolA) bob) Cr L := by
  obtain ⟨w, _, hr, h⟩ := Demo.reach (ops := setup ++ trade ++ [prices 1713139200 10000000 500000])
    (f := fun w => w.poolAddr poolA && pricesOk w (w.pools poolA) && ((w.pools poolA).auctions 0 bob).isNone &&
      (optAnd (w.pools poolA).inst fun i => decide (bob ≠ i.backstop)) &&
      okAnd (valuesOf w poolA bob) fun pd => decide (0 < pd.collateralRaw ∧ pd.collateralRaw ≤ pd.liabilityRaw) &&
        ordinary w (w.pools poolA) (getPositions (w.pools poolA) bob) pd.collateralRaw pd.liabilityBase) (by decide +kernel)
  simp only [Bool.and_eq_true] at h
  obtain ⟨⟨⟨⟨h1, h2⟩, h3⟩, h4⟩, h5⟩ := h
  obtain ⟨i, hi, h4⟩ := optAnd_iff.1 h4
  obtain ⟨pd, hpd, h5⟩ := okAnd_iff.1 h5
  rw [Bool.and_eq_true, decide_eq_true_eq] at h5
  exact ⟨w, _, _, _, _, i, hr, h1, by simp, hi, by decide, of_decide_eq_true h4, Option.isNone_iff_eq_none.1 h3, pricesOk_iff h2,
    valuesOf_ok hr h1 hpd, h5.1.1, h5.1.2, ordinary_iff h5.2⟩

/-- **C58 (limit)** Being unhealthy is not enough. In a state that is reachable with honest prices an account whose
liabilities exceed its risk adjusted collateral by a fifth cannot be liquidated at all: an auction of all of its debt is
rejected as too large (the quote does not cover the collateral), and an auction of any smaller part is rejected as too
small (what is left would be too unhealthy). -/
theorem C58_gap : ∃ w C Cr L Lr, Reachable w ∧ PricesOk w (w.pools poolA) ∧ w.poolAddr poolA = true ∧
    (w.pools poolA).auctions 0 bob = none ∧ Values w (w.pools poolA) (getPositions (w.pools poolA) bob) C Cr L Lr ∧
    Ordinary w (w.pools poolA) (getPositions (w.pools poolA) bob) Cr L ∧ 6 * C < 5 * L ∧ Lr < Cr ∧
    ∀ auth percent, ∃ e, step w (.pool poolA auth (.newLiquidation bob percent)) = .error e := by
  obtain ⟨w, _, hr, h⟩ := Demo.reach (ops := setup ++ trade ++ [prices 1713139200 10000000 698000])
    (f := fun w => w.poolAddr poolA && pricesOk w (w.pools poolA) && ((w.pools poolA).auctions 0 bob).isNone &&
      (okAnd (valuesOf w poolA bob) fun pd => decide (6 * pd.collateralBase < 5 * pd.liabilityBase ∧ pd.liabilityRaw < pd.collateralRaw) &&
        ordinary w (w.pools poolA) (getPositions (w.pools poolA) bob) pd.collateralRaw pd.liabilityBase) &&
      (List.range 101).all fun n => (createLiquidation w poolA bob n).toOption.isNone) (by decide +kernel)
  simp only [Bool.and_eq_true] at h
  obtain ⟨⟨⟨⟨h1, h2⟩, h3⟩, h5⟩, h4⟩ := h
  obtain ⟨pd, hpd, h5⟩ := okAnd_iff.1 h5
  rw [Bool.and_eq_true, decide_eq_true_eq] at h5
  refine ⟨w, _, _, _, _, hr, pricesOk_iff h2, h1, Option.isNone_iff_eq_none.1 h3, valuesOf_ok hr h1 hpd, ordinary_iff h5.2, h5.1.1, h5.1.2,
    fun auth n => ?_⟩
  cases hs : step w (.pool poolA auth (.newLiquidation bob n)) with
  | error e => exact ⟨e, rfl⟩
  | ok w' =>
    exfalso
    simp only [step, call, bind_ok, require_ok] at hs
    obtain ⟨_, _, _, _, hs⟩ := hs
    by_cases hn : n < 101
    · have := List.all_eq_true.1 h4 n (List.mem_range.2 hn)
      rw [hs] at this
      cases this
    · simp only [createLiquidation, createUserLiq, bind_ok, require_ok, Prod.exists] at hs
      obtain ⟨_, _, _, _, _, _, ⟨_, _, _, h, _⟩, _⟩ := hs
      omega

end Props
end Blend
