import Verif.Lemmas.LedgerHealth
import Verif.Props.Authorization
import Verif.Props.Health
import Verif.Examples.HealthDemo
/-
  C63: share prices are fixed within a ledger. C64: within a ledger nobody else can change the health of an account.
-/

namespace Blend
namespace Props
open Pool Spec

variable {w w' : World} {p a u : Address}

theorem pos_step (hr : Reachable w) (hp : w.poolAddr p = true) {op : Op} (h : step w op = .ok w') (hf : Elsewhere p u op)
    (hu : ∀ i, (w.pools p).inst = some i → u ≠ i.backstop) : getPositions (w'.pools p) u = getPositions (w.pools p) u := by
  unfold getPositions
  by_contra hne
  have hx : (w'.pools p).positions.get u ≠ (w.pools p).positions.get u := fun e => hne (by rw [e])
  obtain ⟨_, h1, h2⟩ := hf
  rcases C10_positions hr h hp hx with ⟨auth, sender, spender, dst, reqs, rfl, hc⟩ | ⟨auth, x, rfl, hc⟩
  · obtain ⟨g1, g2⟩ := h1 _ _ _ _ _ rfl
    rcases hc with hc | ⟨r, hr1, hr2, hr3⟩ | ⟨_, i, hi, hc⟩
    · exact g1 hc.symm
    · exact g2 r hr1 hr2 hr3
    · exact hu i hi hc
  · rcases hc with rfl | ⟨i, hi, hc⟩
    · exact h2 auth rfl
    · exact hu i hi hc

/-- **C63** Within a ledger the prices of shares are fixed: whatever happens in the whole system (submits, flash loans by
several submits, auction fills, donations of tokens to the pool, bad debt, emissions, …) while the ledger stays the same and
the pool's take rate is not changed, the rates of supply and debt shares of every reserve, with interest up to now, are the
same as before. -/
theorem C63_prices_fixed (hr : Reachable w) (hp : w.poolAddr p = true) (hh : History (WithinLedger p) w w') {d : ReserveData}
    (hd : Current (w.pools p) w.time a d) :
    ∃ d', Current (w'.pools p) w'.time a d' ∧ d'.bRate = d.bRate ∧ d'.dRate = d.dRate := by
  suffices h : Reachable w' ∧ w'.poolAddr p = true ∧ ∃ d', Current (w'.pools p) w'.time a d' ∧ d'.bRate = d.bRate ∧ d'.dRate = d.dRate from
    h.2.2
  induction hh with
  | refl => exact ⟨hr, hp, d, hd, rfl, rfl⟩
  | tail _ hop hs ih =>
    obtain ⟨hr1, hp1, d1, h1, h2, h3⟩ := ih
    obtain ⟨d2, g1, g2, g3⟩ := rates_fixed hr1 hp1 hs hop h1
    exact ⟨hr1.step hs, by rw [(step_res hr1.base hs).poolAddr]; exact hp1, d2, g1, g2.trans h2, g3.trans h3⟩

/-- **C63**: the rate of debt shares stays the same even when the take rate changes. -/
theorem C63_debt_price_fixed (hr : Reachable w) (hp : w.poolAddr p = true) {op : Op} (h : step w op = .ok w')
    (hw : ∀ dt ds, op ≠ .ledger dt ds) {d d' : ReserveData} (hd : Current (w.pools p) w.time a d)
    (hd' : Current (w'.pools p) w'.time a d') : d'.dRate = d.dRate :=
  dRate_fixed hr hp h hw hd hd'

theorem foreign_terms (hr : Reachable w) (hp : w.poolAddr p = true) {i : PoolInst} (hi : (w.pools p).inst = some i)
    (hu : u ≠ i.backstop) (hh : History (ForeignTo p u) w w') :
    Reachable w' ∧ w'.poolAddr p = true ∧
    (∃ i', (w'.pools p).inst = some i' ∧ i'.backstop = i.backstop ∧ w'.oracle i'.config.oracle = w.oracle i.config.oracle) ∧
    getPositions (w'.pools p) u = getPositions (w.pools p) u ∧
    SameTerms w (w.pools p) w' (w'.pools p) ∧ SameTerms w' (w'.pools p) w (w.pools p) := by
  induction hh with
  | refl => exact ⟨hr, hp, ⟨i, hi, rfl, rfl⟩, rfl, .refl _ _, .refl _ _⟩
  | tail _ hop hs ih =>
    obtain ⟨hr1, hp1, ⟨i1, hi1, hb1, ho1⟩, h1, h2, h3⟩ := ih
    obtain ⟨i2, hi2, e1, e2, _⟩ := rate_step hr1 hs hi1
    have hp2 := pos_step hr1 hp1 hs hop.1 fun j hj => by rw [hi1] at hj; cases hj; rw [hb1]; exact hu
    exact ⟨hr1.step hs, by rw [(step_res hr1.base hs).poolAddr]; exact hp1,
      ⟨i2, hi2, e2.trans hb1, by rw [step_oracle hs hop.2.1, e1]; exact ho1⟩, hp2.trans h1,
      h2.trans (terms_step hr1 hp1 hs hi1 hop.1.1 hop.2.1 hop.2.2), (terms_back hr1 hp1 hs hi1 hop.1.1 hop.2.1 hop.2.2).trans h3⟩

theorem coll_unique {V : PoolState} {pos : Positions} {C C' : Int} (h : CollateralValue w V pos C) (h' : CollateralValue w V pos C') : C = C' := by
  obtain ⟨f, hf, rfl⟩ := h
  obtain ⟨g, hg, rfl⟩ := h'
  exact total_congr fun i hi => CollateralItem.unique (hf i hi) (hg i hi)

theorem liab_unique {V : PoolState} {pos : Positions} {C C' : Int} (h : LiabilityValue w V pos C) (h' : LiabilityValue w V pos C') : C = C' := by
  obtain ⟨f, hf, rfl⟩ := h
  obtain ⟨g, hg, rfl⟩ := h'
  exact total_congr fun i hi => LiabilityItem.unique (hf i hi) (hg i hi)

/-- **C64** Within a ledger nobody else can change the health of an account: whatever happens in the whole system while the
ledger, the oracles' prices and the parameters of the pool and its reserves stay the same, without a submit by the account, a
fill of its liquidation or a move of its bad debt, its positions are the same, they are worth the same (with and without
risk adjustment), and the account is as healthy as before. -/
theorem C64_health_fixed (hr : Reachable w) (hp : w.poolAddr p = true) {i : PoolInst} (hi : (w.pools p).inst = some i)
    (hu : u ≠ i.backstop) (hh : History (ForeignTo p u) w w') :
    getPositions (w'.pools p) u = getPositions (w.pools p) u ∧
    (∀ C, CollateralValue w' (w'.pools p) (getPositions (w'.pools p) u) C ↔ CollateralValue w (w.pools p) (getPositions (w.pools p) u) C) ∧
    (∀ L, LiabilityValue w' (w'.pools p) (getPositions (w'.pools p) u) L ↔ LiabilityValue w (w.pools p) (getPositions (w.pools p) u) L) ∧
    (∀ C, RawCollateral w' (w'.pools p) (getPositions (w'.pools p) u) C ↔ RawCollateral w (w.pools p) (getPositions (w.pools p) u) C) ∧
    (∀ L, RawLiability w' (w'.pools p) (getPositions (w'.pools p) u) L ↔ RawLiability w (w.pools p) (getPositions (w.pools p) u) L) ∧
    (Healthy w' (w'.pools p) (getPositions (w'.pools p) u) ↔ Healthy w (w.pools p) (getPositions (w.pools p) u)) := by
  obtain ⟨hr', hp', ⟨i', hi', hb⟩, e, s, s'⟩ := foreign_terms hr hp hi hu hh
  rw [e]
  exact ⟨rfl, fun _ => ⟨s'.coll, s.coll⟩, fun _ => ⟨s'.liab, s.liab⟩, fun _ => ⟨s'.rawColl, s.rawColl⟩,
    fun _ => ⟨s'.rawLiab, s.rawLiab⟩, s'.healthy, s.healthy⟩

/-- **C64**: in particular, an account whose risk adjusted collateral is worth more than its risk adjusted liabilities
cannot be put up for liquidation in this ledger, whatever the others do. -/
theorem C64_not_liquidated (hr : Reachable w) (hp : w.poolAddr p = true) {i : PoolInst} (hi : (w.pools p).inst = some i)
    (hu : u ≠ i.backstop) {C L : Int} (hC : CollateralValue w (w.pools p) (getPositions (w.pools p) u) C)
    (hL : LiabilityValue w (w.pools p) (getPositions (w.pools p) u) L) (hlt : L < C) (hprice : PricesOk w (w.pools p))
    (hh : History (ForeignTo p u) w w') (auth : List Address) (n : Nat) (w'' : World) :
    step w' (.pool p auth (.newLiquidation u n)) ≠ .ok w'' := by
  obtain ⟨hr', hp', ⟨i', hi', _, ho⟩, e, s, s'⟩ := foreign_terms hr hp hi hu hh
  intro h
  have hpr : PricesOk w' (w'.pools p) := by
    intro j a x ts h1 h2 h3
    rw [hi'] at h1; cases h1
    rw [ho] at h3
    exact hprice i a x ts hi (by rw [← s.list]; exact h2) h3
  obtain ⟨_, _, _, _, C', L', h1, h2, h3⟩ := C18_only_unhealthy hr' h hpr
  rw [e] at h1 h2
  obtain rfl := coll_unique h1 (s.coll hC)
  obtain rfl := liab_unique h2 (s.liab hL)
  omega

open Demo

/-- a run of operations that satisfy `P` -/
theorem run_history {P : Op → Prop} {ops : List Op} {w w' : World} (h : Demo.run w ops = .ok w') (hP : ∀ op ∈ ops, P op) :
    History P w w' := by
  suffices key : ∀ {v}, History P v w → History P v w' from key (.refl _)
  induction ops generalizing w with
  | nil => simp only [Demo.run, pure_ok] at h; subst h; exact id
  | cons op ops ih =>
    simp only [Demo.run, bind_ok] at h
    obtain ⟨w1, h1, h2⟩ := h
    intro v hv
    exact ih h2 (fun o ho => hP o (List.mem_cons_of_mem _ ho)) (.tail hv (hP op List.mem_cons_self) h1)

/-- the reserve `a` of the pool `p` with interest up to now -/
def currentOf (w : World) (p a : Address) : R ReserveData := do
  let c ← unwrap ((w.pools p).resConfig a)
  let d ← unwrap ((w.pools p).resData a)
  let i ← unwrap (w.pools p).inst
  accrue c i.config.bstopRate w.time d

theorem currentOf_ok {d : ReserveData} (h : currentOf w p a = .ok d) : Current (w.pools p) w.time a d := by
  simp only [currentOf, bind_ok, unwrap_ok] at h
  obtain ⟨c, h1, d0, h2, i, h3, h4⟩ := h
  exact ⟨c, d0, i, h1, h2, h3, h4⟩

/-- dave supplies and borrows, alice withdraws, all in the same ledger -/
def sameLedger : List Op := [
  .pool poolA [dave] (.submit dave dave dave [⟨2, usdcA, 100000000000⟩, ⟨4, xlmA, 10000000000⟩]),
  .pool poolA [] (.newLiquidation bob 60),
  .pool poolA [alice] (.submit alice alice alice [⟨1, usdcA, 10000000000⟩])]

/-- non-vacuity of C63: interest of 11000 seconds is not accrued yet, then dave supplies and borrows and alice withdraws -/
example : ∃ w w' d, Reachable w ∧ w.poolAddr poolA = true ∧ History (WithinLedger poolA) w w' ∧
    Current (w.pools poolA) w.time usdcA d ∧ (w.pools poolA).resData usdcA ≠ (w'.pools poolA).resData usdcA ∧
    w.balance usdcA poolA < w'.balance usdcA poolA ∧ 1000000000 < d.bRate := by
  obtain ⟨w, w', hr, hrun, h⟩ := Demo.reach_runs (ops := setup ++ trade ++ emissions) (ops' := [sameLedger[0], sameLedger[2]])
    (f := fun w w' => w.poolAddr poolA && okAnd (currentOf w poolA usdcA) fun d =>
      decide ((w.pools poolA).resData usdcA ≠ (w'.pools poolA).resData usdcA ∧ w.balance usdcA poolA < w'.balance usdcA poolA ∧
        1000000000 < d.bRate)) (by decide +kernel)
  rw [Bool.and_eq_true] at h
  obtain ⟨d, hd, h2⟩ := okAnd_iff.1 h.2
  exact ⟨w, w', d, hr, h.1, run_history hrun (by simp [sameLedger, WithinLedger]), currentOf_ok hd, of_decide_eq_true h2⟩

/-- FINDING (C63): a new take rate is applied to interest that was earned before: the admin raises the take rate to 90 percent,
and the price of supply shares falls although no time passes (and suppliers lose what they could have withdrawn before). -/
theorem C63_take_rate_is_retroactive : ∃ w w' d d', Reachable w ∧ w.poolAddr poolA = true ∧
    step w (.pool poolA [adminA] (.updatePool 9000000 4)) = .ok w' ∧ w'.time = w.time ∧
    Current (w.pools poolA) w.time usdcA d ∧ Current (w'.pools poolA) w'.time usdcA d' ∧
    d'.bRate < d.bRate ∧ d.backstopCredit < d'.backstopCredit := by
  obtain ⟨w, w', _, hr, hs, h⟩ := Demo.reach_step (ops := setup ++ trade ++ emissions) (op := .pool poolA [adminA] (.updatePool 9000000 4))
    (f := fun w w' => w.poolAddr poolA && okAnd (currentOf w poolA usdcA) fun d => okAnd (currentOf w' poolA usdcA) fun d' =>
      decide (w'.time = w.time ∧ d'.bRate < d.bRate ∧ d.backstopCredit < d'.backstopCredit)) (by decide +kernel)
  rw [Bool.and_eq_true] at h
  obtain ⟨d, hd, h2⟩ := okAnd_iff.1 h.2
  obtain ⟨d', hd', h3⟩ := okAnd_iff.1 h2
  obtain ⟨h4, h5⟩ := of_decide_eq_true h3
  exact ⟨w, w', d, d', hr, h.1, hs, h4, currentOf_ok hd, currentOf_ok hd', h5⟩

/-- computes the risk adjusted values of an account -/
def valuesOk (w : World) (p u : Address) (f : Int → Int → Bool) : Bool :=
  w.poolAddr p && okAnd (Cache.load (w.pools p)) fun c =>
    okAnd (calcPositionData w (w.pools p) c (getPositions (w.pools p) u)) fun x => f x.1.collateralBase x.1.liabilityBase

theorem valuesOk_iff (hr : Reachable w) {f : Int → Int → Bool} (h : valuesOk w p u f = true) : w.poolAddr p = true ∧ ∃ C L,
    CollateralValue w (w.pools p) (getPositions (w.pools p) u) C ∧ LiabilityValue w (w.pools p) (getPositions (w.pools p) u) L ∧
    f C L = true := by
  unfold valuesOk at h
  rw [Bool.and_eq_true] at h
  obtain ⟨hp, h⟩ := h
  obtain ⟨c, hc, h⟩ := okAnd_iff.1 h
  obtain ⟨⟨pd, c'⟩, hpd, h⟩ := okAnd_iff.1 h
  obtain ⟨ok0, hr0, _, _⟩ := load_ok (now := w.time) hc
  have cur0 : CacheCur (w.pools p) (w.pools p) w.time c := by
    have := CacheCur.of ok0 []
    rwa [overlay_loaded hr0] at this
  obtain ⟨_, va⟩ := calcPositionData_ok cur0 (hr.bal_nonneg hp u .coll) (hr.bal_nonneg hp u .liab) hpd
  exact ⟨hp, _, _, va.coll, va.liab, h⟩

/-- non-vacuity of C64: dave supplies and borrows, bob is put up for liquidation, alice withdraws; dave's (later) health … -/
example : ∃ w w' i C L, Reachable w ∧ w.poolAddr poolA = true ∧ (w.pools poolA).inst = some i ∧ dave ≠ i.backstop ∧
    History (ForeignTo poolA dave) w w' ∧
    CollateralValue w (w.pools poolA) (getPositions (w.pools poolA) dave) C ∧
    LiabilityValue w (w.pools poolA) (getPositions (w.pools poolA) dave) L ∧ 0 < L ∧ L < C ∧ PricesOk w (w.pools poolA) ∧
    (w.pools poolA).resData usdcA ≠ (w'.pools poolA).resData usdcA ∧ (w'.pools poolA).auctions 0 bob ≠ none := by
  obtain ⟨w, w', hr, hrun, h⟩ := Demo.reach_runs (ops := setup ++ trade ++ emissions ++ [prices 1713150200 10000000 800000, sameLedger[0], .ledger 5 1])
    (ops' := sameLedger.drop 1)
    (f := fun w w' => pricesOk w (w.pools poolA) && (optAnd (w.pools poolA).inst fun i => decide (dave ≠ i.backstop)) &&
      valuesOk w poolA dave (fun C L => decide (0 < L ∧ L < C)) &&
      decide ((w.pools poolA).resData usdcA ≠ (w'.pools poolA).resData usdcA ∧ ((w'.pools poolA).auctions 0 bob).isSome = true)) (by decide +kernel)
  simp only [Bool.and_eq_true] at h
  obtain ⟨⟨⟨h1, h2⟩, h3⟩, h4⟩ := h
  obtain ⟨i, hi, h2⟩ := optAnd_iff.1 h2
  obtain ⟨hp, C, L, hC, hL, h3⟩ := valuesOk_iff hr h3
  obtain ⟨h5, h6⟩ := of_decide_eq_true h3
  obtain ⟨h7, h8⟩ := of_decide_eq_true h4
  refine ⟨w, w', i, C, L, hr, hp, hi, of_decide_eq_true h2, run_history hrun ?_, hC, hL, h5, h6, pricesOk_iff h1, h7, ?_⟩
  · simp [sameLedger, ForeignTo, Elsewhere, WithinLedger, alice, dave]
    rintro _ _ _ _ _ _ rfl _ _ rfl
    simp
  · intro e; rw [e] at h8; cases h8

end Props
end Blend
