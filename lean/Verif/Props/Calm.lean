import Verif.Spec.Calm
import Verif.Props.SameLedger
import Verif.Props.Valuation
import Verif.Lemmas.UtilCap
/-
  C98: within a ledger a healthy account stays healthy, whatever it does itself.
-/

namespace Blend
namespace Pool
open Spec

theorem floor_mono' {a b x y d : Int} (hd : 0 < d) (ha : IsFloor a x d) (hb : IsFloor b y d) (h : x ≤ y) : a ≤ b := by
  obtain ⟨a1, _⟩ := ha
  obtain ⟨_, b2⟩ := hb
  by_contra hlt
  have := mul_le_mul_of_nonneg_right (show b + 1 ≤ a by omega) hd.le
  omega

theorem ceil_mono' {a b x y d : Int} (hd : 0 < d) (ha : IsCeil a x d) (hb : IsCeil b y d) (h : x ≤ y) : a ≤ b := by
  obtain ⟨a1, _⟩ := ha
  obtain ⟨_, b2⟩ := hb
  by_contra hlt
  have := mul_le_mul_of_nonneg_right (show b ≤ a - 1 by omega) hd.le
  omega

variable {w w' : World} {V : PoolState} {i : Nat} {p u : Address} {op : Op}

theorem _root_.Blend.Spec.CollateralItem.mono {b b' v v' : Int} (h : CollateralItem w V i b v) (h' : CollateralItem w V i b' v')
    (h0 : 0 ≤ b) (hb : b ≤ b') (hp : PricesOk w V) (hr : RatesPos V w.time) : v ≤ v' := by
  by_cases hz : b = b'
  · subst hz; rw [CollateralItem.unique h h']
  rcases h' with ⟨h', _⟩ | ⟨a, c, d, x, n, e, h1, h2, h3, h4, h5, h6, h7⟩
  · omega
  have hx : 0 ≤ x := by
    obtain ⟨j, ts, hj, hpx, _⟩ := h4
    exact hp j a x ts hj (List.mem_of_getElem? h1) hpx
  have hrt := (hr a d h3).1
  have n0 := IsFloor.nonneg h5 (by decide) (Int.mul_nonneg (by omega) (by omega))
  have e0 := IsFloor.nonneg h6 (by decide) (Int.mul_nonneg n0 (by positivity))
  have v0 := IsFloor.nonneg h7 (by positivity) (Int.mul_nonneg hx e0)
  rcases h with ⟨_, rfl⟩ | ⟨a', c', d', x', n', e', g1, g2, g3, g4, g5, g6, g7⟩
  · exact v0
  rw [h1] at g1; cases g1
  rw [h2] at g2; cases g2
  obtain rfl := Current.unique h3 g3
  obtain rfl := FreshPrice.unique h4 g4
  have k1 : n' ≤ n := floor_mono' (by decide) g5 h5 (mul_le_mul_of_nonneg_right hb (by omega))
  have k2 : e' ≤ e := floor_mono' (by decide) g6 h6 (mul_le_mul_of_nonneg_right k1 (by positivity))
  exact floor_mono' (by positivity) g7 h7 (mul_le_mul_of_nonneg_left k2 hx)

theorem _root_.Blend.Spec.LiabilityItem.mono {b b' v v' : Int} (h : LiabilityItem w V i b v) (h' : LiabilityItem w V i b' v')
    (h0 : 0 ≤ b) (hb : b ≤ b') (hp : PricesOk w V) (hr : RatesPos V w.time) : v ≤ v' := by
  by_cases hz : b = b'
  · subst hz; rw [LiabilityItem.unique h h']
  rcases h' with ⟨h', _⟩ | ⟨a, c, d, x, n, e, h1, h2, h3, h4, h5, hl, h6, h7⟩
  · omega
  have hx : 0 ≤ x := by
    obtain ⟨j, ts, hj, hpx, _⟩ := h4
    exact hp j a x ts hj (List.mem_of_getElem? h1) hpx
  have hlc : (0 : Int) < c.lFactor := by exact_mod_cast hl
  have hrt := (hr a d h3).2
  have n0 := IsCeil.nonneg h5 (by decide) (Int.mul_nonneg (by omega) (by omega))
  have e0 := IsCeil.nonneg h6 hlc (Int.mul_nonneg n0 (by decide))
  have v0 := IsCeil.nonneg h7 (by positivity) (Int.mul_nonneg hx e0)
  rcases h with ⟨_, rfl⟩ | ⟨a', c', d', x', n', e', g1, g2, g3, g4, g5, _, g6, g7⟩
  · exact v0
  rw [h1] at g1; cases g1
  rw [h2] at g2; cases g2
  obtain rfl := Current.unique h3 g3
  obtain rfl := FreshPrice.unique h4 g4
  have k1 : n' ≤ n := ceil_mono' (by decide) g5 h5 (mul_le_mul_of_nonneg_right hb (by omega))
  have k2 : e' ≤ e := ceil_mono' hlc g6 h6 (mul_le_mul_of_nonneg_right k1 (by decide))
  exact ceil_mono' (by positivity) g7 h7 (mul_le_mul_of_nonneg_left k2 hx)

/-- `pos` has at least the collateral and at most the debts of `b` -/
def AtLeast (b pos : Positions) : Prop :=
  ∀ i, 0 ≤ b.collateral.bal i ∧ b.collateral.bal i ≤ pos.collateral.bal i ∧ 0 ≤ pos.liabilities.bal i ∧ pos.liabilities.bal i ≤ b.liabilities.bal i

theorem total_mono {f g : Nat → Int} (h : ∀ i, i < V.resList.length → f i ≤ g i) : total V f ≤ total V g :=
  List.sum_le_sum fun i hi => h i (List.mem_range.1 hi)

/-- more collateral and less debt: healthy positions stay healthy -/
theorem healthy_mono {b pos : Positions} (hb : Healthy w V b) (ha : AtLeast b pos) {C L : Int} (hC : CollateralValue w V pos C)
    (hL : LiabilityValue w V pos L) (hp : PricesOk w V) (hr : RatesPos V w.time) : Healthy w V pos := by
  obtain ⟨C0, L0, n, ⟨f, hf, rfl⟩, ⟨g, hg, rfl⟩, hn, hle, hbuf⟩ := hb
  obtain ⟨f', hf', rfl⟩ := hC
  obtain ⟨g', hg', rfl⟩ := hL
  have h1 : total V f ≤ total V f' := total_mono fun i hi => CollateralItem.mono (hf i hi) (hf' i hi) (ha i).1 (ha i).2.1 hp hr
  have h2 : total V g' ≤ total V g := total_mono fun i hi => LiabilityItem.mono (hg' i hi) (hg i hi) (ha i).2.2.1 (ha i).2.2.2 hp hr
  refine ⟨_, _, n, ⟨f', hf', rfl⟩, ⟨g', hg', rfl⟩, hn, by omega, fun h5 => ?_⟩
  have := hbuf h5
  omega

theorem calm_request {w : World} {p sender : Address} {auth : List Address} {s s' : SubmitState} (f : FlightOk w p sender s)
    {q : Request} (hq : risky q = false) (h : processRequest p auth s q = .ok s') :
    ∀ i, s.fl.user.pos.collateral.bal i ≤ s'.fl.user.pos.collateral.bal i ∧ s'.fl.user.pos.liabilities.bal i ≤ s.fl.user.pos.liabilities.bal i := by
  intro i
  by_cases hpl : q.type ≤ 5
  · obtain ⟨⟨r, r', cache', hld, hlo, hres, eb, ed, he, _⟩, _⟩ := plain_step f hpl h
    show s.acct.collateral i ≤ s'.acct.collateral i ∧ s'.acct.debt i ≤ s.acct.debt i
    generalize s'.acct = A' at he ⊢
    generalize s.acct = A at he ⊢
    cases he <;> simp [risky] at hq <;> simp only [bump] <;> constructor <;> first | exact le_refl _ | (split <;> omega)
  · obtain ⟨_, _, h⟩ := processRequest_ok h
    simp only [risky, decide_eq_false_iff_not] at hq
    rcases h with ⟨ht, h⟩ | ⟨ht, h⟩ | ⟨ht, h⟩ | ⟨ht, h⟩ | ⟨ht, h⟩ | ⟨ht, h⟩ | ⟨ht, h⟩ | ⟨ht, h⟩ | ⟨ht, h⟩ | ⟨ht, h⟩ <;> try omega
    obtain ⟨fl, hf, rfl⟩ := reqFill_ok h
    simp only [fill, bind_ok, require_ok, unwrap_ok, Prod.exists] at hf
    obtain ⟨_, _, a, _, x, y, _, hf⟩ := hf
    simp only [show (2 : Nat) ≠ 0 by decide, show (2 : Nat) ≠ 1 by decide, if_false, bind_ok, pure_ok] at hf
    obtain ⟨fl', hfl, rfl⟩ := hf
    simp only [fillInterest, bind_ok, Prod.exists, pure_ok] at hfl
    obtain ⟨_, _, _, _, _, _, _, _, _, _, _, _, _, rfl⟩ := hfl
    exact ⟨le_refl _, le_refl _⟩

theorem calm_submit {w w' : World} (hr : Reachable w) {p : Address} {auth : List Address} {sender spender dst : Address}
    {reqs : List Request} (h : step w (.pool p auth (.submit sender spender dst reqs)) = .ok w') (hq : reqs.any risky = false) (i : Nat) :
    (getPositions (w.pools p) sender).collateral.bal i ≤ (getPositions (w'.pools p) sender).collateral.bal i ∧
    (getPositions (w'.pools p) sender).liabilities.bal i ≤ (getPositions (w.pools p) sender).liabilities.bal i := by
  obtain ⟨hp, cache, s, v⟩ := submit_view hr h
  have hpos : getPositions (w'.pools p) sender = s.fl.user.pos := by
    rw [v.pools, ← v.flight.addr]; exact getPositions_overlay_last _ _ [] _
  rw [hpos]
  have key : ∀ (l l0 : List Request) (x : SubmitState), l.any risky = false →
      l0.foldlM (processRequest p auth) (startState w p cache sender) = .ok x → l.foldlM (processRequest p auth) x = .ok s →
      x.fl.user.pos.collateral.bal i ≤ s.fl.user.pos.collateral.bal i ∧ s.fl.user.pos.liabilities.bal i ≤ x.fl.user.pos.liabilities.bal i := by
    intro l
    induction l with
    | nil => intro l0 x _ _ e; rw [foldlM_nil] at e; subst e; exact ⟨le_refl _, le_refl _⟩
    | cons q l ih =>
      intro l0 x hq h0 e
      rw [foldlM_cons] at e
      obtain ⟨y, hy, e⟩ := e
      rw [List.any_cons, Bool.or_eq_false_iff] at hq
      have h0' : (l0 ++ [q]).foldlM (processRequest p auth) (startState w p cache sender) = .ok y := by
        rw [List.foldlM_append, bind_ok]
        exact ⟨x, h0, by rw [foldlM_cons]; exact ⟨y, hy, rfl⟩⟩
      have fx := flight_of hr hp v.sender_ne v.load h0
      have k1 := calm_request fx hq.1 hy i
      have k2 := ih _ y hq.2 h0' e
      omega
  exact key reqs [] _ hq (by rw [foldlM_nil]) v.fold

end Pool

namespace Props
open Spec Pool

variable {w w' : World} {p u : Address} {op : Op}

theorem calm_bal {w : World} (hr : Reachable w) {p : Address} (hp : w.poolAddr p = true) (u : Address) (k : Kind) (i : Nat) :
    0 ≤ (k.map (getPositions (w.pools p) u)).bal i := by
  unfold getPositions
  cases hg : (w.pools p).positions.get u with
  | none => cases k <;> simp [Kind.map, Positions.default, SMap.bal]
  | some pos =>
    simp only [Option.getD_some, SMap.bal]
    cases hv : (k.map pos).get i with
    | none => simp
    | some v =>
      have := (hr.pinv hp).bals u pos k i v hg hv
      simp only [Option.getD_some]; omega

theorem calm_rates (hr : Reachable w) (hp : w.poolAddr p = true) : RatesPos (w.pools p) w.time := fun a d hc => by
  have := hr.rates_ge hp hc; omega

theorem calm_prices (hprice : PricesOk w (w.pools p)) {i i' : PoolInst} (hi : (w.pools p).inst = some i)
    (hi' : (w'.pools p).inst = some i') (ho : w'.oracle i'.config.oracle = w.oracle i.config.oracle)
    (hl : (w'.pools p).resList = (w.pools p).resList) : PricesOk w' (w'.pools p) := by
  intro j a x ts h1 h2 h3
  rw [hi'] at h1; cases h1
  rw [ho] at h3
  exact hprice i a x ts hi (by rw [← hl]; exact h2) h3

theorem calm_empty {n : Nat} {V : PoolState} (hn : PriceDecimals w V n) : Healthy w V Positions.default :=
  ⟨0, 0, n, ⟨fun _ => 0, fun i _ => .inl ⟨rfl, rfl⟩, by simp [total]⟩, ⟨fun _ => 0, fun i _ => .inl ⟨rfl, rfl⟩, by simp [total]⟩, hn,
    le_refl _, fun _ => le_refl _⟩

/-- after a submit the account has at least the collateral and at most the debts of a healthy account -/
theorem calm_own (hr : Reachable w) {auth : List Address} {spender dst : Address} {reqs : List Request}
    (h : step w (.pool p auth (.submit u spender dst reqs)) = .ok w') (hprice : PricesOk w (w.pools p)) {b : Positions}
    (hb : Healthy w (w.pools p) b) (ha : AtLeast b (getPositions (w.pools p) u)) :
    ∃ b', Healthy w' (w'.pools p) b' ∧ AtLeast b' (getPositions (w'.pools p) u) := by
  obtain ⟨hp, _⟩ := submit_view hr h
  have hr' := hr.step h
  have hp' : w'.poolAddr p = true := by rw [(step_res hr.base h).poolAddr]; exact hp
  have hb0 := hb
  obtain ⟨_, _, n, _, _, hn, _⟩ := hb0
  have hn0 := hn
  obtain ⟨i, hi, _⟩ := hn0
  have st := terms_step hr hp h hi ⟨by intros; simp, by intros; simp⟩ (by intros; simp) (by intros; simp)
  by_cases hq : reqs.any risky = true
  · by_cases hd : ∃ k, (accountOf (w'.pools p) u).debt k ≠ 0
    · obtain ⟨k, hk⟩ := hd
      obtain ⟨q, hm, hq⟩ := List.any_eq_true.1 hq
      refine ⟨_, C09_health hr h hprice ⟨q, hm, by simpa [risky] using hq⟩ hk, fun j => ?_⟩
      exact ⟨calm_bal hr' hp' u .coll j, le_refl _, calm_bal hr' hp' u .liab j, le_refl _⟩
    · push Not at hd
      refine ⟨_, calm_empty (st.dec hn), fun j => ⟨?_, ?_, calm_bal hr' hp' u .liab j, ?_⟩⟩
      · simp [Positions.default, SMap.bal]
      · rw [show Positions.default.collateral.bal j = 0 by simp [Positions.default, SMap.bal]]
        exact calm_bal hr' hp' u .coll j
      · have e : (getPositions (w'.pools p) u).liabilities.bal j = 0 := hd j
        rw [e]; simp [Positions.default, SMap.bal]
  · refine ⟨b, st.healthy hb, fun j => ?_⟩
    have k1 := calm_submit hr h (by simpa using hq) j
    obtain ⟨k2, k3, k4, k5⟩ := ha j
    exact ⟨k2, le_trans k3 k1.1, calm_bal hr' hp' u .liab j, le_trans k1.2 k5⟩

/-- **C98** Supplying, repaying and everything else an account does for itself keeps a healthy account healthy: after any submit by
a healthy account the account is healthy (as long as fresh prices exist to value what it then has). -/
theorem C98_submit_keeps_health (hr : Reachable w) {auth : List Address} {spender dst : Address} {reqs : List Request}
    (h : step w (.pool p auth (.submit u spender dst reqs)) = .ok w') (hprice : PricesOk w (w.pools p))
    (hh : Healthy w (w.pools p) (getPositions (w.pools p) u)) {C L : Int}
    (hC : CollateralValue w' (w'.pools p) (getPositions (w'.pools p) u) C)
    (hL : LiabilityValue w' (w'.pools p) (getPositions (w'.pools p) u) L) :
    Healthy w' (w'.pools p) (getPositions (w'.pools p) u) := by
  obtain ⟨hp, _⟩ := submit_view hr h
  obtain ⟨b, hb, ha⟩ := calm_own hr h hprice hh fun j =>
    ⟨calm_bal hr hp u .coll j, le_refl _, calm_bal hr hp u .liab j, le_refl _⟩
  have hr' := hr.step h
  have hp' : w'.poolAddr p = true := by rw [(step_res hr.base h).poolAddr]; exact hp
  have hh0 := hh
  obtain ⟨_, _, n, _, _, ⟨i, hi, _⟩, _⟩ := hh0
  have st := terms_step hr hp h hi ⟨by intros; simp, by intros; simp⟩ (by intros; simp) (by intros; simp)
  obtain ⟨i', hi', e1, _⟩ := rate_step hr h hi
  exact healthy_mono hb ha hC hL (calm_prices hprice hi hi' (by rw [step_oracle h (by intros; simp), e1]) st.list) (calm_rates hr' hp')

theorem calm_history (hr : Reachable w) (hp : w.poolAddr p = true) {i : PoolInst} (hi : (w.pools p).inst = some i)
    (hu : u ≠ i.backstop) (hprice : PricesOk w (w.pools p)) (hh : Healthy w (w.pools p) (getPositions (w.pools p) u))
    (hist : History (CalmFor p u) w w') :
    Reachable w' ∧ w'.poolAddr p = true ∧ PricesOk w' (w'.pools p) ∧
    (∃ i', (w'.pools p).inst = some i' ∧ i'.backstop = i.backstop ∧ w'.oracle i'.config.oracle = w.oracle i.config.oracle) ∧
    ∃ b, Healthy w' (w'.pools p) b ∧ AtLeast b (getPositions (w'.pools p) u) := by
  induction hist with
  | refl => exact ⟨hr, hp, hprice, ⟨i, hi, rfl, rfl⟩, _, hh, fun j => ⟨calm_bal hr hp u .coll j, le_refl _, calm_bal hr hp u .liab j, le_refl _⟩⟩
  | tail _ hop hs ih =>
    obtain ⟨hr1, hp1, hpr1, ⟨i1, hi1, hb1, ho1⟩, b, hb, ha⟩ := ih
    obtain ⟨i2, hi2, e1, e2, _⟩ := rate_step hr1 hs hi1
    have hr2 := hr1.step hs
    have hp2 : _ = true := (congrFun (step_res hr1.base hs).poolAddr p).trans hp1
    rcases hop with hop | ⟨auth, spender, dst, reqs, rfl⟩
    · have st := terms_step hr1 hp1 hs hi1 hop.1.1 hop.2.1 hop.2.2
      have ho : _ = _ := (congrFun (step_oracle hs hop.2.1) i2.config.oracle)
      rw [e1] at ho
      have hpos := pos_step hr1 hp1 hs hop.1 fun j hj => by rw [hi1] at hj; cases hj; rw [hb1]; exact hu
      exact ⟨hr2, hp2, calm_prices hpr1 hi1 hi2 (by rw [e1]; exact ho) st.list, ⟨i2, hi2, e2.trans hb1, by rw [e1]; exact ho.trans ho1⟩,
        b, st.healthy hb, by rw [hpos]; exact ha⟩
    · have st := terms_step hr1 hp1 hs hi1 ⟨by intros; simp, by intros; simp⟩ (by intros; simp) (by intros; simp)
      have ho : _ = _ := (congrFun (step_oracle hs (by intros; simp)) i2.config.oracle)
      rw [e1] at ho
      exact ⟨hr2, hp2, calm_prices hpr1 hi1 hi2 (by rw [e1]; exact ho) st.list, ⟨i2, hi2, e2.trans hb1, by rw [e1]; exact ho.trans ho1⟩,
        calm_own hr1 hs hpr1 hb ha⟩

/-- **C98** Within a ledger a healthy account cannot be put up for liquidation, whatever it does itself and whatever others do, in any
order (the prices having at least five decimals). -/
theorem C98_not_liquidated (hr : Reachable w) (hp : w.poolAddr p = true) {i : PoolInst} (hi : (w.pools p).inst = some i)
    (hu : u ≠ i.backstop) (hprice : PricesOk w (w.pools p)) (hh : Healthy w (w.pools p) (getPositions (w.pools p) u))
    {dec : Nat} (hdec : PriceDecimals w (w.pools p) dec) (h5 : 5 ≤ dec) (hist : History (CalmFor p u) w w')
    (auth : List Address) (n : Nat) (w'' : World) : step w' (.pool p auth (.newLiquidation u n)) ≠ .ok w'' := by
  obtain ⟨hr', hp', hpr', ⟨i', hi', _, ho⟩, b, hb, ha⟩ := calm_history hr hp hi hu hprice hh hist
  intro h
  obtain ⟨a, _, _, C, Cr, L, Lr, dec', pct, wd, share, hC, hCr, hL, hLr, hd, hsh, _⟩ := C18_terms hr' h hpr'
  obtain ⟨_, _, _, _, C', L', h1, h2, h3⟩ := C18_only_unhealthy hr' h hpr'
  have rp := calm_rates hr' hp'
  obtain ⟨C0, L0, m, hC0, hL0, hm, hle, hbuf⟩ := healthy_mono hb ha hC hL hpr' rp
  obtain rfl := coll_unique h1 hC
  obtain rfl := liab_unique h2 hL
  obtain rfl := coll_unique hC0 hC
  obtain rfl := liab_unique hL0 hL
  have : m = dec := by
    obtain ⟨j, hj, rfl⟩ := hm
    obtain ⟨k, hk, rfl⟩ := hdec
    rw [hi'] at hj; cases hj
    rw [hi] at hk; cases hk
    rw [ho]
  subst this
  have hb5 := hbuf h5
  have hLn := liabValue_nonneg hL hpr' rp (fun i => calm_bal hr' hp' u .liab i)
  have cfg : CfgOk (w'.pools p) := hr'.base.cfg p
  obtain ⟨g, hg, hLe⟩ := hL
  obtain ⟨gr, hgr, hLre⟩ := hLr
  have hle' : Lr ≤ L0 := by
    rw [hLe, hLre]
    exact total_mono fun i hi => (LiabilityItem.ge_raw (hg i hi) (hgr i hi) (calm_bal hr' hp' u .liab i) hpr' rp cfg).2
  have hge : 0 ≤ Lr := by
    rw [hLre]
    exact sum_range_nonneg fun i hi => (LiabilityItem.ge_raw (hg i hi) (hgr i hi) (calm_bal hr' hp' u .liab i) hpr' rp cfg).1
  have e : Lr = 0 := by omega
  have e' : L0 = 0 := by omega
  subst e
  subst e'
  obtain ⟨_, cf, lf, _, _, _, _, _, ⟨f1, f2⟩, _⟩ := hsh
  simp at f1 f2

open Demo

/-- dave withdraws some collateral, supplies and repays, bob is put up for liquidation, alice withdraws and dave borrows more, all in the
same ledger -/
def calm : List Op := [
  .pool poolA [dave] (.submit dave dave dave [⟨3, usdcA, 1000000000⟩]),
  .pool poolA [dave] (.submit dave dave dave [⟨0, usdcA, 1000000000⟩, ⟨5, xlmA, 1000000000⟩]),
  .pool poolA [] (.newLiquidation bob 60),
  .pool poolA [alice] (.submit alice alice alice [⟨1, usdcA, 10000000000⟩]),
  .pool poolA [dave] (.submit dave dave dave [⟨4, xlmA, 3000000000⟩])]

/-- non-vacuity of `C98_not_liquidated` and `C98_submit_keeps_health`: dave, who has debts, is healthy, and then `calm` happens -/
example : ∃ w w' i, Reachable w ∧ w.poolAddr poolA = true ∧ (w.pools poolA).inst = some i ∧ dave ≠ i.backstop ∧
    PricesOk w (w.pools poolA) ∧ Healthy w (w.pools poolA) (getPositions (w.pools poolA) dave) ∧ PriceDecimals w (w.pools poolA) 7 ∧
    History (CalmFor poolA dave) w w' ∧ (w'.pools poolA).auctions 0 bob ≠ none ∧
    (accountOf (w.pools poolA) dave).debt 1 < (accountOf (w'.pools poolA) dave).debt 1 ∧
    (∃ C L, CollateralValue w' (w'.pools poolA) (getPositions (w'.pools poolA) dave) C ∧
      LiabilityValue w' (w'.pools poolA) (getPositions (w'.pools poolA) dave) L) := by
  obtain ⟨w, w', hr, hrun, h⟩ := Demo.reach_runs (ops := setup ++ trade ++ emissions ++ [prices 1713150200 10000000 800000, sameLedger[0], .ledger 5 1])
    (ops' := calm)
    (f := fun w w' => pricesOk w (w.pools poolA) && (optAnd (w.pools poolA).inst fun i => decide (dave ≠ i.backstop ∧
        (w.oracle i.config.oracle).decimals = 7)) &&
      valuesOk w poolA dave (fun C L => decide (L ≤ C ∧ 100001 * L ≤ 100000 * C)) &&
      valuesOk w' poolA dave (fun _ _ => true) &&
      decide ((accountOf (w.pools poolA) dave).debt 1 < (accountOf (w'.pools poolA) dave).debt 1 ∧
        ((w'.pools poolA).auctions 0 bob).isSome = true)) (by decide +kernel)
  simp only [Bool.and_eq_true] at h
  obtain ⟨⟨⟨⟨h1, h2⟩, h3⟩, h5⟩, h4⟩ := h
  obtain ⟨i, hi, h2⟩ := optAnd_iff.1 h2
  obtain ⟨hb, hd⟩ := of_decide_eq_true h2
  obtain ⟨hp, C, L, hC, hL, h3⟩ := valuesOk_iff hr h3
  obtain ⟨g1, g2⟩ := of_decide_eq_true h3
  have hr' : Reachable w' := history_reach (run_history (P := fun _ => True) hrun (by simp)) hr
  obtain ⟨_, C', L', hC', hL', _⟩ := valuesOk_iff hr' h5
  obtain ⟨h7, h8⟩ := of_decide_eq_true h4
  refine ⟨w, w', i, hr, hp, hi, hb, pricesOk_iff h1, ⟨C, L, 7, hC, hL, ⟨i, hi, hd⟩, g1, fun _ => g2⟩, ⟨i, hi, hd⟩, run_history hrun ?_, ?_, h7,
    C', L', hC', hL'⟩
  · intro op hop
    simp only [calm, List.mem_cons, List.not_mem_nil, or_false] at hop
    rcases hop with rfl | rfl | rfl | rfl | rfl
    · exact .inr ⟨_, _, _, _, rfl⟩
    · exact .inr ⟨_, _, _, _, rfl⟩
    · exact .inl (by simp [ForeignTo, Elsewhere, WithinLedger])
    · refine .inl ?_
      simp [ForeignTo, Elsewhere, WithinLedger, alice, dave]
      rintro _ _ _ _ _ _ rfl _ _ rfl
      simp
    · exact .inr ⟨_, _, _, _, rfl⟩
  · intro e; rw [e] at h8; cases h8

end Props
end Blend
