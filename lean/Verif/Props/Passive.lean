import Verif.Props.Authorization
import Verif.Props.Accounting
import Verif.Props.Backstop
import Verif.Props.BackstopExits
import Verif.Lemmas.InstChange
/-
  C74: an account that stays away loses nothing. A lender without debt keeps its positions, cannot be put up for
  liquidation, and each position is worth at least as much as before, whatever everybody else does for however long. A
  depositor of the backstop keeps its shares and their worth as long as no bad debt auction of the pool is filled.
-/

namespace Blend
namespace Spec

/-- the account owes nothing in the pool -/
def DebtFree (ps : PoolState) (u : Address) : Prop :=
  ∀ pos, ps.positions.get u = some pos → ∀ i, pos.liabilities.get i = none

/-- the shares an account has lent to the pool in the reserve of index `i`: as plain supply or as collateral -/
def Lent (ps : PoolState) (u : Address) (i : Nat) (b : Int) : Prop :=
  ∃ pos, ps.positions.get u = some pos ∧ (pos.supply.get i = some b ∨ pos.collateral.get i = some b)

/-- the operation fills a bad debt auction of pool `p`: the only way the tokens of its depositors are taken -/
def FillsBadDebt (p : Address) (op : Op) : Prop :=
  ∃ auth sender spender dst reqs, op = .pool p auth (.submit sender spender dst reqs) ∧ ∃ r ∈ reqs, r.type = 7

/-- all shares of an account in a pool's backstop, queued for withdrawal or not -/
def allShares (ub : UserBalance) : Int := ub.shares + (ub.q4w.map (·.amount)).sum

end Spec

namespace Props
open Spec Pool Demo

theorem health_noDebt {w : World} {ps : PoolState} {cache cache' : Cache} {pos : Positions} {pd : PositionData}
    (hn : ∀ i, pos.liabilities.get i = none) (h : calcPositionData w ps cache pos = .ok (pd, cache')) :
    pd.liabilityRaw = 0 := by
  unfold calcPositionData at h
  simp only [bind_ok] at h
  obtain ⟨sc, _, h⟩ := h
  refine foldlM_inv (fun x : PositionData × Cache => x.1.liabilityRaw = 0) ?_ rfl h
  rintro ⟨x, c⟩ ⟨y, c'⟩ i _ hx hstep
  simp only at hx ⊢
  have hd : pos.liabilities.bal i = 0 := by simp [SMap.bal, hn i]
  unfold healthStep at hstep
  simp only [hd] at hstep
  split at hstep
  · simp only [pure_ok, Prod.mk.injEq] at hstep
    rw [← hstep.1]; exact hx
  · simp only [bind_ok, Prod.exists, unwrap_ok, lt_irrefl, gt_iff_lt, if_false, ite_ok, pure_ok, Prod.mk.injEq] at hstep
    obtain ⟨_, _, _, _, _, _, _, h1⟩ := hstep
    rcases h1 with ⟨_, _, _, _, _, _, _, _, _, _, _, _, _, _, rfl, _, rfl, rfl, _⟩ | ⟨_, _, rfl, _, rfl, rfl, _⟩
    · exact hx
    · exact hx

/-- an account without debt cannot be put up for liquidation -/
theorem no_liquidation {w : World} {p u : Address} {n : Nat} (hn : DebtFree (w.pools p) u) :
    ∀ x, createUserLiq w p u n ≠ .ok x := by
  rintro ⟨a, ps⟩ h
  unfold createUserLiq at h
  simp only [bind_ok, require_ok, Prod.exists] at h
  obtain ⟨_, _, _, _, _, _, cache, _, pd, c1, hpd, _, _, pct, wd, sh, hq, _⟩ := h
  have hz : ∀ i, (User.load (w.pools p) u).pos.liabilities.get i = none := by
    intro i
    simp only [User.load, getPositions]
    cases hg : (w.pools p).positions.get u with
    | none => exact SMap.get_empty ..
    | some pos => exact hn pos hg i
  have h0 := health_noDebt hz hpd
  unfold liqQuote at hq
  simp only [bind_ok] at hq
  obtain ⟨_, _, _, _, lf, hlf, _⟩ := hq
  rw [h0] at hlf
  exact (mulDivFloor_ok.1 hlf).2.1 rfl

/-- a submit that goes through names no auction that does not exist -/
theorem submit_names {w w' : World} {p : Address} {auth : List Address} {sender spender dst : Address} {reqs : List Request}
    (h : step w (.pool p auth (.submit sender spender dst reqs)) = .ok w') {t : Nat} {x : Address}
    (hn : (w.pools p).auctions t x = none) : ∀ q ∈ reqs, reqAuction sender q ≠ some (t, x) := by
  simp only [step, bind_ok, require_ok, call, requireAuth_ok, ite_ok, pure_ok, Prod.exists] at h
  obtain ⟨_, _, _, _, _, hsp, h⟩ := h
  obtain ⟨pos, w1, hsub⟩ : ∃ pos w1, executeSubmit w p auth sender spender dst reqs = .ok (pos, w1) := by
    rcases h with ⟨_, _, hm, pos, w1, h1, h2⟩ | ⟨he, pos, w1, h1, h2⟩
    · exact ⟨pos, w1, h1⟩
    · exact ⟨pos, w1, h1⟩
  obtain ⟨_, cache, s, cache', w2, ps1, hl, hb, _, _, _, _, _, _⟩ := executeSubmit_ok hsub
  exact (requests_none hb hn).1

theorem passive_step {w w' : World} (hr : Reachable w) {p u : Address} (hp : w.poolAddr p = true) {i : PoolInst}
    (hi : (w.pools p).inst = some i) (hu : u ≠ i.backstop) (hn : DebtFree (w.pools p) u)
    (ha : (w.pools p).auctions 0 u = none) {op : Op} (hs : step w op = .ok w') (hno : u ∉ signers op) :
    (w'.pools p).positions.get u = (w.pools p).positions.get u ∧
    (∀ id, ((w'.pools p).userEmis id).get u = ((w.pools p).userEmis id).get u) ∧
    (w'.pools p).auctions 0 u = none := by
  have haddr : ∀ t, (w'.pools p).auctions t u = (w.pools p).auctions t u ∨ AuctionChange w p t u op ((w'.pools p).auctions t u) :=
    fun t => auction_step hr.base hs p t u
  have h3 : ∀ auth n, op ≠ .pool p auth (.newLiquidation u n) := by
    rintro auth n rfl
    simp only [step, bind_ok, require_ok, call, createLiquidation, Prod.exists] at hs
    obtain ⟨_, _, _, _, hs⟩ := hs
    obtain ⟨_, _, _, _, a, ps, hc, _⟩ := hs
    exact no_liquidation hn _ hc
  have h2 : ∀ auth, op ≠ .pool p auth (.badDebt u) := by
    rintro auth rfl
    simp only [step, bind_ok, require_ok, call, transferBadDebt] at hs
    obtain ⟨_, _, _, _, hs⟩ := hs
    obtain ⟨_, _, _, _, _, hc, _⟩ := hs
    apply hc
    right
    simp only [User.load, getPositions]
    cases hg : (w.pools p).positions.get u with
    | none => rfl
    | some pos =>
      have : pos.liabilities = .empty := SMap.ext_get fun k => by rw [hn pos hg k, SMap.get_empty]
      simp [this]; rfl
  have h1 : ∀ auth sender spender dst reqs, op = .pool p auth (.submit sender spender dst reqs) →
      ∀ q ∈ reqs, ¬ (q.type = 6 ∧ q.address = u) := by
    rintro auth sender spender dst reqs rfl q hq ⟨h6, h7⟩
    exact submit_names hs ha q hq (by simp [reqAuction, h6, h7])
  obtain ⟨k1, k2⟩ := C29_positions hr hs hp hno (fun j hj => by rw [hi] at hj; cases hj; exact hu) h1 h2 h3
  refine ⟨k1, k2, ?_⟩
  rcases haddr 0 with e | hch
  · rw [e]; exact ha
  · generalize (w'.pools p).auctions 0 u = x at hch
    cases hch with
    | liquidation auth n i a' ps _ _ _ _ hcr => exact absurd rfl (h3 auth n)
    | badDebt _ _ _ h0 => cases h0
    | interest _ _ _ _ h0 => cases h0
    | submit auth sender spender dst reqs q _ hq hr' => exact absurd hr' (submit_names hs ha q hq)
    | expire => rfl

/-- **C74** A lender that owes nothing and signs nothing keeps what it has, over any history: its positions stay the same,
no liquidation auction of it ever exists, and every position is worth at least as many tokens as before. -/
theorem C74_lender {w w' : World} (hr : Reachable w) {p u : Address} (hp : w.poolAddr p = true) {i : PoolInst}
    (hi : (w.pools p).inst = some i) (hu : u ≠ i.backstop) (hn : DebtFree (w.pools p) u)
    (ha : (w.pools p).auctions 0 u = none) (hh : History (fun op => u ∉ signers op) w w') :
    (w'.pools p).positions.get u = (w.pools p).positions.get u ∧
    (∀ id, ((w'.pools p).userEmis id).get u = ((w.pools p).userEmis id).get u) ∧
    (w'.pools p).auctions 0 u = none ∧
    ∀ k b, Lent (w.pools p) u k b → Lent (w'.pools p) u k b ∧
      ∀ asset c d, (w.pools p).resConfig asset = some c → c.index = k → (w.pools p).resData asset = some d →
        ∃ c' d', (w'.pools p).resConfig asset = some c' ∧ c'.index = k ∧ (w'.pools p).resData asset = some d' ∧
          ∀ v v', IsFloor v (b * d.bRate) ONE9 → IsFloor v' (b * d'.bRate) ONE9 → v ≤ v' := by
  suffices h : Steps w w' ∧ Reachable w' ∧ w'.poolAddr p = true ∧ (∃ j, (w'.pools p).inst = some j ∧ u ≠ j.backstop) ∧
      (w'.pools p).positions.get u = (w.pools p).positions.get u ∧
      (∀ id, ((w'.pools p).userEmis id).get u = ((w.pools p).userEmis id).get u) ∧
      (w'.pools p).auctions 0 u = none by
    obtain ⟨st, hr', _, _, g1, g2, g3⟩ := h
    refine ⟨g1, g2, g3, fun k b hl => ⟨?_, fun asset c d hc hk hd => ?_⟩⟩
    · obtain ⟨pos, e1, e2⟩ := hl; exact ⟨pos, g1 ▸ e1, e2⟩
    · obtain ⟨c', hc', hci, _⟩ := (C23_identity_stable hr st hp).1 asset c hc
      obtain ⟨d', hd', _, hb, _⟩ := C05_rates_never_fall hr st hp hd
      refine ⟨c', d', hc', hci.trans hk, hd', fun v v' hv hv' => ?_⟩
      have hb0 : 0 ≤ b := by
        obtain ⟨pos, e1, e2⟩ := hl
        rcases e2 with e2 | e2
        · exact ((hr.pinv hp).bals u pos .supp k b e1 e2).1.le
        · exact ((hr.pinv hp).bals u pos .coll k b e1 e2).1.le
      have := mul_le_mul_of_nonneg_left hb hb0
      have h9 : (0:Int) < ONE9 := by norm_num [ONE9]
      have h1 : v * ONE9 < (v' + 1) * ONE9 := lt_of_le_of_lt (hv.1.trans this) hv'.2
      have := lt_of_mul_lt_mul_right h1 h9.le
      omega
  induction hh with
  | refl => exact ⟨.refl _, hr, hp, ⟨i, hi, hu⟩, rfl, fun _ => rfl, ha⟩
  | @tail w1 w2 op hh hno hs ih =>
    obtain ⟨st, hr1, hp1, ⟨j, hj, hju⟩, e1, e2, e3⟩ := ih
    have hn1 : DebtFree (w1.pools p) u := fun pos hg => hn pos (e1 ▸ hg)
    obtain ⟨f1, f2, f3⟩ := passive_step hr1 hp1 hj hju hn1 e3 hs hno
    obtain ⟨j', hj', he⟩ := inst_steps hr1.base (.tail (.refl _) ⟨op, hs⟩) hj
    exact ⟨.tail st ⟨op, hs⟩, hr1.step hs, by rw [(step_res hr1.base hs).poolAddr]; exact hp1, ⟨j', hj', by rw [he.backstop]; exact hju⟩,
      f1.trans e1, fun id => (f2 id).trans (e2 id), f3⟩

/-- **C74** A depositor of a pool's backstop that signs nothing keeps its shares, its queue and their worth over any history
in which no bad debt auction of the pool is filled: all its shares are worth at least as many backstop tokens as before. -/
theorem C74_depositor {w w' : World} (hr : Reachable w) {p u : Address}
    (hpos : 0 < allShares (w.backstop.getUserBal p u))
    (hh : History (fun op => u ∉ signers op ∧ ¬ FillsBadDebt p op) w w') :
    (w.backstop.getUserBal p u).shares ≤ (w'.backstop.getUserBal p u).shares ∧
    (w'.backstop.getUserBal p u).q4w = (w.backstop.getUserBal p u).q4w ∧
    (w'.backstop.userEmis p).get u = (w.backstop.userEmis p).get u ∧
    0 < (w.backstop.getPoolBal p).shares ∧ 0 < (w'.backstop.getPoolBal p).shares ∧
    ∀ v v', IsFloor v (allShares (w.backstop.getUserBal p u) * (w.backstop.getPoolBal p).tokens) (w.backstop.getPoolBal p).shares →
      IsFloor v' (allShares (w'.backstop.getUserBal p u) * (w'.backstop.getPoolBal p).tokens) (w'.backstop.getPoolBal p).shares →
      v ≤ v' := by
  have le : ∀ {x : World}, Reachable x → allShares (x.backstop.getUserBal p u) ≤ (x.backstop.getPoolBal p).shares :=
    fun hx => (Backstop.user_le_unq hx p u).1
  suffices h : Reachable w' ∧ (w.backstop.getUserBal p u).shares ≤ (w'.backstop.getUserBal p u).shares ∧
      (w'.backstop.getUserBal p u).q4w = (w.backstop.getUserBal p u).q4w ∧
      (w'.backstop.userEmis p).get u = (w.backstop.userEmis p).get u ∧
      (w.backstop.getPoolBal p).tokens * (w'.backstop.getPoolBal p).shares ≤
        (w'.backstop.getPoolBal p).tokens * (w.backstop.getPoolBal p).shares by
    obtain ⟨hr', h1, h2, h3, h4⟩ := h
    have hle : allShares (w.backstop.getUserBal p u) ≤ allShares (w'.backstop.getUserBal p u) := by
      unfold allShares; rw [h2]; omega
    have s0 := lt_of_lt_of_le hpos (le hr)
    have s1 := lt_of_lt_of_le (lt_of_lt_of_le hpos hle) (le hr')
    refine ⟨h1, h2, h3, s0, s1, fun v v' hv hv' => ?_⟩
    have t1 := hr'.ball.inv.pool p
    generalize allShares (w.backstop.getUserBal p u) = n at *
    generalize allShares (w'.backstop.getUserBal p u) = n' at *
    generalize (w.backstop.getPoolBal p).tokens = t at *
    generalize (w'.backstop.getPoolBal p).tokens = t' at *
    generalize (w.backstop.getPoolBal p).shares = s at *
    generalize (w'.backstop.getPoolBal p).shares = s' at *
    have e1 : v * s * s' ≤ n * t * s' := mul_le_mul_of_nonneg_right hv.1 s1.le
    have e2 : n * (t * s') ≤ n * (t' * s) := mul_le_mul_of_nonneg_left h4 hpos.le
    have e3 : n * (t' * s) ≤ n' * (t' * s) := mul_le_mul_of_nonneg_right hle (mul_nonneg t1 s0.le)
    have e4 : n' * t' * s < (v' + 1) * s' * s := mul_lt_mul_of_pos_right hv'.2 s0
    have e5 : v * (s * s') < (v' + 1) * (s * s') := by
      calc v * (s * s') = v * s * s' := by ring
        _ ≤ n * t * s' := e1
        _ = n * (t * s') := by ring
        _ ≤ n' * (t' * s) := e2.trans e3
        _ = n' * t' * s := by ring
        _ < (v' + 1) * s' * s := e4
        _ = _ := by ring
    have := lt_of_mul_lt_mul_right e5 (mul_pos s0 s1).le
    omega
  induction hh with
  | refl => exact ⟨hr, le_rfl, rfl, rfl, le_rfl⟩
  | @tail w1 w2 op hh hno hs ih =>
    obtain ⟨hr1, e1, e2, e3, e4⟩ := ih
    obtain ⟨f1, f2, f3⟩ := C29_backstop hr1 hs hno.1 p
    have hle : allShares (w.backstop.getUserBal p u) ≤ allShares (w1.backstop.getUserBal p u) := by
      unfold allShares; rw [e2]; omega
    have s1 := lt_of_lt_of_le (lt_of_lt_of_le hpos hle) (le hr1)
    have f4 := C33_share_price hr1 hs p s1 fun auth s sp d reqs e r hr7 h7 => hno.2 ⟨auth, s, sp, d, reqs, e, r, hr7, h7⟩
    refine ⟨hr1.step hs, e1.trans f1, f2.trans e2, f3.trans e3, ?_⟩
    have s0 := lt_of_lt_of_le hpos (le hr)
    have s2 := (hr1.step hs).ball.inv.shares_nonneg p
    generalize (w.backstop.getPoolBal p).tokens = t at *
    generalize (w1.backstop.getPoolBal p).tokens = t1 at *
    generalize (w2.backstop.getPoolBal p).tokens = t2 at *
    generalize (w.backstop.getPoolBal p).shares = s at *
    generalize (w1.backstop.getPoolBal p).shares = s1' at *
    generalize (w2.backstop.getPoolBal p).shares = s2' at *
    have g1 : t * s1' * s2' ≤ t1 * s * s2' := mul_le_mul_of_nonneg_right e4 (by omega)
    have g2 : t1 * s2' * s ≤ t2 * s1' * s := mul_le_mul_of_nonneg_right f4 s0.le
    have g3 : (t * s2') * s1' ≤ (t2 * s) * s1' := by
      calc (t * s2') * s1' = t * s1' * s2' := by ring
        _ ≤ t1 * s * s2' := g1
        _ = t1 * s2' * s := by ring
        _ ≤ t2 * s1' * s := g2
        _ = _ := by ring
    exact le_of_mul_le_mul_right g3 s1

/-- the liabilities of a debt free account, decidably -/
theorem debtFree_iff {ps : PoolState} {u : Address} :
    DebtFree ps u ↔ Demo.optAnd (ps.positions.get u) (fun pos => pos.liabilities.isEmpty) = true ∨ ps.positions.get u = none := by
  cases h : ps.positions.get u with
  | none => simp [DebtFree, h]
  | some pos =>
    simp only [DebtFree, h, Option.some.injEq, forall_eq', Demo.optAnd_iff, reduceCtorEq, or_false]
    constructor
    · intro hn
      have : pos.liabilities = .empty := SMap.ext_get fun k => by rw [hn k, SMap.get_empty]
      exact ⟨pos, rfl, by rw [this]; rfl⟩
    · rintro ⟨_, rfl, he⟩ i
      cases hi : pos.liabilities.get i with
      | none => rfl
      | some v =>
        have := SMap.mem_toList.2 hi
        unfold SMap.isEmpty at he
        rw [List.isEmpty_iff] at he
        rw [he] at this; simp at this

/-- alice lends 50000 USDC and stays away while emissions are claimed, bob is liquidated, prices crash and bob's bad debt goes
to the backstop: her shares are worth 8 dollars more in the end -/
example : ∃ w w' i d d' b v v', Reachable w ∧ w.poolAddr poolA = true ∧ (w.pools poolA).inst = some i ∧ alice ≠ i.backstop ∧
    DebtFree (w.pools poolA) alice ∧ (w.pools poolA).auctions 0 alice = none ∧
    History (fun op => alice ∉ signers op) w w' ∧ Lent (w.pools poolA) alice 0 b ∧
    (w.pools poolA).resData usdcA = some d ∧ (w'.pools poolA).resData usdcA = some d' ∧
    IsFloor v (b * d.bRate) ONE9 ∧ IsFloor v' (b * d'.bRate) ONE9 ∧ v < v' := by
  obtain ⟨w, hrun, hr, h⟩ := Demo.reach (ops := setup ++ trade) (f := fun w =>
    okAnd (run w (emissions ++ claims ++ liquidation ++ queue ++ crash ++ Demo.badDebt)) fun w' =>
      w.poolAddr poolA && decide ((w.pools poolA).auctions 0 alice).isNone &&
      optAnd (w.pools poolA).inst (fun i => decide (alice ≠ i.backstop)) &&
      optAnd ((w.pools poolA).positions.get alice) (fun pos => pos.liabilities.isEmpty &&
        optAnd (pos.supply.get 0) fun b =>
          optAnd ((w.pools poolA).resData usdcA) fun d => optAnd ((w'.pools poolA).resData usdcA) fun d' =>
            decide ((b * d.bRate) / 1000000000 + 80000000 ≤ (b * d'.bRate) / 1000000000))) (by decide +kernel)
  obtain ⟨w', hrun', h⟩ := okAnd_iff.1 h
  simp only [Bool.and_eq_true, decide_eq_true_eq, Option.isNone_iff_eq_none, optAnd_iff] at h
  obtain ⟨⟨⟨h1, h2⟩, i, hi, h3⟩, pos, hpos, h4, b, hb, d, hd, d', hd', h5⟩ := h
  refine ⟨w, w', i, d, d', b, _, _, hr, h1, hi, h3, debtFree_iff.2 (.inl (optAnd_iff.2 ⟨pos, hpos, h4⟩)), h2, ?_,
    ⟨pos, hpos, .inl hb⟩, hd, hd', ⟨Int.ediv_mul_le _ (by decide), Int.lt_ediv_add_one_mul_self _ (by decide)⟩,
    ⟨Int.ediv_mul_le _ (by decide), Int.lt_ediv_add_one_mul_self _ (by decide)⟩, ?_⟩
  · refine history_of_run hrun' (fun op hop => ?_) w (.refl _)
    have : ∀ op ∈ emissions ++ claims ++ liquidation ++ queue ++ crash ++ Demo.badDebt, alice ∉ signers op := by decide
    exact this op hop
  · simp only [ONE9]; omega

/-- carol's deposit in the backstop sits through the liquidation of bob -/
example : ∃ w w', Reachable w ∧ 0 < allShares (w.backstop.getUserBal poolA carol) ∧
    History (fun op => carol ∉ signers op ∧ ¬ FillsBadDebt poolA op) w w' ∧ w.time < w'.time := by
  obtain ⟨w, hrun, hr, h⟩ := Demo.reach (ops := setup) (f := fun w =>
    okAnd (run w (trade ++ emissions ++ liquidation)) fun w' =>
      decide (0 < allShares (w.backstop.getUserBal poolA carol)) && decide (w.time < w'.time)) (by decide +kernel)
  obtain ⟨w', hrun', h⟩ := okAnd_iff.1 h
  simp only [Bool.and_eq_true, decide_eq_true_eq] at h
  refine ⟨w, w', hr, h.1, history_of_run hrun' (fun op hop => ⟨?_, ?_⟩) w (.refl _), h.2⟩
  · have : ∀ op ∈ trade ++ emissions ++ liquidation, carol ∉ signers op := by decide
    exact this op hop
  · rintro ⟨auth, sender, spender, dst, reqs, rfl, r, hr, h7⟩
    simp [trade, emissions, liquidation, prices] at hop
    rcases hop with ⟨_, _, _, _, rfl⟩ | ⟨_, _, _, _, rfl⟩ | ⟨_, _, _, _, rfl⟩ <;> simp at hr
    · subst hr; simp at h7
    · rcases hr with rfl | rfl <;> simp at h7
    · rcases hr with rfl | rfl <;> simp at h7

end Props
end Blend
