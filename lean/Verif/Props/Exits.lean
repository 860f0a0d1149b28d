import Verif.Lemmas.LiveSubmit
import Verif.Examples.Demo
/-
  C52: exits cannot be blocked. Suppliers can withdraw and borrowers can repay whatever the status of the pool, the state of
  the oracle and the settings of the admin, as long as the tokens are there and the numbers fit into 128 bits.
-/

namespace Blend
namespace Pool
open Spec

theorem ok_of_noErr {α : Type} {r : R α} (h : NoErr (fun _ => true) r) : ∃ x, r = .ok x := by
  cases r with
  | ok x => exact ⟨x, rfl⟩
  | error e => exact absurd rfl (h e rfl)

open Classical in
/-- every error other than an overflow, or a lack of tokens that is real -/
noncomputable def Unexpected (short : Prop) : Err → Bool := fun e => decide (e ≠ .overflow ∧ ¬ (e = .token ∧ short))

theorem unexpected_overflow {short : Prop} : Unexpected short .overflow = false := by simp [Unexpected]

theorem unexpected_token {short : Prop} (h : Unexpected short .token = true) : ¬ short := by
  simpa [Unexpected] using h

theorem of_unexpected {α : Type} {short : Prop} {r : R α} {e : Err} (h : NoErr (Unexpected short) r) (he : r = .error e) :
    e = .overflow ∨ (e = .token ∧ short) := by
  by_contra hn
  push Not at hn
  refine h e ?_ he
  simp only [Unexpected, decide_eq_true_eq, not_and]
  exact ⟨hn.1, hn.2⟩

theorem isFloor_fdiv (x : Int) : IsFloor (Int.fdiv x ONE9) x ONE9 := by
  have := fdiv_spec (a := x) (z := ONE9) (by decide)
  simp only [IsFloor, ONE9] at *
  omega

end Pool

namespace Props
open Spec Pool Demo

variable {w : World} {p a : Address} {auth : List Address} {sender spender dst : Address} {n : Int}
  {i : PoolInst} {c : ReserveConfig} {d : ReserveData}

/-- **C52** A withdrawal (of supplied tokens that are not collateral) by a user who has some fails for two reasons only: a
number leaves the range of `i128`, or the pool holds fewer tokens than are to be paid, the lesser of the amount asked for and
the worth of the user's shares. Neither the status of the pool, nor the oracle, nor the number of positions, nor debts, nor
an auction, nor anything the admin can set, is a reason. -/
theorem C52_withdraw_fails_only (hr : Reachable w) (hp : w.poolAddr p = true) (hcall : Caller w p auth sender spender dst)
    (hi : (w.pools p).inst = some i) (hc : (w.pools p).resConfig a = some c) (hd : (w.pools p).resData a = some d)
    (hcur : 0 < (getPositions (w.pools p) sender).supply.bal c.index) (hn : 0 < n) {e : Err}
    (h : step w (.pool p auth (.submit sender spender dst [⟨1, a, n⟩])) = .error e) :
    e = .overflow ∨ (e = .token ∧ ∃ d' v, Current (w.pools p) w.time a d' ∧
      IsFloor v ((getPositions (w.pools p) sender).supply.bal c.index * d'.bRate) ONE9 ∧ w.balance a p < min n v) := by
  refine of_unexpected (withdraw_live hr hp hcall.users hcall.sender_auth hcall.spender_auth hcall.sender_ne hcall.spender_ne hcall.dst_ne hi hc hd
    hcur hn ⟨fun hE => ?_, fun hE d' hd' v h1 h2 => ?_⟩) h
  · rw [unexpected_overflow] at hE; cases hE
  · by_contra hlt
    refine unexpected_token hE ⟨d', Int.fdiv ((getPositions (w.pools p) sender).supply.bal c.index * d'.bRate) ONE9,
      ⟨c, d, i, hc, hd, hi, hd'⟩, isFloor_fdiv _, ?_⟩
    have hs := fdiv_spec (a := (getPositions (w.pools p) sender).supply.bal c.index * d'.bRate) (z := ONE9) (by decide)
    simp only [ONE9] at hs ⊢
    omega

/-- **C52** In a reserve of ordinary size the withdrawal succeeds if the pool holds what is to be paid. -/
theorem C52_withdraw_succeeds (hr : Reachable w) (hp : w.poolAddr p = true) (hcall : Caller w p auth sender spender dst)
    (hi : (w.pools p).inst = some i) (hc : (w.pools p).resConfig a = some c) (hd : (w.pools p).resData a = some d)
    (hcur : 0 < (getPositions (w.pools p) sender).supply.bal c.index) (hn : 0 < n)
    (hm : Moderate c d w.time) (he : ModerateEmissions (w.pools p) (c.index * 2 + 1)) (hn2 : n ≤ 10 ^ 29)
    (hdst : w.balance a dst + n ≤ 10 ^ 38)
    (hfunds : ∀ d' v, Current (w.pools p) w.time a d' →
      IsFloor v ((getPositions (w.pools p) sender).supply.bal c.index * d'.bRate) ONE9 → min n v ≤ w.balance a p) :
    ∃ w', step w (.pool p auth (.submit sender spender dst [⟨1, a, n⟩])) = .ok w' := by
  refine ok_of_noErr (withdraw_live hr hp hcall.users hcall.sender_auth hcall.spender_auth hcall.sender_ne hcall.spender_ne hcall.dst_ne hi hc hd
    hcur hn ⟨fun _ => ⟨hm, he, hn2, hdst⟩, fun _ d' hd' v h1 h2 => ?_⟩)
  have hs := fdiv_spec (a := (getPositions (w.pools p) sender).supply.bal c.index * d'.bRate) (z := ONE9) (by decide)
  have := hfunds d' _ ⟨c, d, i, hc, hd, hi, hd'⟩ (isFloor_fdiv _)
  simp only [ONE9] at hs this
  omega

/-- **C52** The same for a withdrawal of collateral by a user without debts. -/
theorem C52_withdraw_collateral_fails_only (hr : Reachable w) (hp : w.poolAddr p = true) (hcall : Caller w p auth sender spender dst)
    (hi : (w.pools p).inst = some i) (hc : (w.pools p).resConfig a = some c) (hd : (w.pools p).resData a = some d)
    (hcur : 0 < (getPositions (w.pools p) sender).collateral.bal c.index) (hfree : (getPositions (w.pools p) sender).liabilities.len = 0)
    (hn : 0 < n) {e : Err} (h : step w (.pool p auth (.submit sender spender dst [⟨3, a, n⟩])) = .error e) :
    e = .overflow ∨ (e = .token ∧ ∃ d' v, Current (w.pools p) w.time a d' ∧
      IsFloor v ((getPositions (w.pools p) sender).collateral.bal c.index * d'.bRate) ONE9 ∧ w.balance a p < min n v) := by
  refine of_unexpected (withdrawColl_live hr hp hcall.users hcall.sender_auth hcall.spender_auth hcall.sender_ne hcall.spender_ne hcall.dst_ne hi hc hd
    (by simpa [SMap.len, SMap.isEmpty] using hfree) hcur hn ⟨fun hE => ?_, fun hE d' hd' v h1 h2 => ?_⟩) h
  · rw [unexpected_overflow] at hE; cases hE
  · by_contra hlt
    refine unexpected_token hE ⟨d', Int.fdiv ((getPositions (w.pools p) sender).collateral.bal c.index * d'.bRate) ONE9,
      ⟨c, d, i, hc, hd, hi, hd'⟩, isFloor_fdiv _, ?_⟩
    have hs := fdiv_spec (a := (getPositions (w.pools p) sender).collateral.bal c.index * d'.bRate) (z := ONE9) (by decide)
    simp only [ONE9] at hs ⊢
    omega

/-- **C52** … and it succeeds in a reserve of ordinary size if the pool holds what is to be paid. -/
theorem C52_withdraw_collateral_succeeds (hr : Reachable w) (hp : w.poolAddr p = true) (hcall : Caller w p auth sender spender dst)
    (hi : (w.pools p).inst = some i) (hc : (w.pools p).resConfig a = some c) (hd : (w.pools p).resData a = some d)
    (hcur : 0 < (getPositions (w.pools p) sender).collateral.bal c.index) (hfree : (getPositions (w.pools p) sender).liabilities.len = 0)
    (hn : 0 < n) (hm : Moderate c d w.time) (he : ModerateEmissions (w.pools p) (c.index * 2 + 1)) (hn2 : n ≤ 10 ^ 29)
    (hdst : w.balance a dst + n ≤ 10 ^ 38)
    (hfunds : ∀ d' v, Current (w.pools p) w.time a d' →
      IsFloor v ((getPositions (w.pools p) sender).collateral.bal c.index * d'.bRate) ONE9 → min n v ≤ w.balance a p) :
    ∃ w', step w (.pool p auth (.submit sender spender dst [⟨3, a, n⟩])) = .ok w' := by
  refine ok_of_noErr (withdrawColl_live hr hp hcall.users hcall.sender_auth hcall.spender_auth hcall.sender_ne hcall.spender_ne hcall.dst_ne hi hc hd
    (by simpa [SMap.len, SMap.isEmpty] using hfree) hcur hn ⟨fun _ => ⟨hm, he, hn2, hdst⟩, fun _ d' hd' v h1 h2 => ?_⟩)
  have hs := fdiv_spec (a := (getPositions (w.pools p) sender).collateral.bal c.index * d'.bRate) (z := ONE9) (by decide)
  have := hfunds d' _ ⟨c, d, i, hc, hd, hi, hd'⟩ (isFloor_fdiv _)
  simp only [ONE9] at hs this
  omega

/-- **C52** A repayment, by a user who owes something, of at least the worth of one debt share fails for two reasons only: a
number leaves the range of `i128`, or the spender holds fewer tokens than offered. -/
theorem C52_repay_fails_only (hr : Reachable w) (hp : w.poolAddr p = true) (hcall : Caller w p auth sender spender dst)
    (hi : (w.pools p).inst = some i) (hc : (w.pools p).resConfig a = some c) (hd : (w.pools p).resData a = some d)
    (hcur : 0 < (getPositions (w.pools p) sender).liabilities.bal c.index) (hn : 0 < n)
    (hshare : ∀ d', Current (w.pools p) w.time a d' → d'.dRate ≤ n * ONE9) {e : Err}
    (h : step w (.pool p auth (.submit sender spender dst [⟨5, a, n⟩])) = .error e) :
    e = .overflow ∨ (e = .token ∧ w.balance a spender < n) := by
  refine of_unexpected (repay_live hr hp hcall.users hcall.sender_auth hcall.spender_auth hcall.sender_ne hcall.spender_ne hcall.dst_ne hi hc hd
    hcur (fun d' hd' => hshare d' ⟨c, d, i, hc, hd, hi, hd'⟩) ⟨fun hE => ?_, fun hE => ?_⟩ hn) h
  · rw [unexpected_overflow] at hE; cases hE
  · have := unexpected_token hE
    omega

/-- **C52** In a reserve of ordinary size the repayment succeeds if the spender holds the tokens. -/
theorem C52_repay_succeeds (hr : Reachable w) (hp : w.poolAddr p = true) (hcall : Caller w p auth sender spender dst)
    (hi : (w.pools p).inst = some i) (hc : (w.pools p).resConfig a = some c) (hd : (w.pools p).resData a = some d)
    (hcur : 0 < (getPositions (w.pools p) sender).liabilities.bal c.index) (hn : 0 < n)
    (hshare : ∀ d', Current (w.pools p) w.time a d' → d'.dRate ≤ n * ONE9)
    (hm : Moderate c d w.time) (he : ModerateEmissions (w.pools p) (c.index * 2)) (hn2 : n ≤ 10 ^ 29)
    (hdst : w.balance a dst + n ≤ 10 ^ 38) (hpool : w.balance a p + n ≤ 10 ^ 38) (hfunds : n ≤ w.balance a spender) :
    ∃ w', step w (.pool p auth (.submit sender spender dst [⟨5, a, n⟩])) = .ok w' :=
  ok_of_noErr (repay_live hr hp hcall.users hcall.sender_auth hcall.spender_auth hcall.sender_ne hcall.spender_ne hcall.dst_ne hi hc hd
    hcur (fun d' hd' => hshare d' ⟨c, d, i, hc, hd, hi, hd'⟩) ⟨fun _ => ⟨hm, he, hn2, hdst, hpool⟩, fun _ => hfunds⟩ hn)

/-- the accrued data of a reserve is unique -/
theorem current_unique {ps : PoolState} {now : Nat} (hi : ps.inst = some i) (hc : ps.resConfig a = some c) (hd : ps.resData a = some d)
    {d1 : ReserveData} (h1 : accrue c i.config.bstopRate now d = .ok d1) {d2 : ReserveData} (h2 : Current ps now a d2) : d2 = d1 := by
  obtain ⟨c', d', i', hc', hd', hi', h2⟩ := h2
  rw [hc] at hc'; cases hc'
  rw [hd] at hd'; cases hd'
  rw [hi] at hi'; cases hi'
  rw [h1] at h2; cases h2; rfl

/-- three days later the admin has frozen the pool and lowered the limit on positions, and the oracle has stopped -/
def frozen : List Op := setup ++ trade ++ emissions ++ [
  .ledger 259200 50000,
  .oracles (fun _ => { decimals := 7, price := fun _ => none }),
  .pool poolA [adminA] (.setStatus 4),
  .pool poolA [adminA] (.updatePool 9999999 2)]

/-- decidable form of `Moderate` -/
def moderateB (c : ReserveConfig) (d : ReserveData) (now : Nat) : Bool :=
  decide (d.dSupply * d.dRate ≤ 10 ^ 35 ∧ d.bSupply * d.bRate ≤ 10 ^ 35 ∧ d.dSupply * d.dRate ≤ 10 * (d.bSupply * d.bRate) ∧
    d.dRate ≤ 10 ^ 20 ∧ (-10 ^ 37 ≤ d.backstopCredit ∧ d.backstopCredit ≤ 10 ^ 37) ∧ c.rThree ≤ 10 ^ 9 ∧ now ≤ d.lastTime + 604800)

theorem moderate_of {c : ReserveConfig} {d : ReserveData} {now : Nat} (h : moderateB c d now = true) : Moderate c d now := by
  obtain ⟨h1, h2, h3, h4, h5, h6, h7⟩ := of_decide_eq_true h
  exact ⟨h1, h2, h3, h4, h5, h6, h7⟩

/-- decidable form of `ModerateEmissions` -/
def emissionsB (ps : PoolState) (id : Nat) : Bool :=
  decide (ps.received id ≤ 10 ^ 18) && (match ps.emisData id with | some e => decide (e.index ≤ 10 ^ 37) | none => true)

theorem emissions_of {ps : PoolState} {id : Nat} (h : emissionsB ps id = true) : ModerateEmissions ps id := by
  unfold emissionsB at h
  rw [Bool.and_eq_true] at h
  refine ⟨of_decide_eq_true h.1, fun e he => ?_⟩
  rw [he] at h
  exact of_decide_eq_true h.2

/-- non-vacuity of the statements about withdrawals: the pool is frozen, the oracle has no prices, and alice, with emissions
running, can take out everything (`C52_withdraw_succeeds` applies) -/
example : ∃ w w', Reachable w ∧ (w.pools poolA).inst.map (·.config.status) = some 4 ∧
    step w (.pool poolA [alice] (.submit alice alice alice [⟨1, usdcA, 300000000000⟩])) = .ok w' := by
  obtain ⟨w, _, hr, h⟩ := Demo.reach (ops := frozen) (f := fun w => optAnd (w.pools poolA).inst fun i =>
      optAnd ((w.pools poolA).resConfig usdcA) fun c => optAnd ((w.pools poolA).resData usdcA) fun d =>
      okAnd (accrue c i.config.bstopRate w.time d) fun d' =>
      decide (i.config.status = 4) && w.poolAddr poolA && decide (¬ w.isProtocol alice) &&
      decide (0 < (getPositions (w.pools poolA) alice).supply.bal c.index) && moderateB c d w.time &&
      emissionsB (w.pools poolA) (c.index * 2 + 1) && decide (w.balance usdcA alice + 300000000000 ≤ 10 ^ 38) &&
      decide (300000000000 ≤ w.balance usdcA poolA)) (by decide +kernel)
  obtain ⟨i, hi, h⟩ := optAnd_iff.1 h
  obtain ⟨c, hc, h⟩ := optAnd_iff.1 h
  obtain ⟨d, hd, h⟩ := optAnd_iff.1 h
  obtain ⟨d', hd', h⟩ := okAnd_iff.1 h
  simp only [Bool.and_eq_true, decide_eq_true_eq] at h
  obtain ⟨⟨⟨⟨⟨⟨⟨h1, h2⟩, h3⟩, h4⟩, h5⟩, h6⟩, h7⟩, h8⟩ := h
  obtain ⟨w', hw'⟩ := C52_withdraw_succeeds hr h2 (auth := [alice]) (sender := alice) (spender := alice) (dst := alice)
    ⟨by simpa using h3, by simp, by simp, by decide, by decide, by decide⟩ hi hc hd h4 (n := 300000000000) (by decide) (moderate_of h5)
    (emissions_of h6) (by decide) h7 (fun _ v _ _ => by omega)
  exact ⟨w, w', hr, by rw [hi]; simp [h1], hw'⟩

/-- non-vacuity of the statements about repayments: in the same frozen pool bob can repay (`C52_repay_succeeds` applies) -/
example : ∃ w w', Reachable w ∧ (w.pools poolA).inst.map (·.config.status) = some 4 ∧
    step w (.pool poolA [bob] (.submit bob bob bob [⟨5, usdcA, 30000000000⟩])) = .ok w' := by
  obtain ⟨w, _, hr, h⟩ := Demo.reach (ops := frozen) (f := fun w => optAnd (w.pools poolA).inst fun i =>
      optAnd ((w.pools poolA).resConfig usdcA) fun c => optAnd ((w.pools poolA).resData usdcA) fun d =>
      okAnd (accrue c i.config.bstopRate w.time d) fun d' =>
      decide (i.config.status = 4) && w.poolAddr poolA && decide (¬ w.isProtocol bob) &&
      decide (0 < (getPositions (w.pools poolA) bob).liabilities.bal c.index) && moderateB c d w.time &&
      emissionsB (w.pools poolA) (c.index * 2) && decide (w.balance usdcA bob + 30000000000 ≤ 10 ^ 38) &&
      decide (w.balance usdcA poolA + 30000000000 ≤ 10 ^ 38) && decide (30000000000 ≤ w.balance usdcA bob) &&
      decide (d'.dRate ≤ 30000000000 * ONE9)) (by decide +kernel)
  obtain ⟨i, hi, h⟩ := optAnd_iff.1 h
  obtain ⟨c, hc, h⟩ := optAnd_iff.1 h
  obtain ⟨d, hd, h⟩ := optAnd_iff.1 h
  obtain ⟨d', hd', h⟩ := okAnd_iff.1 h
  simp only [Bool.and_eq_true, decide_eq_true_eq] at h
  obtain ⟨⟨⟨⟨⟨⟨⟨⟨⟨h1, h2⟩, h3⟩, h4⟩, h5⟩, h6⟩, h7⟩, h8⟩, h9⟩, h10⟩ := h
  obtain ⟨w', hw'⟩ := C52_repay_succeeds hr h2 (auth := [bob]) (sender := bob) (spender := bob) (dst := bob)
    ⟨by simpa using h3, by simp, by simp, by decide, by decide, by decide⟩ hi hc hd h4 (n := 30000000000) (by decide)
    (fun d2 h => by rw [current_unique hi hc hd hd' h]; exact h10) (moderate_of h5)
    (emissions_of h6) (by decide) h7 h8 h9
  exact ⟨w, w', hr, by rw [hi]; simp [h1], hw'⟩

/-- settings of a reserve that `queue_set_reserve` accepts, with the sum of the base rate and the first two slopes above
`2³² - 1` -/
def steepCfg : ReserveConfig := ⟨0, 7, 9000000, 9000000, 8500000, 10000000, 300000, 1000000000, 4000000000, 4000000000, 50⟩

/-- **C52** (finding) The reservation about overflows is not idle. `queue_set_reserve` accepts settings whose base rate and
slopes add up to more than `u32` can hold; once such a reserve is used above 95 percent, its interest cannot be computed any
more. From the next second on withdrawals, repayments, deposits and even new settings for the reserve all fail, although
the pool holds tokens and the amounts are small. -/
theorem C52_steep_slope_blocks : ∃ w c d, Reachable w ∧ (w.pools poolA).resConfig usdcA = some c ∧ ValidConfig c ∧
    (w.pools poolA).resData usdcA = some d ∧ d.bSupply * d.bRate ≤ 10 ^ 22 ∧ w.time = d.lastTime + 700000 ∧
    0 < (getPositions (w.pools poolA) alice).supply.bal c.index ∧ 10000000 ≤ w.balance usdcA poolA ∧
    step w (.pool poolA [alice] (.submit alice alice alice [⟨1, usdcA, 10000000⟩])) = .error .overflow ∧
    step w (.pool poolA [bob] (.submit bob bob bob [⟨5, usdcA, 10000000⟩])) = .error .overflow ∧
    step w (.pool poolA [alice] (.submit alice alice alice [⟨0, usdcA, 10000000⟩])) = .error .overflow ∧
    step w (.pool poolA [] (.setReserve usdcA)) = .error .overflow := by
  obtain ⟨w, _, hr, h⟩ := Demo.reach (ops := setup ++ [
      .pool poolA [adminA] (.queueSetReserve usdcA steepCfg),
      .ledger 604800 100000,
      prices (genesis.time + 604800) 10000000 1000000,
      .pool poolA [] (.setReserve usdcA),
      .pool poolA [alice] (.submit alice alice alice [⟨0, usdcA, 60000000000⟩]),
      .pool poolA [bob] (.submit bob bob bob [⟨2, xlmA, 1000000000000⟩, ⟨4, usdcA, 58000000000⟩]),
      .pool poolA [adminA] (.queueSetReserve usdcA usdcCfg),
      .ledger 700000 100000])
    (f := fun w => optAnd ((w.pools poolA).resConfig usdcA) fun c => optAnd ((w.pools poolA).resData usdcA) fun d =>
      validMetadata c && decide (d.bSupply * d.bRate ≤ 10 ^ 22) && decide (w.time = d.lastTime + 700000) &&
      decide (0 < (getPositions (w.pools poolA) alice).supply.bal c.index) && decide (10000000 ≤ w.balance usdcA poolA) &&
      errIs (step w (.pool poolA [alice] (.submit alice alice alice [⟨1, usdcA, 10000000⟩]))) .overflow &&
      errIs (step w (.pool poolA [bob] (.submit bob bob bob [⟨5, usdcA, 10000000⟩]))) .overflow &&
      errIs (step w (.pool poolA [alice] (.submit alice alice alice [⟨0, usdcA, 10000000⟩]))) .overflow &&
      errIs (step w (.pool poolA [] (.setReserve usdcA))) .overflow) (by decide +kernel)
  obtain ⟨c, hc, h⟩ := optAnd_iff.1 h
  obtain ⟨d, hd, h⟩ := optAnd_iff.1 h
  simp only [Bool.and_eq_true, decide_eq_true_eq] at h
  obtain ⟨⟨⟨⟨⟨⟨⟨⟨_, h2⟩, h3⟩, h4⟩, h5⟩, h6⟩, h7⟩, h8⟩, h9⟩ := h
  exact ⟨w, c, d, hr, hc, (hr.base.cfg poolA).valid _ _ hc, hd, h2, h3, h4, h5, errIs_iff.1 h6, errIs_iff.1 h7, errIs_iff.1 h8, errIs_iff.1 h9⟩

end Props
end Blend
