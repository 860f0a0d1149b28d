import Verif.Lemmas.NewAuction
import Verif.Examples.InterestDemo
/-
  C49: the terms of new bad debt and interest auctions.
-/

namespace Blend
namespace Props
open Spec Pool Demo

private theorem bal_of_get {m : SMap Int} {k : Nat} {v : Int} (h : m.get k = some v) : m.bal k = v := by
  simp [SMap.bal, h]

private theorem bal_of_none {m : SMap Int} {k : Nat} (h : m.get k = none) : m.bal k = 0 := by
  simp [SMap.bal, h]

private theorem bal_one {t x : Address} {n : Int} : ((SMap.empty : SMap Int).set t n).bal x = if x = t then n else 0 := by
  unfold SMap.bal
  rw [SMap.get_set]
  split <;> rfl

/-- **C49**: a bad debt auction is created only if there is none, and then with the terms `BadDebtTerms`. -/
theorem C49_bad_debt_terms {w w' : World} (hr : Reachable w) {p : Address} {auth : List Address}
    (h : step w (.pool p auth .newBadDebt) = .ok w') :
    ∃ i bi a, (w.pools p).inst = some i ∧ w.backstop.inst = some bi ∧ (w.pools p).auctions 1 i.backstop = none ∧
      (w'.pools p).auctions 1 i.backstop = some a ∧ BadDebtTerms w p i.backstop bi.backstopToken a := by
  simp only [step, bind_ok, require_ok] at h
  obtain ⟨_, hp, _, _, h⟩ := h
  simp only [call, createBadDebt, createBadDebtData, PoolState.getInst, unwrap_ok, bind_ok, pure_ok, require_ok, Prod.exists, chkU32_ok,
    Option.isNone_iff_eq_none] at h
  obtain ⟨i, hi, a, ⟨_, hnone, blk, ⟨_, rfl⟩, cache, hcl, S, hS, value, bid, cache', hl, _, hne, t, ht, d, hd, v, hv, x, hx, n, hn, rfl⟩, rfl⟩ := h
  simp only [backstopToken, PoolState.getInst, Backstop.inst, unwrap_ok, bind_ok, pure_ok, require_ok] at ht
  obtain ⟨i', hi', _, _, bi, hbi, rfl⟩ := ht
  simp only [backstopData, bind_ok, require_ok] at hd
  obtain ⟨_, _, _, _, hd⟩ := hd
  simp only [oracleScalar, pow10, chk_ok] at hS
  obtain ⟨_, rfl⟩ := hS
  have hc : CacheCur (w.pools p) (w.pools p) w.time cache := cacheCur_load hcl
  obtain ⟨i'', hi'', hic⟩ := hc.config
  rw [hi] at hi''; cases hi''
  have hnd := (hr.base.cfg p).nodup
  have hbals : ∀ j z, (j, z) ∈ (getPositions (w.pools p) i.backstop).liabilities.toList → 0 < z ∧ j < (w.pools p).resList.length := by
    intro j z hj
    unfold getPositions at hj
    cases hg : (w.pools p).positions.get i.backstop with
    | none => rw [hg] at hj; cases hj
    | some pos =>
      rw [hg] at hj
      exact (hr.pinv hp).bals i.backstop pos .liab j z hg (SMap.get_some_iff.2 hj)
  obtain ⟨f, e1, e2, e3, e4⟩ := badDebtLoop_ok hnd _ _ _ _ _ _ _ (getPositions (w.pools p) i.backstop).liabilities.sorted
    (fun kv hk => (hbals kv.1 kv.2 hk).1) hc hl
  obtain ⟨htk, htv, hv0⟩ := tokenValue_ok hr (by positivity) hd hv
  have hw := worth140_ok hv0 hx hn
  have hval : value = total (w.pools p) f := by
    rw [e1, Int.zero_add, total]
    exact sum_keys_range (getPositions (w.pools p) i.backstop).liabilities.sorted (fun kv hk => (hbals kv.1 kv.2 hk).2) fun j _ => e2 j
  rw [pools_setPool]
  refine ⟨i, bi, _, hi, hbi, hnone, by rw [setAuction_same], rfl, fun j => ?_, fun z hz => ?_, fun z hz => ?_, f, _, v, n, fun j hj => ?_, ?_,
    ⟨i, hi, rfl⟩, ?_, hval ▸ hw, ?_⟩
  · unfold amountAt accountOf
    simp only
    cases hg : (getPositions (w.pools p) i.backstop).liabilities.get j with
    | some z =>
      obtain ⟨_, b, hb, hbz⟩ := e3 j z (SMap.get_some_iff.1 hg)
      rw [hb, bal_of_get hg]
      exact bal_of_get hbz
    | none =>
      rw [bal_of_none hg]
      cases hb : (w.pools p).resList[j]? with
      | none => rfl
      | some b =>
        refine bal_of_none (m := bid) ((e4 b fun k z hk hkb => ?_).trans rfl)
        have e := (List.getElem?_inj (l := (w.pools p).resList) (i := j) (j := k) (by
          rw [List.getElem?_eq_some_iff] at hb; exact hb.1) hnd).1 (hb.trans hkb.symm)
        subst e
        rw [← SMap.get_some_iff, hg] at hk; cases hk
  · refine bal_of_none ((e4 z fun k y hk hkb => hz ?_).trans rfl)
    exact List.mem_of_getElem? hkb
  · simp only [bal_one, if_neg hz]
  · show DebtItem w _ j ((getPositions (w.pools p) i.backstop).liabilities.bal j) _
    cases hg : (getPositions (w.pools p) i.backstop).liabilities.get j with
    | some z => rw [bal_of_get hg]; exact (e3 j z (SMap.get_some_iff.1 hg)).1
    | none =>
      rw [bal_of_none hg, e2 j fun z hz => by rw [← SMap.get_some_iff, hg] at hz; cases hz]
      exact .inl ⟨rfl, rfl⟩
  · rw [← hval]; exact fun e => hne (.inr e)
  · rw [hic]; exact htv
  · simp only [bal_one, if_true, htk]
    split <;> omega

/-- non-vacuity: bob's debt, taken over by the backstop, is auctioned; the lot is less than the tokens of the backstop -/
example : ∃ w w' a, Reachable w ∧ step w (.pool poolA [] .newBadDebt) = .ok w' ∧ (w'.pools poolA).auctions 1 backstopA = some a ∧
    0 < a.bid.bal usdcA ∧ 0 < a.lot.bal lpA := by
  obtain ⟨w, w', _, hr, hs, h⟩ := Demo.reach_step (ops := setup ++ trade ++ emissions ++ claims ++ liquidation ++ crash ++ badDebt.take 1)
    (op := .pool poolA [] .newBadDebt)
    (f := fun _ w' => optAnd ((w'.pools poolA).auctions 1 backstopA) fun a => decide (0 < a.bid.bal usdcA ∧ 0 < a.lot.bal lpA))
    (by decide +kernel)
  rw [optAnd_iff] at h
  obtain ⟨a, ha, h⟩ := h
  exact ⟨w, w', a, hr, hs, ha, of_decide_eq_true h⟩

/-- **C49**: an interest auction is created only if there is none, and then with the terms `InterestTerms`. -/
theorem C49_interest_terms {w w' : World} (hr : Reachable w) {p : Address} {auth : List Address} {l : List Address}
    (h : step w (.pool p auth (.newInterest l)) = .ok w') :
    ∃ i bi a, (w.pools p).inst = some i ∧ w.backstop.inst = some bi ∧ (w.pools p).auctions 2 i.backstop = none ∧
      (w'.pools p).auctions 2 i.backstop = some a ∧ InterestTerms w p bi.backstopToken l a := by
  simp only [step, bind_ok, require_ok] at h
  obtain ⟨_, hp, _, _, h⟩ := h
  simp only [call, createInterest, createInterestData, PoolState.getInst, unwrap_ok, bind_ok, pure_ok, require_ok, Prod.exists, chkU32_ok,
    chk_ok, Option.isNone_iff_eq_none] at h
  obtain ⟨i, hi, a, ⟨_, hnone, cache, hcl, S, hS, blk, ⟨_, rfl⟩, value, lot, cache', hl, lim, ⟨_, rfl⟩, _, hlim, _, hne, d, hd, v, hv, x, hx,
    n, hn, t, ht, rfl⟩, rfl⟩ := h
  simp only [backstopToken, PoolState.getInst, Backstop.inst, unwrap_ok, bind_ok, pure_ok, require_ok] at ht
  obtain ⟨i', hi', _, _, bi, hbi, rfl⟩ := ht
  simp only [backstopData, bind_ok, require_ok] at hd
  obtain ⟨_, _, _, _, hd⟩ := hd
  simp only [oracleScalar, pow10, chk_ok] at hS
  obtain ⟨_, rfl⟩ := hS
  have hc : CacheCur (w.pools p) (w.pools p) w.time cache := cacheCur_load hcl
  obtain ⟨i'', hi'', hic⟩ := hc.config
  rw [hi] at hi''; cases hi''
  obtain ⟨_, hres, _, _⟩ := load_ok (now := w.time) hcl
  obtain ⟨f, e1, e2, e3⟩ := interestLoop_ok (creditOf (w.pools p) w.time) (fun _ => rfl) _ _ _ _ _ _ _ hc hres hl
  obtain ⟨htk, htv, hv0⟩ := tokenValue_ok hr (by positivity) hd hv
  have hw := worth140_ok hv0 hx hn
  rw [Int.zero_add] at e1
  rw [pools_setPool]
  refine ⟨i, bi, _, hi, hbi, hnone, by rw [setAuction_same], rfl, fun z => ?_, fun z hz => ?_, f, _, v, e2, ⟨i, hi, rfl⟩, ?_, ?_, ?_⟩
  · unfold SMap.bal
    simp only [e3]
    by_cases h1 : z ∈ l <;> by_cases h2 : 0 < creditOf (w.pools p) w.time z
    · simp only [h1, h2, and_self, if_true, Option.getD_some]; omega
    · simp only [h1, h2, and_false, if_false, if_true]
      show (0 : Int) = _
      omega
    · simp only [h1, false_and, if_false]; rfl
    · simp only [h1, false_and, if_false]; rfl
  · simp only [bal_one, if_neg hz]
  · rw [← e1, hic]; omega
  · rw [hic]; exact htv
  · rw [← e1]; simp only [bal_one, if_true]; exact hw

/-- non-vacuity: the interest on bob's loan is auctioned -/
example : ∃ w w' a, Reachable w ∧ step w (.pool poolA [] (.newInterest [usdcA, xlmA])) = .ok w' ∧
    (w'.pools poolA).auctions 2 backstopA = some a ∧ 0 < a.lot.bal usdcA ∧ 0 < a.bid.bal lpA := by
  obtain ⟨w, w', _, hr, hs, h⟩ := Demo.reach_step (ops := setup ++ trade ++ interest.take 2)
    (op := .pool poolA [] (.newInterest [usdcA, xlmA]))
    (f := fun _ w' => optAnd ((w'.pools poolA).auctions 2 backstopA) fun a => decide (0 < a.lot.bal usdcA ∧ 0 < a.bid.bal lpA))
    (by decide +kernel)
  rw [optAnd_iff] at h
  obtain ⟨a, ha, h⟩ := h
  exact ⟨w, w', a, hr, hs, ha, of_decide_eq_true h⟩

/-- **C49** (finding): the assets of an interest auction may be repeated; the lot is the same, but the bid is a multiple. -/
theorem C49_duplicate_assets : ∃ w w1 w2 a b, Reachable w ∧ step w (.pool poolA [] (.newInterest [usdcA])) = .ok w1 ∧
    step w (.pool poolA [] (.newInterest [usdcA, usdcA, usdcA])) = .ok w2 ∧
    (w1.pools poolA).auctions 2 backstopA = some a ∧ (w2.pools poolA).auctions 2 backstopA = some b ∧
    0 < a.lot.bal usdcA ∧ b.lot.bal usdcA = a.lot.bal usdcA ∧ 0 < a.bid.bal lpA ∧ 2 * a.bid.bal lpA < b.bid.bal lpA := by
  obtain ⟨w, _, hr, h⟩ := Demo.reach (ops := setup ++ trade ++ interest.take 2)
    (f := fun w => okAnd (step w (.pool poolA [] (.newInterest [usdcA]))) fun w1 =>
      okAnd (step w (.pool poolA [] (.newInterest [usdcA, usdcA, usdcA]))) fun w2 =>
      optAnd ((w1.pools poolA).auctions 2 backstopA) fun a => optAnd ((w2.pools poolA).auctions 2 backstopA) fun b =>
        decide (0 < a.lot.bal usdcA ∧ b.lot.bal usdcA = a.lot.bal usdcA ∧ 0 < a.bid.bal lpA ∧ 2 * a.bid.bal lpA < b.bid.bal lpA))
    (by decide +kernel)
  simp only [okAnd_iff, optAnd_iff] at h
  obtain ⟨w1, h1, w2, h2, a, ha, b, hb, h⟩ := h
  exact ⟨w, w1, w2, a, b, hr, h1, h2, ha, hb, of_decide_eq_true h⟩

end Props
end Blend
