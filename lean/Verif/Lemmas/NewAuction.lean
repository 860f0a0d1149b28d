import Verif.Spec.AuctionTerms
import Verif.Lemmas.Liquidation
import Verif.Lemmas.LpInv
import Verif.Lemmas.Threshold
import Mathlib.Algebra.BigOperators.Group.Finset.Basic
/-
  The terms of new bad debt and interest auctions.
-/

namespace Blend
namespace Pool
open Spec

/-- a sum over the entries of a map with keys below `n` is a sum over all numbers below `n` -/
theorem sum_keys_range {l : List (Nat × Int)} (hs : l.Pairwise (fun a b => a.1 < b.1)) {f : Nat → Int} {n : Nat}
    (hlt : ∀ kv ∈ l, kv.1 < n) (hz : ∀ i, i < n → (∀ x, (i, x) ∉ l) → f i = 0) :
    (l.map fun kv => f kv.1).sum = ((List.range n).map f).sum := by
  have nd : (l.map Prod.fst).Nodup := by
    unfold List.Nodup
    rw [List.pairwise_map]
    exact hs.imp fun h => by omega
  have e1 : (l.map fun kv => f kv.1).sum = (l.map Prod.fst).toFinset.sum f := by
    rw [List.sum_toFinset f nd, List.map_map]; rfl
  have e2 : ((List.range n).map f).sum = (List.range n).toFinset.sum f := by
    rw [List.sum_toFinset f List.nodup_range]
  rw [e1, e2]
  refine Finset.sum_subset (fun i hi => ?_) fun i hi hn => ?_
  · simp only [List.mem_toFinset, List.mem_map, Prod.exists, exists_and_right, exists_eq_right] at hi
    obtain ⟨x, hx⟩ := hi
    simp only [List.mem_toFinset, List.mem_range]
    exact hlt _ hx
  · simp only [List.mem_toFinset, List.mem_range] at hi
    refine hz i hi fun x hx => hn ?_
    simp only [List.mem_toFinset, List.mem_map, Prod.exists, exists_and_right, exists_eq_right]
    exact ⟨x, hx⟩

theorem freshPrice_of {w : World} {ps : PoolState} {cache : Cache} (hc : CacheCur ps ps w.time cache) {a : Address} {x : Int}
    (h : loadPrice w cache.config a = .ok x) : FreshPrice w ps a x := by
  obtain ⟨i, hi, hic⟩ := hc.config
  rw [← hic] at h
  obtain ⟨ts, hts, hle⟩ := loadPrice_ok h
  exact ⟨i, ts, hi, hts, hle⟩

theorem cacheCur_load {ps : PoolState} {now : Nat} {cache : Cache} (h : Cache.load ps = .ok cache) : CacheCur ps ps now cache := by
  obtain ⟨ok, hr, _, _⟩ := load_ok (now := now) h
  exact ⟨fun a r ha => by rw [hr] at ha; simp at ha, fun _ _ => rfl, ok.config, rfl, rfl, rfl⟩

theorem badDebtLoop_ok {w : World} {ps : PoolState} (hnd : ps.resList.Nodup) :
    ∀ (l : List (Nat × Int)) (value value' : Int) (bid bid' : SMap Int) (cache cache' : Cache),
      l.Pairwise (fun a b => a.1 < b.1) → (∀ kv ∈ l, 0 < kv.2) → CacheCur ps ps w.time cache →
      badDebtLoop w ps l (value, bid, cache) = .ok (value', bid', cache') →
      ∃ f : Nat → Int, value' = value + (l.map fun kv => f kv.1).sum ∧ (∀ i, (∀ x, (i, x) ∉ l) → f i = 0) ∧
        (∀ i x, (i, x) ∈ l → DebtItem w ps i x (f i) ∧ ∃ a, ps.resList[i]? = some a ∧ bid'.get a = some x) ∧
        (∀ a, (∀ i x, (i, x) ∈ l → ps.resList[i]? ≠ some a) → bid'.get a = bid.get a) := by
  intro l
  induction l with
  | nil =>
    intro value value' bid bid' cache cache' _ _ _ h
    unfold badDebtLoop at h; cases h
    exact ⟨fun _ => 0, by simp, by simp, by simp, by simp⟩
  | cons kv l ih =>
    obtain ⟨i, x⟩ := kv
    intro value value' bid bid' cache cache' hs hpos hc h
    rw [List.pairwise_cons] at hs
    have hx : x > 0 := hpos (i, x) (by simp)
    unfold badDebtLoop at h
    simp only [bind_ok, unwrap_ok, if_pos hx, Prod.exists, chk_ok] at h
    obtain ⟨a, ha, r, c1, hl, price, hp, n, hn, y, hy, v, ⟨_, rfl⟩, h⟩ := h
    obtain ⟨hm, hrates, hcfg, hc1⟩ := hc.load hl
    obtain ⟨f, e1, e2, e3, e4⟩ := ih _ _ _ _ _ _ hs.2 (fun kv hk => hpos kv (by simp [hk])) hc1 h
    have hni : ∀ x', (i, x') ∉ l := fun x' hx' => by have := hs.1 _ hx'; simp at this
    obtain ⟨dd, hcur, _, ed, _⟩ := hrates
    obtain ⟨c, hcc, _, hsc, _⟩ := hm.cfg
    have h10 : (0 : Int) < 10 ^ c.decimals := by positivity
    have hmap : (l.map fun kv => upd f i y kv.1) = l.map fun kv => f kv.1 :=
      List.map_congr_left fun kv hk => by
        have : kv.1 ≠ i := by have := hs.1 _ hk; omega
        simp only [upd_apply, if_neg this]
    refine ⟨upd f i y, ?_, fun j hj => ?_, fun j z hj => ?_, fun b hb => ?_⟩
    · rw [List.map_cons, List.sum_cons, hmap, e1]; simp only [upd_apply, if_true]; omega
    · have hji : j ≠ i := fun e => hj x (by simp [e])
      simp only [upd_apply, if_neg hji]
      exact e2 j fun z hz => hj z (by simp [hz])
    · rcases List.mem_cons.1 hj with e | hj
      · cases e
        have k1 := ceil_spec hn S9_pos
        have k2 := floor_spec hy (by rw [hsc]; exact h10)
        rw [ed] at k1
        rw [hsc] at k2
        refine ⟨.inr ⟨a, c, dd, price, n, ha, hcc, hcur, freshPrice_of hc1 hp, k1, by simpa [upd_apply] using k2⟩, a, ha, ?_⟩
        rw [e4, SMap.get_set_same]
        intro j z hjz hc
        have := hs.1 _ hjz
        have e := (List.getElem?_inj (l := ps.resList) (i := i) (j := j) (by
          rw [List.getElem?_eq_some_iff] at ha; exact ha.1) hnd).1 (ha.trans hc.symm)
        simp only at this; omega
      · have hji : j ≠ i := by have := hs.1 _ hj; simp only at this; omega
        simp only [upd_apply, if_neg hji]
        exact e3 j z hj
    · rw [e4 b fun j z hj => hb j z (by simp [hj]), SMap.get_set_ne]
      rintro rfl
      exact hb i x (by simp) ha

theorem tokenValue_ok {w : World} (hr : Reachable w) {p : Address} {d : BackstopData} {S v : Int} (hS : 0 < S)
    (hd : Backstop.loadPoolData w p = .ok d) (h : backstopTokenToBase d S = .ok v) :
    d.tokens = (w.backstop.getPoolBal p).tokens ∧ BackstopTokenValue w p S v ∧ 0 ≤ v := by
  have ⟨vb, vu, hv, htk, hus⟩ : ∃ vb vu, w.backstop.lpVal = some (vb, vu) ∧ d.tokens = (w.backstop.getPoolBal p).tokens ∧
      fixedMulFloor (w.backstop.getPoolBal p).tokens vu SCALAR_7 = .ok d.usdc := by
    simp only [Backstop.loadPoolData, bind_ok, pure_ok, Prod.exists, ite_ok, unwrap_ok] at hd
    rcases hd with ⟨_, _, _, vb, vu, h1, b, hb, u, hu, rfl⟩ | ⟨_, _, _, vb, vu, h1, b, hb, u, hu, rfl⟩ <;>
      exact ⟨vb, vu, h1, rfl, hu⟩
  unfold backstopTokenToBase at h
  simp only [bind_ok, chk_ok] at h
  obtain ⟨x, hx, y, ⟨_, rfl⟩, h⟩ := h
  rw [htk] at h
  have hnn := hr.ball.inv.pool p
  have ht : 0 < (w.backstop.getPoolBal p).tokens := by
    have h0 := (mulDivFloor_ok.1 h).2.1
    omega
  have hvu : 0 ≤ vu := (hr.lpOk.val _ _ hv).2
  have k1 : IsFloor _ _ _ := floor_spec hus S7_pos
  have k2 : IsFloor _ _ _ := floor_spec hx S7_pos
  have k3 : IsFloor _ _ _ := floor_spec h ht
  have n1 : 0 ≤ d.usdc := k1.nonneg S7_pos (by positivity)
  have n2 : 0 ≤ x := k2.nonneg S7_pos (by positivity)
  exact ⟨htk, ⟨vb, vu, d.usdc, x, hv, ht, k1, k2, k3⟩, k3.nonneg ht (by unfold SCALAR_7; positivity)⟩

theorem worth140_ok {value v x n : Int} (hv : 0 ≤ v) (hx : fixedMulFloor value 14000000 SCALAR_7 = .ok x)
    (hn : fixedDivFloor x v SCALAR_7 = .ok n) : Worth140 value v n := by
  have h0 : 0 < v := by have := (mulDivFloor_ok.1 hn).2.1; omega
  have k1 := floor_spec hx S7_pos
  refine ⟨h0, x, ?_, floor_spec hn h0⟩
  unfold IsFloor SCALAR_7 at *
  omega

theorem _root_.Blend.Spec.InterestItem.unique {w : World} {ps : PoolState} {a : Address} {k v v' : Int}
    (h : InterestItem w ps a k v) (h' : InterestItem w ps a k v') : v = v' := by
  rcases h with ⟨h0, rfl⟩ | ⟨c, x, hk, hc, hx, hv⟩ <;> rcases h' with ⟨h0', rfl⟩ | ⟨c', x', hk', hc', hx', hv'⟩
  · rfl
  · omega
  · omega
  · rw [hc] at hc'; cases hc'
    obtain ⟨i, ts, hi, hp, _⟩ := hx
    obtain ⟨i', ts', hi', hp', _⟩ := hx'
    rw [hi] at hi'; cases hi'
    rw [hp] at hp'; cases hp'
    exact hv.unique (by positivity) hv'

theorem interestLoop_ok {w : World} {ps : PoolState} (V : Address → Int) (hV : ∀ a, V a = creditOf ps w.time a) :
    ∀ (l : List Address) (value value' : Int) (lot lot' : SMap Int) (cache cache' : Cache),
      CacheCur ps ps w.time cache → cache.reserves = .empty →
      interestLoop w ps l (value, lot, cache) = .ok (value', lot', cache') →
      ∃ f : Address → Int, value' = value + (l.map f).sum ∧ (∀ x, x ∈ l → InterestItem w ps x (V x) (f x)) ∧
        ∀ x, lot'.get x = if x ∈ l ∧ 0 < V x then some (V x) else lot.get x := by
  intro l
  induction l with
  | nil =>
    intro value value' lot lot' cache cache' _ _ h
    unfold interestLoop at h; cases h
    exact ⟨fun _ => 0, by simp, by simp, by simp⟩
  | cons a l ih =>
    intro value value' lot lot' cache cache' hc he h
    unfold interestLoop at h
    simp only [bind_ok, Prod.exists, chk_ok, ite_ok] at h
    obtain ⟨r, c1, hl, h⟩ := h
    obtain ⟨hm, _, _, hc1⟩ := hc.load hl
    obtain ⟨ecr, er⟩ := hc.credit hl
    have ecr : r.data.backstopCredit = V a := by
      rw [ecr, credAt, he, hV]; rfl
    rw [he] at er
    obtain ⟨c, hcc, _, hsc, _⟩ := hm.cfg
    rw [ecr] at h
    have step : ∀ (y : Int), InterestItem w ps a (V a) y → ∀ value1 lot1, value1 = value + y →
        (∀ x, lot1.get x = if x = a ∧ 0 < V x then some (V x) else lot.get x) →
        interestLoop w ps l (value1, lot1, c1) = .ok (value', lot', cache') →
        ∃ f : Address → Int, value' = value + ((a :: l).map f).sum ∧ (∀ x, x ∈ a :: l → InterestItem w ps x (V x) (f x)) ∧
          ∀ x, lot'.get x = if x ∈ a :: l ∧ 0 < V x then some (V x) else lot.get x := by
      intro y hy value1 lot1 hv1 hlot h
      obtain ⟨f, e1, e2, e3⟩ := ih _ _ _ _ _ _ hc1 er h
      have hfa : a ∈ l → f a = y := fun ha => InterestItem.unique (e2 a ha) hy
      have hmap : l.map (upd f a y) = l.map f := List.map_congr_left fun x hx => by
        simp only [upd_apply]; split
        · next e => subst e; exact (hfa hx).symm
        · rfl
      refine ⟨upd f a y, ?_, fun x hx => ?_, fun x => ?_⟩
      · rw [List.map_cons, List.sum_cons, hmap, e1, hv1]; simp only [upd_apply, if_true]; omega
      · simp only [upd_apply]
        by_cases hxa : x = a
        · subst hxa; simpa using hy
        · simp only [if_neg hxa]; exact e2 x (by simpa [hxa] using hx)
      · rw [e3, hlot]
        by_cases hxa : x = a
        · subst hxa; by_cases hp : 0 < V x <;> simp [hp]
        · simp [hxa]
    rcases h with ⟨hpos, price, hp, x, hx, v, ⟨_, rfl⟩, h⟩ | ⟨hneg, h⟩
    · have k := floor_spec hx (by rw [hsc]; positivity)
      rw [hsc] at k
      refine step x (.inr ⟨c, price, hpos, hcc, freshPrice_of hc1 hp, k⟩) _ _ rfl (fun z => ?_) h
      rw [SMap.get_set]
      by_cases hz : z = a
      · subst hz; simp [show 0 < V z from hpos]
      · simp [hz]
    · refine step 0 (.inl ⟨by omega, rfl⟩) _ _ (by omega) (fun z => ?_) h
      rw [if_neg]
      rintro ⟨rfl, hz⟩; omega

end Pool
end Blend
