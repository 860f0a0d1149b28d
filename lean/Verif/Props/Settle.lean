import Verif.Lemmas.LiveNew
import Verif.Props.BadDebt
import Verif.Props.NewAuctions
import Verif.Props.Exits
/-
  C60: bad debt can be moved to the backstop.  C61: bad debt and interest can be auctioned.
-/

namespace Blend
namespace Props
open Spec Pool Demo

variable {w : World} {p u : Address} {auth : List Address} {i : PoolInst} {bi : BackstopInst} {a : AuctionData}

/-- **C60**: the debt of an account without collateral, other than the backstop's, can be moved to the backstop by anybody, in any
state of the pool and whatever the oracle says: the call can fail only by an overflow, and else it moves all of it. -/
theorem C60_moved (hr : Reachable w) (hp : w.poolAddr p = true) (hauth : ∀ x ∈ auth, ¬ w.isProtocol x) (hi : (w.pools p).inst = some i)
    (hu : u ≠ i.backstop) (hc : ∀ k, (accountOf (w.pools p) u).collateral k = 0) (hd : ∃ k, 0 < (accountOf (w.pools p) u).debt k) :
    step w (.pool p auth (.badDebt u)) = .error .overflow ∨
    ∃ w', step w (.pool p auth (.badDebt u)) = .ok w' ∧ (∀ k, (accountOf (w'.pools p) u).debt k = 0) ∧
      ∀ k, (accountOf (w'.pools p) i.backstop).debt k = (accountOf (w.pools p) i.backstop).debt k + (accountOf (w.pools p) u).debt k := by
  cases hs : step w (.pool p auth (.badDebt u)) with
  | error e =>
    have : NoErr (Unexpected False) (step w (.pool p auth (.badDebt u))) :=
      NoErr.bind (NoErr.req hp) fun _ _ => NoErr.bind (NoErr.req hauth) fun _ _ => badDebt_live hr hp unexpected_overflow hi hu hc hd
    rcases of_unexpected this hs with h | ⟨_, h⟩
    · rw [h]; exact .inl rfl
    · exact h.elim
  | ok w' =>
    obtain ⟨_, _, h3, ⟨i', hi', _, h4, _⟩, _⟩ := C21_transfer hr hs
    rw [hi] at hi'; cases hi'
    exact .inr ⟨w', rfl, h3, h4⟩

/-- **C60**: and only such debt can be moved. -/
theorem C60_only {w' : World} (hr : Reachable w) (hi : (w.pools p).inst = some i) (h : step w (.pool p auth (.badDebt u)) = .ok w') :
    u ≠ i.backstop ∧ (∀ k, (accountOf (w.pools p) u).collateral k = 0) ∧ ∃ k, 0 < (accountOf (w.pools p) u).debt k := by
  obtain ⟨h1, h2, _, ⟨i', hi', hu, _⟩, _⟩ := C21_transfer hr h
  rw [hi] at hi'; cases hi'
  exact ⟨hu, h1, h2⟩

/-- non-vacuity: bob's bad debt, with a stale oracle -/
example : ∃ w i, Reachable w ∧ w.poolAddr poolA = true ∧ (w.pools poolA).inst = some i ∧ bob ≠ i.backstop ∧
    (∀ k, (accountOf (w.pools poolA) bob).collateral k = 0) ∧ (∃ k, 0 < (accountOf (w.pools poolA) bob).debt k) ∧
    ¬ ∃ x, FreshPrice w (w.pools poolA) usdcA x := by
  obtain ⟨w, hw, hr, h⟩ := Demo.reach (ops := setup ++ trade ++ emissions ++ claims ++ liquidation ++ queue ++ crash ++ [.ledger 200000 30000])
    (f := fun w => w.poolAddr poolA && optAnd (w.pools poolA).inst (fun i => decide (bob ≠ i.backstop) &&
      decide ((getPositions (w.pools poolA) bob).collateral.toList = []) && decide (0 < (getPositions (w.pools poolA) bob).liabilities.bal 0) &&
      optAnd ((w.oracle i.config.oracle).price usdcA) fun x => decide (x.2 + 86400 < w.time)))
    (by decide +kernel)
  simp only [Bool.and_eq_true, optAnd_iff, decide_eq_true_eq] at h
  obtain ⟨h0, i, hi, ⟨⟨hb, hc⟩, hd⟩, x, hx, hlt⟩ := h
  refine ⟨w, i, hr, h0, hi, hb, fun k => ?_, ⟨0, hd⟩, ?_⟩
  · show SMap.bal (getPositions (w.pools poolA) bob).collateral k = 0
    have : (getPositions (w.pools poolA) bob).collateral.get k = none := by
      cases hg : (getPositions (w.pools poolA) bob).collateral.get k with
      | none => rfl
      | some v =>
        have := SMap.mem_toList.2 hg
        rw [hc] at this; cases this
    simp [SMap.bal, this]
  · rintro ⟨y, j, ts, hj, hy, hle⟩
    rw [hi] at hj; cases hj
    rw [hx] at hy; cases hy
    omega

/-! ### C61 -/

theorem terms_bid {a a' : AuctionData} {b t : Address} (h : BadDebtTerms w p b t a) (h' : BadDebtTerms w p b t a') :
    (∀ x, a.bid.bal x = a'.bid.bal x) ∧ (∀ x, a.lot.bal x = a'.lot.bal x) ∧ a.block = a'.block := by
  refine ⟨fun x => ?_, fun x => ?_, h.block.trans h'.block.symm⟩
  · by_cases hx : x ∈ (w.pools p).resList
    · obtain ⟨k, hk⟩ := List.mem_iff_getElem?.1 hx
      have h1 := h.bid k
      have h2 := h'.bid k
      simp only [amountAt, hk] at h1 h2
      omega
    · rw [h.bidOnly x hx, h'.bidOnly x hx]
  · by_cases hx : x = t
    · subst hx
      obtain ⟨f, n, v, m, h1, _, h3, h4, h5, h6⟩ := h.lot
      obtain ⟨f', n', v', m', h1', _, h3', h4', h5', h6'⟩ := h'.lot
      have hn : n = n' := by
        obtain ⟨j, hj, e⟩ := h3
        obtain ⟨j', hj', e'⟩ := h3'
        rw [hj] at hj'; cases hj'
        omega
      subst hn
      obtain rfl := h4.unique h4'
      have hf : total (w.pools p) f = total (w.pools p) f' :=
        congrArg List.sum (List.map_congr_left fun j hj => (h1 j (List.mem_range.1 hj)).unique (h1' j (List.mem_range.1 hj)))
      rw [hf] at h5
      obtain rfl := h5.unique h5'
      rw [h6, h6']
    · rw [h.lotOnly x hx, h'.lotOnly x hx]

theorem terms_interest {a a' : AuctionData} {t : Address} {l : List Address} (h : InterestTerms w p t l a) (h' : InterestTerms w p t l a') :
    (∀ x, a.bid.bal x = a'.bid.bal x) ∧ (∀ x, a.lot.bal x = a'.lot.bal x) ∧ a.block = a'.block := by
  refine ⟨fun x => ?_, fun x => by rw [h.lot, h'.lot], h.block.trans h'.block.symm⟩
  by_cases hx : x = t
  · subst hx
    obtain ⟨f, n, v, h1, h3, _, h4, h5⟩ := h.bid
    obtain ⟨f', n', v', h1', h3', _, h4', h5'⟩ := h'.bid
    have hn : n = n' := by
      obtain ⟨j, hj, e⟩ := h3
      obtain ⟨j', hj', e'⟩ := h3'
      rw [hj] at hj'; cases hj'
      omega
    subst hn
    obtain rfl := h4.unique h4'
    have hf : l.map f = l.map f' := List.map_congr_left fun x hx => (h1 x hx).unique (h1' x hx)
    rw [hf] at h5
    exact h5.unique h5'
  · rw [h.bidOnly x hx, h'.bidOnly x hx]

/-- **C61**: whenever there is no bad debt auction and the terms of a new one exist (the backstop has debt of some value, the
prices of what it owes are fresh, its tokens have a value), anybody can create it: the call can fail only by an overflow, and
else the auction has just these terms. -/
theorem C61_bad_debt_auction (hr : Reachable w) (hp : w.poolAddr p = true) (hauth : ∀ x ∈ auth, ¬ w.isProtocol x)
    (hi : (w.pools p).inst = some i) (hb : i.backstop = w.backstopAddr) (hbi : w.backstop.inst = some bi)
    (hno : (w.pools p).auctions 1 i.backstop = none) (ha : BadDebtTerms w p i.backstop bi.backstopToken a) :
    step w (.pool p auth .newBadDebt) = .error .overflow ∨
    ∃ w' a', step w (.pool p auth .newBadDebt) = .ok w' ∧ (w'.pools p).auctions 1 i.backstop = some a' ∧
      (∀ x, a'.bid.bal x = a.bid.bal x) ∧ (∀ x, a'.lot.bal x = a.lot.bal x) ∧ a'.block = a.block := by
  cases hs : step w (.pool p auth .newBadDebt) with
  | error e =>
    have : NoErr (Unexpected False) (step w (.pool p auth .newBadDebt)) :=
      NoErr.bind (NoErr.req hp) fun _ _ => NoErr.bind (NoErr.req hauth) fun _ _ => newBadDebt_live hr hp unexpected_overflow hi hb hbi hno ha
    rcases of_unexpected this hs with h | ⟨_, h⟩
    · rw [h]; exact .inl rfl
    · exact h.elim
  | ok w' =>
    obtain ⟨i', bi', a', hi', hbi', _, ha', ht⟩ := C49_bad_debt_terms hr hs
    rw [hi] at hi'; cases hi'
    rw [hbi] at hbi'; cases hbi'
    obtain ⟨k1, k2, k3⟩ := terms_bid ht ha
    exact .inr ⟨w', a', rfl, ha', k1, k2, k3⟩

/-- **C61**: whenever there is no interest auction and the terms of a new one for the given reserves exist (the interest is worth
more than 200 units, the prices are fresh, the backstop's tokens have a value), anybody can create it: the call can fail only
by an overflow, and else the auction has just these terms. -/
theorem C61_interest_auction {l : List Address} (hr : Reachable w) (hp : w.poolAddr p = true) (hauth : ∀ x ∈ auth, ¬ w.isProtocol x)
    (hi : (w.pools p).inst = some i) (hb : i.backstop = w.backstopAddr) (hbi : w.backstop.inst = some bi)
    (hno : (w.pools p).auctions 2 i.backstop = none) (hl : ∀ x ∈ l, x ∈ (w.pools p).resList) (ha : InterestTerms w p bi.backstopToken l a) :
    step w (.pool p auth (.newInterest l)) = .error .overflow ∨
    ∃ w' a', step w (.pool p auth (.newInterest l)) = .ok w' ∧ (w'.pools p).auctions 2 i.backstop = some a' ∧
      (∀ x, a'.bid.bal x = a.bid.bal x) ∧ (∀ x, a'.lot.bal x = a.lot.bal x) ∧ a'.block = a.block := by
  cases hs : step w (.pool p auth (.newInterest l)) with
  | error e =>
    have : NoErr (Unexpected False) (step w (.pool p auth (.newInterest l))) :=
      NoErr.bind (NoErr.req hp) fun _ _ => NoErr.bind (NoErr.req hauth) fun _ _ => newInterest_live hr hp unexpected_overflow hi hb hbi hno hl ha
    rcases of_unexpected this hs with h | ⟨_, h⟩
    · rw [h]; exact .inl rfl
    · exact h.elim
  | ok w' =>
    obtain ⟨i', bi', a', hi', hbi', _, ha', ht⟩ := C49_interest_terms hr hs
    rw [hi] at hi'; cases hi'
    rw [hbi] at hbi'; cases hbi'
    obtain ⟨k1, k2, k3⟩ := terms_interest ht ha
    exact .inr ⟨w', a', rfl, ha', k1, k2, k3⟩

/-- **C61**: the converse; an auction of interest is only made of reserves of the pool. -/
theorem C61_interest_only_if {l : List Address} {w' : World} (hr : Reachable w) (h : step w (.pool p auth (.newInterest l)) = .ok w') :
    (∀ x ∈ l, x ∈ (w.pools p).resList) ∧ ∃ i bi a, (w.pools p).inst = some i ∧ w.backstop.inst = some bi ∧ i.backstop = w.backstopAddr ∧
      (w.pools p).auctions 2 i.backstop = none ∧ InterestTerms w p bi.backstopToken l a := by
  obtain ⟨i, bi, a, hi, hbi, hno, _, ht⟩ := C49_interest_terms hr h
  simp only [step, bind_ok, require_ok] at h
  obtain ⟨_, hp, _, _, h⟩ := h
  simp only [call, createInterest, createInterestData, PoolState.getInst, unwrap_ok, bind_ok, pure_ok, require_ok, Prod.exists] at h
  obtain ⟨i', hi', _, ⟨_, _, cache, hcl, S, hS, blk, _, value, lot, cache', hl, lim, _, _, _, _, _, d, hd, _⟩, rfl⟩ := h
  rw [hi] at hi'; cases hi'
  simp only [backstopData, PoolState.getInst, unwrap_ok, bind_ok, require_ok] at hd
  obtain ⟨i', hi', _, hb, _⟩ := hd
  rw [hi] at hi'; cases hi'
  exact ⟨interestLoop_listed hr _ _ _ (cacheCur_load hcl) hl, i, bi, a, hi, hbi, hb, hno, ht⟩

/-- **C61**: the converse for bad debt auctions. -/
theorem C61_bad_debt_only_if {w' : World} (hr : Reachable w) (h : step w (.pool p auth .newBadDebt) = .ok w') :
    ∃ i bi a, (w.pools p).inst = some i ∧ w.backstop.inst = some bi ∧ i.backstop = w.backstopAddr ∧
      (w.pools p).auctions 1 i.backstop = none ∧ BadDebtTerms w p i.backstop bi.backstopToken a := by
  obtain ⟨i, bi, a, hi, hbi, hno, _, ht⟩ := C49_bad_debt_terms hr h
  simp only [step, bind_ok, require_ok] at h
  obtain ⟨_, hp, _, _, h⟩ := h
  simp only [call, createBadDebt, createBadDebtData, PoolState.getInst, unwrap_ok, bind_ok, pure_ok, require_ok, Prod.exists] at h
  obtain ⟨i', hi', _, ⟨_, _, _, _, cache, hcl, S, hS, value, lot, cache', hl, _, _, _, _, d, hd, _⟩, rfl⟩ := h
  rw [hi] at hi'; cases hi'
  simp only [backstopData, PoolState.getInst, unwrap_ok, bind_ok, require_ok] at hd
  obtain ⟨i', hi', _, hb, _⟩ := hd
  rw [hi] at hi'; cases hi'
  exact ⟨i, bi, a, hi, hbi, hb, hno, ht⟩

/-- non-vacuity: the terms of both auctions exist in reachable states -/
example : ∃ w i bi a, Reachable w ∧ w.poolAddr poolA = true ∧ (w.pools poolA).inst = some i ∧ w.backstop.inst = some bi ∧
    i.backstop = w.backstopAddr ∧ (w.pools poolA).auctions 1 i.backstop = none ∧ BadDebtTerms w poolA i.backstop bi.backstopToken a := by
  obtain ⟨w, w', _, hr, hs, h⟩ := Demo.reach_step (ops := setup ++ trade ++ emissions ++ claims ++ liquidation ++ crash ++ badDebt.take 1)
    (op := .pool poolA [] .newBadDebt) (f := fun _ _ => true) (by decide +kernel)
  obtain ⟨i, bi, a, h1, h2, h3, h4, h5⟩ := C61_bad_debt_only_if hr hs
  simp only [step, bind_ok, require_ok] at hs
  exact ⟨w, i, bi, a, hr, hs.choose_spec.1, h1, h2, h3, h4, h5⟩

example : ∃ w i bi a, Reachable w ∧ w.poolAddr poolA = true ∧ (w.pools poolA).inst = some i ∧ w.backstop.inst = some bi ∧
    i.backstop = w.backstopAddr ∧ (w.pools poolA).auctions 2 i.backstop = none ∧ (∀ x ∈ [usdcA, xlmA], x ∈ (w.pools poolA).resList) ∧
    InterestTerms w poolA bi.backstopToken [usdcA, xlmA] a := by
  obtain ⟨w, w', _, hr, hs, h⟩ := Demo.reach_step (ops := setup ++ trade ++ interest.take 2)
    (op := .pool poolA [] (.newInterest [usdcA, xlmA])) (f := fun _ _ => true) (by decide +kernel)
  obtain ⟨h0, i, bi, a, h1, h2, h3, h4, h5⟩ := C61_interest_only_if hr hs
  simp only [step, bind_ok, require_ok] at hs
  exact ⟨w, i, bi, a, hr, hs.choose_spec.1, h1, h2, h3, h4, h0, h5⟩

end Props
end Blend
