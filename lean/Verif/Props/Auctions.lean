import Verif.Lemmas.AuctionRun
import Verif.Examples.HealthDemo
import Verif.Examples.InterestDemo
/-
  Auctions: C15 (price schedule), C16 (partial fills), C17 (start block), C19 (one at a time), C43 (stuck interest auctions)
  and C45 (what a submit of any requests does).
-/

namespace Blend
namespace Props
open Spec Pool Demo

/-! ### C45 -/

/-- **C45**: what a successful submit does is exactly what its requests, one after the other, are documented to do: there is a run
of the specification from the books before to books `B` such that afterwards all positions of all accounts, all auctions, the
backstop tokens of the pool and the backstop's share of the interest are those of `B`, and the token balances are those of `B`
after the spender has paid what the sender owes and the receiver has got what it is due. -/
theorem C45_submit {w w' : World} (hr : Reachable w) {p : Address} {auth : List Address} {sender spender dst : Address}
    {reqs : List Request} (h : step w (.pool p auth (.submit sender spender dst reqs)) = .ok w') :
    ∃ B, FullRun w p sender reqs (booksOf w p) B ∧
      (∀ x i, (getPositions (w'.pools p) x).supply.bal i = (B.acct x).supplied i ∧
        (getPositions (w'.pools p) x).collateral.bal i = (B.acct x).collateral i ∧
        (getPositions (w'.pools p) x).liabilities.bal i = (B.acct x).debt i) ∧
      (w'.pools p).auctions = B.auction ∧ (w'.backstop.getPoolBal p).tokens = B.lp ∧
      (∀ a, creditOf (w'.pools p) w'.time a = B.credit a) ∧
      ∀ t x, w'.balance t x = B.wallet t x + (if x = p then (B.acct sender).pays t - (B.acct sender).gets t else 0)
        - (if x = spender then (B.acct sender).pays t else 0) + (if x = dst then (B.acct sender).gets t else 0) :=
  submit_full hr h

/-- non-vacuity: dave supplies collateral and fills half of bob's liquidation -/
example : ∃ w w', Reachable w ∧ step w (.pool poolA [dave] (.submit dave dave dave [⟨2, usdcA, 100000000000⟩, ⟨6, bob, 50⟩])) = .ok w' := by
  obtain ⟨w, w', _, hr, hs, _⟩ := Demo.reach_step (ops := setup ++ trade ++ emissions ++ claims ++ liquidation.take 3)
    (op := .pool poolA [dave] (.submit dave dave dave [⟨2, usdcA, 100000000000⟩, ⟨6, bob, 50⟩])) (f := fun _ _ => true)
    (by decide +kernel)
  exact ⟨w, w', hr, hs⟩

/-! ### C16: fills -/

private theorem run_one {w : World} {p sender : Address} {q : Request} {B B2 : Books} (h : FullRun w p sender [q] B B2)
    (hq : 6 ≤ q.type) : AuctionEffect w p sender B q B2 := by
  cases h with
  | plain h5 => omega
  | auction he hl => cases hl; exact he

private theorem take_pays {ps : PoolState} {s : Int} {l b : SMap Int} {A : Account} :
    (take ps s l b A).pays = A.pays ∧ (take ps s l b A).gets = A.gets ∧ (take ps s l b A).supplied = A.supplied := ⟨rfl, rfl, rfl⟩

/-- **C15/C16**: a fill of `n` percent of the liquidation of `u` hands over collateral and debt of `u` to the filler, on the terms
of `FillTerms`, leaves the rest in the auction and moves no tokens. -/
theorem C16_liquidation_fill {w w' : World} (hr : Reachable w) {p u : Address} {auth : List Address} {sender spender dst : Address}
    {n : Int} (h : step w (.pool p auth (.submit sender spender dst [⟨6, u, n⟩])) = .ok w') :
    ∃ a taken, u ≠ sender ∧ (w.pools p).auctions 0 u = some a ∧ a.block ≤ w.seq ∧
      FillTerms (w.seq - a.block) (n.toNat % 2 ^ 64) a taken ((w'.pools p).auctions 0 u) ∧
      (∀ i, (accountOf (w'.pools p) u).collateral i = (accountOf (w.pools p) u).collateral i - amountAt (w.pools p) taken.lot i ∧
        (accountOf (w'.pools p) u).debt i = (accountOf (w.pools p) u).debt i - amountAt (w.pools p) taken.bid i ∧
        (accountOf (w'.pools p) sender).collateral i = (accountOf (w.pools p) sender).collateral i + amountAt (w.pools p) taken.lot i ∧
        (accountOf (w'.pools p) sender).debt i = (accountOf (w.pools p) sender).debt i + amountAt (w.pools p) taken.bid i) ∧
      (∀ x i, (accountOf (w'.pools p) x).supplied i = (accountOf (w.pools p) x).supplied i) ∧
      (∀ x, x ≠ u → x ≠ sender → ∀ i, (accountOf (w'.pools p) x).collateral i = (accountOf (w.pools p) x).collateral i ∧
        (accountOf (w'.pools p) x).debt i = (accountOf (w.pools p) x).debt i) ∧
      ∀ t x, w'.balance t x = w.balance t x := by
  obtain ⟨B, hrun, hpos, hauc, -, -, hbal⟩ := submit_full hr h
  generalize hq : (⟨6, u, n⟩ : Request) = q at hrun
  have he := run_one hrun (by rw [← hq])
  cases he with
  | @liquidation u' n' a taken rest hf hle =>
    simp only [Request.mk.injEq, true_and] at hq
    obtain ⟨rfl, rfl⟩ := hq
    obtain ⟨hne, _, ha, hb, hft⟩ := hf
    have hsu : sender ≠ u := fun e => hne e.symm
    refine ⟨a, taken, hne, ha, hb, ?_, fun i => ?_, fun x i => ?_, fun x h1 h2 i => ?_, fun t x => ?_⟩
    · rw [hauc]; simpa [upd] using hft
    · obtain ⟨_, e1, e2⟩ := hpos u i
      obtain ⟨_, e3, e4⟩ := hpos sender i
      simp only [accountOf, e1, e2, e3, e4]
      simp [upd, hne, hsu, take, booksOf, accountOf]
      omega
    · obtain ⟨e1, _, _⟩ := hpos x i
      simp only [accountOf, e1]
      simp only [upd, take, booksOf, accountOf]
      split_ifs <;> simp_all
    · obtain ⟨_, e1, e2⟩ := hpos x i
      simp only [accountOf, e1, e2]
      simp [upd, h1, h2, booksOf, accountOf]
    · rw [hbal]
      simp [upd, take, booksOf, accountOf]
  | badDebt => simp at hq
  | interest => simp at hq
  | delete => simp at hq

/-- non-vacuity: dave fills the rest of bob's liquidation -/
example : ∃ w w', Reachable w ∧ step w (.pool poolA [dave] (.submit dave dave dave [⟨6, bob, 100⟩])) = .ok w' := by
  obtain ⟨w, w', _, hr, hs, _⟩ := Demo.reach_step (ops := setup ++ trade ++ emissions ++ claims ++ liquidation ++ queue ++ crash.take 1)
    (op := .pool poolA [dave] (.submit dave dave dave [⟨6, bob, 100⟩])) (f := fun _ _ => true) (by decide +kernel)
  exact ⟨w, w', hr, hs⟩

/-- **C15/C16/C21**: a fill of `n` percent of a bad debt auction hands debt of the backstop over to the filler and pays it
backstop tokens of the pool's backstop, on the terms of `FillTerms`; the rest stays in the auction. The debt that the backstop
still has is kept, or, only if the pool's backstop is then worth less than 0.00003 percent of its minimum size, written off. -/
theorem C16_badDebt_fill {w w' : World} (hr : Reachable w) {p u : Address} {auth : List Address} {sender spender dst : Address}
    {n : Int} (h : step w (.pool p auth (.submit sender spender dst [⟨7, u, n⟩])) = .ok w') :
    ∃ a taken inst bi, (w.pools p).inst = some inst ∧ w.backstop.inst = some bi ∧ u ≠ sender ∧ sender ≠ inst.backstop ∧
      (w.pools p).auctions 1 u = some a ∧ a.block ≤ w.seq ∧
      FillTerms (w.seq - a.block) (n.toNat % 2 ^ 64) a taken ((w'.pools p).auctions 1 u) ∧
      (∀ i, (accountOf (w'.pools p) sender).debt i = (accountOf (w.pools p) sender).debt i + amountAt (w.pools p) taken.bid i) ∧
      ((∀ i, (accountOf (w'.pools p) inst.backstop).debt i =
          (accountOf (w.pools p) inst.backstop).debt i - amountAt (w.pools p) taken.bid i) ∨
        (∀ i, (accountOf (w'.pools p) inst.backstop).debt i = 0) ∧ BackstopLow w (w'.backstop.getPoolBal p).tokens) ∧
      (w'.backstop.getPoolBal p).tokens = (w.backstop.getPoolBal p).tokens - taken.lot.bal bi.backstopToken ∧
      w'.balance bi.backstopToken sender = w.balance bi.backstopToken sender + taken.lot.bal bi.backstopToken ∧
      w'.balance bi.backstopToken w.backstopAddr = w.balance bi.backstopToken w.backstopAddr - taken.lot.bal bi.backstopToken ∧
      (∀ t x, t = bi.backstopToken → x ≠ sender → x ≠ w.backstopAddr → w'.balance t x = w.balance t x) ∧
      (∀ t x, t ≠ bi.backstopToken → w'.balance t x = w.balance t x) ∧
      (∀ x i, (accountOf (w'.pools p) x).supplied i = (accountOf (w.pools p) x).supplied i ∧
        (accountOf (w'.pools p) x).collateral i = (accountOf (w.pools p) x).collateral i) ∧
      ∀ x, x ≠ inst.backstop → x ≠ sender → ∀ i, (accountOf (w'.pools p) x).debt i = (accountOf (w.pools p) x).debt i := by
  obtain ⟨B, hrun, hpos, hauc, hlp, -, hbal⟩ := submit_full hr h
  generalize hq : (⟨7, u, n⟩ : Request) = q at hrun
  have he := run_one hrun (by rw [← hq]; exact (by decide : 6 ≤ 7))
  cases he with
  | liquidation => simp at hq
  | @badDebt u' n' a taken rest inst bi gone hf hi hsb hbi hba hle hlot hlp0 _ hgone =>
    simp only [Request.mk.injEq, true_and] at hq
    obtain ⟨rfl, rfl⟩ := hq
    obtain ⟨hne, _, ha, hb, hft⟩ := hf
    have hbs : inst.backstop ≠ sender := fun e => hsb e.symm
    refine ⟨a, taken, inst, bi, hi, hbi, hne, hsb, ha, hb, ?_, fun i => ?_, ?_, ?_, ?_, ?_, fun t x ht h1 h2 => ?_, fun t x ht => ?_,
      fun x i => ?_, fun x h1 h2 i => ?_⟩
    · rw [hauc]; simpa [upd] using hft
    · obtain ⟨_, _, e⟩ := hpos sender i
      simp only [accountOf, e]
      simp [upd, take, booksOf, accountOf]
    · have key : ∀ i, (accountOf (w'.pools p) inst.backstop).debt i =
          (accountOf (w.pools p) inst.backstop).debt i - amountAt (w.pools p) taken.bid i - gone i := by
        intro i
        obtain ⟨_, _, e⟩ := hpos inst.backstop i
        simp only [accountOf, e]
        simp [upd, hbs, booksOf, accountOf]
      rcases hgone with ⟨g, _⟩ | ⟨g, hl⟩
      · exact .inl fun i => by rw [key, g]; omega
      · refine .inr ⟨fun i => ?_, ?_⟩
        · rw [key, g]
          simp only [booksOf]
          omega
        · rw [hlp]; exact hl
    · rw [hlp]; rfl
    · rw [hbal]
      simp [upd, take, booksOf, accountOf, paid, hsb]
    · rw [hbal, ← hba]
      simp [upd, take, booksOf, accountOf, paid, hbs]
    · rw [hbal]
      rw [← hba] at h2
      simp [upd, take, booksOf, accountOf, paid, h1, h2]
    · rw [hbal]
      simp [upd, take, booksOf, accountOf, paid, ht]
    · obtain ⟨e1, e2, _⟩ := hpos x i
      simp only [accountOf, e1, e2]
      simp only [upd, take, booksOf, accountOf]
      split_ifs <;> simp_all [amountAt]
      split <;> simp [SMap.bal_empty]
    · obtain ⟨_, _, e⟩ := hpos x i
      simp only [accountOf, e]
      simp [upd, h1, h2, booksOf, accountOf]
  | interest => simp at hq
  | delete => simp at hq

/-- non-vacuity: dave fills the bad debt auction -/
example : ∃ w w', Reachable w ∧ step w (.pool poolA [dave] (.submit dave dave dave [⟨7, backstopA, 100⟩])) = .ok w' := by
  obtain ⟨w, w', _, hr, hs, _⟩ := Demo.reach_step
    (ops := setup ++ trade ++ emissions ++ claims ++ liquidation ++ queue ++ crash ++ badDebt.take 3)
    (op := .pool poolA [dave] (.submit dave dave dave [⟨7, backstopA, 100⟩])) (f := fun _ _ => true) (by decide +kernel)
  exact ⟨w, w', hr, hs⟩

/-- **C15/C16**: a fill of `n` percent of an interest auction gives backstop tokens of the filler to the pool's backstop and pays
the filler interest that the pool holds for the backstop, on the terms of `FillTerms`; the rest stays in the auction. -/
theorem C16_interest_fill {w w' : World} (hr : Reachable w) {p u : Address} {auth : List Address} {sender spender dst : Address}
    {n : Int} (h : step w (.pool p auth (.submit sender spender dst [⟨8, u, n⟩])) = .ok w') :
    ∃ a taken bi, w.backstop.inst = some bi ∧ u ≠ sender ∧ sender ≠ w.backstopAddr ∧
      (w.pools p).auctions 2 u = some a ∧ a.block ≤ w.seq ∧
      FillTerms (w.seq - a.block) (n.toNat % 2 ^ 64) a taken ((w'.pools p).auctions 2 u) ∧ 0 < taken.bid.bal bi.backstopToken ∧
      (w'.backstop.getPoolBal p).tokens = (w.backstop.getPoolBal p).tokens + taken.bid.bal bi.backstopToken ∧
      (∀ t x, w'.balance t x = w.balance t x
        + (if x = sender then taken.lot.bal t else 0) - (if x = p then taken.lot.bal t else 0)
        + (if t = bi.backstopToken ∧ x = w.backstopAddr then taken.bid.bal bi.backstopToken else 0)
        - (if t = bi.backstopToken ∧ x = sender then taken.bid.bal bi.backstopToken else 0)) ∧
      (∀ x, creditOf (w'.pools p) w'.time x = creditOf (w.pools p) w.time x - taken.lot.bal x) ∧
      ∀ x i, (accountOf (w'.pools p) x).supplied i = (accountOf (w.pools p) x).supplied i ∧
        (accountOf (w'.pools p) x).collateral i = (accountOf (w.pools p) x).collateral i ∧
        (accountOf (w'.pools p) x).debt i = (accountOf (w.pools p) x).debt i := by
  obtain ⟨B, hrun, hpos, hauc, hlp, hcr, hbal⟩ := submit_full hr h
  generalize hq : (⟨8, u, n⟩ : Request) = q at hrun
  have he := run_one hrun (by rw [← hq]; exact (by decide : 6 ≤ 8))
  cases he with
  | liquidation => simp at hq
  | badDebt => simp at hq
  | @interest u' n' a taken rest inst bi hf hi hsb hbi hba hlot =>
    simp only [Request.mk.injEq, true_and] at hq
    obtain ⟨rfl, rfl⟩ := hq
    obtain ⟨hne, _, ha, hb, hft⟩ := hf
    refine ⟨a, taken, bi, hbi, hne, by rw [← hba]; exact hsb, ha, hb, ?_, hlot, by rw [hlp]; rfl, fun t x => ?_,
      fun x => by rw [hcr]; rfl, fun x i => ?_⟩
    · rw [hauc]; simpa [upd] using hft
    · rw [hbal, ← hba]
      simp [booksOf, accountOf, paid]
      omega
    · obtain ⟨e1, e2, e3⟩ := hpos x i
      simp [accountOf, e1, e2, e3, booksOf]
  | delete => simp at hq

/-- non-vacuity: carol fills half of an interest auction -/
example : ∃ w w', Reachable w ∧ step w (.pool poolA [carol] (.submit carol carol carol [⟨8, backstopA, 50⟩])) = .ok w' := by
  obtain ⟨w, w', _, hr, hs, _⟩ := Demo.reach_step (ops := setup ++ trade ++ interest ++ [.ledger 500 151])
    (op := .pool poolA [carol] (.submit carol carol carol [⟨8, backstopA, 50⟩])) (f := fun _ _ => true) (by decide +kernel)
  exact ⟨w, w', hr, hs⟩

/-- a submit that contains a fill request succeeds only if the auction exists at that point, with the start block it had before
the submit, and can be filled -/
private theorem fill_in_submit {w w' : World} (hr : Reachable w) {p u : Address} {auth : List Address} {sender spender dst : Address}
    {reqs : List Request} {t : Nat} {n : Int} (ht : t ≤ 2) (hq : ⟨6 + t, u, n⟩ ∈ reqs)
    (h : step w (.pool p auth (.submit sender spender dst reqs)) = .ok w') :
    ∃ a0 a taken rest B B1, (w.pools p).auctions t u = some a0 ∧ a.block = a0.block ∧ a.block ≤ w.seq ∧ B.auction t u = some a ∧
      FillTerms (w.seq - a.block) (n.toNat % 2 ^ 64) a taken rest ∧ AuctionEffect w p sender B ⟨6 + t, u, n⟩ B1 := by
  obtain ⟨B2, hrun, -⟩ := submit_full hr h
  obtain ⟨l1, B, B1, h1, he⟩ := hrun.mem hq (Nat.le_add_right 6 t)
  obtain ⟨a, taken, rest, _, _, ha, hb, hf⟩ := he.filling ht
  have h0 : ∃ a0, (w.pools p).auctions t u = some a0 := by
    cases e : (w.pools p).auctions t u with
    | some a0 => exact ⟨a0, rfl⟩
    | none =>
      have := h1.auctionNone t u e
      rw [this] at ha
      cases ha
  obtain ⟨a0, h0⟩ := h0
  have hblk := FullRun_block h1 t u (P := fun b => b = a0.block) (fun a ha => by
    simp only [booksOf, h0, Option.some.injEq] at ha
    rw [ha]) a ha
  exact ⟨a0, a, taken, rest, B, B1, h0, hblk, hb, ha, hf, he⟩

/-- **C16**: a submit with a fill request whose percentage (the amount modulo 2⁶⁴) is not between 1 and 100 is rejected. -/
theorem C16_percentage {w : World} (hr : Reachable w) {p u : Address} {auth : List Address} {sender spender dst : Address}
    {reqs : List Request} {t : Nat} {n : Int} (ht : t ≤ 2) (hq : ⟨6 + t, u, n⟩ ∈ reqs)
    (hn : n.toNat % 2 ^ 64 = 0 ∨ 100 < n.toNat % 2 ^ 64) (w' : World) :
    step w (.pool p auth (.submit sender spender dst reqs)) ≠ .ok w' := by
  intro h
  obtain ⟨_, _, _, _, _, _, _, _, _, _, hf, _⟩ := fill_in_submit hr ht hq h
  have := hf.range
  omega

/-- **C16**: after a fill of 100 percent (and no other request) the auction is gone. -/
theorem C16_full_fill_removes {w w' : World} (hr : Reachable w) {p u : Address} {auth : List Address} {sender spender dst : Address}
    {t : Nat} (ht : t ≤ 2) (h : step w (.pool p auth (.submit sender spender dst [⟨6 + t, u, 100⟩])) = .ok w') :
    (w'.pools p).auctions t u = none := by
  have : t = 0 ∨ t = 1 ∨ t = 2 := by omega
  rcases this with rfl | rfl | rfl
  · obtain ⟨_, _, _, _, _, hf, _⟩ := C16_liquidation_fill hr h
    exact hf.full
  · obtain ⟨_, _, _, _, _, _, _, _, _, _, hf, _⟩ := C16_badDebt_fill hr h
    exact hf.full
  · obtain ⟨_, _, _, _, _, _, _, _, hf, _⟩ := C16_interest_fill hr h
    exact hf.full

/-- **C16**: over any history, as long as the auction is not gone in between, it changes only by a sequence of fills, and all of
these together take at most what the auction had: of each asset the bids (lots) taken and the bid (lot) left add up to at most
the bid (lot) at the start. -/
theorem C16_history {w w' : World} (hr : Reachable w) {p u : Address} {t : Nat} {a : AuctionData}
    (ha : (w.pools p).auctions t u = some a) (hh : History (fun _ => True) w w') :
    (∃ w1, History (fun _ => True) w w1 ∧ History (fun _ => True) w1 w' ∧ (w1.pools p).auctions t u = none) ∨
    ∃ l, Fills (some a) l ((w'.pools p).auctions t u) ∧
      ∀ x, bidTaken l x + leftBid ((w'.pools p).auctions t u) x ≤ max 0 (a.bid.bal x) ∧
        lotTaken l x + leftLot ((w'.pools p).auctions t u) x ≤ max 0 (a.lot.bal x) := by
  suffices h : Reachable w' ∧ ((∃ w1, History (fun _ => True) w w1 ∧ History (fun _ => True) w1 w' ∧ (w1.pools p).auctions t u = none) ∨
      ∃ l, Fills (some a) l ((w'.pools p).auctions t u)) by
    rcases h.2 with h | ⟨l, h⟩
    · exact .inl h
    · exact .inr ⟨l, h, fun x => h.bound x⟩
  induction hh with
  | refl => exact ⟨hr, .inr ⟨[], by rw [ha]; exact .nil _⟩⟩
  | @tail w' w'' op hh _ hs ih =>
    obtain ⟨hr', ih⟩ := ih
    refine ⟨hr'.step hs, ?_⟩
    rcases ih with ⟨w1, h1, h2, h3⟩ | ⟨l, hl⟩
    · exact .inl ⟨w1, h1, .tail h2 trivial hs, h3⟩
    · cases e : (w'.pools p).auctions t u with
      | none => exact .inl ⟨w', hh, .tail (.refl _) trivial hs, e⟩
      | some b =>
        right
        suffices h : ∃ l', Fills ((w'.pools p).auctions t u) l' ((w''.pools p).auctions t u) by
          obtain ⟨l', hl'⟩ := h
          exact hl.append hl'
        rcases auction_step hr'.base hs p t u with h | h
        · exact ⟨[], by rw [h]; exact .nil _⟩
        · generalize hx : (w''.pools p).auctions t u = x at h
          cases h with
          | liquidation _ _ _ _ _ h1 _ _ _ h2 =>
            subst h1
            simp only [createUserLiq, bind_ok, require_ok] at h2
            obtain ⟨_, h3, _⟩ := h2
            rw [e] at h3; cases h3
          | badDebt _ _ _ h1 _ h2 h3 =>
            subst h1 h2
            simp only [createBadDebtData, bind_ok, require_ok] at h3
            obtain ⟨_, h4, _⟩ := h3
            rw [e] at h4; cases h4
          | interest _ _ _ _ h1 _ h2 h3 =>
            subst h1 h2
            simp only [createInterestData, bind_ok, require_ok] at h3
            obtain ⟨_, h4, _⟩ := h3
            rw [e] at h4; cases h4
          | submit =>
            obtain ⟨B, hrun, -, hauc, -⟩ := submit_full hr' hs
            rw [← hx, hauc]
            exact hrun.fills t u
          | expire => exact ⟨[], .gone _⟩

/-- non-vacuity of `C16_history`: half of bob's liquidation is filled, the rest later -/
example : ∃ w w' a b, Reachable w ∧ (w.pools poolA).auctions 0 bob = some a ∧ History (fun _ => True) w w' ∧
    (w'.pools poolA).auctions 0 bob = some b ∧ b.lot.bal xlmA < a.lot.bal xlmA ∧ b.bid.bal usdcA < a.bid.bal usdcA := by
  obtain ⟨w, w', _, hr, hs, h⟩ := Demo.reach_step (ops := setup ++ trade ++ emissions ++ claims ++ liquidation.take 3)
    (op := .pool poolA [dave] (.submit dave dave dave [⟨2, usdcA, 100000000000⟩, ⟨6, bob, 50⟩]))
    (f := fun w w' => optAnd ((w.pools poolA).auctions 0 bob) fun a => optAnd ((w'.pools poolA).auctions 0 bob) fun b =>
      decide (b.lot.bal xlmA < a.lot.bal xlmA ∧ b.bid.bal usdcA < a.bid.bal usdcA)) (by decide +kernel)
  obtain ⟨a, ha, h1⟩ := optAnd_iff.1 h
  obtain ⟨b, hb, h2⟩ := optAnd_iff.1 h1
  exact ⟨w, w', a, b, hr, ha, .tail (.refl _) trivial hs, hb, of_decide_eq_true h2⟩

/-- FINDING (C16): only the lowest 64 bits of the amount count: a fill of 2⁶⁴ + 50 "percent" is accepted as one of 50 percent. -/
theorem C16_percentage_wraps : ∃ w w' w'' : World, Reachable w ∧
    step w (.pool poolA [dave] (.submit dave dave dave [⟨2, usdcA, 100000000000⟩, ⟨6, bob, 2 ^ 64 + 50⟩])) = .ok w' ∧
    step w (.pool poolA [dave] (.submit dave dave dave [⟨2, usdcA, 100000000000⟩, ⟨6, bob, 50⟩])) = .ok w'' ∧
    (accountOf (w'.pools poolA) dave).debt 0 = (accountOf (w''.pools poolA) dave).debt 0 ∧
    (accountOf (w.pools poolA) dave).debt 0 < (accountOf (w'.pools poolA) dave).debt 0 := by
  obtain ⟨w, w', _, hr, hs, h⟩ := Demo.reach_step (ops := setup ++ trade ++ emissions ++ claims ++ liquidation.take 3)
    (op := .pool poolA [dave] (.submit dave dave dave [⟨2, usdcA, 100000000000⟩, ⟨6, bob, 2 ^ 64 + 50⟩]))
    (f := fun w w' => okAnd (step w (.pool poolA [dave] (.submit dave dave dave [⟨2, usdcA, 100000000000⟩, ⟨6, bob, 50⟩]))) fun w'' =>
      decide ((accountOf (w'.pools poolA) dave).debt 0 = (accountOf (w''.pools poolA) dave).debt 0 ∧
        (accountOf (w.pools poolA) dave).debt 0 < (accountOf (w'.pools poolA) dave).debt 0)) (by decide +kernel)
  obtain ⟨w'', h1, h2⟩ := okAnd_iff.1 h
  exact ⟨w, w', w'', hr, hs, h1, of_decide_eq_true h2⟩

/-! ### C15: the price schedule -/

/-- **C15**: the share of the lot on offer grows by one 200th per ledger from nothing to all of it after 200 ledgers and stays
there; the share of the bid that is due stays all of it for 200 ledgers, falls by one 200th per ledger and is nothing after 400. -/
theorem C15_schedule (k : Nat) :
    lotDue 0 = 0 ∧ (k < 200 → lotDue (k + 1) = lotDue k + 1) ∧ (200 ≤ k → lotDue k = 200) ∧
    (k ≤ 200 → bidDue k = 200) ∧ (200 ≤ k → k < 400 → bidDue (k + 1) = bidDue k - 1) ∧ (400 ≤ k → bidDue k = 0) := by
  unfold lotDue bidDue
  refine ⟨by simp, ?_, ?_, ?_, ?_, ?_⟩ <;> intros <;> split_ifs <;> push_cast <;> omega

/-- **C15**: what a fill pays for the lot: at the start nothing is handed over; between 200 and 400 ledgers all of the filled part;
from 400 ledgers on the filler pays nothing. `taken` is what the filler pays and gets (`C16_liquidation_fill`,
`C16_badDebt_fill`, `C16_interest_fill`). -/
theorem C15_ends {k n : Nat} {a taken : AuctionData} {rest : Option AuctionData} (h : FillTerms k n a taken rest) (x : Address) :
    (k = 0 → taken.lot.bal x = 0) ∧
    (k ≤ 200 → 0 ≤ a.bid.bal x → IsCeil (taken.bid.bal x) (a.bid.bal x * n) 100) ∧
    (200 ≤ k → 0 ≤ a.lot.bal x → IsFloor (taken.lot.bal x) (a.lot.bal x * n) 100) ∧
    (400 ≤ k → taken.bid.bal x = 0) := by
  refine ⟨fun hk => ?_, fun hk ha => ?_, fun hk ha => ?_, fun hk => ?_⟩
  · by_cases hx : 0 ≤ a.lot.bal x
    · obtain ⟨part, _, ⟨h1, h2⟩, _⟩ := h.lot x hx
      subst hk
      rw [(C15_schedule 0).1] at h1 h2
      omega
    · exact (h.negLot x (by omega)).1
  · obtain ⟨part, h1, ⟨h2, h3⟩, _⟩ := h.bid x ha
    rw [(C15_schedule k).2.2.2.1 hk] at h2 h3
    have : taken.bid.bal x = part := by omega
    rw [this]; exact h1
  · obtain ⟨part, h1, ⟨h2, h3⟩, _⟩ := h.lot x ha
    rw [(C15_schedule k).2.2.1 hk] at h2 h3
    have : taken.lot.bal x = part := by omega
    rw [this]; exact h1
  · by_cases hx : 0 ≤ a.bid.bal x
    · obtain ⟨part, _, ⟨h1, h2⟩, _⟩ := h.bid x hx
      rw [(C15_schedule k).2.2.2.2.2 hk] at h1 h2
      omega
    · exact (h.negBid x (by omega)).1

/-- **C15**: the terms only get better for the filler: the same fill of the same auction in a later ledger pays no more of any
asset of the bid and gets no less of any asset of the lot, whatever happened in between. -/
theorem C15_liquidation_monotone {w1 w2 w1' w2' : World} (hr1 : Reachable w1) (hr2 : Reachable w2) {p u sender : Address}
    {auth1 auth2 : List Address} {spender1 dst1 spender2 dst2 : Address} {n : Int}
    (ha : (w1.pools p).auctions 0 u = (w2.pools p).auctions 0 u) (hl : (w1.pools p).resList = (w2.pools p).resList)
    (hs : w1.seq ≤ w2.seq)
    (h1 : step w1 (.pool p auth1 (.submit sender spender1 dst1 [⟨6, u, n⟩])) = .ok w1')
    (h2 : step w2 (.pool p auth2 (.submit sender spender2 dst2 [⟨6, u, n⟩])) = .ok w2') (i : Nat) :
    (accountOf (w2'.pools p) sender).debt i - (accountOf (w2.pools p) sender).debt i ≤
      (accountOf (w1'.pools p) sender).debt i - (accountOf (w1.pools p) sender).debt i ∧
    (accountOf (w1'.pools p) sender).collateral i - (accountOf (w1.pools p) sender).collateral i ≤
      (accountOf (w2'.pools p) sender).collateral i - (accountOf (w2.pools p) sender).collateral i := by
  obtain ⟨a, taken, _, ha1, hb1, hf1, hpos1, -⟩ := C16_liquidation_fill hr1 h1
  obtain ⟨a', taken', _, ha2, hb2, hf2, hpos2, -⟩ := C16_liquidation_fill hr2 h2
  obtain rfl : a = a' := by rw [ha1, ha2] at ha; exact Option.some.inj ha
  obtain ⟨_, _, c1, d1⟩ := hpos1 i
  obtain ⟨_, _, c2, d2⟩ := hpos2 i
  rw [c1, d1, c2, d2]
  have m : ∀ x, taken'.bid.bal x ≤ taken.bid.bal x := hf1.bid_anti hf2 (by omega)
  have m' : ∀ x, taken.lot.bal x ≤ taken'.lot.bal x := hf1.lot_mono hf2 (by omega)
  have e1 : amountAt (w2.pools p) taken'.bid i ≤ amountAt (w1.pools p) taken.bid i := by
    simp only [amountAt, hl]
    split
    · exact m _
    · exact le_rfl
  have e2 : amountAt (w1.pools p) taken.lot i ≤ amountAt (w2.pools p) taken'.lot i := by
    simp only [amountAt, hl]
    split
    · exact m' _
    · exact le_rfl
  omega

/-- **C15** for bad debt auctions: a later fill takes over no more debt and gets no fewer backstop tokens. -/
theorem C15_badDebt_monotone {w1 w2 w1' w2' : World} (hr1 : Reachable w1) (hr2 : Reachable w2) {p u sender : Address}
    {auth1 auth2 : List Address} {spender1 dst1 spender2 dst2 : Address} {n : Int}
    (ha : (w1.pools p).auctions 1 u = (w2.pools p).auctions 1 u) (hl : (w1.pools p).resList = (w2.pools p).resList)
    (hbi : w1.backstop.inst = w2.backstop.inst) (hs : w1.seq ≤ w2.seq)
    (h1 : step w1 (.pool p auth1 (.submit sender spender1 dst1 [⟨7, u, n⟩])) = .ok w1')
    (h2 : step w2 (.pool p auth2 (.submit sender spender2 dst2 [⟨7, u, n⟩])) = .ok w2') :
    (∀ i, (accountOf (w2'.pools p) sender).debt i - (accountOf (w2.pools p) sender).debt i ≤
      (accountOf (w1'.pools p) sender).debt i - (accountOf (w1.pools p) sender).debt i) ∧
    (w1.backstop.getPoolBal p).tokens - (w1'.backstop.getPoolBal p).tokens ≤
      (w2.backstop.getPoolBal p).tokens - (w2'.backstop.getPoolBal p).tokens := by
  obtain ⟨a, taken, _, bi, _, hi1, _, _, ha1, hb1, hf1, hpos1, _, ht1, -⟩ := C16_badDebt_fill hr1 h1
  obtain ⟨a', taken', _, bi', _, hi2, _, _, ha2, hb2, hf2, hpos2, _, ht2, -⟩ := C16_badDebt_fill hr2 h2
  obtain rfl : a = a' := by rw [ha1, ha2] at ha; exact Option.some.inj ha
  obtain rfl : bi = bi' := by rw [hi1, hi2] at hbi; exact Option.some.inj hbi
  have m : ∀ x, taken'.bid.bal x ≤ taken.bid.bal x := hf1.bid_anti hf2 (by omega)
  have m' := hf1.lot_mono hf2 (by omega) bi.backstopToken
  refine ⟨fun i => ?_, by omega⟩
  rw [hpos1 i, hpos2 i]
  have e1 : amountAt (w2.pools p) taken'.bid i ≤ amountAt (w1.pools p) taken.bid i := by
    simp only [amountAt, hl]
    split
    · exact m _
    · exact le_rfl
  omega

/-- **C15** for interest auctions: a later fill pays no more backstop tokens and gets no less of any asset. -/
theorem C15_interest_monotone {w1 w2 w1' w2' : World} (hr1 : Reachable w1) (hr2 : Reachable w2) {p u sender : Address}
    {auth1 auth2 : List Address} {spender1 dst1 spender2 dst2 : Address} {n : Int}
    (ha : (w1.pools p).auctions 2 u = (w2.pools p).auctions 2 u)
    (hbi : w1.backstop.inst = w2.backstop.inst) (hs : w1.seq ≤ w2.seq)
    (h1 : step w1 (.pool p auth1 (.submit sender spender1 dst1 [⟨8, u, n⟩])) = .ok w1')
    (h2 : step w2 (.pool p auth2 (.submit sender spender2 dst2 [⟨8, u, n⟩])) = .ok w2') :
    (∀ x, creditOf (w1.pools p) w1.time x - creditOf (w1'.pools p) w1'.time x ≤
      creditOf (w2.pools p) w2.time x - creditOf (w2'.pools p) w2'.time x) ∧
    (w2'.backstop.getPoolBal p).tokens - (w2.backstop.getPoolBal p).tokens ≤
      (w1'.backstop.getPoolBal p).tokens - (w1.backstop.getPoolBal p).tokens := by
  obtain ⟨a, taken, bi, hi1, _, _, ha1, hb1, hf1, _, ht1, _, hc1, -⟩ := C16_interest_fill hr1 h1
  obtain ⟨a', taken', bi', hi2, _, _, ha2, hb2, hf2, _, ht2, _, hc2, -⟩ := C16_interest_fill hr2 h2
  obtain rfl : a = a' := by rw [ha1, ha2] at ha; exact Option.some.inj ha
  obtain rfl : bi = bi' := by rw [hi1, hi2] at hbi; exact Option.some.inj hbi
  have m := hf1.bid_anti hf2 (by omega) bi.backstopToken
  refine ⟨fun x => ?_, by omega⟩
  have := hf1.lot_mono hf2 (by omega) x
  rw [hc1 x, hc2 x]
  omega

/-- non-vacuity of `C15_interest_monotone`: carol can fill the same interest auction in either of two ledgers, and pays less in the
later one -/
example : ∃ w1 w2 w1' w2' : World, Reachable w1 ∧ Reachable w2 ∧ (w1.pools poolA).auctions 2 backstopA = (w2.pools poolA).auctions 2 backstopA ∧
    w1.backstop.inst = w2.backstop.inst ∧ w1.seq < w2.seq ∧
    step w1 (.pool poolA [carol] (.submit carol carol carol [⟨8, backstopA, 50⟩])) = .ok w1' ∧
    step w2 (.pool poolA [carol] (.submit carol carol carol [⟨8, backstopA, 50⟩])) = .ok w2' ∧
    (w2'.backstop.getPoolBal poolA).tokens < (w1'.backstop.getPoolBal poolA).tokens := by
  obtain ⟨w1, w2, _, hr1, hs, h⟩ := Demo.reach_step (ops := setup ++ trade ++ interest ++ [.ledger 500 151]) (op := .ledger 500 101)
    (f := fun w1 w2 => okAnd (step w1 (.pool poolA [carol] (.submit carol carol carol [⟨8, backstopA, 50⟩]))) fun w1' =>
      okAnd (step w2 (.pool poolA [carol] (.submit carol carol carol [⟨8, backstopA, 50⟩]))) fun w2' =>
      decide (w1.seq < w2.seq ∧ (w2'.backstop.getPoolBal poolA).tokens < (w1'.backstop.getPoolBal poolA).tokens)) (by decide +kernel)
  obtain ⟨w1', h1, h⟩ := okAnd_iff.1 h
  obtain ⟨w2', h2, h⟩ := okAnd_iff.1 h
  obtain ⟨h3, h4⟩ := of_decide_eq_true h
  refine ⟨w1, w2, w1', w2', hr1, hr1.step hs, ?_, ?_, h3, h1, h2, h4⟩
  · cases hs; rfl
  · cases hs; rfl

/-! ### C17: the start block -/

/-- what a successful creation does to the auctions of the pool -/
private theorem creates_ok {w w' : World} {p u : Address} {t : Nat} {op : Op} {i : PoolInst} (hi : (w.pools p).inst = some i)
    (hc : Creates p i.backstop t u op) (h : step w op = .ok w') :
    (w.pools p).auctions t u = none ∧ ∃ a, (w'.pools p).auctions t u = some a ∧ a.block = w.seq + 1 ∧ w'.seq = w.seq := by
  have e : ∀ (ps : PoolState) (t : Nat) (u : Address) (a : AuctionData),
      ((w.setPool p (setAuction ps t u (some a))).pools p).auctions t u = some a := by
    intro ps t u a; rw [pools_setPool, setAuction_same]
  cases hc with
  | liquidation auth u n =>
    simp only [step, bind_ok, require_ok, call, createLiquidation, PoolState.getInst, unwrap_ok, Prod.exists, pure_ok] at h
    obtain ⟨_, _, _, _, i', _, _, _, a, ps, hcr, rfl⟩ := h
    refine ⟨?_, a, ?_, ?_, rfl⟩
    · simp only [createUserLiq, bind_ok, require_ok] at hcr
      obtain ⟨_, h3, _⟩ := hcr
      exact Option.isNone_iff_eq_none.1 h3
    · simp [setAuction_same]
    · simp only [createUserLiq, bind_ok, require_ok, Prod.exists, pure_ok, ite_ok, Prod.mk.injEq, chkU32_ok] at hcr
      obtain ⟨_, _, _, _, blk, ⟨_, rfl⟩, cache, hc, pd, cache1, hpd, _, _, pct, wd, sh, _, lot, _, bid, _,
        ⟨_, _, _, rfl, rfl⟩ | ⟨_, c, hrm, nd, _, _, _, _, _, _, _, _, _, _, rfl, rfl⟩⟩ := hcr <;> rfl
  | badDebt auth =>
    simp only [step, bind_ok, require_ok, call, createBadDebt, PoolState.getInst, unwrap_ok, pure_ok, hi, Option.some.injEq] at h
    obtain ⟨_, _, _, _, i', rfl, a, hcr, rfl⟩ := h
    simp only [createBadDebtData, bind_ok, require_ok, Prod.exists, pure_ok, chkU32_ok] at hcr
    obtain ⟨_, h3, blk, ⟨_, rfl⟩, _, _, _, _, _, _, _, _, _, _, _, _, _, _, _, _, _, _, _, _, rfl⟩ := hcr
    exact ⟨Option.isNone_iff_eq_none.1 h3, _, e _ _ _ _, rfl, rfl⟩
  | interest auth l =>
    simp only [step, bind_ok, require_ok, call, createInterest, PoolState.getInst, unwrap_ok, pure_ok, hi, Option.some.injEq] at h
    obtain ⟨_, _, _, _, i', rfl, a, hcr, rfl⟩ := h
    simp only [createInterestData, bind_ok, require_ok, Prod.exists, pure_ok, chkU32_ok] at hcr
    obtain ⟨_, h3, _, _, _, _, blk, ⟨_, rfl⟩, _, _, _, _, _, _, _, _, _, _, _, _, _, _, _, _, _, _, _, _, rfl⟩ := hcr
    exact ⟨Option.isNone_iff_eq_none.1 h3, _, e _ _ _ _, rfl, rfl⟩

/-- **C17**: a new auction starts in the next ledger, and no other auction of that type of that account existed before. -/
theorem C17_created {w w' : World} {p u : Address} {t : Nat} {op : Op} {i : PoolInst} (hi : (w.pools p).inst = some i)
    (hc : Creates p i.backstop t u op) (h : step w op = .ok w') :
    ∃ a, (w'.pools p).auctions t u = some a ∧ a.block = w'.seq + 1 := by
  obtain ⟨_, a, h1, h2, h3⟩ := creates_ok hi hc h
  exact ⟨a, h1, by rw [h3, h2]⟩

/-- **C17**: a submit with a request to fill an auction that has not started yet is rejected. -/
theorem C17_not_started {w : World} (hr : Reachable w) {p u : Address} {t : Nat} {a : AuctionData} (ht : t ≤ 2)
    (ha : (w.pools p).auctions t u = some a) (hs : w.seq < a.block) {auth : List Address} {sender spender dst : Address}
    {reqs : List Request} {n : Int} (hq : ⟨6 + t, u, n⟩ ∈ reqs) (w' : World) :
    step w (.pool p auth (.submit sender spender dst reqs)) ≠ .ok w' := by
  intro h
  obtain ⟨a0, a1, _, _, _, _, h0, h1, h2, _⟩ := fill_in_submit hr ht hq h
  rw [ha] at h0
  cases h0
  omega

/-- **C17**: an auction that is created in some ledger cannot be filled in that ledger, whatever happens in between. -/
theorem C17_same_ledger {w w' : World} (hr : Reachable w) {p u : Address} {t : Nat} (ht : t ≤ 2)
    (ha : (w.pools p).auctions t u = none) (hh : History (fun op => ∀ dt ds, op ≠ .ledger dt ds) w w')
    {auth : List Address} {sender spender dst : Address} {reqs : List Request} {n : Int} (hq : ⟨6 + t, u, n⟩ ∈ reqs) (w'' : World) :
    step w' (.pool p auth (.submit sender spender dst reqs)) ≠ .ok w'' := by
  have key : Reachable w' ∧ ∀ a, (w'.pools p).auctions t u = some a → a.block = w'.seq + 1 := by
    induction hh with
    | refl => exact ⟨hr, by simp [ha]⟩
    | @tail w1 w2 op hh hop hs ih =>
      obtain ⟨hr1, ih⟩ := ih
      refine ⟨hr1.step hs, ?_⟩
      have hseq := ((step_frame hr1.base hs).time hop).2
      rw [hseq]
      rcases auction_step hr1.base hs p t u with h | h
      · rw [h]; exact ih
      · generalize hx : (w2.pools p).auctions t u = x at h
        cases h with
        | liquidation _ _ i _ _ h1 hi _ _ h2 =>
          subst h1
          obtain ⟨_, b, h3, h4, _⟩ := creates_ok hi (.liquidation _ _ _) hs
          rw [hx] at h3
          rintro c ⟨⟩
          cases h3
          exact h4
        | badDebt _ i _ h1 hi h2 h3 =>
          subst h1 h2
          obtain ⟨_, b, h3, h4, _⟩ := creates_ok hi (.badDebt _) hs
          rw [hx] at h3
          rintro c ⟨⟩
          cases h3
          exact h4
        | interest _ i _ _ h1 hi h2 h3 =>
          subst h1 h2
          obtain ⟨_, b, h3, h4, _⟩ := creates_ok hi (.interest _ _) hs
          rw [hx] at h3
          rintro c ⟨⟩
          cases h3
          exact h4
        | submit =>
          obtain ⟨B, hrun, -, hauc, -⟩ := submit_full hr1 hs
          rw [← hx, hauc]
          exact FullRun_block hrun t u (P := fun b => b = w1.seq + 1) (fun a ha => ih a ha)
        | expire => simp
  intro h
  obtain ⟨a0, a1, _, _, _, _, h0, h1, h2, _⟩ := fill_in_submit key.1 ht hq h
  have := key.2 _ h0
  omega

/-- non-vacuity of the C17 theorems: a liquidation of bob is created -/
example : ∃ w w' i, Reachable w ∧ (w.pools poolA).inst = some i ∧ (w.pools poolA).auctions 0 bob = none ∧
    Creates poolA i.backstop 0 bob (.pool poolA [] (.newLiquidation bob 60)) ∧
    step w (.pool poolA [] (.newLiquidation bob 60)) = .ok w' := by
  obtain ⟨w, w', _, hr, hs, h⟩ := Demo.reach_step (ops := setup ++ trade ++ emissions ++ claims ++ liquidation.take 1)
    (op := .pool poolA [] (.newLiquidation bob 60)) (f := fun w _ => optAnd (w.pools poolA).inst fun _ =>
      decide (((w.pools poolA).auctions 0 bob).isNone = true)) (by decide +kernel)
  obtain ⟨i, hi, h⟩ := optAnd_iff.1 h
  exact ⟨w, w', i, hr, hi, Option.isNone_iff_eq_none.1 (of_decide_eq_true h), .liquidation _ _ _, hs⟩

/-! ### C19: one auction at a time -/

/-- **C19**: while an auction exists no other of the same type can be created for the same account. -/
theorem C19_no_second {w : World} {p u : Address} {t : Nat} {op : Op} {i : PoolInst} {a : AuctionData}
    (hi : (w.pools p).inst = some i) (hc : Creates p i.backstop t u op) (ha : (w.pools p).auctions t u = some a) (w' : World) :
    step w op ≠ .ok w' := by
  intro h
  have := (creates_ok hi hc h).1
  rw [ha] at this
  cases this

/-- **C19**: the error of such a call says that an auction is in progress. -/
theorem C19_error {w : World} {p u : Address} {t : Nat} {op : Op} {i : PoolInst} {a : AuctionData}
    (hi : (w.pools p).inst = some i) (hp : w.poolAddr p = true) (hu : u ≠ p) (hb : t = 0 → u ≠ i.backstop)
    (hc : Creates p i.backstop t u op) (hauth : ∀ auth c, op = .pool p auth c → ∀ x ∈ auth, ¬ w.isProtocol x)
    (ha : (w.pools p).auctions t u = some a) : step w op = .error (.pool .auctionInProgress) := by
  cases hc with
  | liquidation auth u n =>
    have := hauth _ _ rfl
    simp only [step, require, if_pos this]
    simp [hp, call, createLiquidation, PoolState.getInst, hi, unwrap, hu, hb rfl, createUserLiq, ha, bind, Except.bind, require]
  | badDebt auth =>
    have := hauth _ _ rfl
    simp only [step, require, if_pos this]
    simp [hp, call, createBadDebt, PoolState.getInst, hi, unwrap, createBadDebtData, ha, bind, Except.bind, require]
  | interest auth l =>
    have := hauth _ _ rfl
    simp only [step, require, if_pos this]
    simp [hp, call, createInterest, PoolState.getInst, hi, unwrap, createInterestData, ha, bind, Except.bind, require]

/-- **C19**: an auction is never replaced: whatever transaction runs, if the auction still exists afterwards it has the same start
block and of no asset a larger bid or lot; and it changes only in a submit with a request to fill it, or to delete it if the sender
is the liquidated account, or by being dropped by the ledger. -/
theorem C19_not_replaced {w w' : World} (hr : Reachable w) {p u : Address} {t : Nat} {op : Op} {a : AuctionData}
    (ha : (w.pools p).auctions t u = some a) (h : step w op = .ok w') :
    (w'.pools p).auctions t u = some a ∨
    (op = .expireAuction p t u ∨ ∃ auth sender spender dst reqs, op = .pool p auth (.submit sender spender dst reqs) ∧
      ((∃ n, ⟨6 + t, u, n⟩ ∈ reqs) ∨ t = 0 ∧ u = sender ∧ ∃ q ∈ reqs, q.type = 9)) ∧
    ∀ b, (w'.pools p).auctions t u = some b → b.block = a.block ∧
      ∀ x, b.bid.bal x ≤ max 0 (a.bid.bal x) ∧ b.lot.bal x ≤ max 0 (a.lot.bal x) := by
  rcases auction_step hr.base h p t u with e | hc
  · exact .inl (by rw [e, ha])
  · generalize hx : (w'.pools p).auctions t u = x at hc
    have hcr : ∀ {i : PoolInst}, (w.pools p).inst = some i → ¬ Creates p i.backstop t u op := by
      intro i hi hc
      have := (creates_ok hi hc h).1
      rw [ha] at this
      cases this
    cases hc with
    | liquidation _ _ i _ _ h1 hi _ _ h2 => subst h1; exact absurd (.liquidation _ _ _) (hcr hi)
    | badDebt _ i _ h1 hi h2 h3 => subst h1 h2; exact absurd (.badDebt _) (hcr hi)
    | interest _ i _ _ h1 hi h2 h3 => subst h1 h2; exact absurd (.interest _ _) (hcr hi)
    | submit auth sender spender dst reqs q _ hq h1 =>
      refine .inr ⟨.inr ⟨auth, sender, spender, dst, reqs, rfl, ?_⟩, ?_⟩
      · unfold reqAuction at h1
        obtain ⟨ty, ad, am⟩ := q
        split_ifs at h1 with e1 e2 e3 e4 <;> simp only [Option.some.injEq, Prod.mk.injEq] at h1 <;> obtain ⟨rfl, rfl⟩ := h1
        · exact .inl ⟨am, by simp only at e1; subst e1; exact hq⟩
        · exact .inl ⟨am, by simp only at e2; subst e2; exact hq⟩
        · exact .inl ⟨am, by simp only at e3; subst e3; exact hq⟩
        · exact .inr ⟨rfl, rfl, _, hq, e4⟩
      · obtain ⟨B, hrun, -, hauc, -⟩ := submit_full hr h
        obtain ⟨f, hf⟩ := hrun.fills t u
        rintro b hb
        rw [hb] at hx
        have hb1 := FullRun_block hrun t u (P := fun b => b = a.block) (fun c hc => by
          simp only [booksOf, ha, Option.some.injEq] at hc
          rw [hc]) b (by rw [← hauc]; exact hx)
        refine ⟨hb1, fun x => ?_⟩
        have hm := hrun.auctionInv t u (fun o => leftBid o x ≤ max 0 (a.bid.bal x) ∧ leftLot o x ≤ max 0 (a.lot.bal x))
          (by simp [leftBid, leftLot]) (fun n c tk rest _ hft hp => by
            obtain ⟨b1, b2, b3⟩ := hft.bid_bounds x
            obtain ⟨l1, l2, l3⟩ := hft.lot_bounds x
            simp only [leftBid, leftLot] at hp b3 l3 ⊢
            omega) (by simp [booksOf, ha, leftBid, leftLot])
        rw [← hauc, hx] at hm
        exact hm
    | expire => exact .inr ⟨.inl rfl, by simp⟩

/-- non-vacuity of the C19 theorems: the auction of bob exists, dave's fill changes it -/
example : ∃ w w' i a, Reachable w ∧ (w.pools poolA).inst = some i ∧ (w.pools poolA).auctions 0 bob = some a ∧ w.poolAddr poolA = true ∧
    bob ≠ poolA ∧ bob ≠ i.backstop ∧ Creates poolA i.backstop 0 bob (.pool poolA [] (.newLiquidation bob 30)) ∧
    step w (.pool poolA [dave] (.submit dave dave dave [⟨2, usdcA, 100000000000⟩, ⟨6, bob, 50⟩])) = .ok w' ∧
    (w'.pools poolA).auctions 0 bob ≠ some a := by
  obtain ⟨w, w', _, hr, hs, h⟩ := Demo.reach_step (ops := setup ++ trade ++ emissions ++ claims ++ liquidation.take 3)
    (op := .pool poolA [dave] (.submit dave dave dave [⟨2, usdcA, 100000000000⟩, ⟨6, bob, 50⟩]))
    (f := fun w w' => optAnd (w.pools poolA).inst fun i => optAnd ((w.pools poolA).auctions 0 bob) fun a =>
      optAnd ((w'.pools poolA).auctions 0 bob) fun b => decide (w.poolAddr poolA = true ∧ bob ≠ i.backstop ∧ b.lot.bal xlmA < a.lot.bal xlmA))
    (by decide +kernel)
  obtain ⟨i, hi, h⟩ := optAnd_iff.1 h
  obtain ⟨a, ha, h⟩ := optAnd_iff.1 h
  obtain ⟨b, hb, h⟩ := optAnd_iff.1 h
  obtain ⟨h1, h2, h3⟩ := of_decide_eq_true h
  refine ⟨w, w', i, a, hr, hi, ha, h1, by decide, h2, .liquidation _ _ _, hs, ?_⟩
  rw [hb]
  rintro ⟨⟩
  exact absurd h3 (lt_irrefl _)

/-! ### C43: interest auctions that nobody can fill -/

private theorem seq_mono {w w' : World} (hr : Reachable w) {op : Op} (h : step w op = .ok w') : w.seq ≤ w'.seq := by
  by_cases hl : ∃ dt ds, op = .ledger dt ds
  · obtain ⟨dt, ds, rfl⟩ := hl
    cases h
    exact Nat.le_add_right _ _
  · push Not at hl
    exact (((step_frame hr.base h).time hl).2).ge

/-- **C43**: an interest auction that started 400 ledgers ago or earlier cannot be filled: a submit with a request to fill it is
rejected. -/
theorem C43_unfillable {w : World} (hr : Reachable w) {p u : Address} {a : AuctionData} (ha : (w.pools p).auctions 2 u = some a)
    (hold : a.block + 400 ≤ w.seq) {auth : List Address} {sender spender dst : Address} {reqs : List Request} {n : Int}
    (hq : ⟨8, u, n⟩ ∈ reqs) (w' : World) : step w (.pool p auth (.submit sender spender dst reqs)) ≠ .ok w' := by
  intro h
  obtain ⟨a0, a1, taken, rest, B, B1, h0, h1, h2, h3, h4, he⟩ := fill_in_submit (t := 2) hr (by decide) hq h
  rw [ha] at h0
  cases h0
  generalize hq' : (⟨6 + 2, u, n⟩ : Request) = q at he
  cases he with
  | liquidation => simp at hq'
  | badDebt => simp at hq'
  | @interest u' n' b taken' rest' inst bi hf hi hsb hbi hba hlot =>
    simp only [Request.mk.injEq] at hq'
    obtain ⟨_, rfl, rfl⟩ := hq'
    obtain ⟨_, _, hb, _, hf'⟩ := hf
    rw [h3] at hb
    cases hb
    have := (C15_ends hf' bi.backstopToken).2.2.2 (by omega)
    omega
  | delete => simp at hq'

/-- **C43**: and it stays: after any history in which the ledger does not drop it, the auction is still there, still cannot be filled,
and no other interest auction can be created in its place. -/
theorem C43_stuck {w w' : World} (hr : Reachable w) {p u : Address} {a : AuctionData} (ha : (w.pools p).auctions 2 u = some a)
    (hold : a.block + 400 ≤ w.seq) (hh : History (fun op => op ≠ .expireAuction p 2 u) w w') :
    (w'.pools p).auctions 2 u = some a ∧
    (∀ auth sender spender dst reqs n w'', ⟨8, u, n⟩ ∈ reqs → step w' (.pool p auth (.submit sender spender dst reqs)) ≠ .ok w'') ∧
    ∀ i auth l w'', (w'.pools p).inst = some i → u = i.backstop → step w' (.pool p auth (.newInterest l)) ≠ .ok w'' := by
  have key : Reachable w' ∧ (w'.pools p).auctions 2 u = some a ∧ a.block + 400 ≤ w'.seq := by
    induction hh with
    | refl => exact ⟨hr, ha, hold⟩
    | @tail w1 w2 op _ hop hs ih =>
      obtain ⟨hr1, ha1, hold1⟩ := ih
      refine ⟨hr1.step hs, ?_, hold1.trans (seq_mono hr1 hs)⟩
      rcases C19_not_replaced hr1 ha1 hs with h | ⟨h | ⟨auth, sender, spender, dst, reqs, rfl, ⟨n, hn⟩ | ⟨h, _⟩⟩, _⟩
      · exact h
      · exact absurd h hop
      · exact absurd hs (C43_unfillable hr1 ha1 hold1 hn _)
      · exact absurd h (by decide)
  refine ⟨key.2.1, fun auth sender spender dst reqs n w'' hn => C43_unfillable key.1 key.2.1 key.2.2 hn w'', ?_⟩
  rintro i auth l w'' hi rfl
  exact C19_no_second hi (.interest _ _) key.2.1 w''

/-- non-vacuity of the C43 theorems: nobody fills an interest auction for 401 ledgers; a request to fill it is then rejected -/
example : ∃ w a, Reachable w ∧ (w.pools poolA).auctions 2 backstopA = some a ∧ a.block + 400 ≤ w.seq ∧ 0 < a.lot.bal usdcA ∧
    0 < a.bid.bal lpA := by
  obtain ⟨w, _, hr, h⟩ := Demo.reach (ops := setup ++ trade ++ interest ++ [.ledger 2000 401])
    (f := fun w => optAnd ((w.pools poolA).auctions 2 backstopA) fun a =>
      decide (a.block + 400 ≤ w.seq ∧ 0 < a.lot.bal usdcA ∧ 0 < a.bid.bal lpA)) (by decide +kernel)
  obtain ⟨a, ha, h⟩ := optAnd_iff.1 h
  exact ⟨w, a, hr, ha, of_decide_eq_true h⟩

/-- the same for a bad debt auction whose lot (rounded down) is still nothing, as in its first ledger: the fill is rejected -/
theorem C43_badDebt_first_ledger {w : World} (hr : Reachable w) {p u : Address} {a : AuctionData}
    (ha : (w.pools p).auctions 1 u = some a) (hb : a.block = w.seq) {auth : List Address} {sender spender dst : Address}
    {reqs : List Request} {n : Int} (hq : ⟨7, u, n⟩ ∈ reqs) (w' : World) :
    step w (.pool p auth (.submit sender spender dst reqs)) ≠ .ok w' := by
  intro h
  obtain ⟨a0, a1, taken, rest, B, B1, h0, h1, h2, h3, h4, he⟩ := fill_in_submit (t := 1) hr (by decide) hq h
  rw [ha] at h0
  cases h0
  generalize hq' : (⟨6 + 1, u, n⟩ : Request) = q at he
  cases he with
  | liquidation => simp at hq'
  | interest => simp at hq'
  | @badDebt u' n' b taken' rest' inst bi gone hf hi hsb hbi hba hle hlot =>
    simp only [Request.mk.injEq] at hq'
    obtain ⟨_, rfl, rfl⟩ := hq'
    obtain ⟨_, _, hb', _, hf'⟩ := hf
    rw [h3] at hb'
    cases hb'
    have := (C15_ends hf' bi.backstopToken).1 (by omega)
    omega
  | delete => simp at hq'

/-- non-vacuity: a bad debt auction in its first ledger -/
example : ∃ w a, Reachable w ∧ (w.pools poolA).auctions 1 backstopA = some a ∧ a.block = w.seq := by
  obtain ⟨w, _, hr, h⟩ := Demo.reach
    (ops := setup ++ trade ++ emissions ++ claims ++ liquidation ++ queue ++ crash ++ badDebt.take 2 ++ [.ledger 5 1])
    (f := fun w => optAnd ((w.pools poolA).auctions 1 backstopA) fun a => decide (a.block = w.seq)) (by decide +kernel)
  obtain ⟨a, ha, h⟩ := optAnd_iff.1 h
  exact ⟨w, a, hr, ha, of_decide_eq_true h⟩

end Props
end Blend
