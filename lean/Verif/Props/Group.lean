import Verif.Lemmas.Group
import Verif.Props.Accounting
import Verif.Examples.Demo
import Verif.Props.SameLedger
/-
  C88: within a ledger no group of accounts can make money out of nothing.
-/

namespace Blend.Props
open Spec Pool

variable {w w' : World} {S P : Finset Address} {t : Address} {idx : Address → Nat} {b d : Address → Int}

private theorem sum_pools (hmem : p ∈ P) {f g : Address → Int} (h : ∀ x ∈ P, x ≠ p → f x = g x) :
    P.sum f = P.sum g + (f p - g p) := by
  rw [← Finset.add_sum_erase _ f hmem, ← Finset.add_sum_erase _ g hmem,
    Finset.sum_congr rfl (g := g) fun x hx => h x (Finset.mem_of_mem_erase hx) (Finset.ne_of_mem_erase hx)]
  ring

private theorem sum_paid (f : Address → Int) (u v : Address) (n m : Int) :
    (S.sum fun x => f x - (if x = u then n else 0) + (if x = v then m else 0)) =
      (S.sum fun x => f x) - (if u ∈ S then n else 0) + (if v ∈ S then m else 0) := by
  rw [Finset.sum_add_distrib, Finset.sum_sub_distrib, Finset.sum_ite_eq', Finset.sum_ite_eq']

/-- the submit of a member -/
private theorem submit_member (hr : Reachable w) (hS : Outside w S P) (hq : Quoted w P t idx b d) {p : Address} {auth : List Address}
    {sender spender dst : Address} {reqs : List Request} (h : step w (.pool p auth (.submit sender spender dst reqs)) = .ok w')
    (hn : ¬ Reward w t) (hs : sender ∈ S) (hsp : spender ∈ S) (hp : p ∈ P ∨ (w.pools p).resConfig t = none)
    (hreq : ∀ q ∈ reqs, q.type ≠ 8 ∧ (q.type = 6 → q.address ∈ S)) : wealth w' S P t idx b d ≤ wealth w S P t idx b d := by
  obtain ⟨hpp, -⟩ := submit_view hr h
  obtain ⟨B, run, hpos, -, -, -, hbal⟩ := submit_full hr h
  have hlp : ∀ bi, w.backstop.inst = some bi → bi.backstopToken ≠ t := fun bi hbi e => hn (.inr ⟨bi, hbi, e⟩)
  have hge : ∀ a dA, Current (w.pools p) w.time a dA → 0 ≤ dA.bRate := fun a dA hc => by have := (hr.rates_ge hpp hc).1; omega
  have hpS : p ∉ S := fun e => by have := (hS p e).1; rw [hpp] at this; cases this
  have hbS : w.backstopAddr ∉ S := fun e => (hS _ e).2.1 rfl
  have hp0 := run_pays hge t run
  have e0 : (((booksOf w p).acct sender).pays t) = 0 ∧ (((booksOf w p).acct sender).gets t) = 0 := ⟨rfl, rfl⟩
  rw [e0.1, e0.2] at hp0
  -- the tokens
  have htok : (S.sum fun x => w'.balance t x) ≤ (S.sum fun x => B.wallet t x) - (B.acct sender).pays t + (B.acct sender).gets t := by
    have e : (S.sum fun x => w'.balance t x) = S.sum fun x => B.wallet t x - (if x = spender then (B.acct sender).pays t else 0) +
        (if x = dst then (B.acct sender).gets t else 0) := Finset.sum_congr rfl fun x hx => by
      have hxp : x ≠ p := fun e => hpS (e ▸ hx)
      rw [hbal, if_neg hxp, add_zero]
    rw [e, sum_paid, if_pos hsp]
    have := hp0.2
    split <;> omega
  have hframe : ∀ x ∈ P, x ≠ p → w'.pools x = w.pools x := fun x _ hx =>
    (step_frame hr.base h).pools x (fun _ _ e => by cases e; exact hx rfl) (fun _ _ _ _ _ _ e => by cases e) (fun _ _ e => by cases e)
      (fun _ e => by cases e)
  have hnet : ∀ i bb dd, (S.sum fun x => net (w'.pools p) i bb dd x) =
      S.sum fun x => (bb * ((B.acct x).supplied i + (B.acct x).collateral i) - dd * (B.acct x).debt i) := fun i bb dd =>
    Finset.sum_congr rfl fun x _ => by
      obtain ⟨h1, h2, h3⟩ := hpos x i
      unfold net
      rw [h1, h2, h3]
  unfold wealth
  by_cases hmem : p ∈ P
  · obtain ⟨c, data, h1, h2, h3, h4, h5⟩ := hq.reserve p hmem
    have hrun := run_member (t := t) (i := idx p) (b := b p) (dr := d p) hs hbS hlp hge
      (by have := (hr.rates_ge hpp h3).2; omega)
      (fun c' dA hc' hdA => by
        rw [h1] at hc'; cases hc'
        obtain rfl := Current.unique hdA h3
        exact ⟨h2, h4, h5⟩)
      (fun a c' ha hc' => .inl fun e => ha ((hr.base.cfg p).index_inj hc' h1 (e.trans h2.symm))) run hreq
    rw [sum_pools hmem (g := fun p => S.sum fun x => net (w.pools p) (idx p) (b p) (d p) x) fun x hx hne => by rw [hframe x hx hne]]
    rw [hnet]
    unfold bookGroup at hrun
    rw [e0.1, e0.2] at hrun
    have hw0 : (S.sum fun x => (booksOf w p).wallet t x) = S.sum fun x => w.balance t x := rfl
    have hw1 : (S.sum fun x => b p * (((booksOf w p).acct x).supplied (idx p) + ((booksOf w p).acct x).collateral (idx p)) - d p * ((booksOf w p).acct x).debt (idx p)) =
      S.sum fun x => net (w.pools p) (idx p) (b p) (d p) x := rfl
    rw [hw0, hw1] at hrun
    unfold ONE9 at *
    linarith
  · have hnone := hp.resolve_left hmem
    have hrun := run_member (t := t) (i := 0) (b := 0) (dr := 0) hs hbS hlp hge (le_refl _)
      (fun c' dA hc' hdA => by rw [hnone] at hc'; cases hc') (fun a c' ha hc' => .inr ⟨rfl, rfl⟩) run hreq
    have hsame : (P.sum fun p => S.sum fun x => net (w'.pools p) (idx p) (b p) (d p) x) =
        P.sum fun p => S.sum fun x => net (w.pools p) (idx p) (b p) (d p) x :=
      Finset.sum_congr rfl fun x hx => by rw [hframe x hx (fun e => hmem (e ▸ hx))]
    rw [hsame]
    unfold bookGroup at hrun
    rw [e0.1, e0.2] at hrun
    have hw0 : (S.sum fun x => (booksOf w p).wallet t x) = S.sum fun x => w.balance t x := rfl
    rw [hw0] at hrun
    simp only [Int.zero_mul, sub_self, Finset.sum_const_zero] at hrun
    unfold ONE9 at *
    linarith

/-- the submit of a stranger -/
private theorem submit_stranger (hr : Reachable w) (hS : Outside w S P) {p : Address} {auth : List Address}
    {sender spender dst : Address} {reqs : List Request} (h : step w (.pool p auth (.submit sender spender dst reqs)) = .ok w')
    (hn : ¬ Reward w t) (hs : sender ∉ S) (hd : dst ∉ S) (hreq : ∀ q ∈ reqs, q.type = 6 → q.address ∉ S) :
    wealth w' S P t idx b d ≤ wealth w S P t idx b d := by
  obtain ⟨hpp, -⟩ := submit_view hr h
  obtain ⟨B, run, hpos, -, -, -, hbal⟩ := submit_full hr h
  have hlp : ∀ bi, w.backstop.inst = some bi → bi.backstopToken ≠ t := fun bi hbi e => hn (.inr ⟨bi, hbi, e⟩)
  have hge : ∀ a dA, Current (w.pools p) w.time a dA → 0 ≤ dA.bRate := fun a dA hc => by have := (hr.rates_ge hpp hc).1; omega
  have hpS : p ∉ S := fun e => by have := (hS p e).1; rw [hpp] at this; cases this
  have hbS : w.backstopAddr ∉ S := fun e => (hS _ e).2.1 rfl
  have hp0 := run_pays hge t run
  have e0 : (((booksOf w p).acct sender).pays t) = 0 ∧ (((booksOf w p).acct sender).gets t) = 0 := ⟨rfl, rfl⟩
  rw [e0.1, e0.2] at hp0
  have hrun := run_stranger hs hpS hbS hlp run hreq
  have htok : (S.sum fun x => w'.balance t x) ≤ S.sum fun x => w.balance t x := Finset.sum_le_sum fun x hx => by
    have hxp : x ≠ p := fun e => hpS (e ▸ hx)
    have hxd : x ≠ dst := fun e => hd (e ▸ hx)
    rw [hbal, if_neg hxp, if_neg hxd, add_zero, add_zero, (hrun x hx).1]
    show w.balance t x - _ ≤ _
    have := hp0.1
    split <;> omega
  have hnet : ∀ q ∈ P, (S.sum fun x => net (w'.pools q) (idx q) (b q) (d q) x) = S.sum fun x => net (w.pools q) (idx q) (b q) (d q) x := by
    intro q hq
    by_cases e : q = p
    · subst e
      refine Finset.sum_congr rfl fun x hx => ?_
      obtain ⟨h1, h2, h3⟩ := hpos x (idx q)
      unfold net
      rw [h1, h2, h3, (hrun x hx).2]
      rfl
    · have : w'.pools q = w.pools q := (step_frame hr.base h).pools q (fun _ _ e' => by cases e'; exact e rfl)
        (fun _ _ _ _ _ _ e => by cases e) (fun _ _ e => by cases e) (fun _ e => by cases e)
      rw [this]
  unfold wealth
  rw [Finset.sum_congr rfl hnet]
  unfold ONE9
  linarith

/-- one operation -/
private theorem wealth_step (hr : Reachable w) (hS : Outside w S P) (hq : Quoted w P t idx b d) {op : Op} (h : step w op = .ok w')
    (hf : Fair S P t w op) : wealth w' S P t idx b d ≤ wealth w S P t idx b d := by
  obtain ⟨hn, hwl, hf⟩ := hf
  by_cases hsub : ∃ p auth sender spender dst reqs, op = .pool p auth (.submit sender spender dst reqs)
  · obtain ⟨p, auth, sender, spender, dst, reqs, rfl⟩ := hsub
    rcases hf with ⟨h1, h2, h3, h4⟩ | ⟨h1, h2, h3⟩
    · exact submit_member hr hS hq h hn h1 h2 h3 h4
    · exact submit_stranger hr hS h hn h1 h2 h3
  have hpos : ∀ q ∈ P, (S.sum fun x => net (w'.pools q) (idx q) (b q) (d q) x) = S.sum fun x => net (w.pools q) (idx q) (b q) (d q) x := by
    intro q hqP
    refine Finset.sum_congr rfl fun x hx => ?_
    have : getPositions (w'.pools q) x = getPositions (w.pools q) x := by
      refine pos_step hr (hq.pool q hqP) h ⟨hwl q hqP, fun auth s sp ds l e => (hsub ⟨_, _, _, _, _, _, e⟩).elim, fun auth e => ?_⟩
        (fun i hi => (hS x hx).2.2 q hqP i hi)
      subst e
      exact hf hx
    unfold net
    rw [this]
  have htok : (S.sum fun x => w'.balance t x) ≤ S.sum fun x => w.balance t x := by
    by_cases h1 : ∃ u a x n, op = .tokenTransfer u a x n
    · obtain ⟨u, a, x, n, rfl⟩ := h1
      simp only [step, bind_ok, require_ok] at h
      obtain ⟨_, _, h⟩ := h
      have r := transfer_res h
      have hnn := r.nonneg
      have e : (S.sum fun y => w'.balance t y) = S.sum fun y => w.balance t y - (if y = a then (if t = u then n else 0) else 0)
          + (if y = x then (if t = u then n else 0) else 0) := Finset.sum_congr rfl fun y _ => by
        rw [r.bal]
        unfold Blend.moved
        by_cases h1 : t = u <;> by_cases h2 : y = a <;> by_cases h3 : y = x <;> simp [h1, h2, h3] <;> omega
      rw [e, sum_paid]
      change x ∈ S → a ∈ S at hf
      by_cases hx : x ∈ S
      · rw [if_pos hx, if_pos (hf hx)]; omega
      · rw [if_neg hx]
        have h0 : 0 ≤ (if t = u then n else 0) := by split <;> omega
        split <;> omega
    by_cases h2 : ∃ u x n, op = .tokenMint u x n
    · obtain ⟨u, x, n, rfl⟩ := h2
      simp only [step, bind_ok, require_ok] at h
      obtain ⟨_, _, h⟩ := h
      have r := mint_res h
      change x ∉ S at hf
      refine Finset.sum_le_sum fun y hy => ?_
      have hyx : y ≠ x := fun e => hf (e ▸ hy)
      rw [r.bal]
      simp [hyx]
    exact Finset.sum_le_sum fun y hy => step_quiet h hn (fun p auth s sp ds l e => hsub ⟨_, _, _, _, _, _, e⟩)
      (fun _ _ _ _ e => h1 ⟨_, _, _, _, e⟩) (fun _ _ _ e => h2 ⟨_, _, _, e⟩) y (fun p auth s ids i e hi => by subst e; exact hf hy i hi)
  unfold wealth
  rw [Finset.sum_congr rfl hpos]
  unfold ONE9
  linarith

/-- C88: within a ledger no group of accounts gets richer in any token (other than BLND and the backstop token), in whatever way its
members supply, withdraw, borrow, repay and liquidate each other, from and to each other's wallets, in any number of pools and any
number of calls, and whatever everybody else does in between, as long as nobody gives the group anything. The prices of the shares
at the end are those at the beginning. -/
theorem C88_no_free_lunch (hr : Reachable w) (hS : Outside w S P) (hq : Quoted w P t idx b d) {l : List Op}
    (hh : Played (Fair S P t) w l w') : Quoted w' P t idx b d ∧ wealth w' S P t idx b d ≤ wealth w S P t idx b d := by
  induction hh with
  | nil w => exact ⟨hq, le_refl _⟩
  | @cons w w1 w2 op l hf hs _ ih =>
    have hres := step_res hr.base hs
    have hq1 : Quoted w1 P t idx b d := by
      refine ⟨fun p hp => by rw [hres.poolAddr]; exact hq.pool p hp, fun p hp => ?_⟩
      obtain ⟨c, data, h1, h2, h3, h4, h5⟩ := hq.reserve p hp
      obtain ⟨d', g1, g2, g3⟩ := rates_fixed hr (hq.pool p hp) hs (hf.2.1 p hp) h3
      obtain ⟨c', f1, f2, -⟩ := (C23_identity_stable hr (.tail (.refl _) ⟨op, hs⟩) (hq.pool p hp)).1 t c h1
      exact ⟨c', d', f1, f2.trans h2, g1, g2.trans h4, g3.trans h5⟩
    have hS1 : Outside w1 S P := by
      intro x hx
      obtain ⟨h1, h2, h3⟩ := hS x hx
      refine ⟨by rw [hres.poolAddr]; exact h1, by rw [hres.backstopAddr]; exact h2, fun p hp i hi => ?_⟩
      obtain ⟨c, data, _, _, ⟨_, _, i0, _, _, hi0, _⟩, _⟩ := hq.reserve p hp
      obtain ⟨i', e1, _, e2, _⟩ := rate_step hr hs hi0
      rw [hi] at e1; cases e1
      rw [e2]
      exact h3 p hp i0 hi0
    obtain ⟨a1, a2⟩ := ih (hr.step hs) hS1 hq1
    exact ⟨a1, a2.trans (wealth_step hr hS hq hs hf)⟩

/-- C88: in particular, if in the end all members have at least as many shares and at most as many debts in each of the pools as in
the beginning, they have no more tokens than in the beginning. -/
theorem C88_round_trip (hr : Reachable w) (hS : Outside w S P) (hq : Quoted w P t idx b d) {l : List Op}
    (hh : Played (Fair S P t) w l w')
    (hpos : ∀ p ∈ P, ∀ x ∈ S,
      (getPositions (w.pools p) x).supply.bal (idx p) + (getPositions (w.pools p) x).collateral.bal (idx p) ≤
        (getPositions (w'.pools p) x).supply.bal (idx p) + (getPositions (w'.pools p) x).collateral.bal (idx p) ∧
      (getPositions (w'.pools p) x).liabilities.bal (idx p) ≤ (getPositions (w.pools p) x).liabilities.bal (idx p)) :
    (S.sum fun x => w'.balance t x) ≤ S.sum fun x => w.balance t x := by
  have h := (C88_no_free_lunch hr hS hq hh).2
  unfold wealth at h
  have hn : (P.sum fun p => S.sum fun x => net (w.pools p) (idx p) (b p) (d p) x) ≤
      P.sum fun p => S.sum fun x => net (w'.pools p) (idx p) (b p) (d p) x := by
    refine Finset.sum_le_sum fun p hp => Finset.sum_le_sum fun x hx => ?_
    obtain ⟨c, data, _, _, h3, h4, h5⟩ := hq.reserve p hp
    obtain ⟨r1, r2⟩ := hr.rates_ge (hq.pool p hp) h3
    obtain ⟨g1, g2⟩ := hpos p hp x hx
    unfold net
    have e1 := mul_le_mul_of_nonneg_left g1 (show 0 ≤ b p by omega)
    have e2 := mul_le_mul_of_nonneg_left g2 (show 0 ≤ d p by omega)
    linarith
  unfold ONE9 at h
  linarith

/-- the token is neither BLND nor the backstop token -/
def plainTok (w : World) (t : Address) : Bool :=
  Demo.optAnd w.emitter.inst (fun e => decide (e.blnd ≠ t)) && Demo.optAnd w.backstop.inst fun i => decide (i.blnd ≠ t ∧ i.backstopToken ≠ t)

theorem plainTok_iff (h : plainTok w t = true) : ¬ Reward w t := by
  unfold plainTok at h
  rw [Bool.and_eq_true] at h
  obtain ⟨e, he, h1⟩ := Demo.optAnd_iff.1 h.1
  obtain ⟨i, hi, h2⟩ := Demo.optAnd_iff.1 h.2
  have h1 := of_decide_eq_true h1
  have h2 := of_decide_eq_true h2
  rintro ((⟨e', he', hb⟩ | ⟨i', hi', hb⟩) | ⟨i', hi', hb⟩)
  · rw [he] at he'; cases he'; exact h1 hb
  · rw [hi] at hi'; cases hi'; exact h2.1 hb
  · rw [hi] at hi'; cases hi'; exact h2.2 hb

/-- plays the operations, checking that the token is neither BLND nor the backstop token on the way -/
def playTok (t : Address) : World → List Op → R World
  | w, [] => pure w
  | w, op :: l => if plainTok w t then step w op >>= fun w1 => playTok t w1 l else .error .overflow

theorem playTok_ok {l : List Op} (hf : ∀ op ∈ l, ∀ w, ¬ Reward w t → Fair S P t w op) (h : playTok t w l = .ok w') :
    Played (Fair S P t) w l w' := by
  induction l generalizing w with
  | nil => simp only [playTok] at h; cases h; exact .nil _
  | cons op l ih =>
    unfold playTok at h
    split at h
    · rename_i hp
      obtain ⟨w1, h1, h2⟩ := bind_ok.1 h
      exact .cons (hf op List.mem_cons_self w (plainTok_iff hp)) h1 (ih (fun o ho => hf o (List.mem_cons_of_mem _ ho)) h2)
    · exact absurd h (by simp)

open Demo in
/-- bob and dave together, in one ledger: dave fills half of bob's liquidation with his own collateral, alice withdraws in between,
bob pays back a part of his debt with money of dave, and dave withdraws and sends bob some tokens -/
def family : List Op := [
  .pool poolA [dave] (.submit dave dave dave [⟨2, usdcA, 100000000000⟩, ⟨6, bob, 50⟩]),
  .pool poolA [alice] (.submit alice alice alice [⟨1, usdcA, 10000000000⟩]),
  .pool poolA [bob, dave] (.submit bob dave bob [⟨5, usdcA, 10000000000⟩]),
  .pool poolA [dave] (.submit dave dave bob [⟨3, usdcA, 20000000003⟩]),
  .tokenTransfer usdcA bob dave 5]

open Demo in
/-- non-vacuity of C88: interest was earned and a liquidation of bob is running, then the operations above -/
example : ∃ w w' b d, Reachable w ∧ Outside w {bob, dave} {poolA} ∧ Quoted w {poolA} usdcA (fun _ => 0) b d ∧
    Played (Fair {bob, dave} {poolA} usdcA) w family w' ∧ 1000000000 < b poolA ∧ b poolA < d poolA ∧
    w'.balance usdcA bob ≠ w.balance usdcA bob ∧ (getPositions (w'.pools poolA) bob).liabilities.bal 0 ≠ (getPositions (w.pools poolA) bob).liabilities.bal 0 ∧
    wealth w' {bob, dave} {poolA} usdcA (fun _ => 0) b d < wealth w {bob, dave} {poolA} usdcA (fun _ => 0) b d := by
  have h : okAnd (Demo.run genesis (setup ++ trade ++ emissions ++ liquidation.take 3)) (fun w =>
      okAnd (playTok usdcA w family) fun w' =>
        w.poolAddr poolA && optAnd ((w.pools poolA).resConfig usdcA) (fun c => decide (c.index = 0)) &&
        optAnd (w.pools poolA).inst (fun i => decide (bob ≠ i.backstop ∧ dave ≠ i.backstop)) &&
        okAnd (currentOf w poolA usdcA) fun x => decide (w.poolAddr bob = false ∧ w.poolAddr dave = false ∧ bob ≠ w.backstopAddr ∧
          dave ≠ w.backstopAddr ∧ 1000000000 < x.bRate ∧ x.bRate < x.dRate ∧ w'.balance usdcA bob ≠ w.balance usdcA bob ∧
          (getPositions (w'.pools poolA) bob).liabilities.bal 0 ≠ (getPositions (w.pools poolA) bob).liabilities.bal 0 ∧
          wealth w' {bob, dave} {poolA} usdcA (fun _ => 0) (fun _ => x.bRate) (fun _ => x.dRate) <
            wealth w {bob, dave} {poolA} usdcA (fun _ => 0) (fun _ => x.bRate) (fun _ => x.dRate))) = true := by
    decide +kernel
  obtain ⟨w, _, hr, h⟩ := Demo.reach h
  obtain ⟨w', hw', h⟩ := okAnd_iff.1 h
  simp only [Bool.and_eq_true] at h
  obtain ⟨⟨⟨h1, h2⟩, h3⟩, h4⟩ := h
  obtain ⟨c, hc, h2⟩ := optAnd_iff.1 h2
  obtain ⟨i, hi, h3⟩ := optAnd_iff.1 h3
  obtain ⟨x, hx, h4⟩ := okAnd_iff.1 h4
  have h2 := of_decide_eq_true h2
  obtain ⟨n1, n2⟩ := of_decide_eq_true h3
  obtain ⟨a1, a2, a3, a4, a5, a6, a7, a8, a9⟩ := of_decide_eq_true h4
  refine ⟨w, w', fun _ => x.bRate, fun _ => x.dRate, hr, ?_, ⟨by simpa using h1, ?_⟩, playTok_ok ?_ hw', a5, a6, a7, a8, a9⟩
  · intro y hy
    simp only [Finset.mem_insert, Finset.mem_singleton] at hy
    rcases hy with rfl | rfl
    · refine ⟨a1, a3, fun p hp i' hi' => ?_⟩
      simp only [Finset.mem_singleton] at hp; subst hp; rw [hi] at hi'; cases hi'; exact n1
    · refine ⟨a2, a4, fun p hp i' hi' => ?_⟩
      simp only [Finset.mem_singleton] at hp; subst hp; rw [hi] at hi'; cases hi'; exact n2
  · intro p hp
    simp only [Finset.mem_singleton] at hp; subst hp
    exact ⟨c, x, hc, h2, currentOf_ok hx, rfl, rfl⟩
  · intro op ho w hw
    simp only [family, List.mem_cons, List.not_mem_nil, or_false] at ho
    rcases ho with rfl | rfl | rfl | rfl | rfl <;>
      simp [Fair, hw, WithinLedger, alice, bob, dave]

end Blend.Props
