import Verif.Spec.Access
import Verif.Lemmas.UserFrame
import Verif.Lemmas.Payers
import Verif.Lemmas.BUserFrame
import Verif.Lemmas.AuctionStep
import Verif.Lemmas.BStep
import Verif.Examples.Demo
/-
  C10: a submit acts only on the accounts it names. C29: nobody acts for an account, and nobody takes an account's
  tokens, positions or deposits, without its consent.
-/

namespace Blend
namespace Props
open Spec Pool Demo

/-! ### C10 -/

/-- **C10** A submit changes neither the positions nor the emission bookkeeping of any account other than `from`, the
accounts whose liquidation auctions it fills, and (when it fills a bad debt auction) the backstop. -/
theorem C10_submit {w w' : World} (hr : Reachable w) {p : Address} {auth : List Address} {sender spender dst : Address}
    {reqs : List Request} (h : step w (.pool p auth (.submit sender spender dst reqs)) = .ok w') {x : Address}
    (hx : ¬ SubmitConcerns (w.pools p) sender reqs x) :
    (w'.pools p).positions.get x = (w.pools p).positions.get x ∧
      ∀ id, ((w'.pools p).userEmis id).get x = ((w.pools p).userEmis id).get x := by
  have hp : w.poolAddr p = true := by
    simp only [step, bind_ok, require_ok] at h
    exact h.choose_spec.1
  exact step_user hr.base h hp fun e => hx e.2

/-- non-vacuity: dave liquidates bob; alice has a position and is not concerned, while bob's position changes -/
example : ∃ w w', Reachable w ∧
    step w (.pool poolA [dave] (.submit dave dave dave [⟨2, usdcA, 100000000000⟩, ⟨6, bob, 50⟩])) = .ok w' ∧
    ¬ SubmitConcerns (w.pools poolA) dave [⟨2, usdcA, 100000000000⟩, ⟨6, bob, 50⟩] alice ∧
    ((w.pools poolA).positions.get alice).isSome = true ∧
    ((getPositions (w.pools poolA) bob).liabilities.bal 0 ≠ (getPositions (w'.pools poolA) bob).liabilities.bal 0) := by
  obtain ⟨w, w', _, hr, hs, h⟩ := Demo.reach_step
    (ops := setup ++ trade ++ emissions ++ claims ++ liquidation.take 3)
    (op := .pool poolA [dave] (.submit dave dave dave [⟨2, usdcA, 100000000000⟩, ⟨6, bob, 50⟩]))
    (f := fun w w' => decide (((w.pools poolA).positions.get alice).isSome = true ∧
      ((getPositions (w.pools poolA) bob).liabilities.bal 0 ≠ (getPositions (w'.pools poolA) bob).liabilities.bal 0))) (by decide +kernel)
  exact ⟨w, w', hr, hs, by simp [SubmitConcerns, alice, dave, bob], of_decide_eq_true h⟩

/-- **C10** Whatever happens in the whole system, the positions of an account in a pool change only by a submit that
concerns the account or by moving bad debt of the account (or to the backstop). -/
theorem C10_positions {w w' : World} (hr : Reachable w) {op : Op} (h : step w op = .ok w') {p : Address}
    (hp : w.poolAddr p = true) {x : Address}
    (hx : (w'.pools p).positions.get x ≠ (w.pools p).positions.get x) :
    (∃ auth sender spender dst reqs, op = .pool p auth (.submit sender spender dst reqs) ∧
      SubmitConcerns (w.pools p) sender reqs x) ∨
    (∃ auth u, op = .pool p auth (.badDebt u) ∧ (x = u ∨ ∃ i, (w.pools p).inst = some i ∧ x = i.backstop)) := by
  by_cases ht : OpTouches w p op x
  · cases op with
    | pool q auth c =>
      obtain ⟨rfl, hc⟩ := ht
      cases c with
      | submit sender spender dst reqs => exact .inl ⟨_, _, _, _, _, rfl, hc⟩
      | badDebt u => exact .inr ⟨_, _, rfl, hc⟩
      | _ =>
        refine absurd ?_ hx
        rw [positions_step hr.base h q fun a c e => by cases e; rfl]
    | _ => exact absurd ht id
  · exact absurd (step_user hr.base h hp ht).1 hx

/-- **C10** An account that does not sign a submit can be changed by it only as the backstop or if a liquidation
auction of the account was on offer in the pool. -/
theorem C10_liquidated {w w' : World} (hr : Reachable w) {p : Address} {auth : List Address} {sender spender dst : Address}
    {reqs : List Request} (h : step w (.pool p auth (.submit sender spender dst reqs)) = .ok w') {x : Address}
    (hx : (w'.pools p).positions.get x ≠ (w.pools p).positions.get x) (hs : x ∉ auth) :
    (∃ a, (w.pools p).auctions 0 x = some a ∧ ∃ q ∈ reqs, q.type = 6 ∧ q.address = x) ∨
    (∃ i, (w.pools p).inst = some i ∧ x = i.backstop ∧ ∃ a q, q ∈ reqs ∧ q.type = 7 ∧
      (w.pools p).auctions 1 q.address = some a) := by
  have hc : SubmitConcerns (w.pools p) sender reqs x := by
    by_contra hn
    exact hx (C10_submit hr h hn).1
  simp only [step, bind_ok, require_ok, call, requireAuth_ok, ite_ok, pure_ok, Prod.exists] at h
  obtain ⟨_, _, _, _, _, hsp, h⟩ := h
  obtain ⟨pos, w1, hsub, rfl, hsend⟩ : ∃ pos w1, executeSubmit w p auth sender spender dst reqs = .ok (pos, w1) ∧ w1 = w' ∧
      sender ∈ auth := by
    rcases h with ⟨_, _, hm, pos, w1, h1, h2⟩ | ⟨he, pos, w1, h1, h2⟩
    · exact ⟨pos, w1, h1, h2, hm⟩
    · push Not at he; exact ⟨pos, w1, h1, h2, he ▸ hsp⟩
  obtain ⟨_, cache, s, cache', w2, ps1, hl, hb, _, _, _, _, _, _⟩ := executeSubmit_ok hsub
  rcases hc with rfl | ⟨q, hq, ht, ha⟩ | ⟨⟨q, hq, ht⟩, i, hi, rfl⟩
  · exact absurd hsend hs
  · left
    cases hau : (w.pools p).auctions 0 x with
    | none =>
      have := (requests_none hb hau).1 q hq
      simp [reqAuction, ht, ha] at this
    | some a => exact ⟨a, rfl, q, hq, ht, ha⟩
  · right
    cases hau : (w.pools p).auctions 1 q.address with
    | none =>
      have := (requests_none hb hau).1 q hq
      simp [reqAuction, ht] at this
    | some a => exact ⟨i, hi, rfl, a, q, hq, ht, hau⟩

/-! ### C29 -/

/-- **C29** Every entry point that acts for an account succeeds only if the account signed: a submit needs `from` and
`spender`, claims `from`, backstop deposits, queueing, dequeueing, withdrawals and donations the owner, draws and the
gulp of pool emissions the pool, deployments the admin. -/
theorem C29_consent {w w' : World} {op : Op} (h : step w op = .ok w') {x : Address} (hx : NeedsAuth op x) :
    x ∈ signers op := by
  cases op with
  | pool p auth c =>
    simp only [step, bind_ok] at h
    obtain ⟨_, _, _, _, h⟩ := h
    cases c with
    | submit sender spender dst reqs =>
      simp only [call, bind_ok, requireAuth_ok, ite_ok, pure_ok] at h
      obtain ⟨_, hsp, h⟩ := h
      rcases hx with rfl | rfl
      · rcases h with ⟨_, _, hm, _⟩ | ⟨he, _⟩
        · exact hm
        · push Not at he; rw [he]; exact hsp
      · exact hsp
    | claim sender ids dst =>
      simp only [call, bind_ok, requireAuth_ok] at h
      obtain ⟨_, hs, _⟩ := h
      cases hx; exact hs
    | _ => exact absurd hx id
  | backstop auth c =>
    simp only [step, bind_ok] at h
    obtain ⟨_, _, h⟩ := h
    cases c with
    | deposit s p a =>
      simp only [backstopCall, Backstop.deposit, bind_ok, requireAuth_ok] at h
      obtain ⟨_, ⟨_, hs, _⟩, _⟩ := h
      cases hx; exact hs
    | queueWithdrawal s p a =>
      simp only [backstopCall, Backstop.queueWithdrawal, bind_ok, requireAuth_ok] at h
      obtain ⟨_, hs, _⟩ := h
      cases hx; exact hs
    | dequeueWithdrawal s p a =>
      simp only [backstopCall, Backstop.dequeueWithdrawal, bind_ok, requireAuth_ok] at h
      obtain ⟨_, hs, _⟩ := h
      cases hx; exact hs
    | withdraw s p a =>
      simp only [backstopCall, Backstop.withdraw, bind_ok, requireAuth_ok] at h
      obtain ⟨_, ⟨_, hs, _⟩, _⟩ := h
      cases hx; exact hs
    | claim s ps d =>
      simp only [backstopCall, Backstop.claim, bind_ok, requireAuth_ok] at h
      obtain ⟨_, ⟨_, hs, _⟩, _⟩ := h
      cases hx; exact hs
    | donate s p a =>
      simp only [backstopCall, Backstop.donate, bind_ok, requireAuth_ok] at h
      obtain ⟨_, hs, _, hp, _⟩ := h
      rcases hx with rfl | rfl
      · exact hs
      · exact hp
    | draw p a d =>
      simp only [backstopCall, Backstop.draw, bind_ok, requireAuth_ok] at h
      obtain ⟨_, hs, _⟩ := h
      cases hx; exact hs
    | gulpPoolEmissions p =>
      simp only [backstopCall, Backstop.gulpPoolEmissionsAuth, bind_ok, requireAuth_ok] at h
      obtain ⟨_, ⟨_, hs, _⟩, _⟩ := h
      cases hx; exact hs
    | _ => exact absurd hx id
  | factory auth c =>
    simp only [step, bind_ok] at h
    obtain ⟨_, _, h⟩ := h
    cases c with
    | deploy a s o r n =>
      simp only [factoryCall, Factory.deploy, bind_ok, requireAuth_ok] at h
      obtain ⟨_, ⟨_, hs, _⟩, _⟩ := h
      cases hx; exact hs
    | _ => exact absurd hx id
  | _ => exact absurd hx id

/-- **C29** No operation takes tokens from an account that did not sign it. The one exception is an allowance: a pool
may spend an allowance the account granted to that very pool. -/
theorem C29_tokens {w w' : World} {op : Op} (h : step w op = .ok w') {t x : Address} (hx : ¬ w.isProtocol x)
    (hs : x ∉ signers op) (hal : ∀ p auth c, op = .pool p auth c → w.allowance t x p ≤ 0) :
    w.balance t x ≤ w'.balance t x :=
  step_kept h hx hs hal

/-- **C29** No operation lowers the backstop shares of an account, or changes its withdrawal queue or its emission
bookkeeping, unless the account signed it. -/
theorem C29_backstop {w w' : World} (hr : Reachable w) {op : Op} (h : step w op = .ok w') {x : Address}
    (hs : x ∉ signers op) (q : Address) :
    (w.backstop.getUserBal q x).shares ≤ (w'.backstop.getUserBal q x).shares ∧
    (w'.backstop.getUserBal q x).q4w = (w.backstop.getUserBal q x).q4w ∧
    (w'.backstop.userEmis q).get x = (w.backstop.userEmis q).get x := by
  have he := Backstop.userEmis_step hr h (x := x)
    (by rintro ⟨_, auth, c, rfl, hm⟩; exact hs hm) q
  have key : ∀ {s : Address}, s ∈ signers op → x ≠ s := fun hm e => hs (e ▸ hm)
  have same : w'.backstop.getUserBal q x = w.backstop.getUserBal q x →
      (w.backstop.getUserBal q x).shares ≤ (w'.backstop.getUserBal q x).shares ∧
      (w'.backstop.getUserBal q x).q4w = (w.backstop.getUserBal q x).q4w := fun e => by rw [e]; exact ⟨le_rfl, rfl⟩
  rw [he, ← and_assoc]
  refine ⟨?_, rfl⟩
  cases hr.balCase h q with
  | same _ hu => exact same (hu x)
  | pool _ _ _ _ _ hu => exact same (hu x)
  | claim _ _ hc _ => exact ⟨(hc.users q x).2.1, (hc.users q x).1⟩
  | deposit e _ _ _ _ hu => exact same (hu x (key (C29_consent h (by rw [e]; rfl))))
  | queue e _ _ _ hu => exact same (hu x (key (C29_consent h (by rw [e]; rfl))))
  | dequeue e _ _ _ _ hu => exact same (hu x (key (C29_consent h (by rw [e]; rfl))))
  | withdraw e _ _ _ _ hu => exact same (hu x (key (C29_consent h (by rw [e]; rfl))))

/-- **C29** No operation touches the positions of an account in a pool, or its emission bookkeeping there, without its
signature, except a submit that fills its liquidation auction, the transfer of its bad debt, the creation of a
liquidation auction (which only settles emissions), and what concerns the pool's backstop. -/
theorem C29_positions {w w' : World} (hr : Reachable w) {op : Op} (h : step w op = .ok w') {p : Address}
    (hp : w.poolAddr p = true) {x : Address} (hs : x ∉ signers op)
    (hbk : ∀ i, (w.pools p).inst = some i → x ≠ i.backstop)
    (h1 : ∀ auth sender spender dst reqs, op = .pool p auth (.submit sender spender dst reqs) →
      ∀ q ∈ reqs, ¬ (q.type = 6 ∧ q.address = x))
    (h2 : ∀ auth, op ≠ .pool p auth (.badDebt x)) (h3 : ∀ auth n, op ≠ .pool p auth (.newLiquidation x n)) :
    (w'.pools p).positions.get x = (w.pools p).positions.get x ∧
      ∀ id, ((w'.pools p).userEmis id).get x = ((w.pools p).userEmis id).get x := by
  refine step_user hr.base h hp ?_
  intro ht
  cases op with
  | pool q auth c =>
    obtain ⟨rfl, hc⟩ := ht
    cases c with
    | submit sender spender dst reqs =>
      rcases hc with rfl | ⟨r, hr', h6⟩ | ⟨_, i, hi, rfl⟩
      · exact hs (C29_consent h (.inl rfl))
      · exact h1 _ _ _ _ _ rfl r hr' h6
      · exact hbk i hi rfl
    | badDebt u =>
      rcases hc with rfl | ⟨i, hi, rfl⟩
      · exact h2 _ rfl
      · exact hbk i hi rfl
    | claim s ids d => cases hc; exact hs (C29_consent h rfl)
    | newLiquidation u n => cases hc; exact h3 _ _ rfl
    | _ => exact hc
  | _ => exact ht

/-- non-vacuity: bob's submit takes his XLM; alice did not sign and keeps hers and her position -/
example : ∃ w w', Reachable w ∧
    step w (.pool poolA [bob] (.submit bob bob bob [⟨2, xlmA, 1000000000000⟩, ⟨4, usdcA, 60000000000⟩])) = .ok w' ∧
    w'.balance xlmA bob < w.balance xlmA bob ∧ ¬ w.isProtocol alice ∧
    alice ∉ signers (.pool poolA [bob] (.submit bob bob bob [⟨2, xlmA, 1000000000000⟩, ⟨4, usdcA, 60000000000⟩])) ∧
    0 < w.balance usdcA alice ∧ w.allowance usdcA alice poolA = 0 ∧ ((w.pools poolA).positions.get alice).isSome = true := by
  obtain ⟨w, w', _, hr, hs, h⟩ := Demo.reach_step
    (ops := setup ++ trade.take 2)
    (op := .pool poolA [bob] (.submit bob bob bob [⟨2, xlmA, 1000000000000⟩, ⟨4, usdcA, 60000000000⟩]))
    (f := fun w w' => decide (w'.balance xlmA bob < w.balance xlmA bob ∧ ¬ w.isProtocol alice ∧
    0 < w.balance usdcA alice ∧ w.allowance usdcA alice poolA = 0 ∧ ((w.pools poolA).positions.get alice).isSome = true)) (by decide +kernel)
  obtain ⟨a, b, c, d, e⟩ := of_decide_eq_true h
  exact ⟨w, w', hr, hs, a, b, by simp [signers, alice, bob], c, d, e⟩

/-- a submit without the signature of `from` fails -/
example : ∃ w, Reachable w ∧ step w (.pool poolA [dave] (.submit bob dave dave [⟨1, xlmA, 1⟩])) = .error .unauthorized := by
  obtain ⟨w, _, hr, h⟩ := Demo.reach (ops := setup ++ trade)
    (f := fun w => errIs (step w (.pool poolA [dave] (.submit bob dave dave [⟨1, xlmA, 1⟩]))) .unauthorized) (by decide +kernel)
  exact ⟨w, hr, errIs_iff.1 h⟩

end Props
end Blend
