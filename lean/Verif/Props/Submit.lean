import Verif.Lemmas.PlainValue
import Verif.Lemmas.UtilCap
import Verif.Lemmas.NoSubmit
import Verif.Examples.Demo
/-
  C03, C04: what supplying, withdrawing, borrowing and repaying do, and that rounding never favours the account.
  C11: the status gates requests. C13: the maximum number of positions. C14: the utilization cap.
-/

namespace Blend
namespace Props
open Spec Pool Demo

/-- a year of interest at 61 percent utilization, then bob trades: the rates are not round -/
def bobTrades : List Request :=
  [⟨0, usdcA, 12345678⟩, ⟨1, usdcA, 2345678⟩, ⟨5, usdcA, 7777777⟩, ⟨4, usdcA, 1234567⟩, ⟨3, xlmA, 55555⟩, ⟨1, usdcA, 99999999999⟩]

/-- after the demo trade half a year passes -/
def later : List Op := setup ++ trade ++ [.ledger 15768000 3000000, prices (1713139200 + 15768000) 10000000 1000000]

/-! ### C03, C04: exact effects -/

/-- **C03, C04** A submit of supplies, withdrawals, borrows and repayments does exactly what the specification `Run` says,
request by request at the rates stored at the end: the share balances of the account, and the tokens moved between
spender, pool and receiver. -/
theorem C03_refinement {w w' : World} (hr : Reachable w) {p : Address} {auth : List Address} {sender spender dst : Address}
    {reqs : List Request} (hq : ∀ q ∈ reqs, Plain q) (h : step w (.pool p auth (.submit sender spender dst reqs)) = .ok w') :
    ∃ A, Run (w'.pools p) reqs (accountOf (w.pools p) sender) A ∧
      (∀ i, (getPositions (w'.pools p) sender).supply.bal i = A.supplied i ∧
        (getPositions (w'.pools p) sender).collateral.bal i = A.collateral i ∧
        (getPositions (w'.pools p) sender).liabilities.bal i = A.debt i) ∧
      ∀ t x, w'.balance t x = w.balance t x + (if x = p then A.pays t - A.gets t else 0)
        - (if x = spender then A.pays t else 0) + (if x = dst then A.gets t else 0) :=
  submit_plain hr hq h

/-- non-vacuity: six plain requests of bob after half a year of interest -/
example : ∃ w w', Reachable w ∧ (∀ q ∈ bobTrades, Plain q) ∧
    step w (.pool poolA [bob] (.submit bob bob bob bobTrades)) = .ok w' ∧
    optAnd ((w'.pools poolA).resData usdcA) (fun d => decide (1000000000 < d.bRate ∧ d.bRate < d.dRate)) = true := by
  obtain ⟨w, w', _, hr, hs, h⟩ := Demo.reach_step (ops := later) (op := .pool poolA [bob] (.submit bob bob bob bobTrades))
    (f := fun w w' => optAnd ((w'.pools poolA).resData usdcA) (fun d => decide (1000000000 < d.bRate ∧ d.bRate < d.dRate))) (by decide +kernel)
  exact ⟨w, w', hr, by simp [bobTrades, Plain], hs, h⟩

/-- **C03** Whatever plain requests a submit contains, per reserve the value of the supply shares gained minus the value of
the debt shares gained, at the stored rates, is at most what the pool received in tokens: rounding never favours the
account. -/
theorem C03_no_profit {w w' : World} (hr : Reachable w) {p : Address} {auth : List Address} {sender spender dst : Address}
    {reqs : List Request} (hq : ∀ q ∈ reqs, Plain q) (h : step w (.pool p auth (.submit sender spender dst reqs)) = .ok w')
    {t : Address} {c : ReserveConfig} {d : ReserveData} (hc : (w'.pools p).resConfig t = some c) (hd : (w'.pools p).resData t = some d) :
    d.bRate * ((getPositions (w'.pools p) sender).supply.bal c.index + (getPositions (w'.pools p) sender).collateral.bal c.index
        - ((getPositions (w.pools p) sender).supply.bal c.index + (getPositions (w.pools p) sender).collateral.bal c.index))
      - d.dRate * ((getPositions (w'.pools p) sender).liabilities.bal c.index - (getPositions (w.pools p) sender).liabilities.bal c.index)
      ≤ ONE9 * (w'.balance t p - w.balance t p) :=
  submit_value hr hq h hc hd

/-- **C03** Two submits of plain requests at the same rates (whatever happens in between): if over both the account gains
no debt shares and loses no supply shares in reserve `t`, then the pool loses no tokens. In particular supplying and
withdrawing the shares received never returns more than was supplied. -/
theorem C03_round_trip {w1 w1' w2 w2' : World} (hr1 : Reachable w1) (hr2 : Reachable w2) {p : Address} {auth1 auth2 : List Address}
    {sender sp1 sp2 dst1 dst2 : Address} {reqs1 reqs2 : List Request} (hq1 : ∀ q ∈ reqs1, Plain q) (hq2 : ∀ q ∈ reqs2, Plain q)
    (h1 : step w1 (.pool p auth1 (.submit sender sp1 dst1 reqs1)) = .ok w1')
    (h2 : step w2 (.pool p auth2 (.submit sender sp2 dst2 reqs2)) = .ok w2')
    {t : Address} {i : Nat} {c1 c2 : ReserveConfig} {d1 d2 : ReserveData} (hc1 : (w1'.pools p).resConfig t = some c1)
    (hc2 : (w2'.pools p).resConfig t = some c2) (hi1 : c1.index = i) (hi2 : c2.index = i)
    (hd1 : (w1'.pools p).resData t = some d1) (hd2 : (w2'.pools p).resData t = some d2)
    (hb : d1.bRate = d2.bRate) (hd : d1.dRate = d2.dRate)
    (hshares : (getPositions (w1.pools p) sender).supply.bal i + (getPositions (w1.pools p) sender).collateral.bal i
        + ((getPositions (w2.pools p) sender).supply.bal i + (getPositions (w2.pools p) sender).collateral.bal i)
      ≤ (getPositions (w1'.pools p) sender).supply.bal i + (getPositions (w1'.pools p) sender).collateral.bal i
        + ((getPositions (w2'.pools p) sender).supply.bal i + (getPositions (w2'.pools p) sender).collateral.bal i))
    (hdebt : (getPositions (w1'.pools p) sender).liabilities.bal i + (getPositions (w2'.pools p) sender).liabilities.bal i
      ≤ (getPositions (w1.pools p) sender).liabilities.bal i + (getPositions (w2.pools p) sender).liabilities.bal i) :
    0 ≤ (w1'.balance t p - w1.balance t p) + (w2'.balance t p - w2.balance t p) := by
  subst hi1
  have v1 := submit_value hr1 hq1 h1 hc1 hd1
  have v2 := submit_value hr2 hq2 h2 hc2 hd2
  rw [hi2, ← hb, ← hd] at v2
  obtain ⟨hp1, _⟩ := submit_view hr1 h1
  have hrate := (hr1.step h1).rates (by rw [(step_res hr1.base h1).poolAddr]; exact hp1) hd1
  generalize (getPositions (w1.pools p) sender).supply.bal c1.index = s1 at *
  generalize (getPositions (w1.pools p) sender).collateral.bal c1.index = k1 at *
  generalize (getPositions (w1.pools p) sender).liabilities.bal c1.index = l1 at *
  generalize (getPositions (w2.pools p) sender).supply.bal c1.index = s2 at *
  generalize (getPositions (w2.pools p) sender).collateral.bal c1.index = k2 at *
  generalize (getPositions (w2.pools p) sender).liabilities.bal c1.index = l2 at *
  generalize (getPositions (w1'.pools p) sender).supply.bal c1.index = s1' at *
  generalize (getPositions (w1'.pools p) sender).collateral.bal c1.index = k1' at *
  generalize (getPositions (w1'.pools p) sender).liabilities.bal c1.index = l1' at *
  generalize (getPositions (w2'.pools p) sender).supply.bal c1.index = s2' at *
  generalize (getPositions (w2'.pools p) sender).collateral.bal c1.index = k2' at *
  generalize (getPositions (w2'.pools p) sender).liabilities.bal c1.index = l2' at *
  have e1 : 0 ≤ d1.bRate * (s1' + k1' + (s2' + k2') - (s1 + k1 + (s2 + k2))) := Int.mul_nonneg hrate.1.le (by omega)
  have e2 : 0 ≤ d1.dRate * (l1 + l2 - (l1' + l2')) := Int.mul_nonneg hrate.2.le (by omega)
  have : 0 ≤ ONE9 * ((w1'.balance t p - w1.balance t p) + (w2'.balance t p - w2.balance t p)) := by nlinarith
  have h9 : (0 : Int) < ONE9 := by decide
  by_contra hneg
  push Not at hneg
  nlinarith

/-- the single request run -/
theorem run_one {ps : PoolState} {q : Request} {A A' : Account} (h : Run ps [q] A A') :
    ∃ c d, ps.resConfig q.address = some c ∧ ps.resData q.address = some d ∧ Effect d.bRate d.dRate c.index A q A' := by
  cases h with
  | cons hc hd he hr => cases hr; exact ⟨_, _, hc, hd, he⟩

/-- **C03** Supplying `n` tokens mints `n / rate` shares rounded down (more than zero) and the pool receives exactly `n`. -/
theorem C03_supply {w w' : World} (hr : Reachable w) {p : Address} {auth : List Address} {sender spender dst t : Address} {n : Int}
    (h : step w (.pool p auth (.submit sender spender dst [⟨0, t, n⟩])) = .ok w') :
    ∃ c d m, (w'.pools p).resConfig t = some c ∧ (w'.pools p).resData t = some d ∧ IsFloor m (n * ONE9) d.bRate ∧ 0 < m ∧
      (getPositions (w'.pools p) sender).supply.bal c.index = (getPositions (w.pools p) sender).supply.bal c.index + m ∧
      w'.balance t p = w.balance t p + n := by
  obtain ⟨_, _, _, v⟩ := submit_view hr h
  obtain ⟨A, hrun, hpos, hbal⟩ := submit_plain hr (by simp [Plain]) h
  obtain ⟨c, d, hc, hd, he⟩ := run_one hrun
  cases he with
  | supply h0 h1 h2 =>
    refine ⟨c, d, _, hc, hd, h1, h2, ?_, ?_⟩
    · rw [(hpos c.index).1]; simp [bump, accountOf]
    · rw [hbal, if_neg (Ne.symm v.spender_ne), if_neg (Ne.symm v.dst_ne)]; simp [bump, accountOf]

/-- **C03** A withdrawal of `n` tokens burns at least as many shares as the tokens paid out are worth; it pays `n`, or,
when the account has fewer shares, burns them all and pays their value rounded down. -/
theorem C03_withdraw {w w' : World} (hr : Reachable w) {p : Address} {auth : List Address} {sender spender dst t : Address} {n : Int}
    (h : step w (.pool p auth (.submit sender spender dst [⟨1, t, n⟩])) = .ok w') :
    ∃ c d burnt paid, (w'.pools p).resConfig t = some c ∧ (w'.pools p).resData t = some d ∧
      (getPositions (w'.pools p) sender).supply.bal c.index = (getPositions (w.pools p) sender).supply.bal c.index - burnt ∧
      w'.balance t p = w.balance t p - paid ∧ paid * ONE9 ≤ burnt * d.bRate ∧
      ((paid = n ∧ IsCeil burnt (n * ONE9) d.bRate) ∨
       (burnt = (getPositions (w.pools p) sender).supply.bal c.index ∧ IsFloor paid (burnt * d.bRate) ONE9 ∧ paid ≤ n)) := by
  obtain ⟨hp, _, _, v⟩ := submit_view hr h
  obtain ⟨A, hrun, hpos, hbal⟩ := submit_plain hr (by simp [Plain]) h
  obtain ⟨c, d, hc, hd, he⟩ := run_one hrun
  have hb := ((hr.step h).rates (by rw [(step_res hr.base h).poolAddr]; exact hp) hd).1
  have hbp := hbal t p
  rw [if_neg (Ne.symm v.spender_ne), if_neg (Ne.symm v.dst_ne)] at hbp
  cases he with
  | withdraw h0 h1 h2 h3 =>
    refine ⟨c, d, _, n, hc, hd, ?_, ?_, h1.2, .inl ⟨rfl, h1⟩⟩
    · rw [(hpos c.index).1]; simp [bump, accountOf]; omega
    · rw [hbp]; simp [bump, accountOf]; omega
  | @withdrawAll _ _ m x h0 h1 h2 h3 h4 =>
    refine ⟨c, d, _, x, hc, hd, ?_, ?_, h4.1, .inr ⟨rfl, h4, ?_⟩⟩
    · rw [(hpos c.index).1]; simp [bump, accountOf]
    · rw [hbp]; simp [bump, accountOf]; omega
    · have e1 := h4.1
      have e2 := h1.1
      have e3 : (accountOf (w.pools p) sender).supplied c.index ≤ m - 1 := by omega
      have e4 : (accountOf (w.pools p) sender).supplied c.index * d.bRate ≤ (m - 1) * d.bRate := Int.mul_le_mul_of_nonneg_right e3 hb.le
      have e5 : x * ONE9 < n * ONE9 := by omega
      have h9 : (0 : Int) < ONE9 := by decide
      by_contra hlt
      nlinarith

/-- **C04** Borrowing `n` tokens mints debt shares worth at least `n` (less than one share more than that) and the pool
pays exactly `n`. -/
theorem C04_borrow {w w' : World} (hr : Reachable w) {p : Address} {auth : List Address} {sender spender dst t : Address} {n : Int}
    (h : step w (.pool p auth (.submit sender spender dst [⟨4, t, n⟩])) = .ok w') :
    ∃ c d m, (w'.pools p).resConfig t = some c ∧ (w'.pools p).resData t = some d ∧ IsCeil m (n * ONE9) d.dRate ∧ 0 < m ∧
      (getPositions (w'.pools p) sender).liabilities.bal c.index = (getPositions (w.pools p) sender).liabilities.bal c.index + m ∧
      n * ONE9 ≤ m * d.dRate ∧ w'.balance t p = w.balance t p - n := by
  obtain ⟨_, _, _, v⟩ := submit_view hr h
  obtain ⟨A, hrun, hpos, hbal⟩ := submit_plain hr (by simp [Plain]) h
  obtain ⟨c, d, hc, hd, he⟩ := run_one hrun
  cases he with
  | borrow h0 h1 h2 =>
    refine ⟨c, d, _, hc, hd, h1, h2, ?_, h1.2, ?_⟩
    · rw [(hpos c.index).2.2]; simp [bump, accountOf]
    · rw [hbal, if_neg (Ne.symm v.spender_ne), if_neg (Ne.symm v.dst_ne)]; simp [bump, accountOf]; omega

/-- **C04** Repaying `n` tokens cancels debt shares worth at most the tokens kept by the pool; either all of `n` is kept
and the shares are rounded down, or the whole debt is cancelled and exactly its value (rounded up) is kept. -/
theorem C04_repay {w w' : World} (hr : Reachable w) {p : Address} {auth : List Address} {sender spender dst t : Address} {n : Int}
    (h : step w (.pool p auth (.submit sender spender dst [⟨5, t, n⟩])) = .ok w') :
    ∃ c d m kept, (w'.pools p).resConfig t = some c ∧ (w'.pools p).resData t = some d ∧
      (getPositions (w'.pools p) sender).liabilities.bal c.index = (getPositions (w.pools p) sender).liabilities.bal c.index - m ∧
      w'.balance t p = w.balance t p + kept ∧ m * d.dRate ≤ kept * ONE9 ∧ kept ≤ n ∧
      ((kept = n ∧ IsFloor m (n * ONE9) d.dRate) ∨
       (m = (getPositions (w.pools p) sender).liabilities.bal c.index ∧ IsCeil kept (m * d.dRate) ONE9 ∧ n * ONE9 ≥ m * d.dRate)) := by
  obtain ⟨hp, _, _, v⟩ := submit_view hr h
  obtain ⟨A, hrun, hpos, hbal⟩ := submit_plain hr (by simp [Plain]) h
  obtain ⟨c, d, hc, hd, he⟩ := run_one hrun
  have hbp := hbal t p
  rw [if_neg (Ne.symm v.spender_ne), if_neg (Ne.symm v.dst_ne)] at hbp
  cases he with
  | repay h0 h1 h2 h3 =>
    refine ⟨c, d, _, n, hc, hd, ?_, ?_, h1.1, le_refl _, .inl ⟨rfl, h1⟩⟩
    · rw [(hpos c.index).2.2]; simp [bump, accountOf]; omega
    · rw [hbp]; simp [bump, accountOf]
  | @repayAll _ _ m x h0 h1 h2 h3 h4 h5 =>
    refine ⟨c, d, _, x, hc, hd, ?_, ?_, h4.2, h5, .inr ⟨rfl, h4, ?_⟩⟩
    · rw [(hpos c.index).2.2]; simp [bump, accountOf]
    · rw [hbp]; simp [bump, accountOf]
    · have := h4.2
      have : x * ONE9 ≤ n * ONE9 := Int.mul_le_mul_of_nonneg_right h5 (by decide)
      simp only [accountOf] at *
      omega

/-- non-vacuity of the single request theorems: each succeeds, at rates that are not round; the repayment is refunded -/
example : ∀ q ∈ ([⟨0, usdcA, 12345678⟩, ⟨4, usdcA, 1234567⟩, ⟨5, usdcA, 70000000000⟩] : List Request), ∃ w w', Reachable w ∧
    step w (.pool poolA [bob] (.submit bob bob bob [q])) = .ok w' := by
  intro q hq
  simp only [List.mem_cons, List.not_mem_nil, or_false] at hq
  rcases hq with rfl | rfl | rfl
  · obtain ⟨w, w', _, hr, hs, _⟩ := Demo.reach_step (ops := later) (op := .pool poolA [bob] (.submit bob bob bob [⟨0, usdcA, 12345678⟩]))
      (f := fun _ _ => true) (by decide +kernel)
    exact ⟨w, w', hr, hs⟩
  · obtain ⟨w, w', _, hr, hs, _⟩ := Demo.reach_step (ops := later) (op := .pool poolA [bob] (.submit bob bob bob [⟨4, usdcA, 1234567⟩]))
      (f := fun _ _ => true) (by decide +kernel)
    exact ⟨w, w', hr, hs⟩
  · obtain ⟨w, w', _, hr, hs, _⟩ := Demo.reach_step (ops := later) (op := .pool poolA [bob] (.submit bob bob bob [⟨5, usdcA, 70000000000⟩]))
      (f := fun _ _ => true) (by decide +kernel)
    exact ⟨w, w', hr, hs⟩

/-- non-vacuity of `C03_withdraw` and `C03_round_trip`: alice withdraws everything she owns right after a supply -/
example : ∃ w1 w1' w2', Reachable w1 ∧ step w1 (.pool poolA [alice] (.submit alice alice alice [⟨0, usdcA, 12345678⟩])) = .ok w1' ∧
    step w1' (.pool poolA [alice] (.submit alice alice alice [⟨1, usdcA, 12345677⟩])) = .ok w2' ∧
    (getPositions (w1.pools poolA) alice).supply.bal 0 ≤ (getPositions (w2'.pools poolA) alice).supply.bal 0 := by
  obtain ⟨w, w', _, hr, hs, h⟩ := Demo.reach_step (ops := later) (op := .pool poolA [alice] (.submit alice alice alice [⟨0, usdcA, 12345678⟩]))
      (f := fun w w' => okAnd (step w' (.pool poolA [alice] (.submit alice alice alice [⟨1, usdcA, 12345677⟩])))
        (fun w'' => decide ((getPositions (w.pools poolA) alice).supply.bal 0 ≤ (getPositions (w''.pools poolA) alice).supply.bal 0))) (by decide +kernel)
  obtain ⟨w'', h1, h2⟩ := okAnd_iff.1 h
  exact ⟨w, w', w'', hr, hs, h1, of_decide_eq_true h2⟩

/-! ### C11 -/

/-- **C11** Every request of a successful submit is permitted by the stored status of the pool. -/
theorem C11_gates {w w' : World} (hr : Reachable w) {p : Address} {auth : List Address} {sender spender dst : Address}
    {reqs : List Request} (h : step w (.pool p auth (.submit sender spender dst reqs)) = .ok w') {i : PoolInst}
    (hi : (w.pools p).inst = some i) : ∀ q ∈ reqs, Permitted i.config.status q := by
  intro q hq
  obtain ⟨hp, cache, s, v⟩ := submit_view hr h
  obtain ⟨_, _, _, i', hi', hc⟩ := load_ok (now := w.time) v.load
  rw [hi] at hi'
  cases hi'
  obtain ⟨l1, l2, s1, s2, _, h1, h2, _⟩ := foldlM_split v.fold hq
  obtain ⟨_, ha, _⟩ := processRequest_ok h2
  rw [(requests_config h1).1] at ha
  unfold requireActionAllowed at ha
  rw [require_ok] at ha
  have e : (startState w p cache sender).fl.cache.config = i.config := hc
  rw [e] at ha
  unfold Permitted
  omega

/-- the error that reports a forbidden pool status -/
def statusErr (e : Err) : Bool := decide (e = .pool .invalidPoolStatus)

theorem requests_noStatus {p : Address} {auth : List Address} {status : Nat} : ∀ {l : List Request} {s : SubmitState},
    (∀ q ∈ l, Permitted status q) → s.fl.cache.config.status = status → NoErr statusErr (l.foldlM (processRequest p auth) s) := by
  intro l
  induction l with
  | nil => intro s _ _; exact NoErr.pure
  | cons q l ih =>
    intro s hq hs
    rw [List.foldlM_cons]
    refine NoErr.bind ?_ fun s1 h1 => ih (fun x hx => hq x (by simp [hx])) (by rw [request_config h1]; exact hs)
    have hqq := hq q (by simp)
    refine NoErr.mono (ns_processRequest ?_) (fun e he => by simp only [statusErr, decide_eq_true_eq] at he; rw [he]; rfl)
    unfold requireActionAllowed
    unfold Permitted at hqq
    rw [hs]
    have : ¬ ((status > 1 ∧ (q.type = 4 ∨ q.type = 9)) ∨ (status > 3 ∧ (q.type = 2 ∨ q.type = 0))) := by omega
    unfold require
    rw [if_pos this]
    exact NoStatus.ok

/-- **C11** A submit all of whose requests are permitted by the status never fails with the status error. In particular
withdrawals, repayments and auction fills are never blocked by the status. -/
theorem C11_never_blocks {w : World} {p : Address} {auth : List Address} {sender spender dst : Address} {reqs : List Request}
    (hq : ∀ i, (w.pools p).inst = some i → ∀ q ∈ reqs, Permitted i.config.status q) :
    step w (.pool p auth (.submit sender spender dst reqs)) ≠ .error (.pool .invalidPoolStatus) := by
  refine noErr_submit (E := statusErr) (fun e he => ?_) (fun hp => noErr_execute (fun e he => ?_) (fun cache hne hc => ?_) fun _ _ _ _ _ => ?_) _ (by simp [statusErr])
  · simp only [statusErr, decide_eq_true_eq] at he; rw [he]; rfl
  · simp only [statusErr, decide_eq_true_eq] at he; rw [he]; rfl
  · obtain ⟨_, _, _, i, hi, hci⟩ := load_ok (now := w.time) hc
    refine requests_noStatus (hq i hi) ?_
    show cache.config.status = _
    rw [hci]
  · exact NoErr.require rfl

/-- non-vacuity: with the pool frozen by its admin, bob can still withdraw and repay, but not supply or borrow -/
example : ∃ w, Reachable w ∧ (∃ i, (w.pools poolA).inst = some i ∧ i.config.status = 4) ∧
    (∃ w', step w (.pool poolA [bob] (.submit bob bob bob [⟨5, usdcA, 10000000000⟩, ⟨3, xlmA, 1000000⟩])) = .ok w') ∧
    step w (.pool poolA [bob] (.submit bob bob bob [⟨0, usdcA, 10000000000⟩])) = .error (.pool .invalidPoolStatus) ∧
    step w (.pool poolA [bob] (.submit bob bob bob [⟨4, usdcA, 10000000⟩])) = .error (.pool .invalidPoolStatus) := by
  obtain ⟨w, _, hr, h⟩ := Demo.reach (ops := setup ++ trade ++ [.pool poolA [adminA] (.setStatus 4)])
    (f := fun w => optAnd (w.pools poolA).inst (fun i => decide (i.config.status = 4)) &&
      okAnd (step w (.pool poolA [bob] (.submit bob bob bob [⟨5, usdcA, 10000000000⟩, ⟨3, xlmA, 1000000⟩]))) (fun _ => true) &&
      errIs (step w (.pool poolA [bob] (.submit bob bob bob [⟨0, usdcA, 10000000000⟩]))) (.pool .invalidPoolStatus) &&
      errIs (step w (.pool poolA [bob] (.submit bob bob bob [⟨4, usdcA, 10000000⟩]))) (.pool .invalidPoolStatus)) (by decide +kernel)
  simp only [Bool.and_eq_true] at h
  obtain ⟨⟨⟨h1, h2⟩, h3⟩, h4⟩ := h
  obtain ⟨i, hi, h1⟩ := optAnd_iff.1 h1
  obtain ⟨w', h2, _⟩ := okAnd_iff.1 h2
  exact ⟨w, hr, ⟨i, hi, of_decide_eq_true h1⟩, ⟨w', h2⟩, errIs_iff.1 h3, errIs_iff.1 h4⟩

/-! ### C13 -/

/-- **C13** A submit that increases the number of collateral and liability positions of the account leaves at most the
configured maximum. -/
theorem C13_bound {w w' : World} (hr : Reachable w) {p : Address} {auth : List Address} {sender spender dst : Address}
    {reqs : List Request} (h : step w (.pool p auth (.submit sender spender dst reqs)) = .ok w') {i : PoolInst}
    (hi : (w.pools p).inst = some i) (hgrow : positionCount (w.pools p) sender < positionCount (w'.pools p) sender) :
    positionCount (w'.pools p) sender ≤ i.config.maxPositions := by
  obtain ⟨hp, cache, s, v⟩ := submit_view hr h
  obtain ⟨_, _, _, i', hi', hc⟩ := load_ok (now := w.time) v.load
  rw [hi] at hi'
  cases hi'
  have hm := v.max
  unfold requireUnderMax at hm
  rw [require_ok, (requests_config v.fold).1] at hm
  have e : (startState w p cache sender).fl.cache.config = i.config := hc
  rw [e] at hm
  have hpos : getPositions (w'.pools p) sender = s.fl.user.pos := by
    rw [v.pools, ← v.flight.addr]; exact getPositions_overlay_last _ _ [] _
  unfold positionCount at hgrow ⊢
  rw [hpos] at hgrow ⊢
  simp only [Positions.effectiveCount, SMap.len] at hm
  omega

/-- **C13** A submit of supplies, withdrawals, repayments, interest auction fills and liquidation cancels never fails
because of the maximum number of positions, even when the account has more than the maximum. -/
theorem C13_never_blocks {w : World} (hr : Reachable w) {p : Address} {auth : List Address} {sender spender dst : Address}
    {reqs : List Request} (hq : ∀ q ∈ reqs, OpensNone q) :
    step w (.pool p auth (.submit sender spender dst reqs)) ≠ .error (.pool .maxPositionsExceeded) := by
  refine noErr_submit (E := fun e => decide (e = .pool .maxPositionsExceeded)) (fun e he => ?_)
    (fun hp => noErr_execute (fun e he => ?_) (fun cache hne hc => ?_) fun cache s hne hc hs => ?_) _ (by simp)
  · simp only [decide_eq_true_eq] at he; rw [he]; rfl
  · simp only [decide_eq_true_eq] at he; rw [he]; rfl
  · have : ∀ (l : List Request) (s : SubmitState), NoErr (fun e => decide (e = .pool .maxPositionsExceeded)) (l.foldlM (processRequest p auth) s) := by
      intro l
      induction l with
      | nil => intro s; exact NoErr.pure
      | cons q l ih =>
        intro s
        rw [List.foldlM_cons]
        refine NoErr.bind ?_ fun s1 h1 => ih s1
        unfold processRequest
        refine NoErr.bind (NoErr.require rfl) fun _ _ => NoErr.bind (NoErr.require rfl) fun _ _ => ?_
        refine NoErr.mono (E := Special) ?_ (fun e he => by simp only [decide_eq_true_eq] at he; rw [he]; rfl)
        nostatus [ns_reqSupply, ns_reqWithdraw, ns_reqWithdrawColl, ns_reqBorrow, ns_reqRepay, ns_reqFill, ns_reqDelete]
    exact this _ _
  · have := requests_count hr hp hne hc reqs [] _ s hq rfl hs
    unfold requireUnderMax require
    rw [if_pos]
    · exact NoErr.ok
    · simp only [startState, User.load] at this
      omega

/-- non-vacuity: the admin lowers the maximum to 1; bob, who has two positions, can repay but not open a third -/
example : ∃ w, Reachable w ∧ positionCount (w.pools poolA) bob = 2 ∧
    (∃ w', step w (.pool poolA [bob] (.submit bob bob bob [⟨5, usdcA, 10000000000⟩])) = .ok w') ∧
    step w (.pool poolA [bob] (.submit bob bob bob [⟨2, usdcA, 10000000⟩])) = .error (.pool .maxPositionsExceeded) := by
  obtain ⟨w, _, hr, h⟩ := Demo.reach (ops := setup ++ trade ++ [.pool poolA [adminA] (.updatePool 1000000 1)])
    (f := fun w => decide (positionCount (w.pools poolA) bob = 2) &&
      okAnd (step w (.pool poolA [bob] (.submit bob bob bob [⟨5, usdcA, 10000000000⟩]))) (fun _ => true) &&
      errIs (step w (.pool poolA [bob] (.submit bob bob bob [⟨2, usdcA, 10000000⟩]))) (.pool .maxPositionsExceeded)) (by decide +kernel)
  simp only [Bool.and_eq_true] at h
  obtain ⟨⟨h1, h2⟩, h3⟩ := h
  obtain ⟨w', h2, _⟩ := okAnd_iff.1 h2
  exact ⟨w, hr, of_decide_eq_true h1, ⟨w', h2⟩, errIs_iff.1 h3⟩

/-! ### C14 -/

/-- **C14** After a submit that borrows from a reserve and does not withdraw from it afterwards, the utilization of the
reserve is at most its `max_util`. -/
theorem C14_utilization {w w' : World} (hr : Reachable w) {p : Address} {auth : List Address} {sender spender dst : Address}
    {l1 l2 : List Request} {t : Address} {n : Int}
    (h : step w (.pool p auth (.submit sender spender dst (l1 ++ ⟨4, t, n⟩ :: l2))) = .ok w')
    (hl : ∀ q ∈ l2, ¬ (q.address = t ∧ (q.type = 1 ∨ q.type = 3))) {c : ReserveConfig}
    (hc : (w.pools p).resConfig t = some c) :
    ∃ d, (w'.pools p).resData t = some d ∧ UtilAtMost d c.maxUtil :=
  submit_util hr h hl hc

/-- a decidable sufficient condition for a utilization above the limit -/
theorem not_util {d : ReserveData} {m : Nat} (h : (m : Int) * (d.bSupply * d.bRate) < d.dSupply * d.dRate * ONE7) : ¬ UtilAtMost d m := by
  rintro ⟨L, S, hL, hS, hle⟩
  have h1 := hL.2
  have h2 := hS.1
  have h3 : (m : Int) * (S * ONE9) ≤ m * (d.bSupply * d.bRate) := Int.mul_le_mul_of_nonneg_left h2 (by omega)
  have h4 : d.dSupply * d.dRate * ONE7 ≤ L * ONE9 * ONE7 := Int.mul_le_mul_of_nonneg_right h1 (by decide)
  have h5 : L * ONE7 * ONE9 ≤ m * S * ONE9 := Int.mul_le_mul_of_nonneg_right hle (by decide)
  nlinarith

/-- **C14** (finding) The cap is only checked right after a borrow: the restriction on later withdrawals in
`C14_utilization` is necessary. Alice supplies, bob borrows up to the cap and withdraws his own supply in the same
submit: the reserve ends above its `max_util`. -/
theorem C14_not_after_withdrawal : ∃ w w' c d n1 n2 n3, Reachable w ∧
    step w (.pool poolA [bob] (.submit bob bob bob [⟨0, usdcA, n1⟩, ⟨4, usdcA, n2⟩, ⟨1, usdcA, n3⟩])) = .ok w' ∧
    (w.pools poolA).resConfig usdcA = some c ∧ (w'.pools poolA).resData usdcA = some d ∧ ¬ UtilAtMost d c.maxUtil := by
  obtain ⟨w, w', _, hr, hs, h⟩ := Demo.reach_step (ops := setup ++ [
      .pool poolA [alice] (.submit alice alice alice [⟨0, usdcA, 50000000000⟩]),
      .pool poolA [bob] (.submit bob bob bob [⟨2, xlmA, 1000000000000⟩])])
    (op := .pool poolA [bob] (.submit bob bob bob [⟨0, usdcA, 5000000000⟩, ⟨4, usdcA, 50000000000⟩, ⟨1, usdcA, 5000000000⟩]))
    (f := fun w w' => optAnd ((w.pools poolA).resConfig usdcA) fun c => optAnd ((w'.pools poolA).resData usdcA) fun d =>
      decide ((c.maxUtil : Int) * (d.bSupply * d.bRate) < d.dSupply * d.dRate * ONE7)) (by decide +kernel)
  obtain ⟨c, hc, h⟩ := optAnd_iff.1 h
  obtain ⟨d, hd, h⟩ := optAnd_iff.1 h
  exact ⟨w, w', c, d, _, _, _, hr, hs, hc, hd, not_util (of_decide_eq_true h)⟩

/-- non-vacuity of `C14_utilization` -/
example : ∃ w w', Reachable w ∧
    step w (.pool poolA [bob] (.submit bob bob bob ([⟨0, usdcA, 1000000⟩] ++ ⟨4, usdcA, 600000⟩ :: [⟨5, usdcA, 7⟩]))) = .ok w' ∧
    ((w.pools poolA).resConfig usdcA).isSome = true := by
  obtain ⟨w, w', _, hr, hs, h⟩ := Demo.reach_step (ops := setup ++ trade)
    (op := .pool poolA [bob] (.submit bob bob bob ([⟨0, usdcA, 1000000⟩] ++ ⟨4, usdcA, 600000⟩ :: [⟨5, usdcA, 7⟩])))
    (f := fun w w' => ((w.pools poolA).resConfig usdcA).isSome) (by decide +kernel)
  exact ⟨w, w', hr, hs, h⟩

end Props
end Blend
