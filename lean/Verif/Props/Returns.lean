import Verif.Lemmas.Exec
import Verif.Props.Registry
import Verif.Props.Entitlements
import Verif.Props.BackstopClaims
import Verif.Spec.Auction
import Verif.Spec.Emitter
import Verif.Examples.Demo
/-
  C53: what an entry point returns is what happened, and the read-only entry points show it.
-/

namespace Blend
namespace Props
open Spec

/-- **C53** Modelling return values does not change what an operation does: `exec` succeeds when `step` does, with the same
effect. -/
theorem C53_same_effects {w w' : World} {op : Op} : (∃ r, exec w op = .ok (r, w')) ↔ step w op = .ok w' :=
  ⟨fun ⟨_, h⟩ => exec_step h, step_exec⟩

/-! ### The pool -/

open Pool in
/-- **C53** `submit` returns the positions that `get_positions` shows for the account afterwards. -/
theorem C53_submit {w w' : World} (hr : Reachable w) {p : Address} {auth : List Address} {sender spender dst : Address}
    {reqs : List Pool.Request} {r : Ret} (h : exec w (.pool p auth (.submit sender spender dst reqs)) = .ok (r, w')) :
    r = .positions (Pool.viewPositions w' p sender) := by
  simp only [exec, callRet, bind_ok, require_ok, pure_ok, Prod.exists, Prod.mk.injEq, ite_ok] at h
  obtain ⟨_, hp, _, _, _, _, h⟩ := h
  obtain ⟨pos, w1, hsub, rfl, rfl⟩ : ∃ pos w1, executeSubmit w p auth sender spender dst reqs = .ok (pos, w1) ∧
      Ret.positions pos = r ∧ w1 = w' := by
    rcases h with ⟨_, _, _, pos, w1, h1, h2, h3⟩ | ⟨_, pos, w1, h1, h2, h3⟩ <;> exact ⟨pos, w1, h1, h2, h3⟩
  obtain ⟨⟨n1, n2, n3⟩, cache, s, cache', w2, ps1, hc, hs, hmax, hh, ht, hst, hpt, hpos⟩ := executeSubmit_ok hsub
  have fl := flight_of hr hp n1 hc hs
  obtain ⟨g1, _, _, _⟩ := transfers_fold _ _ _ hpt
  rw [hpos]
  unfold viewPositions getPositions
  rw [g1]
  simp only [pools_setPool, User.store, setPositions, fl.addr, SMap.get_set, if_true, Option.getD_some]

open Pool in
/-- **C53** `set_reserve` returns the index of the reserve: the place of the asset in the reserve list, and the index stored in
its configuration. -/
theorem C53_set_reserve {w w' : World} (hr : Reachable w) {p : Address} {auth : List Address} {asset : Address} {r : Ret}
    (h : exec w (.pool p auth (.setReserve asset)) = .ok (r, w')) :
    ∃ k c, r = .nat k ∧ (w'.pools p).resConfig asset = some c ∧ c.index = k ∧ (w'.pools p).resList[k]? = some asset := by
  have hs := exec_step h
  simp only [exec, callRet, bind_ok, pure_ok, Prod.exists, Prod.mk.injEq] at h
  obtain ⟨_, _, _, _, k, ps, hret, rfl, rfl⟩ := h
  have hcfg := (hr.step hs).base.cfg p
  have key : ∃ c, ps.resConfig asset = some c ∧ c.index = k := by
    unfold setReserveRet initReserveRet at hret
    simp only [bind_ok] at hret
    obtain ⟨q, _, _, _, hret⟩ := hret
    split at hret
    · simp only [bind_ok, Prod.exists, pure_ok, Prod.mk.injEq] at hret
      obtain ⟨_, _, r, _, _, _, _, rfl, rfl⟩ := hret
      exact ⟨_, upd_same, rfl⟩
    · simp only [bind_ok, pure_ok, Prod.mk.injEq] at hret
      obtain ⟨_, _, rfl, rfl⟩ := hret
      exact ⟨_, upd_same, rfl⟩
  obtain ⟨c, hc, rfl⟩ := key
  rw [pools_setPool]
  rw [pools_setPool] at hcfg
  exact ⟨_, c, rfl, hc, rfl, hcfg.idx _ _ hc⟩

open Pool in
/-- **C53** `update_status` returns the status that the pool then has. -/
theorem C53_update_status {w w' : World} {p : Address} {auth : List Address} {r : Ret}
    (h : exec w (.pool p auth .updateStatus) = .ok (r, w')) :
    ∃ i', (w'.pools p).inst = some i' ∧ r = .nat i'.config.status := by
  simp only [exec, callRet, bind_ok, pure_ok, Prod.mk.injEq] at h
  obtain ⟨_, _, _, _, i, _, d, _, s, _, rfl, rfl⟩ := h
  rw [pools_setPool]
  exact ⟨_, rfl, rfl⟩

open Pool in
/-- **C53** A pool's `gulp_emissions` returns the BLND that the pool had accumulated in the backstop: the pool's allowance on
the backstop's BLND grows by exactly that, and the pool's accumulated BLND is zero afterwards. -/
theorem C53_gulp {w w' : World} (hr : Reachable w) {p : Address} {auth : List Address} {r : Ret} {i : BackstopInst}
    (hi : w.backstop.inst = some i) (h : exec w (.pool p auth .gulpEmissions) = .ok (r, w')) :
    r = .int (w.backstop.poolEmis p) ∧ w.backstop.poolEmis p ≠ 0 ∧ w'.backstop.poolEmis p = 0 ∧
    w'.allowance i.blnd w.backstopAddr p = w.allowance i.blnd w.backstopAddr p + w.backstop.poolEmis p ∧
    ∀ t x, w'.balance t x = w.balance t x := by
  simp only [exec, callRet, Pool.gulpEmissions, Backstop.gulpPoolEmissionsAuth, Backstop.gulpPoolEmissions, Backstop.inst, bind_ok,
    pure_ok, Prod.exists, Prod.mk.injEq, require_ok, unwrap_ok, chk_ok] at h
  obtain ⟨_, _, _, _, n, w1, ⟨_, _, _, _, _, w2, ⟨_, _, _, h0, i', hi', _, ⟨_, rfl⟩, w3, ha, rfl, rfl⟩, ps, _, rfl, rfl⟩, rfl, rfl⟩ := h
  rw [hi] at hi'; cases hi'
  obtain ⟨_, rfl⟩ := approve_res ha
  obtain ⟨_, a1, a2, _⟩ := setAllowance_res w i.blnd w.backstopAddr p (w.allowance i.blnd w.backstopAddr p + w.backstop.poolEmis p)
    (w.seq + Backstop.LEDGER_BUMP_USER)
  refine ⟨rfl, h0, ?_, ?_, fun t x => ?_⟩
  · simp [World.setPool, World.setBackstop, World.setAllowance]
  · simp [World.setPool, World.setBackstop, World.setAllowance, World.allowance]
  · exact a1 t x

open Pool in
/-- the BLND that a pool's `claim` returns is not negative -/
theorem poolClaim_nonneg {w w' : World} (hr : Reachable w) {p : Address} {auth : List Address} {u dst : Address} {ids : List Nat}
    (hs : step w (.pool p auth (.claim u ids dst)) = .ok w') {n : Int} {ps' : PoolState}
    (hl : claimLoop w.time u (getPositions (w.pools p) u) ids (0, w.pools p) = .ok (n, ps')) : 0 ≤ n := by
  have L := claimLoop_exact _ _ _ _ _ hl
  have hp : w.poolAddr p = true := by
    simp only [step, bind_ok, require_ok] at hs; exact hs.choose_spec.1
  have r := step_res hr.base hs
  have hpools : w'.pools p = ps' := by
    simp only [step, bind_ok, require_ok, call, executeClaim, requireAuth_ok, Prod.exists, pure_ok] at hs
    obtain ⟨_, _, _, _, _, _, n1, w1, ⟨n2, ps2, hl2, h⟩, rfl⟩ := hs
    rw [hl] at hl2; cases hl2
    simp only [ite_ok, bind_ok, pure_ok, Prod.mk.injEq] at h
    rcases h with ⟨_, j, hj, w2, ht, rfl, rfl⟩ | ⟨_, rfl, rfl⟩
    · rw [(transferFrom_res ht).frame, pools_setPool]
    · rw [pools_setPool]
  rw [L.total, zero_add]
  refine Finset.sum_nonneg fun id hid => ?_
  cases hcf : (w.pools p).emisConfig id with
  | none => rw [(L.other id (.inr hcf)).2.2]; omega
  | some cfg =>
    obtain ⟨asset, c, ed, ha, hc, hed, _, hI, hU, _⟩ := ((hr.einv hp).emis id).isSet cfg hcf
    obtain ⟨ed', k1, k2, k3⟩ := L.claimed id (by simpa using hid) cfg asset c hcf ha hc
    have hrel := (micros_index (hr.base.cfg p) (hr.einv hp) ((r.micros p hp).mono (U' := fun _ => True) fun _ _ => trivial)).1
    obtain ⟨_, ed2, _, l2, l3, _⟩ := hrel.rel id cfg ed asset c hcf hed ha hc
    change (w'.pools p).emisData id = some ed2 at l2
    rw [hpools, k1] at l2; cases l2
    obtain ⟨u1, u2, u3⟩ := hU.entry hI u
    have hb : 0 ≤ ebal (w.pools p) id u := (hr.einv hp).inv.ebal_nonneg id u
    change (userEntry ((w.pools p).userEmis id) u).index ≤ ed.index at u2
    change 0 ≤ (userEntry ((w.pools p).userEmis id) u).accrued at u3
    have h10 : (0 : Int) < 10 ^ c.decimals := by positivity
    have : 0 ≤ Int.fdiv (ebal (w.pools p) id u * (ed'.index - (userEntry ((w.pools p).userEmis id) u).index)) (10 ^ c.decimals) :=
      Int.fdiv_nonneg (Int.mul_nonneg hb (by omega)) (le_of_lt h10)
    unfold entAt at k3
    omega

open Pool in
/-- **C53** A pool's `claim` returns the BLND it paid: exactly that much moved from the backstop to the recipient, and nothing
else moved. -/
theorem C53_claim {w w' : World} (hr : Reachable w) {p : Address} {auth : List Address} {sender dst : Address} {ids : List Nat}
    {r : Ret} {i : PoolInst} (hi : (w.pools p).inst = some i) (h : exec w (.pool p auth (.claim sender ids dst)) = .ok (r, w')) :
    ∃ n, r = .int n ∧ 0 ≤ n ∧ w'.balance = paid w.balance i.blnd i.backstop dst n := by
  have hs := exec_step h
  simp only [exec, callRet, executeClaim, bind_ok, pure_ok, Prod.exists, Prod.mk.injEq] at h
  obtain ⟨_, _, _, _, _, _, n1, w1, ⟨n, ps', hl, h⟩, rfl, rfl⟩ := h
  have hnn := poolClaim_nonneg hr hs hl
  have L := claimLoop_exact _ _ _ _ _ hl
  have hinst : ps'.inst = some i := by rw [L.config.inst, hi]
  refine ⟨n1, rfl, ?_⟩
  simp only [ite_ok, bind_ok, pure_ok, Prod.mk.injEq] at h
  rcases h with ⟨_, j, hj, w2, ht, rfl, rfl⟩ | ⟨h0, rfl, rfl⟩
  · simp only [PoolState.getInst, hinst, unwrap_ok, Option.some.injEq] at hj
    subst hj
    refine ⟨hnn, ?_⟩
    funext t x
    rw [(transferFrom_res ht).bal]
    simp only [paid, moved]
    show w.balance t x + _ = _
    ring
  · have : n = 0 := by omega
    subst this
    refine ⟨le_refl _, ?_⟩
    funext t x
    simp [paid, World.setPool, World.balance]

open Pool in
/-- **C53** The entry points that open an auction return the auction that `get_auction` shows afterwards, under the address of
the liquidated user or of the backstop. -/
theorem C53_new_auction {w w' : World} {p : Address} {auth : List Address} {r : Ret} {i : PoolInst}
    (hi : (w.pools p).inst = some i) :
    (∀ user percent, exec w (.pool p auth (.newLiquidation user percent)) = .ok (r, w') →
      ∃ a, r = .auction a ∧ viewAuction w' p 0 user = .ok a) ∧
    (exec w (.pool p auth .newBadDebt) = .ok (r, w') → ∃ a, r = .auction a ∧ viewAuction w' p 1 i.backstop = .ok a) ∧
    (∀ assets, exec w (.pool p auth (.newInterest assets)) = .ok (r, w') →
      ∃ a, r = .auction a ∧ viewAuction w' p 2 i.backstop = .ok a) := by
  have hset : ∀ (ps : PoolState) t u a, viewAuction (w.setPool p (setAuction ps t u (some a))) p t u = .ok a := by
    intro ps t u a
    unfold viewAuction setAuction
    rw [pools_setPool]
    simp [unwrap]
  refine ⟨fun user percent h => ?_, fun h => ?_, fun assets h => ?_⟩ <;>
    simp only [exec, callRet, PoolState.getInst, hi, bind_ok, pure_ok, Prod.exists, Prod.mk.injEq, unwrap_ok, Option.some.injEq] at h
  · obtain ⟨_, _, _, _, _, rfl, _, _, a, ps, _, rfl, rfl⟩ := h
    exact ⟨a, rfl, hset _ _ _ _⟩
  · obtain ⟨_, _, _, _, _, rfl, a, _, rfl, rfl⟩ := h
    exact ⟨a, rfl, hset _ _ _ _⟩
  · obtain ⟨_, _, _, _, _, rfl, a, _, rfl, rfl⟩ := h
    exact ⟨a, rfl, hset _ _ _ _⟩

/-! ### The backstop -/

/-- **C53** The backstop's `deposit` returns the shares it minted: the depositor's shares and the pool's shares grow by that, and
the tokens the depositor named move from the depositor to the backstop. -/
theorem C53_deposit {w w' : World} (hr : Reachable w) {auth : List Address} {s p : Address} {amount : Int} {r : Ret}
    {i : BackstopInst} (hi : w.backstop.inst = some i) (h : exec w (.backstop auth (.deposit s p amount)) = .ok (r, w')) :
    ∃ n, r = .int n ∧
      Backstop.viewUserBalance w' p s = { Backstop.viewUserBalance w p s with shares := (Backstop.viewUserBalance w p s).shares + n } ∧
      w'.backstop.getPoolBal p = { w.backstop.getPoolBal p with
        shares := (w.backstop.getPoolBal p).shares + n, tokens := (w.backstop.getPoolBal p).tokens + amount } ∧
      w'.balance = paid w.balance i.backstopToken s w.backstopAddr amount := by
  simp only [exec, backstopRet, bind_ok, pure_ok, Prod.exists, Prod.mk.injEq] at h
  obtain ⟨_, _, n, w1, hd, rfl, rfl⟩ := h
  obtain ⟨x, b1, i', w2, hu, hi', ht, rfl⟩ := (Backstop.deposit_res hd).ex
  rw [hi] at hi'; cases hi'
  refine ⟨n, rfl, ?_, ?_, ?_⟩
  · show (Backstop.setBal _ _ _ _ _).getUserBal p s = _
    rw [Backstop.getUserBal_set, if_pos ⟨rfl, rfl⟩]; rfl
  · show (Backstop.setBal _ _ _ _ _).getPoolBal p = _
    rw [Backstop.getPoolBal_set, if_pos rfl]
  · funext t x
    show w2.balance t x = _
    rw [ht.bal]
    simp only [paid, moved]
    show w.balance t x + _ = _
    ring

/-- **C53** `queue_withdrawal` returns the entry it appended to the account's queue: the amount named, unlocked 21 days later. -/
theorem C53_queue {w w' : World} (hr : Reachable w) {auth : List Address} {s p : Address} {amount : Int} {r : Ret}
    (h : exec w (.backstop auth (.queueWithdrawal s p amount)) = .ok (r, w')) :
    r = .q4w ⟨amount, w.time + 21 * 86400⟩ ∧
      Backstop.viewUserBalance w' p s = ⟨(Backstop.viewUserBalance w p s).shares - amount,
        (Backstop.viewUserBalance w p s).q4w ++ [⟨amount, w.time + 21 * 86400⟩]⟩ := by
  have hs := exec_step h
  simp only [exec, backstopRet, Backstop.executeQueueRet, bind_ok, pure_ok, Prod.exists, Prod.mk.injEq, unwrap_ok] at h
  obtain ⟨_, _, _, _, q, w1, ⟨_, _, _, _, _, ub, hub, _, _, _, hq, rfl, rfl⟩, rfl, rfl⟩ := h
  obtain ⟨_, _, rfl⟩ := Backstop.queueShares_ok hub
  simp only [step, backstopCall, bind_ok] at hs
  obtain ⟨_, _, hs⟩ := hs
  obtain ⟨x, b1, _, he⟩ := (Backstop.queue_res hs).ex
  rw [he]
  constructor
  · simp only [List.getLast?_append, List.getLast?_singleton, Option.some_or, Option.some.injEq] at hq
    rw [← hq]
  · show (Backstop.setBal _ _ _ _ _).getUserBal p s = _
    rw [Backstop.getUserBal_set, if_pos ⟨rfl, rfl⟩]; rfl

/-- **C53** `withdraw` returns the backstop tokens it paid: exactly that moves from the backstop to the account, and the pool's
tokens shrink by that. -/
theorem C53_withdraw {w w' : World} (hr : Reachable w) {auth : List Address} {s p : Address} {amount : Int} {r : Ret}
    {i : BackstopInst} (hi : w.backstop.inst = some i) (h : exec w (.backstop auth (.withdraw s p amount)) = .ok (r, w')) :
    ∃ n, r = .int n ∧ 0 < n ∧
      (w'.backstop.getPoolBal p).tokens = (w.backstop.getPoolBal p).tokens - n ∧
      w'.balance = paid w.balance i.backstopToken w.backstopAddr s n := by
  simp only [exec, backstopRet, bind_ok, pure_ok, Prod.exists, Prod.mk.injEq] at h
  obtain ⟨_, _, n, w1, hd, rfl, rfl⟩ := h
  have R := Backstop.withdraw_res hd
  obtain ⟨q, i', hi', _, hb, ht⟩ := R.ex
  rw [hi] at hi'; cases hi'
  refine ⟨n, rfl, R.pos, ?_, ?_⟩
  · rw [hb, Backstop.getPoolBal_set, if_pos rfl]
  · funext t x
    rw [ht.bal]
    simp only [paid, moved]
    show w.balance t x + _ = _
    ring

/-- **C53** The backstop's `claim` returns the BLND it spent on the claimant's emissions: that much BLND leaves the backstop for
Comet. -/
theorem C53_backstop_claim {w w' : World} (hr : Reachable w) {auth : List Address} {s dst : Address} {pools : List Address}
    {r : Ret} {i : BackstopInst} (hi : w.backstop.inst = some i)
    (h : exec w (.backstop auth (.claim s pools dst)) = .ok (r, w')) :
    ∃ n, r = .int n ∧ 0 ≤ n ∧ ∀ t x, t ≠ i.backstopToken →
      w'.balance t x = paid w.balance i.blnd w.backstopAddr i.backstopToken n t x := by
  have hs := exec_step h
  simp only [exec, backstopRet, Backstop.claim, Backstop.executeClaim, Backstop.cometDeposit, bind_ok, pure_ok, Prod.exists,
    Prod.mk.injEq, requireAuth_ok, Backstop.inst, unwrap_ok, ite_ok] at h
  obtain ⟨_, _, n1, w1, ⟨_, hm, _, _, n, cl, b1, hl, h⟩, rfl, rfl⟩ := h
  obtain ⟨_, _, m3, m4, _, _, _, hin⟩ :=
    Backstop.claimLoop_ok (F := True) (U := fun _ => True) trivial (S := Backstop.BS.of w) hr.ball.inv hl
  have hsum : 0 ≤ Backstop.claimSum cl pools := by
    unfold Backstop.claimSum
    refine List.sum_nonneg fun y hy => ?_
    obtain ⟨q, hq, rfl⟩ := List.mem_map.1 hy
    obtain ⟨z, hz, h0⟩ := m3 q hq
    simp [hz, h0]
  have hin' : b1.inst = some i := by rw [hin]; exact hi
  rcases h with ⟨hn0, i', hi', lpOut, w2, ⟨w3, ht, w4, hmt, s', _, rfl, rfl⟩, b2, hd, rfl, rfl⟩ | ⟨hn0, rfl, rfl⟩
  · change b1.inst = some i' at hi'
    rw [hin'] at hi'; cases hi'
    refine ⟨n, rfl, by omega, fun t x ht0 => ?_⟩
    show w4.balance t x = _
    rw [(mint_res hmt).bal, (transfer_res ht).bal]
    simp only [paid, moved, ht0, false_and, if_false]
    show w.balance t x + _ + _ = _
    ring
  · have : n = 0 := by omega
    subst this
    refine ⟨0, rfl, le_refl _, fun t x _ => ?_⟩
    simp [paid, World.setBackstop, World.balance]

/-- **C53** `update_tkn_val` returns the BLND and USDC per backstop token that `pool_data` and the reward zone rules use from
then on: Comet's balances over Comet's supply, rounded down. -/
theorem C53_update_tkn_val {w w' : World} (hr : Reachable w) {auth : List Address} {r : Ret} {i : BackstopInst} (hi : w.backstop.inst = some i)
    (h : exec w (.backstop auth .updateTknVal) = .ok (r, w')) :
    ∃ b u, r = .pair b u ∧ w'.backstop.lpVal = some (b, u) ∧
      IsFloor b (w.balance i.blnd i.backstopToken * 10000000) w.cometShares ∧
      IsFloor u (w.balance i.usdc i.backstopToken * 10000000) w.cometShares := by
  simp only [exec, backstopRet, Backstop.updateTknValRet, Backstop.inst, bind_ok, pure_ok, Prod.exists, Prod.mk.injEq, unwrap_ok] at h
  obtain ⟨_, _, _, _, w1, ⟨i', hi', b, hb, u, hu, rfl, rfl, rfl⟩, rfl, rfl⟩ := h
  rw [hi] at hi'; cases hi'
  have hc : 0 < w.cometShares := by
    have h0 := hr.lpOk.shares
    obtain ⟨_, hz, _⟩ := mulDivFloor_ok.1 hb
    omega
  have h1 := mulDivFloor_spec hb hc
  have h2 := mulDivFloor_spec hu hc
  simp only [SCALAR_7] at h1 h2
  exact ⟨b, u, rfl, rfl, ⟨h1.1, by linarith [h1.2]⟩, ⟨h2.1, by linarith [h2.2]⟩⟩

/-! ### The emitter and the factory -/

/-- **C53** `distribute` returns the BLND it minted: that much is added to the backstop's balance and nothing else moves. -/
theorem C53_distribute {w w' : World} {auth : List Address} {r : Ret} {i : EmitterInst} (hi : w.emitter.inst = some i)
    (h : exec w (.emitter auth .distribute) = .ok (r, w')) :
    ∃ n, r = .int n ∧ 0 ≤ n ∧ minted w' i.blnd = minted w i.blnd + n ∧
      ∀ t x, w'.balance t x = w.balance t x + if t = i.blnd ∧ x = i.backstop then n else 0 := by
  simp only [exec, emitterRet, Emitter.distribute, Emitter.inst, bind_ok, pure_ok, Prod.exists, Prod.mk.injEq, unwrap_ok] at h
  obtain ⟨_, _, n, w1, ⟨i', hi', hd⟩, rfl, rfl⟩ := h
  rw [hi] at hi'; cases hi'
  obtain ⟨last, i', _, _, hi', _, m⟩ := Emitter.distribute_ok hd
  rw [hi] at hi'; cases hi'
  refine ⟨n, rfl, m.nonneg, ?_, fun t x => ?_⟩
  · have := m.minted i.blnd
    simpa [minted] using this
  · exact m.bal t x

/-- **C53** `deploy` returns the address of the pool it created: nothing was registered there before, and `is_pool` is true for
it afterwards. -/
theorem C53_deploy {w w' : World} (hr : Reachable w) {auth : List Address} {admin oracle : Address} {salt rate n : Nat} {r : Ret}
    (h : exec w (.factory auth (.deploy admin salt oracle rate n)) = .ok (r, w')) :
    ∃ a, r = .addr a ∧ Factory.isPool w a = false ∧ Factory.isPool w' a = true ∧
      ∃ i, (w'.pools a).inst = some i ∧ i.admin = admin := by
  have d := C42_deploy hr (exec_step h)
  obtain ⟨_, _, _, d1, ⟨m, _, d2⟩, d3, _⟩ := d
  simp only [exec, factoryRet, Factory.deploy, bind_ok, pure_ok, Prod.exists, Prod.mk.injEq] at h
  obtain ⟨_, _, a, w1, ⟨_, _, _, _, _, _, _, _, _, _, _, _, _, _, rfl, _⟩, rfl, rfl⟩ := h
  exact ⟨_, rfl, d1, (d3 _).2 (.inr rfl), _, by rw [d2], rfl⟩

/-- **C53** `pool_data` tells the tokens of the pool's backstop, the queued part of its shares (seven decimals, rounded up) and
the BLND and USDC it stands for (rounded down). -/
theorem C53_pool_data {w : World} (hr : Reachable w) {p : Address} {d : Backstop.PoolData} (h : Backstop.viewPoolData w p = .ok d) :
    d.tokens = (w.backstop.getPoolBal p).tokens ∧
    ((w.backstop.getPoolBal p).shares = 0 → d.q4wPct = 0) ∧
    ((w.backstop.getPoolBal p).shares ≠ 0 →
      IsCeil d.q4wPct ((w.backstop.getPoolBal p).q4w * 10000000) (w.backstop.getPoolBal p).shares ∧ 0 ≤ d.q4wPct ∧ d.q4wPct ≤ 10000000) ∧
    ∃ b u, w.backstop.lpVal = some (b, u) ∧ IsFloor d.blnd (d.tokens * b) 10000000 ∧ IsFloor d.usdc (d.tokens * u) 10000000 := by
  simp only [Backstop.viewPoolData, Backstop.loadPoolData, bind_ok, pure_ok, Prod.exists, ite_ok, unwrap_ok] at h
  obtain ⟨hs0, hs1⟩ := hr.ball.inv.shares_nonneg p
  have hfl : ∀ {a b v : Int}, fixedMulFloor a b SCALAR_7 = .ok v → IsFloor v (a * b) 10000000 := by
    intro a b v hv
    have := mulDivFloor_spec hv (by norm_num [SCALAR_7])
    simp only [SCALAR_7] at this
    exact ⟨this.1, by linarith [this.2]⟩
  rcases h with ⟨hsh, q, hq, b, u, hv, x, hx, y, hy, rfl⟩ | ⟨hsh, _, rfl, b, u, hv, x, hx, y, hy, rfl⟩
  · refine ⟨rfl, fun h0 => by omega, fun _ => ?_, b, u, hv, hfl hx, hfl hy⟩
    have h3 := mulDivCeil_spec hq hsh
    simp only [SCALAR_7] at h3
    refine ⟨⟨by linarith [h3.2], h3.1⟩, ?_, ?_⟩
    · by_contra hn
      have : q ≤ -1 := by simp only at hn; omega
      nlinarith [h3.1]
    · by_contra hn
      have : 10000001 ≤ q := by simp only at hn; omega
      nlinarith [h3.2]
  · exact ⟨rfl, fun _ => rfl, fun _ => by omega, b, u, hv, hfl hx, hfl hy⟩

/-! ### The hypotheses are met -/

/-- the operation succeeds and returns something that passes the test -/
def returns (r : R (Ret × World)) (f : Ret → Bool) : Bool := Demo.okAnd r fun x => f x.1

theorem returns_iff {r : R (Ret × World)} {f : Ret → Bool} : returns r f = true ↔ ∃ x w', r = .ok (x, w') ∧ f x = true := by
  unfold returns
  rw [Demo.okAnd_iff]
  exact ⟨fun ⟨⟨x, w'⟩, h⟩ => ⟨x, w', h⟩, fun ⟨x, w', h⟩ => ⟨⟨x, w'⟩, h⟩⟩

def isInt (n : Int) : Ret → Bool
  | .int x => x = n
  | _ => false

theorem isInt_iff {n : Int} {r : Ret} : isInt n r = true ↔ r = .int n := by
  cases r <;> simp [isInt]

open Demo

/-- in the demo history the operation returns the number -/
theorem demo_int {ops : List Op} {op : Op} {n : Int} (h : okAnd (run genesis ops) (fun w => returns (exec w op) (isInt n)) = true) :
    ∃ w w', Reachable w ∧ exec w op = .ok (.int n, w') := by
  obtain ⟨w, _, hr, h⟩ := Demo.reach h
  obtain ⟨x, w', h1, h2⟩ := returns_iff.1 h
  rw [isInt_iff] at h2
  exact ⟨w, w', hr, by rw [h1, h2]⟩

/-- carol's deposit mints 500000000000 shares -/
example : ∃ w w', Reachable w ∧ exec w (.backstop [carol] (.deposit carol poolA 500000000000)) = .ok (.int 500000000000, w') :=
  demo_int (ops := setup.take 10) (by decide +kernel)

/-- 10000 seconds after the last distribution 10000 BLND are minted -/
example : ∃ w w', Reachable w ∧ exec w (.emitter [] .distribute) = .ok (.int 100000000000, w') :=
  demo_int (ops := setup ++ trade ++ emissions.take 1) (by decide +kernel)

/-- 30 percent of them go to the pool -/
example : ∃ w w', Reachable w ∧ exec w (.pool poolA [] .gulpEmissions) = .ok (.int 30000000000, w') :=
  demo_int (ops := setup ++ trade ++ emissions.take 3) (by decide +kernel)

/-- bob claims from the pool -/
example : ∃ w w', Reachable w ∧ exec w (.pool poolA [bob] (.claim bob [0, 3] bob)) = .ok (.int 44636000, w') :=
  demo_int (ops := setup ++ trade ++ emissions) (by decide +kernel)

/-- carol claims from the backstop -/
example : ∃ w w', Reachable w ∧ exec w (.backstop [carol] (.claim carol [poolA] carol)) = .ok (.int 115700000, w') :=
  demo_int (ops := setup ++ trade ++ emissions) (by decide +kernel)

/-- carol withdraws -/
example : ∃ w w', Reachable w ∧ exec w (.backstop [carol] (.withdraw carol poolA 120000000000)) = .ok (.int 120000000000, w') :=
  demo_int (ops := setup ++ trade ++ emissions ++ claims ++ liquidation ++ queue.take 4) (by decide +kernel)

/-- bob's submit returns his new positions, the second reserve gets index 1, the pool's status is recomputed, a liquidation of
bob is opened, carol queues a withdrawal, the pool is deployed, the token value is updated -/
example : (∃ w r w', Reachable w ∧
      exec w (.pool poolA [bob] (.submit bob bob bob [⟨2, xlmA, 1000000000000⟩, ⟨4, usdcA, 60000000000⟩])) = .ok (r, w') ∧
      ∃ pos, r = .positions pos ∧ pos.collateral.bal 1 = 1000000000000 ∧ pos.liabilities.bal 0 = 60000000000) ∧
    (∃ w w', Reachable w ∧ exec w (.pool poolA [] (.setReserve xlmA)) = .ok (.nat 1, w')) ∧
    (∃ w w', Reachable w ∧ exec w (.pool poolA [] .updateStatus) = .ok (.nat 0, w')) ∧
    (∃ w r w', Reachable w ∧ exec w (.pool poolA [] (.newLiquidation bob 60)) = .ok (r, w') ∧
      ∃ a, r = .auction a ∧ a.bid.bal usdcA = 36000000000 ∧ a.lot.bal xlmA = 523131600000) ∧
    (∃ w w', Reachable w ∧ exec w (.backstop [carol] (.queueWithdrawal carol poolA 150000000000)) =
      .ok (.q4w ⟨150000000000, 1714965500⟩, w')) ∧
    (∃ w w', Reachable w ∧ exec w (.factory [adminA] (.deploy adminA 0 oracleA 1000000 4)) = .ok (.addr poolA, w')) ∧
    (∃ w w', Reachable w ∧ exec w (.backstop [] .updateTknVal) = .ok (.pair 100000000 10000000, w')) := by
  refine ⟨?_, ?_, ?_, ?_, ?_, ?_, ?_⟩
  · obtain ⟨w, _, hr, h⟩ := Demo.reach (ops := setup ++ trade.take 2)
      (f := fun w => returns (exec w (.pool poolA [bob] (.submit bob bob bob [⟨2, xlmA, 1000000000000⟩, ⟨4, usdcA, 60000000000⟩])))
        fun r => match r with
        | .positions pos => decide (pos.collateral.bal 1 = 1000000000000 ∧ pos.liabilities.bal 0 = 60000000000)
        | _ => false) (by decide +kernel)
    obtain ⟨x, w', h1, h2⟩ := returns_iff.1 h
    cases x <;> simp at h2
    exact ⟨w, _, w', hr, h1, _, rfl, h2⟩
  · obtain ⟨w, _, hr, h⟩ := Demo.reach (ops := setup.take 7)
      (f := fun w => returns (exec w (.pool poolA [] (.setReserve xlmA))) fun r => match r with | .nat k => decide (k = 1) | _ => false)
      (by decide +kernel)
    obtain ⟨x, w', h1, h2⟩ := returns_iff.1 h
    cases x <;> simp at h2
    exact ⟨w, w', hr, by rw [h1, h2]⟩
  · obtain ⟨w, _, hr, h⟩ := Demo.reach (ops := setup ++ trade)
      (f := fun w => returns (exec w (.pool poolA [] .updateStatus)) fun r => match r with | .nat k => decide (k = 0) | _ => false)
      (by decide +kernel)
    obtain ⟨x, w', h1, h2⟩ := returns_iff.1 h
    cases x <;> simp at h2
    exact ⟨w, w', hr, by rw [h1, h2]⟩
  · obtain ⟨w, _, hr, h⟩ := Demo.reach (ops := setup ++ trade ++ emissions ++ claims ++ liquidation.take 1)
      (f := fun w => returns (exec w (.pool poolA [] (.newLiquidation bob 60)))
        fun r => match r with
        | .auction a => decide (a.bid.bal usdcA = 36000000000 ∧ a.lot.bal xlmA = 523131600000)
        | _ => false) (by decide +kernel)
    obtain ⟨x, w', h1, h2⟩ := returns_iff.1 h
    cases x <;> simp at h2
    exact ⟨w, _, w', hr, h1, _, rfl, h2⟩
  · obtain ⟨w, _, hr, h⟩ := Demo.reach (ops := setup ++ trade ++ emissions ++ claims ++ liquidation)
      (f := fun w => returns (exec w (.backstop [carol] (.queueWithdrawal carol poolA 150000000000)))
        fun r => match r with | .q4w q => decide (q = ⟨150000000000, 1714965500⟩) | _ => false) (by decide +kernel)
    obtain ⟨x, w', h1, h2⟩ := returns_iff.1 h
    cases x <;> simp at h2
    exact ⟨w, w', hr, by rw [h1, h2]⟩
  · obtain ⟨w, _, hr, h⟩ := Demo.reach (ops := setup.take 3)
      (f := fun w => returns (exec w (.factory [adminA] (.deploy adminA 0 oracleA 1000000 4)))
        fun r => match r with | .addr q => decide (q = poolA) | _ => false) (by decide +kernel)
    obtain ⟨x, w', h1, h2⟩ := returns_iff.1 h
    cases x <;> simp at h2
    exact ⟨w, w', hr, by rw [h1, h2]⟩
  · obtain ⟨w, _, hr, h⟩ := Demo.reach (ops := setup.take 9)
      (f := fun w => returns (exec w (.backstop [] .updateTknVal))
        fun r => match r with | .pair x y => decide (x = 100000000 ∧ y = 10000000) | _ => false) (by decide +kernel)
    obtain ⟨x, w', h1, h2⟩ := returns_iff.1 h
    cases x <;> simp at h2
    exact ⟨w, w', hr, by rw [h1, h2.1, h2.2]⟩

end Props
end Blend
