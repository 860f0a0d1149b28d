import Verif.Lemmas.Payers
import Verif.Lemmas.BFrame
import Verif.Lemmas.BStep
import Verif.Examples.Demo
/-
  C46: pools are isolated from one another.
-/

namespace Blend
namespace Spec

/-- the operation is a call of pool `q`, its deployment, or the expiry of one of its temporary entries -/
def Concerns (w : World) (op : Op) (q : Address) : Prop :=
  (∃ auth c, op = .pool q auth c) ∨
  (∃ auth a s o r m, op = .factory auth (.deploy a s o r m) ∧ w.deployAddr a s = q) ∨
  (∃ t u, op = .expireAuction q t u) ∨ (∃ a, op = .expireQueued q a)

/-- everything the backstop stores for pool `q` is the same -/
structure SameBackstopRecords (q : Address) (b b' : BackstopState) : Prop where
  balance : b'.getPoolBal q = b.getPoolBal q
  users : ∀ u, b'.getUserBal q u = b.getUserBal q u
  pending : b'.poolEmis q = b.poolEmis q
  schedule : b'.emisCfg q = b.emisCfg q
  index : b'.emisData q = b.emisData q
  accrued : ∀ u, (b'.userEmis q).get u = (b.userEmis q).get u
  rewarded : q ∈ b'.rewardZone ↔ q ∈ b.rewardZone

end Spec

namespace Props
open Spec Pool Demo

/-- **C46** The storage of a pool changes only in operations that concern that pool. -/
theorem C46_storage {w w' : World} (hr : Reachable w) {op : Op} (h : step w op = .ok w') {q : Address}
    (hq : ¬ Concerns w op q) : w'.pools q = w.pools q := by
  refine (step_frame hr.base h).pools q (fun auth c e => hq (.inl ⟨auth, c, e⟩))
    (fun auth a s o r m e e' => hq (.inr (.inl ⟨auth, a, s, o, r, m, e, e'⟩)))
    (fun t u e => hq (.inr (.inr (.inl ⟨t, u, e⟩)))) fun a e => hq (.inr (.inr (.inr ⟨a, e⟩)))

/-- **C46** A call of one pool changes nothing of what the backstop stores for any other pool and its depositors. -/
theorem C46_backstop {w w' : World} {p : Address} {auth : List Address} {c : Call}
    (h : step w (.pool p auth c) = .ok w') {q : Address} (hq : q ≠ p) :
    SameBackstopRecords q w.backstop w'.backstop := by
  simp only [step, bind_ok, require_ok] at h
  obtain ⟨_, _, _, _, h⟩ := h
  have e := Backstop.poolCall_eff h
  exact ⟨e.other q hq, fun u => by unfold BackstopState.getUserBal; rw [e.userBal], e.poolEmis q hq, by rw [e.emisCfg],
    by rw [e.emisData], fun u => by rw [e.userEmis], by rw [e.rewardZone]⟩

/-- **C46** Tokens leave a pool only in a submit to that very pool. -/
theorem C46_tokens {w w' : World} (hr : Reachable w) {op : Op} (h : step w op = .ok w') {q t : Address}
    (hq : w.poolAddr q = true) (hlt : w'.balance t q < w.balance t q) :
    ∃ auth s sp d reqs, op = .pool q auth (.submit s sp d reqs) := by
  have hb := hr.base
  have hpr : w.isProtocol q := protocol_pool hq
  have hne := hb.pool_ne hq
  cases op with
  | pool p auth c =>
    simp only [step, bind_ok, require_ok] at h
    obtain ⟨_, hp, _, ha, h⟩ := h
    by_cases e : p = q
    · subst e
      have hs : ∀ ps, w' = w.setPool p ps → False := fun ps e => by
        rw [e, balance_setPool] at hlt; omega
      cases c with
      | submit s sp d reqs => exact ⟨auth, s, sp, d, reqs, rfl⟩
      | «initialize» a o r m b l =>
        simp only [call, bind_ok, pure_ok] at h
        obtain ⟨_, _, _, _, rfl⟩ := h; exact (hs _ rfl).elim
      | setAdmin a =>
        simp only [call, bind_ok, pure_ok] at h
        obtain ⟨_, _, _, _, _, _, rfl⟩ := h; exact (hs _ rfl).elim
      | updatePool r m =>
        simp only [call, bind_ok, pure_ok] at h
        obtain ⟨_, _, _, _, rfl⟩ := h; exact (hs _ rfl).elim
      | queueSetReserve a c =>
        simp only [call, bind_ok, pure_ok] at h
        obtain ⟨_, _, _, _, rfl⟩ := h; exact (hs _ rfl).elim
      | cancelSetReserve a =>
        simp only [call, bind_ok, pure_ok] at h
        obtain ⟨_, _, rfl⟩ := h; exact (hs _ rfl).elim
      | setReserve a =>
        simp only [call, bind_ok, pure_ok] at h
        obtain ⟨_, _, rfl⟩ := h; exact (hs _ rfl).elim
      | badDebt u =>
        simp only [call, transferBadDebt, bind_ok, pure_ok, Prod.exists] at h
        obtain ⟨_, _, _, _, _, _, _, _, _, _, _, _, _, _, _, rfl⟩ := h; exact (hs _ rfl).elim
      | updateStatus =>
        simp only [call, updateStatus, bind_ok, pure_ok] at h
        obtain ⟨_, _, _, _, _, _, rfl⟩ := h; exact (hs _ rfl).elim
      | setStatus s =>
        simp only [call, setStatus, bind_ok, pure_ok] at h
        obtain ⟨_, _, _, _, _, _, _, _, rfl⟩ := h; exact (hs _ rfl).elim
      | gulpEmissions =>
        simp only [call, gulpEmissions, Backstop.gulpPoolEmissionsAuth, Backstop.gulpPoolEmissions, Backstop.inst, bind_ok,
          pure_ok, Prod.exists, Prod.mk.injEq, require_ok, unwrap_ok] at h
        obtain ⟨_, _, ⟨_, _, _, _, n, w1, ⟨_, _, _, _, i, _, al, _, w2, hap, _, rfl⟩, ps, _, rfl, rfl⟩, rfl⟩ := h
        obtain ⟨_, rfl⟩ := approve_res hap
        rw [balance_setPool] at hlt
        have := (setAllowance_res w i.blnd w.backstopAddr p al (w.seq + Backstop.LEDGER_BUMP_USER)).2.1 t p
        exact absurd (lt_of_lt_of_eq hlt this.symm) (lt_irrefl _)
      | setEmissionsConfig l =>
        simp only [call, bind_ok, pure_ok] at h
        obtain ⟨_, _, _, _, rfl⟩ := h; exact (hs _ rfl).elim
      | claim sender ids dst =>
        simp only [call, executeClaim, bind_ok, pure_ok, Prod.exists, ite_ok, Prod.mk.injEq] at h
        obtain ⟨_, _, n, w1, ⟨n1, ps1, _, h⟩, rfl⟩ := h
        rcases h with ⟨hpos, i, hi, w2, ht, _, rfl⟩ | ⟨_, _, rfl⟩
        · have r := transferFrom_res ht
          by_cases ho : i.backstop = p
          · have := r.allowed
            rw [ho] at this
            have e0 : (w.setPool p ps1).allowance i.blnd p p = 0 := by
              show w.allowance i.blnd p p = 0
              unfold World.allowance
              rw [hb.pool_allow hp]; simp
            omega
          · rw [r.bal] at hlt
            unfold moved at hlt
            rw [if_neg (c := t = i.blnd ∧ p = i.backstop) fun e => ho e.2.symm, balance_setPool] at hlt
            split at hlt <;> omega
        · exact (hs _ rfl).elim
      | newLiquidation u n =>
        simp only [call, createLiquidation, bind_ok, pure_ok, Prod.exists] at h
        obtain ⟨_, _, _, _, _, _, _, rfl⟩ := h; exact (hs _ rfl).elim
      | newBadDebt =>
        simp only [call] at h
        obtain ⟨_, _, rfl⟩ := badDebtAuction_micros (U := fun _ => True) h
        exact (hs _ rfl).elim
      | newInterest l =>
        simp only [call] at h
        obtain ⟨_, _, rfl⟩ := interestAuction_micros (U := fun _ => True) h
        exact (hs _ rfl).elim
    · have := ((pool_step hb hp ha h).2.1).bal t q fun e' => by
        rcases e' with e' | e' | e'
        · exact e e'.symm
        · exact hne e'
        · exact e' hpr
      omega
  | backstop auth c =>
    simp only [step, bind_ok, require_ok] at h
    obtain ⟨_, ha, h⟩ := h
    have := (Backstop.call_wf_auth h).1.bal t q fun e => e.elim hne fun hm => ha q hm hpr
    omega
  | emitter auth c =>
    simp only [step, bind_ok, require_ok] at h
    obtain ⟨_, _, h⟩ := h
    have := (Emitter.call_wf (L := fun _ => False) (A := fun _ => False) h).1.bal t q id
    omega
  | factory auth c =>
    simp only [step, bind_ok, require_ok] at h
    obtain ⟨_, _, h⟩ := h
    cases c with
    | «initialize» m =>
      simp only [factoryCall, Factory.init, bind_ok, pure_ok] at h
      obtain ⟨_, _, rfl⟩ := h; exact absurd hlt (lt_irrefl _)
    | deploy a s o r n =>
      simp only [factoryCall, Factory.deploy, bind_ok, pure_ok, Prod.exists, Prod.mk.injEq] at h
      obtain ⟨_, _, ⟨_, _, _, _, _, _, _, _, _, _, _, _, w1, hc, rfl, rfl⟩, rfl⟩ := h
      simp only [Pool.call, executeInit, bind_ok, pure_ok] at hc
      obtain ⟨_, _, _, _, rfl⟩ := hc
      exact absurd hlt (lt_irrefl _)
  | ledger => cases h; exact absurd hlt (lt_irrefl _)
  | oracles => cases h; exact absurd hlt (lt_irrefl _)
  | comet =>
    simp only [step, bind_ok, pure_ok] at h
    obtain ⟨_, _, rfl⟩ := h; exact absurd hlt (lt_irrefl _)
  | tokenTransfer tk src dst amt =>
    simp only [step, bind_ok, require_ok] at h
    obtain ⟨_, hs, h⟩ := h
    have := (Kept.transfer (t := t) (x := q) (p := 0) (transfer_res h) fun e => hs (e ▸ hpr)).bal
    omega
  | tokenMint tk dst amt =>
    simp only [step, bind_ok] at h
    obtain ⟨_, _, h⟩ := h
    have r := mint_res h
    rw [r.bal] at hlt
    have := r.nonneg
    split at hlt <;> omega
  | tokenBurn tk src amt =>
    simp only [step, bind_ok, pure_ok, require_ok] at h
    obtain ⟨_, hs, _, _, rfl⟩ := h
    rw [balance_setBalance, if_neg (fun e : t = tk ∧ q = src => hs (e.2 ▸ hpr))] at hlt
    omega
  | tokenApprove tk o s a e =>
    simp only [step, bind_ok] at h
    obtain ⟨_, _, h⟩ := h
    obtain ⟨_, rfl⟩ := approve_res h
    rw [(setAllowance_res _ _ _ _ _ _).2.1] at hlt
    omega
  | _ => cases h; exact absurd hlt (lt_irrefl _)

/-- a second pool with a reserve, a supplier and a backstop depositor -/
def _root_.Blend.Demo.second : List Op := [
  .factory [Demo.alice] (.deploy Demo.alice 1 Demo.oracleA 2000000 3),
  .pool 101 [Demo.alice] (.queueSetReserve Demo.usdcA Demo.usdcCfg),
  .pool 101 [] (.setReserve Demo.usdcA),
  .pool 101 [Demo.alice] (.setStatus 3),
  .backstop [Demo.carol] (.deposit Demo.carol 101 7000),
  .pool 101 [Demo.alice] (.submit Demo.alice Demo.alice Demo.alice [⟨0, Demo.usdcA, 1000000⟩])]

/-- With two live pools that use the same token, a borrow takes tokens out of the first pool. -/
example : ∃ w w' op, Reachable w ∧ step w op = .ok w' ∧ op = .pool Demo.poolA [Demo.bob]
      (.submit Demo.bob Demo.bob Demo.bob [⟨2, Demo.xlmA, 1000000000000⟩, ⟨4, Demo.usdcA, 60000000000⟩]) ∧
    w.poolAddr Demo.poolA = true ∧ w'.balance Demo.usdcA Demo.poolA < w.balance Demo.usdcA Demo.poolA ∧
    ¬ Concerns w op 101 ∧ w.balance Demo.usdcA 101 = 1000000 ∧ (w.backstop.getPoolBal 101).tokens = 7000 := by
  obtain ⟨w, w', _, hr, hs, h⟩ := Demo.reach_step (ops := Demo.setup ++ Demo.trade.take 2 ++ Demo.second)
    (op := .pool Demo.poolA [Demo.bob]
      (.submit Demo.bob Demo.bob Demo.bob [⟨2, Demo.xlmA, 1000000000000⟩, ⟨4, Demo.usdcA, 60000000000⟩]))
    (f := fun w w' => decide (w.poolAddr Demo.poolA = true ∧ w'.balance Demo.usdcA Demo.poolA < w.balance Demo.usdcA Demo.poolA ∧
      w.balance Demo.usdcA 101 = 1000000 ∧ (w.backstop.getPoolBal 101).tokens = 7000)) (by decide +kernel)
  obtain ⟨h1, h2, h3, h4⟩ := of_decide_eq_true h
  refine ⟨w, w', _, hr, hs, rfl, h1, h2, ?_, h3, h4⟩
  rintro (⟨_, _, e⟩ | ⟨_, _, _, _, _, _, e, _⟩ | ⟨_, _, e⟩ | ⟨_, e⟩)
  · simp [Demo.poolA] at e
  · cases e
  · cases e
  · cases e

end Props
end Blend
