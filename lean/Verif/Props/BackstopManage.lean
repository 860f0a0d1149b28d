import Verif.Spec.BackstopManage
import Verif.Lemmas.BackstopLive
import Verif.Lemmas.BDeployed
/-
  C73: the backstop's administrative calls, and the calls that only a pool can make.
-/

namespace Blend
namespace Backstop
open Spec

theorem mulDivFloor_iff {x y z v : Int} (h0 : 0 ≤ x * y) (hz : 0 < z) :
    mulDivFloor x y z = .ok v ↔ x * y ≤ maxI128 ∧ IsFloor v (x * y) z := by
  constructor
  · intro h
    refine ⟨?_, isFloor_of_mulDiv h hz⟩
    have := (mulDivFloor_ok.1 h).1.2
    unfold maxI128; norm_num at this ⊢; exact this
  · rintro ⟨h1, h2⟩
    have e := fdiv_spec (a := x * y) hz
    have hv : v = Int.fdiv (x * y) z := h2.unique hz ⟨e.1, by linarith [e.2]⟩
    have hn : 0 ≤ v := h2.nonneg hz h0
    have hle : v ≤ x * y := by
      have := h2.1
      nlinarith
    unfold maxI128 at h1
    norm_num at h1
    refine mulDivFloor_ok.2 ⟨⟨by omega, h1⟩, by omega, ⟨by omega, by omega⟩, hv⟩

theorem loadPoolData_eq (w : World) (p : Address) : loadPoolData w p =
    (if (w.backstop.getPoolBal p).shares > 0 then
      fixedDivCeil (w.backstop.getPoolBal p).q4w (w.backstop.getPoolBal p).shares SCALAR_7 else pure 0) >>= fun q => (do
    let v ← unwrap w.backstop.lpVal
    let blnd ← fixedMulFloor (w.backstop.getPoolBal p).tokens v.1 SCALAR_7
    let usdc ← fixedMulFloor (w.backstop.getPoolBal p).tokens v.2 SCALAR_7
    pure ⟨(w.backstop.getPoolBal p).tokens, q, blnd, usdc⟩) := by
  unfold loadPoolData
  dsimp only
  split <;> rfl

/-- the valuation of a pool's backstop succeeds when its numbers are in range -/
theorem loadPoolData_iff {w : World} {p : Address} (lp : LpOk w) (inv : BInv w.time w.backstop) :
    (∃ pd, loadPoolData w p = .ok pd) ↔ w.backstop.lpVal ≠ none ∧ ValuationFits w p := by
  have hS : (0 : Int) < SCALAR_7 := by norm_num [SCALAR_7]
  have hq : (∃ x, (if (w.backstop.getPoolBal p).shares > 0 then
      fixedDivCeil (w.backstop.getPoolBal p).q4w (w.backstop.getPoolBal p).shares SCALAR_7 else pure 0) = .ok x) ↔
      (w.backstop.getPoolBal p).q4w * ONE7 ≤ maxI128 := by
    obtain ⟨n1, n2⟩ := inv.shares_nonneg p
    split
    · rename_i hs
      unfold fixedDivCeil
      constructor
      · rintro ⟨x, h⟩
        have := (mulDivCeil_ok.1 h).1.2
        unfold maxI128; norm_num at this ⊢; exact this
      · intro h
        have hc : (w.backstop.getPoolBal p).q4w * SCALAR_7 ≤ maxI128 := h
        have n3 : 0 ≤ (w.backstop.getPoolBal p).q4w * SCALAR_7 := mul_nonneg n1 hS.le
        have e := fdiv_spec (a := -((w.backstop.getPoolBal p).q4w * SCALAR_7)) hs
        refine ⟨_, mulDivCeil_ok.2 ⟨⟨by omega, ?_⟩, by omega, ⟨?_, ?_⟩, rfl⟩⟩
        · unfold maxI128 at hc; norm_num at hc; exact hc
        · nlinarith
        · unfold maxI128 at hc; norm_num at hc
          have : -(Int.fdiv (-((w.backstop.getPoolBal p).q4w * SCALAR_7)) (w.backstop.getPoolBal p).shares) ≤
              (w.backstop.getPoolBal p).q4w * SCALAR_7 := by
            by_contra hlt
            push Not at hlt
            nlinarith
          exact this.trans hc
    · rename_i hs
      refine ⟨fun _ => ?_, fun _ => ⟨0, rfl⟩⟩
      have : (w.backstop.getPoolBal p).q4w = 0 := by
        have := n2
        omega
      rw [this]; unfold maxI128; norm_num
  constructor
  · rintro ⟨pd, h⟩
    rw [loadPoolData_eq] at h
    simp only [bind_ok, Prod.exists, unwrap_ok] at h
    obtain ⟨x, hx, vb, vu, hv, b, hb, u, hu, _⟩ := h
    obtain ⟨n1, n2⟩ := lp.val vb vu hv
    have hb := ((mulDivFloor_iff (mul_nonneg (inv.pool p) n1) hS).1 hb).1
    have hu := ((mulDivFloor_iff (mul_nonneg (inv.pool p) n2) hS).1 hu).1
    refine ⟨by rw [hv]; simp, ⟨fun vb' vu' h' => ?_, hq.1 ⟨x, hx⟩⟩⟩
    rw [hv] at h'; cases h'
    exact ⟨hb, hu⟩
  · rintro ⟨h1, h2, h3⟩
    obtain ⟨⟨vb, vu⟩, hv⟩ := Option.ne_none_iff_exists'.1 h1
    obtain ⟨n1, n2⟩ := lp.val vb vu hv
    obtain ⟨k1, k2⟩ := h2 vb vu hv
    obtain ⟨x, hx⟩ := hq.2 h3
    have fl : ∀ a : Int, IsFloor (Int.fdiv a SCALAR_7) a SCALAR_7 := fun a => by
      have := fdiv_spec (a := a) hS
      exact ⟨this.1, by linarith [this.2]⟩
    rw [loadPoolData_eq]
    simp only [bind_ok, Prod.exists, unwrap_ok, pure_ok]
    exact ⟨_, x, hx, vb, vu, hv, _, (mulDivFloor_iff (mul_nonneg (inv.pool p) n1) hS).2 ⟨k1, fl _⟩, _,
      (mulDivFloor_iff (mul_nonneg (inv.pool p) n2) hS).2 ⟨k2, fl _⟩, rfl⟩

end Backstop

namespace Props
open Backstop Spec

/-- **C73.** The backstop's administrative calls are accepted exactly when they are in order, whoever makes them, and change nothing but
what the plan says. -/
theorem C73_manage {w w' : World} {auth : List Address} {c : BackstopCall} (hr : Reachable w) (hauth : ∀ a ∈ auth, ¬ w.isProtocol a)
    (hc : BackstopManageCall c) :
    step w (.backstop auth c) = .ok w' ↔ ∃ b, BackstopManagePlan w c b ∧ w' = { w with backstop := b } := by
  have hstep : step w (.backstop auth c) = .ok w' ↔ backstopCall w auth c = .ok w' := by
    simp only [step, bind_ok, require_ok]
    exact ⟨fun ⟨_, _, h⟩ => h, fun h => ⟨(), hauth, h⟩⟩
  rw [hstep]
  cases c with
  | «initialize» t e u b f l =>
    simp only [backstopCall, init, Emitter.getLastDistro, bind_ok, pure_ok, require_ok, unwrap_ok]
    constructor
    · rintro ⟨_, hn, _, rfl, last, hl, rfl⟩
      exact ⟨_, .init hn hl, rfl⟩
    · rintro ⟨b, h, rfl⟩
      cases h with
      | init hn hl => exact ⟨(), hn, (), rfl, _, hl, rfl⟩
  | updateTknVal =>
    have hS : (0 : Int) < ONE7 := by norm_num [ONE7]
    have hn := hr.lpOk.shares
    simp only [backstopCall, updateTknVal, inst, bind_ok, pure_ok, unwrap_ok]
    constructor
    · rintro ⟨i, hi, vb, hb, vu, hu, rfl⟩
      have hz : 0 < w.cometShares := by
        have := (mulDivFloor_ok.1 hb).2.1
        omega
      have hb := (mulDivFloor_iff (mul_nonneg (hr.base.balances _ _) hS.le) hz).1 hb
      have hu := (mulDivFloor_iff (mul_nonneg (hr.base.balances _ _) hS.le) hz).1 hu
      exact ⟨_, .value hi hz hb.1 hu.1 hb.2 hu.2, rfl⟩
    · rintro ⟨b, h, rfl⟩
      cases h with
      | @value i vb vu hi hz k1 k2 f1 f2 =>
        exact ⟨i, hi, vb, (mulDivFloor_iff (mul_nonneg (hr.base.balances _ _) hS.le) hz).2 ⟨k1, f1⟩, vu,
          (mulDivFloor_iff (mul_nonneg (hr.base.balances _ _) hS.le) hz).2 ⟨k2, f2⟩, rfl⟩
  | addReward a r =>
    obtain ⟨nd, le⟩ := C36_reward_zone hr
    constructor
    · intro h
      have res := addReward_res h
      obtain ⟨pd, hpd, hab⟩ := res.above
      have hat := (above_iff hr.lpOk hr.ball.inv hpd).1 hab
      have hv := ((loadPoolData_iff hr.lpOk hr.ball.inv).1 ⟨pd, hpd⟩).2
      rcases res.ex with ⟨hl, rfl⟩ | ⟨hl, hr', ht, htk, rfl⟩
      · rw [maxRzLen_eq] at hl
        exact ⟨_, .room res.new hat hv hl, rfl⟩
      · have hfull : w.backstop.rewardZone.length = rewardZoneMax w.time := by
          rw [maxRzLen_eq] at hl; omega
        have h86 : 86400 ≤ w.time := by
          simp only [backstopCall, addReward, bind_ok, pure_ok, ite_ok, require_ok] at h
          rcases h with ⟨_, _, _, _, _, _, ⟨hlt, _⟩ | ⟨_, _, _, lim, hlim, _⟩⟩
          · rw [maxRzLen_eq] at hlt; omega
          · unfold subU at hlim
            split at hlim
            · omega
            · cases hlim
        refine ⟨_, .replace res.new hat hv hfull hr' htk h86 (by omega), ?_⟩
        rw [replaceFirst_map r a nd]; rfl
    · rintro ⟨b, h, rfl⟩
      have hld : ∀ {hat : BackstopAtLeast w a 1 1} {hv : ValuationFits w a}, ∃ pd, loadPoolData w a = .ok pd ∧ poolAboveThreshold pd = true := by
        intro hat hv
        have hne : w.backstop.lpVal ≠ none := by
          obtain ⟨_, _, ⟨_, _, _, _, h, _⟩, _⟩ := hat
          rw [h]; simp
        obtain ⟨pd, hpd⟩ := (loadPoolData_iff hr.lpOk hr.ball.inv).2 ⟨hne, hv⟩
        exact ⟨pd, hpd, (above_iff hr.lpOk hr.ball.inv hpd).2 hat⟩
      cases h with
      | room hn hat hv hl =>
        obtain ⟨pd, hpd, hab⟩ := hld (hat := hat) (hv := hv)
        simp only [backstopCall, addReward, bind_ok, require_ok]
        refine ⟨(), hn, pd, hpd, (), hab, ?_⟩
        rw [if_pos (by rw [maxRzLen_eq]; exact hl)]; rfl
      | replace hn hat hv hl hr' htk h1 h2 =>
        obtain ⟨pd, hpd, hab⟩ := hld (hat := hat) (hv := hv)
        simp only [backstopCall, addReward, bind_ok, require_ok]
        refine ⟨(), hn, pd, hpd, (), hab, ?_⟩
        rw [if_neg (by rw [maxRzLen_eq]; omega), ← replaceFirst_map r a nd]
        simp only [bind_ok, require_ok, pure_ok]
        refine ⟨(), hr', w.time - 24 * 60 * 60, ?_, (), by omega, (), ?_, _, rfl, rfl⟩
        · unfold subU; rw [if_pos (by omega)]
        · rw [loadPoolData_tokens hpd]; omega
  | _ => exact hc.elim

/-- **C73.** Nobody can call `draw`, `donate` or `gulp_pool_emissions` in the place of a pool: such calls are rejected, but for a draw of
nothing by an account that is not a pool, which changes no balance. -/
theorem C73_direct {w w' : World} {auth : List Address} {c : BackstopCall} (hr : Reachable w)
    (h : step w (.backstop auth c) = .ok w') :
    (∀ p, c ≠ .gulpPoolEmissions p) ∧ (∀ s p a, c ≠ .donate s p a) ∧
    ∀ p a d, c = .draw p a d → a = 0 ∧ w.poolAddr p = false ∧ (∀ t x, w'.balance t x = w.balance t x) ∧
      (∀ q, w'.backstop.getPoolBal q = w.backstop.getPoolBal q) ∧
      w' = { w with tok := w'.tok, backstop := { w.backstop with poolBal := w'.backstop.poolBal } } := by
  simp only [step, bind_ok, require_ok] at h
  obtain ⟨_, ha, h⟩ := h
  have np : ∀ p ∈ auth, w.poolAddr p = false ∧ ¬ Known w.backstop p := by
    intro p hp
    have h1 : w.poolAddr p = false := by
      cases e : w.poolAddr p with
      | false => rfl
      | true => exact absurd (.inr (.inr (.inr e))) (ha p hp)
    refine ⟨h1, fun hk => ?_⟩
    have := (hr.dep.pool p (hr.dep.known p hk)).1
    rw [h1] at this; cases this
  refine ⟨?_, ?_, ?_⟩
  · rintro p rfl
    simp only [backstopCall, gulpPoolEmissionsAuth, gulpPoolEmissions, requireAuth_ok, bind_ok, require_ok, Prod.exists] at h
    obtain ⟨_, _, ⟨_, hp, _, he, _⟩, _⟩ := h
    exact (np p hp).2 (.inr (.inr (.inr (.inr he))))
  · rintro s p a rfl
    simp only [backstopCall, donate, executeDonate, requireNonneg, requireIsFromFactory, requireAuth_ok, bind_ok, require_ok, ite_ok] at h
    obtain ⟨_, _, _, hp, _, _, _, _, _, hf, _⟩ := h
    have hk := (np p hp).2
    unfold Known at hk
    push Not at hk
    rcases hf with ⟨_, _, _, _, _, hd⟩ | ⟨hn, _⟩
    · have := (hr.dep.pool p hd).1
      rw [(np p hp).1] at this; cases this
    · exact hn hk.1
  · rintro p a d rfl
    cases call_cases hr.ball.inv h with
    | draw hp r =>
      have hk := (np p hp).2
      unfold Known at hk
      push Not at hk
      have h0 : a = 0 := by
        have := r.nonneg; have := r.le; omega
      subst h0
      obtain ⟨i, hi, t⟩ := r.ex
      refine ⟨rfl, (np p hp).1, fun t' x => ?_, fun q => ?_, ?_⟩
      · rw [t.bal]; unfold moved; simp; rfl
      · have := congrArg World.backstop t.frame
        rw [this]
        show (w.backstop.setPoolBal p _).getPoolBal q = _
        rw [getPoolBal_setPoolBal]
        split
        · rename_i e; subst e; simp
        · rfl
      · have := t.frame
        rw [this]
        rfl

/-- the setup, the value of the LP token and the reward zone of the demo -/
example : ∃ w w', Reachable w ∧ step w (.backstop [] (.addReward Demo.poolA Demo.poolA)) = .ok w' ∧
    ∃ b, BackstopManagePlan w (.addReward Demo.poolA Demo.poolA) b ∧ b.rewardZone = [Demo.poolA] := by
  obtain ⟨w, w', _, hr, hs, h⟩ := Demo.reach_step (ops := Demo.setup)
    (op := .backstop [] (.addReward Demo.poolA Demo.poolA))
    (f := fun _ w' => decide (w'.backstop.rewardZone = [Demo.poolA])) (by decide +kernel)
  obtain ⟨b, hb, rfl⟩ := (C73_manage (auth := []) hr (by simp) (show BackstopManageCall (BackstopCall.addReward Demo.poolA Demo.poolA) from trivial)).1 hs
  exact ⟨w, _, hr, hs, b, hb, by simpa using h⟩

/-- a full zone -/
example : ∃ w w', Reachable w ∧ step w (.backstop [] (.addReward 110 103)) = .ok w' ∧
    w.backstop.rewardZone.length = rewardZoneMax w.time ∧ ∃ b, BackstopManagePlan w (.addReward 110 103) b := by
  obtain ⟨w, w', _, hr, hs, h⟩ := Demo.reach_step (ops := Demo.fullZone) (op := .backstop [] (.addReward 110 103))
    (f := fun w _ => decide (w.backstop.rewardZone.length = rewardZoneMax w.time)) (by decide +kernel)
  obtain ⟨b, hb, rfl⟩ := (C73_manage (auth := []) hr (by simp) (show BackstopManageCall (BackstopCall.addReward 110 103) from trivial)).1 hs
  exact ⟨w, _, hr, hs, by simpa using h, b, hb⟩

/-- the value of the LP token: anybody can update it -/
example : ∃ w w', Reachable w ∧ step w (.backstop [] .updateTknVal) = .ok w' ∧ ∃ b, BackstopManagePlan w .updateTknVal b := by
  obtain ⟨w, w', _, hr, hs, h⟩ := Demo.reach_step (ops := Demo.setup) (op := .backstop [] .updateTknVal)
    (f := fun _ _ => true) (by decide +kernel)
  obtain ⟨b, hb, rfl⟩ := (C73_manage (auth := []) hr (by simp) (show BackstopManageCall (BackstopCall.updateTknVal) from trivial)).1 hs
  exact ⟨w, _, hr, hs, b, hb⟩

/-- a draw of nothing by an account is accepted -/
example : ∃ w w', Reachable w ∧ step w (.backstop [Demo.alice] (.draw Demo.alice 0 Demo.bob)) = .ok w' ∧ w.poolAddr Demo.alice = false := by
  obtain ⟨w, w', _, hr, hs, h⟩ := Demo.reach_step (ops := Demo.setup) (op := .backstop [Demo.alice] (.draw Demo.alice 0 Demo.bob))
    (f := fun _ _ => true) (by decide +kernel)
  exact ⟨w, w', hr, hs, ((C73_direct hr hs).2.2 _ _ _ rfl).2.1⟩

end Props
end Blend
