import Verif.Props.Entitlements
import Verif.Props.BackstopClaims
import Verif.Lemmas.BFields
import Verif.Lemmas.EmitterInv
import Verif.Lemmas.PoolFund
/-
  C26, C38: the totals that the emission bounds speak about, `claimed` and `received` of the model, which no contract stores, are
  what was observably paid and allotted.

  A pool's `claimed id` starts at 0 and changes only when someone claims there, then by exactly the BLND that the claim pays; its `received id`
  starts at 0 and changes only when the pool gulps emissions (`C71` says by how much). The same for the backstop's totals (`C37` says
  by how much a gulp allots).
-/

namespace Blend
namespace Backstop

/-- what was paid to the depositors changes only by a claim -/
theorem step_bclaimed {w w' : World} {op : Op} (hr : Reachable w) (h : step w op = .ok w')
    (hop : ∀ auth s ps d, op ≠ .backstop auth (.claim s ps d)) : w'.backstop.claimed = w.backstop.claimed := by
  have ba := hr.ball
  have same : ∀ {b1 : BackstopState} {p s : Address} {pb : PoolBalance} {ub : UserBalance},
      SameBals w.backstop b1 → w'.backstop = setBal b1 p s pb ub → w'.backstop.claimed = w.backstop.claimed := by
    intro b1 p s pb ub hs hw
    unfold SameBals at hs
    rw [hw]
    show b1.claimed = _; rw [hs]
  rcases step_other h with ⟨p, auth, c, rfl, e⟩ | ⟨auth, c, rfl, hc⟩ | e | e
  · exact e.claimed
  · cases call_cases ba.inv hc with
    | @deposit s p a m r =>
      obtain ⟨x, b1, i, w2, hu, _, _, hw⟩ := r.ex
      exact same (emis_same hu) (congrArg World.backstop hw)
    | @queue s p a r =>
      obtain ⟨x, b1, hu, hw⟩ := r.ex
      exact same (emis_same hu) (congrArg World.backstop hw)
    | @dequeue s p a r =>
      obtain ⟨x, b1, q', hu, hd, hw⟩ := r.ex
      exact same (emis_same hu) (congrArg World.backstop hw)
    | @withdraw s p a tk r =>
      obtain ⟨q', i, hi, hd, hw, _⟩ := r.ex
      exact same (b1 := w.backstop) rfl hw
    | @claim s ps d r => exact absurd rfl (hop auth s ps d)
    | @draw p a d hp r =>
      obtain ⟨i, hi, t⟩ := r.ex
      have hw := congrArg World.backstop t.frame
      rw [hw]; rfl
    | @donate s p a hs hp r =>
      obtain ⟨i, w1, hi, t, hw⟩ := r.ex
      have hw := congrArg World.backstop hw
      rw [hw]; rfl
    | @reward a r' r => rcases r.ex with ⟨_, rfl⟩ | ⟨_, _, _, _, rfl⟩ <;> rfl
    | gulp hne hb hq' => rw [hb]
    | init hn hb => rw [hb]
    | @gulpPool p hp hb => rw [hb]
    | lpVal hb => rw [hb]
    | drop hb => rw [hb]
  · rw [e]
  · rw [e]

/-- before the backstop is set up it has no emission schedules -/
theorem no_schedules {w : World} (hr : Reachable w) (hn : w.backstop.inst = none) (p : Address) : w.backstop.emisCfg p = none := by
  obtain ⟨w0, hg, hst⟩ := hr
  induction hst with
  | refl => rw [hg.backstop]
  | @tail a b h1 h2 ih =>
    obtain ⟨op, hs⟩ := h2
    have hra : Reachable a := ⟨w0, hg, h1⟩
    have hna : a.backstop.inst = none := by
      cases hi : a.backstop.inst with
      | none => rfl
      | some j =>
        have := Backstop.inst_keep hra (.tail (.refl _) ⟨op, hs⟩) hi
        rw [hn] at this; cases this
    by_cases hop : ∀ auth, op ≠ .backstop auth .gulpEmissions
    · rw [(Props.C37_only_gulp hra hs hop p).2.1]; exact ih hna
    · push Not at hop
      obtain ⟨auth, rfl⟩ := hop
      simp only [step, bind_ok, require_ok] at hs
      obtain ⟨_, _, h⟩ := hs
      simp only [backstopCall, gulpEmissions, bind_ok, require_ok, inst, unwrap_ok, Prod.exists] at h
      obtain ⟨_, _, ⟨_, _, i, hi, _⟩, _⟩ := h
      rw [hna] at hi; cases hi

end Backstop

namespace Props
open Spec Demo

/-- **C26** What a pool counts as paid and as received. Both counts start at 0. A successful operation leaves the count of what was
paid as it is, or it is a claim at this pool: then the count of each reserve token grows by some amount, 0 for tokens that are not
named, and the sum of these amounts is the BLND that leaves the backstop for the receiver, with no other balance of any token changing. The count of
what was received changes only when the pool gulps emissions. -/
theorem C26_counts :
    (∀ w, Genesis w → ∀ p id, (w.pools p).claimed id = 0 ∧ (w.pools p).received id = 0) ∧
    ∀ {w w' : World} {op : Op} (_ : Reachable w) (_ : step w op = .ok w') (p : Address),
      ((w'.pools p).claimed = (w.pools p).claimed ∨
        ∃ auth u ids dst, op = .pool p auth (.claim u ids dst) ∧
          (∀ id, (w.pools p).claimed id ≤ (w'.pools p).claimed id) ∧
          (∀ id, id ∉ ids → (w'.pools p).claimed id = (w.pools p).claimed id) ∧
          ∀ i, (w.pools p).inst = some i → ∀ t x, w'.balance t x = w.balance t x +
            ((if t = i.blnd ∧ x = dst then ∑ id ∈ ids.toFinset, ((w'.pools p).claimed id - (w.pools p).claimed id) else 0) -
             (if t = i.blnd ∧ x = i.backstop then ∑ id ∈ ids.toFinset, ((w'.pools p).claimed id - (w.pools p).claimed id) else 0))) ∧
      ((w'.pools p).received = (w.pools p).received ∨ ∃ auth, op = .pool p auth .gulpEmissions) := by
  refine ⟨fun w hg p id => ?_, fun {w w' op} hr hs p => ⟨?_, ?_⟩⟩
  · rw [hg.pools]; exact ⟨rfl, rfl⟩
  · by_cases hop : ∀ auth s l d, op ≠ .pool p auth (.claim s l d)
    · exact .inl (step_claimed hr hs hop)
    · push Not at hop
      obtain ⟨auth, u, ids, dst, rfl⟩ := hop
      refine .inr ⟨auth, u, ids, dst, rfl, ?_⟩
      have hp : w.poolAddr p = true := by
        simp only [step, bind_ok, require_ok] at hs
        obtain ⟨_, hp, _⟩ := hs
        exact hp
      have mono := fun id => Pool.micros_claimed (hr.base.cfg p) (hr.einv hp)
        (((step_res hr.base hs).micros p hp).mono (U' := fun _ => True) fun _ _ => trivial) id
      refine ⟨fun id => mono id, fun id hid => ?_, fun i hi t x => ?_⟩
      · simp only [step, bind_ok, require_ok] at hs
        obtain ⟨_, _, _, _, h⟩ := hs
        simp only [Pool.call, Pool.executeClaim, bind_ok, requireAuth_ok, Prod.exists, pure_ok] at h
        obtain ⟨_, _, n1, w1, ⟨n, ps', hl, h⟩, rfl⟩ := h
        have L := Pool.claimLoop_exact _ _ _ _ _ hl
        have hpools : w1.pools p = ps' := by
          simp only [ite_ok, bind_ok, pure_ok, Prod.mk.injEq] at h
          rcases h with ⟨_, j, hj, w2, ht, rfl, rfl⟩ | ⟨_, rfl, rfl⟩
          · rw [(transferFrom_res ht).frame, pools_setPool]
          · rw [pools_setPool]
        rw [hpools]
        exact (L.other id (.inl hid)).2.2
      · obtain ⟨paid, k1, _, _, k4⟩ := C50_claim_exact hr hi hs
        have : ∑ id ∈ ids.toFinset, ((w'.pools p).claimed id - (w.pools p).claimed id) = ∑ id ∈ ids.toFinset, paid id :=
          Finset.sum_congr rfl fun id hid => by rw [k1, if_pos (by simpa using hid)]; omega
        rw [this]
        exact k4 t x
  · by_cases hop : ∀ auth, op ≠ .pool p auth .gulpEmissions
    · exact .inl (step_received hr hs hop)
    · push Not at hop
      exact .inr hop

/-- **C38** What the backstop counts as paid to, and as allotted to, the depositors of a pool. Both counts start at 0. A successful
operation leaves the count of what was paid as it is, or it is a claim at the backstop: then the count of each pool grows by some amount, 0 for
pools that are not named, and the sum of these amounts is the BLND that leaves the backstop, for the LP token contract. The count of what was
allotted changes only when the backstop gulps emissions. -/
theorem C38_counts :
    (∀ w, Genesis w → ∀ p, w.backstop.claimed p = 0 ∧ w.backstop.received p = 0) ∧
    ∀ {w w' : World} {op : Op} (_ : Reachable w) (_ : step w op = .ok w'),
      (w'.backstop.claimed = w.backstop.claimed ∨
        ∃ auth s pools dst, op = .backstop auth (.claim s pools dst) ∧
          (∀ p, w.backstop.claimed p ≤ w'.backstop.claimed p) ∧
          (∀ p, p ∉ pools → w'.backstop.claimed p = w.backstop.claimed p) ∧
          ∀ i, w.backstop.inst = some i → i.backstopToken ≠ i.blnd → ∀ x, w'.balance i.blnd x = w.balance i.blnd x +
            ((if x = i.backstopToken then ∑ p ∈ pools.toFinset, (w'.backstop.claimed p - w.backstop.claimed p) else 0) -
             (if x = w.backstopAddr then ∑ p ∈ pools.toFinset, (w'.backstop.claimed p - w.backstop.claimed p) else 0))) ∧
      (w'.backstop.received = w.backstop.received ∨ ∃ auth, op = .backstop auth .gulpEmissions) := by
  refine ⟨fun w hg p => ?_, fun {w w' op} hr hs => ⟨?_, ?_⟩⟩
  · rw [hg.backstop]; exact ⟨rfl, rfl⟩
  · by_cases hop : ∀ auth s l d, op ≠ .backstop auth (.claim s l d)
    · exact .inl (Backstop.step_bclaimed hr hs hop)
    · push Not at hop
      obtain ⟨auth, s, pools, dst, rfl⟩ := hop
      cases hi : w.backstop.inst with
      | none =>
        left
        simp only [step, bind_ok, require_ok] at hs
        obtain ⟨_, _, h⟩ := hs
        simp only [backstopCall, Backstop.claim, Backstop.executeClaim, bind_ok, pure_ok, Prod.exists, ite_ok, Prod.mk.injEq,
          requireAuth_ok, Backstop.inst, unwrap_ok] at h
        obtain ⟨_, w1, ⟨_, hm, _, _, n, cl, b1, hl, h⟩, rfl⟩ := h
        have L := Backstop.bclaimLoop_exact _ _ _ _ _ _ _ hl
        have hb1 := L.same
        have hcl : b1.claimed = w.backstop.claimed := funext fun p => (L.other p (.inr (Backstop.no_schedules hr hi p))).2.2
        rcases h with ⟨_, i', hi', _⟩ | ⟨_, _, rfl⟩
        · have : b1.inst = some i' := hi'
          rw [hb1] at this
          rw [hi] at this; cases this
        · exact hcl
      | some i =>
        obtain ⟨paid, n, k1, k2, k3, k4, k5, _, _, k8, k9⟩ := C51_claim_exact hr hi hs
        refine .inr ⟨auth, s, pools, dst, rfl, fun p => ?_, fun p hp => by rw [k3, if_neg hp, add_zero], fun i' hi' hne x => ?_⟩
        · rw [k3]
          split
          · rename_i hp
            cases hcf : w.backstop.emisCfg p with
            | none => rw [k4 p hp hcf]; omega
            | some cfg =>
              obtain ⟨ed, q1, _⟩ := hr.ball.inv.isSet p cfg hcf
              have := (k5 p hp cfg ed hcf q1).1
              omega
          · omega
        · obtain rfl : i = i' := by simpa using hi'
          have : ∑ p ∈ pools.toFinset, (w'.backstop.claimed p - w.backstop.claimed p) = n := by
            rw [k1]
            exact Finset.sum_congr rfl fun p hp => by rw [k3, if_pos (by simpa using hp)]; omega
          rw [this]
          rcases Int.lt_or_eq_of_le k2 with hn | rfl
          · rw [(k9 hn).2.1]
            simp [Ne.symm hne]
          · unfold World.balance
            rw [(k8 rfl).2.2]
            simp
  · by_cases hop : ∀ auth, op ≠ .backstop auth .gulpEmissions
    · exact .inl (funext fun p => (C37_only_gulp hr hs hop p).1)
    · push Not at hop
      exact .inr hop

/-- Both counts do change: bob's claim at the pool, and carol's at the backstop, pay something. -/
example : (∃ w w' auth u ids dst p i id, Reachable w ∧ (w.pools p).inst = some i ∧ i.backstop ≠ dst ∧
      step w (.pool p auth (.claim u ids dst)) = .ok w' ∧ (w.pools p).claimed id < (w'.pools p).claimed id) ∧
    ∃ w w' auth s pools dst p i, Reachable w ∧ w.backstop.inst = some i ∧ i.backstopToken ≠ i.blnd ∧
      step w (.backstop auth (.claim s pools dst)) = .ok w' ∧ w.backstop.claimed p < w'.backstop.claimed p := by
  constructor
  · obtain ⟨w, w', _, hr, hs, h⟩ := Demo.reach_step (ops := Demo.setup ++ Demo.trade ++ Demo.emissions)
      (op := .pool poolA [bob] (.claim bob [0, 1] bob))
      (f := fun w w' => Demo.optAnd (w.pools poolA).inst fun i => decide (i.backstop ≠ bob ∧
        (w.pools poolA).claimed 0 < (w'.pools poolA).claimed 0)) (by decide +kernel)
    simp only [decide_eq_true_eq, Demo.optAnd_iff] at h
    obtain ⟨i, h1, h2, h3⟩ := h
    exact ⟨w, w', _, _, _, _, _, i, 0, hr, h1, h2, hs, h3⟩
  · obtain ⟨w, w', _, hr, hs, h⟩ := Demo.reach_step (ops := Demo.setup ++ Demo.trade ++ Demo.emissions)
      (op := .backstop [carol] (.claim carol [poolA] carol))
      (f := fun w w' => Demo.optAnd w.backstop.inst fun i => decide (i.backstopToken ≠ i.blnd ∧
        w.backstop.claimed poolA < w'.backstop.claimed poolA)) (by decide +kernel)
    simp only [decide_eq_true_eq, Demo.optAnd_iff] at h
    obtain ⟨i, h1, h2, h3⟩ := h
    exact ⟨w, w', _, _, _, _, _, i, hr, h1, h2, hs, h3⟩

end Props
end Blend
