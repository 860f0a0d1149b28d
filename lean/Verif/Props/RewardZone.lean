import Verif.Lemmas.Threshold
import Verif.Lemmas.BStep
import Verif.Examples.Demo
/-
  C36: the backstop's reward zone.
-/

namespace Blend
namespace Spec

/-- The documented maximum size of the reward zone: 10 pools at the epoch (15 April 2024), one more every
2^23 seconds (about 97 days). -/
def rewardZoneMax (t : Nat) : Nat := 10 + (t - 1713139200) / 8388608

end Spec

namespace Backstop
open Spec

theorem maxRzLen_eq (t : Nat) : maxRzLen t = rewardZoneMax t := by
  unfold maxRzLen rewardZoneMax BACKSTOP_EPOCH
  split <;> omega

theorem rewardZoneMax_mono {t t' : Nat} (h : t ≤ t') : rewardZoneMax t ≤ rewardZoneMax t' := by
  unfold rewardZoneMax
  have := Nat.div_le_div_right (c := 8388608) (Nat.sub_le_sub_right h 1713139200)
  omega

theorem replaceFirst_length (l : List Address) (a b : Address) : (replaceFirst l a b).length = l.length := by
  induction l with
  | nil => rfl
  | cons x t ih => simp only [replaceFirst]; split <;> simp [ih]

theorem replaceFirst_map {l : List Address} (a b : Address) (h : l.Nodup) :
    replaceFirst l a b = l.map fun x => if x = a then b else x := by
  induction l with
  | nil => rfl
  | cons x t ih =>
    rw [List.nodup_cons] at h
    simp only [replaceFirst, List.map_cons]
    split
    · rename_i e
      congr 1
      rw [List.map_congr_left (g := id), List.map_id]
      intro y hy
      have : y ≠ a := by rintro rfl; rw [e] at h; exact h.1 hy
      simp [this]
    · rw [ih h.2]

theorem mem_replaceFirst {l : List Address} {a b x : Address} (h : x ∈ replaceFirst l a b) : x = b ∨ x ∈ l := by
  induction l with
  | nil => simp [replaceFirst] at h
  | cons y t ih =>
    simp only [replaceFirst] at h
    split at h
    · rcases List.mem_cons.1 h with h | h <;> simp [h]
    · rcases List.mem_cons.1 h with h | h
      · simp [h]
      · rcases ih h with h | h <;> simp [h]

theorem replaceFirst_nodup {l : List Address} {a b : Address} (h : l.Nodup) (hb : b ∉ l) : (replaceFirst l a b).Nodup := by
  induction l with
  | nil => exact .nil
  | cons y t ih =>
    rw [List.nodup_cons] at h
    simp only [List.mem_cons, not_or] at hb
    simp only [replaceFirst]
    split
    · exact List.nodup_cons.2 ⟨hb.2, h.2⟩
    · refine List.nodup_cons.2 ⟨fun hm => ?_, ih h.2 hb.2⟩
      rcases mem_replaceFirst hm with e | e
      · exact hb.1 e.symm
      · exact h.1 e

/-- the reward zone changes only by `add_reward` -/
theorem rewardZone_step {w w' : World} {op : Op} (ba : BAll w) (h : step w op = .ok w') :
    w'.backstop.rewardZone = w.backstop.rewardZone ∨
    ∃ auth a r, op = .backstop auth (.addReward a r) ∧ RewardRes w a r w' := by
  rcases step_other h with ⟨p, auth, c, rfl, e⟩ | ⟨auth, c, rfl, hc⟩ | e | e
  · exact .inl e.rewardZone
  · cases call_cases ba.inv hc with
    | @deposit s p a m r =>
      obtain ⟨x, b1, i, w2, hu, _, _, hw⟩ := r.ex
      have hw := congrArg World.backstop hw
      have hs := emis_same hu
      unfold SameBals at hs
      exact .inl (by rw [hw]; show b1.rewardZone = _; rw [hs])
    | @queue s p a r =>
      obtain ⟨x, b1, hu, hw⟩ := r.ex
      have hw := congrArg World.backstop hw
      have hs := emis_same hu
      unfold SameBals at hs
      exact .inl (by rw [hw]; show b1.rewardZone = _; rw [hs])
    | @dequeue s p a r =>
      obtain ⟨x, b1, q', hu, hd, hw⟩ := r.ex
      have hw := congrArg World.backstop hw
      have hs := emis_same hu
      unfold SameBals at hs
      exact .inl (by rw [hw]; show b1.rewardZone = _; rw [hs])
    | @withdraw s p a tk r =>
      obtain ⟨q', i, hi, hd, hw, _⟩ := r.ex
      exact .inl (by rw [hw]; rfl)
    | @claim s ps d r =>
      obtain ⟨b1, hb1, cr⟩ := r.ex
      exact .inl (by rw [cr.frame]; show b1.rewardZone = _; rw [hb1])
    | @draw p a d hp r =>
      obtain ⟨i, hi, t⟩ := r.ex
      have hw := congrArg World.backstop t.frame
      exact .inl (by rw [hw]; rfl)
    | @donate s p a hs hp r =>
      obtain ⟨i, w1, hi, t, hw⟩ := r.ex
      have hw := congrArg World.backstop hw
      exact .inl (by rw [hw]; rfl)
    | @reward a r' r => exact .inr ⟨auth, a, r', rfl, r⟩
    | gulp hne hb hq' => exact .inl (by rw [hb])
    | init hn hb => exact .inl (by rw [hb])
    | @gulpPool p hp hb => exact .inl (by rw [hb])
    | lpVal hb => exact .inl (by rw [hb])
    | drop hb => exact .inl (by rw [hb])
  · exact .inl (by rw [e])
  · exact .inl (by rw [e])

theorem step_time_le {w w' : World} {op : Op} (hb : Base w) (h : step w op = .ok w') : w.time ≤ w'.time := by
  by_cases e : ∃ dt ds, op = .ledger dt ds
  · obtain ⟨dt, ds, rfl⟩ := e
    simp only [step, pure_ok] at h
    subst h; exact Nat.le_add_right _ _
  · push Not at e
    exact ((step_frame hb h).time e).1.symm.le

end Backstop

namespace Props
open Backstop Spec

/-- **C36.** In every history the reward zone contains no pool twice and never has more entries than the
maximum at the current time. -/
theorem C36_reward_zone {w : World} (h : Reachable w) :
    w.backstop.rewardZone.Nodup ∧ w.backstop.rewardZone.length ≤ rewardZoneMax w.time := by
  obtain ⟨w0, hg, hs⟩ := h
  induction hs with
  | refl => rw [hg.backstop]; exact ⟨.nil, Nat.zero_le _⟩
  | tail hs hstep ih =>
    rename_i w1 w2
    obtain ⟨op, hop⟩ := hstep
    have hr : Reachable w1 := ⟨w0, hg, hs⟩
    have ht := rewardZoneMax_mono (step_time_le hr.ball.base hop)
    rcases rewardZone_step hr.ball hop with e | ⟨auth, a, r, rfl, res⟩
    · rw [e]; exact ⟨ih.1, by omega⟩
    · rcases res.ex with ⟨hl, rfl⟩ | ⟨hl, hr', _, _, rfl⟩
      · rw [maxRzLen_eq] at hl
        exact ⟨List.nodup_cons.2 ⟨res.new, ih.1⟩, by
          show (a :: w1.backstop.rewardZone).length ≤ _
          rw [List.length_cons]; exact Nat.lt_of_lt_of_le hl ht⟩
      · exact ⟨replaceFirst_nodup ih.1 res.new, by
          show (replaceFirst w1.backstop.rewardZone r a).length ≤ _
          rw [replaceFirst_length]; omega⟩

/-- **C36.** An operation that changes the reward zone is a call of `add_reward(a, r)` for a pool `a` of the
factory that is not in the zone and whose backstop reaches the minimum size. If the zone is not full, `a` is
put in front; if it is full, `a` takes the place of `r`, which is in the zone and has a smaller backstop, and
the last distribution is at most one day old. -/
theorem C36_changes {w w' : World} {op : Op} (h : Reachable w) (hs : step w op = .ok w')
    (hc : w'.backstop.rewardZone ≠ w.backstop.rewardZone) :
    ∃ auth a r, op = .backstop auth (.addReward a r) ∧ a ∉ w.backstop.rewardZone ∧ Factory.isPool w a = true ∧
      BackstopAtLeast w a 1 1 ∧
      ((w.backstop.rewardZone.length < rewardZoneMax w.time ∧
          w'.backstop.rewardZone = a :: w.backstop.rewardZone) ∨
        (w.backstop.rewardZone.length = rewardZoneMax w.time ∧ r ∈ w.backstop.rewardZone ∧
          (w.backstop.getPoolBal r).tokens < (w.backstop.getPoolBal a).tokens ∧
          w.time ≤ w.backstop.lastDistro + 86400 ∧
          w'.backstop.rewardZone = w.backstop.rewardZone.map fun x => if x = r then a else x)) := by
  rcases rewardZone_step h.ball hs with e | ⟨auth, a, r, rfl, res⟩
  · exact absurd e hc
  · obtain ⟨n, l⟩ := C36_reward_zone h
    obtain ⟨pd, hpd, hab⟩ := res.above
    have tk := threshold_tokens hpd hab
    refine ⟨auth, a, r, rfl, res.new, h.dep.known a (.inr (.inl (by omega))), (above_iff h.lpOk h.ball.inv hpd).1 hab, ?_⟩
    rcases res.ex with ⟨hl, rfl⟩ | ⟨hl, hr', ht, htk, rfl⟩
    · rw [maxRzLen_eq] at hl
      exact .inl ⟨hl, rfl⟩
    · rw [maxRzLen_eq] at hl
      exact .inr ⟨by omega, hr', htk, by omega, replaceFirst_map r a n⟩

/-- Completeness of C36: `add_reward` of a pool that meets the conditions succeeds when there is room. -/
theorem C36_add_succeeds {w : World} {a r : Address} {auth : List Address} {blnd usdc : Int} (h : Reachable w)
    (ha : ∀ x ∈ auth, ¬ w.isProtocol x) (hn : a ∉ w.backstop.rewardZone)
    (hl : w.backstop.rewardZone.length < rewardZoneMax w.time) (hld : ∃ pd, loadPoolData w a = .ok pd)
    (hu : Underlying w a blnd usdc) (hmin : 200000 ^ 5 ≤ blnd ^ 4 * usdc) :
    ∃ w', step w (.backstop auth (.addReward a r)) = .ok w' ∧
      w'.backstop.rewardZone = a :: w.backstop.rewardZone := by
  obtain ⟨pd, hpd⟩ := hld
  have hab := (above_iff h.lpOk h.ball.inv hpd).2 ⟨blnd, usdc, hu, by linarith⟩
  refine ⟨w.setBackstop { w.backstop with rewardZone := a :: w.backstop.rewardZone }, ?_, rfl⟩
  simp only [step, backstopCall, addReward, bind_ok, require_ok]
  refine ⟨(), ha, (), hn, pd, hpd, (), hab, ?_⟩
  rw [if_pos (by rw [maxRzLen_eq]; exact hl)]; rfl

/-- a pool of the demo enters the reward zone -/
example : ∃ w w', Reachable w ∧ step w (.backstop [] (.addReward Demo.poolA Demo.poolA)) = .ok w' ∧
    w.backstop.rewardZone = [] ∧ w'.backstop.rewardZone = [Demo.poolA] := by
  obtain ⟨w, w', _, hr, hs, h⟩ := Demo.reach_step (ops := Demo.setup)
    (op := .backstop [] (.addReward Demo.poolA Demo.poolA))
    (f := fun w w' => decide (w.backstop.rewardZone = []) && decide (w'.backstop.rewardZone = [Demo.poolA]))
    (by decide +kernel)
  exact ⟨w, w', hr, hs, by simpa using h⟩

/-- the demo with eleven pools; the first ten fill the reward zone -/
def _root_.Blend.Demo.fullZone : List Op := Demo.setup.take 3 ++ [.tokenMint Demo.lpA Demo.carol 20000000000000,
    .backstop [] .updateTknVal] ++
  (List.range 11).flatMap (fun n => [
    .factory [Demo.adminA] (.deploy Demo.adminA n Demo.oracleA 1000000 4),
    .backstop [Demo.carol] (.deposit Demo.carol (100 + n) (500000000000 + n))]) ++
  (List.range 10).map fun n => .backstop [] (.addReward (100 + n) 100)

/-- a full zone: the eleventh pool replaces a smaller one -/
example : ∃ w w', Reachable w ∧ step w (.backstop [] (.addReward 110 103)) = .ok w' ∧
    w.backstop.rewardZone.length = rewardZoneMax w.time ∧
    w'.backstop.rewardZone = [109, 108, 107, 106, 105, 104, 110, 102, 101, 100] := by
  obtain ⟨w, w', _, hr, hs, h⟩ := Demo.reach_step (ops := Demo.fullZone)
    (op := .backstop [] (.addReward 110 103))
    (f := fun w w' => decide (w.backstop.rewardZone.length = rewardZoneMax w.time) &&
      decide (w'.backstop.rewardZone = [109, 108, 107, 106, 105, 104, 110, 102, 101, 100]))
    (by decide +kernel)
  exact ⟨w, w', hr, hs, by simpa using h⟩

end Props
end Blend
