import Verif.Props.Admin
/-
  C12, continued: how often the permissionless status update has to be called.
-/

namespace Blend
namespace Props
open Spec Pool Demo

theorem queued_mono {w : World} {p : Address} {k l : Int} (h : QueuedAtLeast w p k) (hl : l ≤ k) : QueuedAtLeast w p l := by
  obtain ⟨h0, x, h1, h2⟩ := h
  exact ⟨h0, x, h1, by omega⟩

/-- an update leaves everything but the status alone -/
theorem update_frame {w w' : World} {p : Address} {auth : List Address} (h : step w (.pool p auth .updateStatus) = .ok w') :
    ∃ i s, (w.pools p).inst = some i ∧
      w' = w.setPool p { w.pools p with inst := some { i with config := { i.config with status := s } } } := by
  simp only [step, bind_ok, call, updateStatus, PoolState.getInst, pure_ok, unwrap_ok] at h
  obtain ⟨_, _, _, _, j, hj, d, hd, s, hs, rfl⟩ := h
  exact ⟨j, s, hj, rfl⟩

theorem setPool_same {w : World} {p : Address} {i : PoolInst} (hi : (w.pools p).inst = some i) :
    w.setPool p { w.pools p with inst := some { i with config := { i.config with status := i.config.status } } } = w := by
  have : ({ w.pools p with inst := some { i with config := { i.config with status := i.config.status } } } : PoolState) = w.pools p := by
    rw [← hi]
  rw [this]
  unfold World.setPool
  have : upd w.pools p (w.pools p) = w.pools := by
    funext q; unfold upd; split
    · rename_i h; rw [h]
    · rfl
  rw [this]

/-- **C12** A second update right after the first changes nothing, except that a pool set active by the admin (0), of whose backstop at least
60 percent is queued for withdrawal, goes on ice (3) with the first update and is frozen (5) with the second. -/
theorem C12_settles {w w1 w2 : World} {p : Address} {auth auth' : List Address} (hr : Reachable w)
    (h1 : step w (.pool p auth .updateStatus) = .ok w1) (h2 : step w1 (.pool p auth' .updateStatus) = .ok w2) :
    w2 = w1 ∨ ∃ i i1 i2, (w.pools p).inst = some i ∧ (w1.pools p).inst = some i1 ∧ (w2.pools p).inst = some i2 ∧
      i.config.status = 0 ∧ QueuedAtLeast w p 60 ∧ i1.config.status = 3 ∧ i2.config.status = 5 := by
  have hr1 := hr.step h1
  obtain ⟨i, s, hi, e1⟩ := update_frame h1
  obtain ⟨i1, s1, hi1, e2⟩ := update_frame h2
  obtain ⟨s', t1, k1⟩ := C12_update hr hi h1
  obtain ⟨s1', t2, k2⟩ := C12_update hr1 hi1 h2
  have b1 : w1.backstop = w.backstop := by rw [e1]; rfl
  have hs' : s' = s := by
    have := k1
    rw [e1] at this
    simp only [pools_setPool] at this
    have := congrArg PoolState.inst this
    simp only [Option.some.injEq, PoolInst.mk.injEq, PoolConfig.mk.injEq] at this
    tauto
  have hs1' : s1' = s1 := by
    have := k2
    rw [e2] at this
    simp only [pools_setPool] at this
    have := congrArg PoolState.inst this
    simp only [Option.some.injEq, PoolInst.mk.injEq, PoolConfig.mk.injEq] at this
    tauto
  subst hs' hs1'
  have hst : i1.config.status = s' := by
    rw [k1] at hi1; cases hi1; rfl
  have hq : ∀ k, QueuedAtLeast w1 p k ↔ QueuedAtLeast w p k := fun k => by unfold QueuedAtLeast; rw [b1]
  have hm : BackstopAtLeast w1 p 1 1 ↔ BackstopAtLeast w p 1 1 := by unfold BackstopAtLeast Underlying; rw [b1]
  by_cases hsame : s1' = i1.config.status
  · left
    rw [e2, hsame, setPool_same hi1]
  · right
    refine ⟨i, i1, _, hi, hi1, by rw [k2], ?_⟩
    simp only
    rw [hst] at t2 hsame
    rw [show QueuedAtLeast w1 p = QueuedAtLeast w p from funext fun k => propext (hq k), show BackstopAtLeast w1 p 1 1 = BackstopAtLeast w p 1 1 from propext hm] at t2
    have m60 : QueuedAtLeast w p 75 → QueuedAtLeast w p 60 := fun h => queued_mono h (by norm_num)
    have m50 : QueuedAtLeast w p 50 → QueuedAtLeast w p 30 := fun h => queued_mono h (by norm_num)
    have m30 : QueuedAtLeast w p 60 → QueuedAtLeast w p 30 := fun h => queued_mono h (by norm_num)
    rw [hst]
    generalize i.config.status = s0 at *
    cases t1 <;> cases t2 <;> simp_all

/-- **C12** After two updates a third changes nothing. -/
theorem C12_settles_twice {w w1 w2 w3 : World} {p : Address} {auth auth' auth'' : List Address} (hr : Reachable w)
    (h1 : step w (.pool p auth .updateStatus) = .ok w1) (h2 : step w1 (.pool p auth' .updateStatus) = .ok w2)
    (h3 : step w2 (.pool p auth'' .updateStatus) = .ok w3) : w3 = w2 := by
  rcases C12_settles (hr.step h1) h2 h3 with e | ⟨i1, i2, _, hi1, hi2, _, h0, _, h3', _⟩
  · exact e
  · rcases C12_settles hr h1 h2 with e | ⟨_, i1', _, _, hi1', _, _, _, h3'', _⟩
    · subst e
      rw [hi1] at hi2; cases hi2
      omega
    · rw [hi1] at hi1'; cases hi1'
      omega

/-- one call is not always enough: with 62 percent queued the admin active pool goes on ice with the first update and is
frozen with the second -/
example : ∃ w w1 w2, Reachable w ∧ step w (.pool poolA [] .updateStatus) = .ok w1 ∧ step w1 (.pool poolA [] .updateStatus) = .ok w2 ∧
    (w1.pools poolA).inst.map (·.config.status) = some 3 ∧ (w2.pools poolA).inst.map (·.config.status) = some 5 := by
  obtain ⟨w, w1, _, hr, hs, h⟩ := Demo.reach_step (ops := setup ++ [.backstop [carol] (.queueWithdrawal carol poolA 310000000000)])
    (op := .pool poolA [] .updateStatus)
    (f := fun w w1 => okAnd (step w1 (.pool poolA [] .updateStatus)) fun w2 => decide ((w1.pools poolA).inst.map (·.config.status) = some 3 ∧
      (w2.pools poolA).inst.map (·.config.status) = some 5)) (by decide +kernel)
  obtain ⟨w2, h2, h⟩ := okAnd_iff.1 h
  obtain ⟨k1, k2⟩ := of_decide_eq_true h
  exact ⟨w, w1, w2, hr, hs, h2, k1, k2⟩

end Props
end Blend
