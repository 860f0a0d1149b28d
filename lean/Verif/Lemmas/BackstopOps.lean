import Verif.Lemmas.World
import Verif.Model.Backstop
/-
  Inversions of the backstop's draw and donate.
-/

namespace Blend
namespace Backstop

structure DrawRes (w : World) (pool : Address) (amt : Int) (dst : Address) (w' : World) : Prop where
  nonneg : 0 ≤ amt
  le : amt ≤ (w.backstop.getPoolBal pool).tokens
  ex : ∃ i, w.backstop.inst = some i ∧
    TransferRes (w.setBackstop (w.backstop.setPoolBal pool
      { w.backstop.getPoolBal pool with tokens := (w.backstop.getPoolBal pool).tokens - amt }))
      i.backstopToken w.backstopAddr dst amt w'

theorem pbWithdraw_ok {pb pb' : PoolBalance} {t s : Int} (h : pbWithdraw pb t s = .ok pb') :
    t ≤ pb.tokens ∧ s ≤ pb.shares ∧ s ≤ pb.q4w ∧ pb' = ⟨pb.shares - s, pb.tokens - t, pb.q4w - s⟩ := by
  unfold pbWithdraw at h
  simp only [bind_ok, require_ok, chk_ok, pure_ok] at h
  obtain ⟨_, h1, _, ⟨_, rfl⟩, _, ⟨_, rfl⟩, _, ⟨_, rfl⟩, rfl⟩ := h
  push Not at h1
  exact ⟨h1.1, h1.2.1, h1.2.2, rfl⟩

theorem executeDraw_res {w w' : World} {pool dst : Address} {amt : Int}
    (h : executeDraw w pool amt dst = .ok w') : DrawRes w pool amt dst w' := by
  unfold executeDraw inst requireNonneg at h
  simp only [bind_ok, require_ok, unwrap_ok] at h
  obtain ⟨_, h0, pb', hw, i, hi, ht⟩ := h
  obtain ⟨h1, h2, h3, rfl⟩ := pbWithdraw_ok hw
  refine ⟨by omega, h1, i, hi, ?_⟩
  have := transfer_res ht
  simpa [sub_zero] using this

structure DonateRes (w : World) (sender pool : Address) (amt : Int) (w' : World) : Prop where
  nonneg : 0 ≤ amt
  ne : sender ≠ pool ∧ sender ≠ w.backstopAddr
  known : (w.backstop.getPoolBal pool).shares = 0 → w.factory.deployed pool = true
  ex : ∃ i w1, w.backstop.inst = some i ∧ TransferRes w i.backstopToken sender w.backstopAddr amt w1 ∧
    w' = w1.setBackstop (w.backstop.setPoolBal pool
      { w.backstop.getPoolBal pool with tokens := (w.backstop.getPoolBal pool).tokens + amt })

theorem isFromFactory_ok {w : World} {pool : Address} {b : Int} {u : Unit}
    (h : requireIsFromFactory w pool b = .ok u) : b = 0 → w.factory.deployed pool = true := by
  unfold requireIsFromFactory at h
  simp only [ite_ok, bind_ok, require_ok, pure_ok] at h
  rcases h with ⟨_, _, _, _, _, h⟩ | ⟨h, _⟩
  · exact fun _ => h
  · exact fun hb => absurd hb h

theorem executeDonate_res {w w' : World} {sender pool : Address} {amt : Int}
    (h : executeDonate w sender pool amt = .ok w') : DonateRes w sender pool amt w' := by
  unfold executeDonate inst requireNonneg pbDeposit at h
  simp only [bind_ok, require_ok, unwrap_ok, chk_ok, pure_ok] at h
  obtain ⟨_, h0, _, hne, _, hf, i, hi, w1, ht, _, ⟨_, ⟨_, rfl⟩, _, ⟨_, rfl⟩, rfl⟩, rfl⟩ := h
  have hr := transfer_res ht
  push Not at hne
  refine ⟨by omega, hne, isFromFactory_ok hf, i, w1, hi, hr, ?_⟩
  have : w1.backstop = w.backstop := by rw [hr.frame]
  rw [this]; simp

end Backstop
end Blend
