import Verif.Lemmas.BStep
/-
  The emission bookkeeping of backstop depositors an operation does not name stays the same.
-/

namespace Blend
namespace Backstop

theorem updateEmissions_user {b b1 : BackstopState} {now : Nat} {p u : Address} {pb : PoolBalance} {ub : UserBalance}
    {claim : Bool} {amt : Int} {x : Address} (hx : x ≠ u) (h : updateEmissions b now p pb u ub claim = .ok (amt, b1)) (q : Address) :
    (b1.userEmis q).get x = (b.userEmis q).get x := by
  rcases updateEmissions_ok h with ⟨_, rfl, _⟩ | ⟨_, _, _, _, r⟩
  · rfl
  · rw [r.eq]
    by_cases hq : q = p
    · subst hq; simp [SMap.get_set_ne hx]
    · simp [upd_ne hq]

theorem bmicro_user {now : Nat} {F : Prop} {U : Address → Prop} {S S' : BS} (h : BMicro now F U S S') {x : Address}
    (hx : ¬ U x) (q : Address) : (S'.b.userEmis q).get x = (S.b.userEmis q).get x := by
  have ne : ∀ {u}, U u → x ≠ u := fun hu e => hx (e ▸ hu)
  cases h with
  | vb => rfl
  | init => rfl
  | misc => rfl
  | deposit p u amt m y b1 i vb' hu _ _ he => exact updateEmissions_user (ne hu) he q
  | queue p u amt y b1 hu _ _ _ he => exact updateEmissions_user (ne hu) he q
  | dequeue p u amt y b1 _ hu _ _ he => exact updateEmissions_user (ne hu) he q
  | withdraw => rfl
  | draw => rfl
  | donate => rfl
  | claim p u y b1 hu he => exact updateEmissions_user (ne hu) he q
  | mintLp => rfl
  | credit => rfl
  | settle => rfl
  | gulp p n b1 _ he =>
    obtain ⟨_, _, rfl, _⟩ := setEmisConfig_ok he
    rfl

theorem bmicros_user {now : Nat} {F : Prop} {U : Address → Prop} {S S' : BS} (h : BMicros now F U S S') {x : Address}
    (hx : ¬ U x) (q : Address) : (S'.b.userEmis q).get x = (S.b.userEmis q).get x := by
  induction h with
  | refl => rfl
  | tail _ hm ih => exact (bmicro_user hm hx q).trans ih

theorem claimLoop_user {now : Nat} {s x : Address} (hx : x ≠ s) (q : Address) : ∀ {ps : List Address} {c c' : Int} {cl cl' : SMap Int}
    {b b' : BackstopState}, claimLoop now s ps (c, cl, b) = .ok (c', cl', b') → (b'.userEmis q).get x = (b.userEmis q).get x := by
  intro ps
  induction ps with
  | nil =>
    intro c c' cl cl' b b' h
    simp only [claimLoop, pure_ok, Prod.mk.injEq] at h
    rw [h.2.2]
  | cons p ps ih =>
    intro c c' cl cl' b b' h
    simp only [claimLoop, bind_ok, Prod.exists, chk_ok] at h
    obtain ⟨a, b1, hu, _, ⟨_, rfl⟩, h⟩ := h
    exact (ih h).trans (updateEmissions_user hx hu q)

theorem claimDepositLoop_userEmis {lp c : Int} {cl : SMap Int} {dst : Address} : ∀ {ps : List Address} {b b' : BackstopState},
    claimDepositLoop lp c cl dst ps b = .ok b' → b'.userEmis = b.userEmis := by
  intro ps
  induction ps with
  | nil =>
    intro b b' h
    simp only [claimDepositLoop, pure_ok] at h
    rw [h]
  | cons p ps ih =>
    intro b b' h
    simp only [claimDepositLoop, bind_ok, pbDeposit, addShares, chk_ok, pure_ok] at h
    obtain ⟨_, _, _, _, _, _, _, ⟨_, _, _, _, rfl⟩, _, ⟨_, _, rfl⟩, h⟩ := h
    rw [ih h]
    rfl

/-- an operation changes the emission bookkeeping only of the account that signs it -/
theorem userEmis_step {w w' : World} {op : Op} (hr : Reachable w) (h : step w op = .ok w') {x : Address}
    (hx : ¬ (BTouches op x ∧ ∃ auth c, op = .backstop auth c ∧ x ∈ auth)) (q : Address) :
    (w'.backstop.userEmis q).get x = (w.backstop.userEmis q).get x := by
  have ba := hr.ball
  by_cases ht : BTouches op x
  · have hx : ∀ auth c, op = .backstop auth c → x ∉ auth := fun auth c e hm => hx ⟨ht, auth, c, e, hm⟩
    cases op with
    | backstop auth c =>
      have hxa := hx auth c rfl
      simp only [step, bind_ok] at h
      obtain ⟨_, _, h⟩ := h
      cases c with
      | deposit s p a =>
        obtain rfl : x = s := ht
        simp only [backstopCall, deposit, bind_ok, Prod.exists, requireAuth_ok] at h
        obtain ⟨_, _, ⟨_, hm, _⟩, _⟩ := h
        exact absurd hm hxa
      | queueWithdrawal s p a =>
        obtain rfl : x = s := ht
        simp only [backstopCall, queueWithdrawal, bind_ok, requireAuth_ok] at h
        obtain ⟨_, hm, _⟩ := h
        exact absurd hm hxa
      | dequeueWithdrawal s p a =>
        obtain rfl : x = s := ht
        simp only [backstopCall, dequeueWithdrawal, bind_ok, requireAuth_ok] at h
        obtain ⟨_, hm, _⟩ := h
        exact absurd hm hxa
      | withdraw s p a =>
        obtain rfl : x = s := ht
        simp only [backstopCall, withdraw, bind_ok, Prod.exists, requireAuth_ok] at h
        obtain ⟨_, _, ⟨_, hm, _⟩, _⟩ := h
        exact absurd hm hxa
      | claim s ps d =>
        simp only [backstopCall, claim, executeClaim, cometDeposit, bind_ok, pure_ok, Prod.exists, ite_ok,
          Prod.mk.injEq, requireAuth_ok] at h
        obtain ⟨_, _, ⟨_, hm, _, _, n, cl, b1, hl, ⟨_, i, _, lp, w2, ⟨w3, ht', w4, hmt, s', _, rfl, rfl⟩, b2, hd, _, rfl⟩ |
          ⟨_, _, rfl⟩⟩, rfl⟩ := h
        · have hxs : x ≠ s := fun e => hxa (e ▸ hm)
          show (b2.userEmis q).get x = _
          rw [claimDepositLoop_userEmis hd]
          show (w4.backstop.userEmis q).get x = _
          rw [(mint_res hmt).frame, (transfer_res ht').frame]
          exact claimLoop_user hxs q hl
        · have hxs : x ≠ s := fun e => hxa (e ▸ hm)
          exact claimLoop_user hxs q hl
      | _ => exact absurd ht id
    | _ => exact absurd ht id
  · exact bmicros_user (step_bres hr.base ba.inv ba.allow h).micros ht q

end Backstop
end Blend
