import Verif.Spec.BackstopTerms
import Verif.Lemmas.LiveSubmit
import Verif.Lemmas.LivePlain
/-
  The calls of backstop depositors fail for no other reason than those of the specification, or an overflow.
-/

namespace Blend
namespace Backstop
open Spec Pool
variable {E : Err → Bool}

theorem chk_live (hov : E .overflow = false) {x : Int} : NoErr E (chk x) := NoErr.chk fun h => by rw [hov] at h; cases h

theorem mulDiv_live (hov : E .overflow = false) {x y z : Int} (hz : 1 ≤ z) : NoErr E (mulDivFloor x y z) :=
  NoErr.mulDivFloor hz fun h => by rw [hov] at h; cases h

/-- the emission index can be updated unless all shares are queued -/
theorem emisData_local (hov : E .overflow = false) {b : BackstopState} {now : Nat} {pb : PoolBalance} {p : Address} {cfg : EmisConfig}
    {d : EmisData} (s : 0 ≤ pb.q4w ∧ pb.q4w ≤ pb.shares) (hd : b.emisData p = some d) (ht : d.lastTime ≤ now)
    (hq : pb.q4w = pb.shares → pb.shares ≠ 0 → cfg.eps ≠ 0 → d.lastTime < cfg.expiration → d.lastTime = now) :
    NoErr E (updateEmisDataWith b now p pb cfg) := by
  obtain ⟨s0, s1⟩ := s
  unfold updateEmisDataWith
  refine NoErr.bind (NoErr.unwrap hd) fun d0 h0 => ?_
  rw [hd] at h0; simp only [unwrap_ok, Option.some.injEq] at h0; subst h0
  split
  · exact NoErr.pure
  · rename_i hif
    push Not at hif
    obtain ⟨f1, f2, f3, f4⟩ := hif
    have hpos : 0 < pb.shares - pb.q4w := by
      by_contra hcon
      exact f2 (hq (by omega) f4 f3 f1).symm
    refine NoErr.bind (chk_live hov) fun unq hunq => NoErr.bind ?_ fun _ _ => NoErr.bind (NoErr.subU ?_) fun _ _ =>
      NoErr.bind (chk_live hov) fun _ _ => NoErr.bind ?_ fun _ _ => NoErr.bind (chk_live hov) fun _ _ => NoErr.pure
    · simp only [chk_ok] at hunq
      obtain ⟨_, rfl⟩ := hunq
      exact NoErr.req (by omega)
    · split <;> omega
    · simp only [chk_ok] at hunq
      obtain ⟨_, rfl⟩ := hunq
      exact mulDiv_live hov (by omega)

/-- the emissions of a depositor can be updated unless all shares are queued -/
theorem emis_local (hov : E .overflow = false) {b : BackstopState} {now : Nat} {pb : PoolBalance} {ub : UserBalance} {p u : Address} {claim : Bool}
    (s : 0 ≤ pb.q4w ∧ pb.q4w ≤ pb.shares)
    (hset : ∀ cfg, b.emisCfg p = some cfg → ∃ d, b.emisData p = some d ∧ d.lastTime ≤ now ∧ 0 ≤ d.index ∧ UserOk d.index (b.userEmis p))
    (hq : ∀ cfg d, b.emisCfg p = some cfg → b.emisData p = some d → pb.q4w = pb.shares → pb.shares ≠ 0 → cfg.eps ≠ 0 →
      d.lastTime < cfg.expiration → d.lastTime = now) :
    NoErr E (updateEmissions b now p pb u ub claim) := by
  obtain ⟨s0, s1⟩ := s
  unfold updateEmissions updateEmisData
  cases hc : b.emisCfg p with
  | none => exact NoErr.bind NoErr.pure fun _ h => by simp only [pure_ok] at h; subst h; exact NoErr.pure
  | some cfg =>
    obtain ⟨d, hd, ht, hi, hu⟩ := hset cfg hc
    simp only
    refine NoErr.bind (NoErr.bind ?_ fun _ _ => NoErr.pure) ?_
    · exact emisData_local hov ⟨s0, s1⟩ hd ht fun f3 f4 f1 f2 => hq cfg d hc hd f3 f4 f1 f2
    · rintro ⟨od, b1⟩ h
      simp only [bind_ok, pure_ok, Prod.exists, Prod.mk.injEq] at h
      obtain ⟨d', b', h, rfl, rfl⟩ := h
      have hb : b'.userEmis = b.userEmis ∧ d.index ≤ d'.index := by
        unfold updateEmisDataWith requireNonneg at h
        simp only [bind_ok, ite_ok, unwrap_ok, pure_ok, Prod.mk.injEq, chk_ok, require_ok, hd, Option.some.injEq] at h
        obtain ⟨_, rfl, h⟩ := h
        rcases h with ⟨hc, rfl, rfl⟩ | ⟨hc, unq, ⟨_, rfl⟩, _, hun, dt, hdt, num, ⟨_, rfl⟩, add, hadd, _, ⟨_, rfl⟩, rfl, rfl⟩
        · exact ⟨rfl, le_refl _⟩
        · refine ⟨rfl, ?_⟩
          have hz : pb.shares - pb.q4w ≠ 0 := by
            intro hz
            rw [hz] at hadd
            unfold fixedDivFloor mulDivFloor at hadd
            simp only [bind_ok, require_ok, ne_eq, not_true_eq_false, false_and, exists_false, and_false] at hadd
          have h0 : 0 ≤ add := mulDivFloor_nonneg hadd (by omega) (mul_nonneg (by positivity) (by decide))
          show d.index ≤ add + d.index
          omega
      simp only
      unfold updateUserEmis
      rw [hb.1]
      cases hx : (b.userEmis p).get u with
      | none =>
        simp only
        split
        · exact NoErr.pure
        · exact NoErr.bind (mulDiv_live hov (by decide)) fun _ _ => NoErr.pure
      | some ud =>
        obtain ⟨e0, e1, e2⟩ := hu u ud hx
        simp only
        split
        · split
          · refine NoErr.bind (chk_live hov) fun dl hdl => NoErr.bind ?_ fun _ _ =>
              NoErr.bind (mulDiv_live hov (by decide)) fun _ _ => NoErr.bind (chk_live hov) fun _ _ => NoErr.pure
            simp only [chk_ok] at hdl
            obtain ⟨_, rfl⟩ := hdl
            exact NoErr.req (by omega)
          · exact NoErr.bind NoErr.pure fun _ _ => NoErr.pure
        · exact NoErr.pure

/-- the same in a reachable world -/
theorem emis_noErr (hov : E .overflow = false) {w : World} (hr : Reachable w) {p u : Address} (hq : ¬ AllQueued w p) {claim : Bool} :
    NoErr E (updateEmissions w.backstop w.time p (w.backstop.getPoolBal p) u (w.backstop.getUserBal p u) claim) :=
  emis_local hov (hr.ball.inv.shares_nonneg p) (hr.ball.inv.isSet p) fun cfg d h1 h2 h3 h4 h5 h6 => by
    by_contra h7
    exact hq ⟨h3, h4, cfg, d, h1, h2, h5, h6, h7⟩

/-- taking shares from a queue works when enough of it is open -/
theorem dequeueLoop_live (hov : E .overflow = false) {now : Nat} {req : Bool} : ∀ (l : List Q4W) (a : Int), (∀ e ∈ l, 0 ≤ e.amount) →
    l.Pairwise (fun a b => a.exp ≤ b.exp) → (0 < a ∨ 0 ≤ a ∧ req = false) → a ≤ openTotal now req l →
    NoErr E (dequeueLoop now req l a) ∧ ∀ q left, dequeueLoop now req l a = .ok (q, left) → left = 0 := by
  intro l
  induction l with
  | nil =>
    intro a _ _ ha hle
    simp only [openTotal, List.filter_nil, List.map_nil, List.sum_nil] at hle
    refine ⟨NoErr.pure, fun q left h => ?_⟩
    simp only [dequeueLoop, pure_ok, Prod.mk.injEq] at h
    omega
  | cons e t ih =>
    intro a hl hs ha hle
    have hs' := List.pairwise_cons.1 hs
    have ht : ∀ x ∈ t, 0 ≤ x.amount := fun x hx => hl x (by simp [hx])
    have e0 := hl e (by simp)
    unfold dequeueLoop
    by_cases hc : req = false ∨ e.exp ≤ now
    · have htot : openTotal now req (e :: t) = e.amount + openTotal now req t := by
        unfold openTotal
        rw [List.filter_cons, if_pos (by simpa using hc)]
        simp
      rw [if_pos hc]
      by_cases h1 : e.amount > a
      · rw [if_pos h1]
        refine ⟨NoErr.bind (chk_live hov) fun _ _ => NoErr.pure, fun q left h => ?_⟩
        simp only [bind_ok, chk_ok, pure_ok, Prod.mk.injEq] at h
        obtain ⟨_, _, _, h⟩ := h
        exact h.symm
      · rw [if_neg h1]
        by_cases h2 : e.amount = a
        · rw [if_pos h2]
          refine ⟨NoErr.pure, fun q left h => ?_⟩
          simp only [pure_ok, Prod.mk.injEq] at h
          exact h.2.symm
        · rw [if_neg h2]
          obtain ⟨i1, i2⟩ := ih (a - e.amount) ht hs'.2 (by omega) (by omega)
          refine ⟨NoErr.bind (chk_live hov) fun x hx => ?_, fun q left h => ?_⟩
          · simp only [chk_ok] at hx
            obtain ⟨_, rfl⟩ := hx
            exact i1
          · simp only [bind_ok, chk_ok] at h
            obtain ⟨_, ⟨_, rfl⟩, h⟩ := h
            exact i2 q left h
    · exfalso
      push Not at hc
      have htot : openTotal now req (e :: t) = 0 := by
        unfold openTotal
        rw [List.filter_eq_nil_iff.2]
        · rfl
        · intro x hx
          have : e.exp ≤ x.exp := by
            rcases List.mem_cons.1 hx with rfl | hx
            · exact le_refl _
            · exact hs'.1 x hx
          simp only [decide_eq_true_eq, not_or]
          exact ⟨hc.1, by omega⟩
      rcases ha with ha | ⟨_, ha⟩
      · omega
      · exact hc.1 ha

theorem dequeueShares_live (hov : E .overflow = false) {now : Nat} {req : Bool} {ub : UserBalance} {a : Int} (h0 : ∀ e ∈ ub.q4w, 0 ≤ e.amount)
    (hs : ub.q4w.Pairwise (fun a b => a.exp ≤ b.exp)) (ha : 0 < a ∨ 0 ≤ a ∧ req = false) (hle : a ≤ openTotal now req ub.q4w) :
    NoErr E (dequeueShares ub now a req) := by
  obtain ⟨h1, h2⟩ := dequeueLoop_live hov ub.q4w a h0 hs ha hle
  unfold dequeueShares
  refine NoErr.bind h1 ?_
  rintro ⟨q, left⟩ hq
  have := h2 q left hq
  exact NoErr.bind (NoErr.req (by omega)) fun _ _ => NoErr.pure

/-- what is taken from a queue was open -/
theorem fifo_open {now : Nat} {req : Bool} {a : Int} {l q : List Q4W} (h : FifoTake (fun e => req = true → e.exp ≤ now) a l q)
    (h0 : ∀ e ∈ l, 0 ≤ e.amount) : a ≤ openTotal now req l := by
  induction h with
  | nothing l => exact openTotal_nonneg h0
  | whole e t a l' hp _ ih =>
    have := ih fun x hx => h0 x (by simp [hx])
    unfold openTotal at *
    rw [List.filter_cons, if_pos (by cases req <;> simp_all)]
    simp only [List.map_cons, List.sum_cons]
    omega
  | part e t r hp h1 h2 =>
    have h3 := openTotal_nonneg (now := now) (req := req) (l := t) fun x hx => h0 x (by simp [hx])
    unfold openTotal at *
    rw [List.filter_cons, if_pos (by cases req <;> simp_all)]
    simp only [List.map_cons, List.sum_cons]
    omega

end Backstop
end Blend
