import Verif.Lemmas.BFrame
import Verif.Lemmas.Frames
/-
  Inversions of the backstop's entry points and what they mean for the balances.
-/

namespace Blend
namespace Backstop

/-- only the emission bookkeeping differs -/
def SameBals (b b1 : BackstopState) : Prop :=
  b1 = { b with emisData := b1.emisData, userEmis := b1.userEmis }

theorem emis_same {b b1 : BackstopState} {now : Nat} {p u : Address} {pb : PoolBalance} {ub : UserBalance}
    {claim : Bool} {x : Int} (h : updateEmissions b now p pb u ub claim = .ok (x, b1)) : SameBals b b1 := by
  rcases updateEmissions_ok h with ⟨_, rfl, _⟩ | ⟨cfg, ed, d, y, r⟩
  · rfl
  · unfold SameBals; rw [r.eq]

theorem SameBals.poolBal {b b1 : BackstopState} (h : SameBals b b1) (q : Address) : b1.getPoolBal q = b.getPoolBal q := by
  unfold SameBals at h; rw [h]; rfl
theorem SameBals.userBal {b b1 : BackstopState} (h : SameBals b b1) (q u : Address) : b1.getUserBal q u = b.getUserBal q u := by
  unfold SameBals at h; rw [h]; rfl

structure DepositRes (w : World) (auth : List Address) (s p : Address) (a m : Int) (w' : World) : Prop where
  auth : s ∈ auth
  nonneg : 0 ≤ a
  ne : s ≠ p ∧ s ≠ w.backstopAddr
  known : (w.backstop.getPoolBal p).shares = 0 → w.factory.deployed p = true
  minted : toShares (w.backstop.getPoolBal p) a = .ok m
  nonzero : m ≠ 0
  ex : ∃ x b1 i w2, updateEmissions w.backstop w.time p (w.backstop.getPoolBal p) s (w.backstop.getUserBal p s) false = .ok (x, b1) ∧
    w.backstop.inst = some i ∧ TransferRes (w.setBackstop b1) i.backstopToken s w.backstopAddr a w2 ∧
    w' = w2.setBackstop (setBal b1 p s
      { w.backstop.getPoolBal p with
        tokens := (w.backstop.getPoolBal p).tokens + a
        shares := (w.backstop.getPoolBal p).shares + m }
      { w.backstop.getUserBal p s with shares := (w.backstop.getUserBal p s).shares + m })

theorem deposit_res {w w' : World} {auth : List Address} {s p : Address} {a m : Int}
    (h : deposit w auth s p a = .ok (m, w')) : DepositRes w auth s p a m w' := by
  simp only [deposit, executeDeposit, bind_ok, pure_ok, Prod.exists, requireAuth_ok, requireNonneg,
    require_ok, inst, unwrap_ok, pbDeposit, addShares, chk_ok, Prod.mk.injEq] at h
  obtain ⟨_, hm, _, h0, _, hne, _, hk, x, b1, hu, i, hi, w2, ht, m, hsh, _, hmz, _, ⟨_, ⟨_, rfl⟩, _, ⟨_, rfl⟩, rfl⟩, _,
    ⟨_, ⟨_, rfl⟩, rfl⟩, rfl, rfl⟩ := h
  have r := transfer_res ht
  have hi' : w.backstop.inst = some i := by
    have : b1.inst = some i := hi
    have e := emis_same hu
    unfold SameBals at e; rw [e] at this; exact this
  push Not at hne
  refine ⟨hm, by omega, hne, isFromFactory_ok hk, hsh, hmz, x, b1, i, w2, hu, hi', r, ?_⟩
  have hw2 : w2.backstop = b1 := by rw [r.frame]; rfl
  rw [hw2]; rfl

structure QueueRes (w : World) (auth : List Address) (s p : Address) (a : Int) (w' : World) : Prop where
  auth : s ∈ auth
  nonneg : 0 ≤ a
  le : a ≤ (w.backstop.getUserBal p s).shares
  len : (w.backstop.getUserBal p s).q4w.length < 21
  ex : ∃ x b1, updateEmissions w.backstop w.time p (w.backstop.getPoolBal p) s (w.backstop.getUserBal p s) false = .ok (x, b1) ∧
    w' = w.setBackstop (setBal b1 p s
        { w.backstop.getPoolBal p with q4w := (w.backstop.getPoolBal p).q4w + a }
        ⟨(w.backstop.getUserBal p s).shares - a,
          (w.backstop.getUserBal p s).q4w ++ [⟨a, w.time + 21 * 24 * 60 * 60⟩]⟩)

theorem queue_res {w w' : World} {auth : List Address} {s p : Address} {a : Int}
    (h : queueWithdrawal w auth s p a = .ok w') : QueueRes w auth s p a w' := by
  simp only [queueWithdrawal, executeQueue, bind_ok, pure_ok, Prod.exists, requireNonneg, requireAuth_ok,
      require_ok, pbQueue, chk_ok] at h
  obtain ⟨_, hm, _, h0, x, b1, hu, ub, hq, _, ⟨_, ⟨_, rfl⟩, rfl⟩, rfl⟩ := h
  obtain ⟨q1, q2, rfl⟩ := queueShares_ok hq
  exact ⟨hm, by omega, q1, q2, x, b1, hu, rfl⟩

structure DequeueRes (w : World) (auth : List Address) (s p : Address) (a : Int) (w' : World) : Prop where
  auth : s ∈ auth
  nonneg : 0 ≤ a
  ex : ∃ x b1 q, updateEmissions w.backstop w.time p (w.backstop.getPoolBal p) s (w.backstop.getUserBal p s) false = .ok (x, b1) ∧
    ((∀ e ∈ (w.backstop.getUserBal p s).q4w, 0 ≤ e.amount) →
      ∃ taken r, Dequeued w.time false (w.backstop.getUserBal p s).q4w a q 0 taken r) ∧
    w' = w.setBackstop (setBal b1 p s
        { w.backstop.getPoolBal p with q4w := (w.backstop.getPoolBal p).q4w - a }
        ⟨(w.backstop.getUserBal p s).shares + a, q⟩)

theorem dequeue_res {w w' : World} {auth : List Address} {s p : Address} {a : Int}
    (h : dequeueWithdrawal w auth s p a = .ok w') : DequeueRes w auth s p a w' := by
  simp only [dequeueWithdrawal, executeDequeue, bind_ok, pure_ok, Prod.exists, requireNonneg, requireAuth_ok,
      require_ok, pbDequeue, addShares, chk_ok] at h
  obtain ⟨_, hm, _, h0, x, b1, hu, ub, hq, _, ⟨_, ⟨_, rfl⟩, rfl⟩, _, ⟨_, hle, _, ⟨_, rfl⟩, rfl⟩, rfl⟩ := h
  obtain ⟨q1, q2⟩ := dequeueShares_ok (by omega) hq
  refine ⟨hm, by omega, x, b1, ub.q4w, hu, q2, ?_⟩
  rw [q1]; rfl

structure WithdrawRes (w : World) (auth : List Address) (s p : Address) (a tk : Int) (w' : World) : Prop where
  auth : s ∈ auth
  nonneg : 0 ≤ a
  paid : toTokens (w.backstop.getPoolBal p) a = .ok tk
  pos : 0 < tk
  le : tk ≤ (w.backstop.getPoolBal p).tokens ∧ a ≤ (w.backstop.getPoolBal p).shares ∧ a ≤ (w.backstop.getPoolBal p).q4w
  ex : ∃ q i, w.backstop.inst = some i ∧ ((∀ e ∈ (w.backstop.getUserBal p s).q4w, 0 ≤ e.amount) →
      ∃ taken r, Dequeued w.time true (w.backstop.getUserBal p s).q4w a q 0 taken r) ∧
    w'.backstop = setBal w.backstop p s
        ⟨(w.backstop.getPoolBal p).shares - a, (w.backstop.getPoolBal p).tokens - tk, (w.backstop.getPoolBal p).q4w - a⟩
        { w.backstop.getUserBal p s with q4w := q } ∧
    TransferRes (w.setBackstop w'.backstop) i.backstopToken w.backstopAddr s tk w'

theorem withdraw_res {w w' : World} {auth : List Address} {s p : Address} {a tk : Int}
    (h : withdraw w auth s p a = .ok (tk, w')) : WithdrawRes w auth s p a tk w' := by
  simp only [withdraw, executeWithdraw, bind_ok, pure_ok, Prod.exists, Prod.mk.injEq, requireNonneg, requireAuth_ok,
      require_ok, inst, unwrap_ok] at h
  obtain ⟨_, hm, _, h0, ub, hq, tk, htk, _, hnz, pb', hpb, i, hi, w2, ht, rfl, rfl⟩ := h
  obtain ⟨q1, q2⟩ := dequeueShares_ok (by omega) hq
  obtain ⟨p1, p2, p3, rfl⟩ := pbWithdraw_ok hpb
  have r := transfer_res ht
  have hb : w2.backstop = setBal w.backstop p s
      ⟨(w.backstop.getPoolBal p).shares - a, (w.backstop.getPoolBal p).tokens - tk, (w.backstop.getPoolBal p).q4w - a⟩
      { w.backstop.getUserBal p s with q4w := ub.q4w } := by
    rw [r.frame]
    show (w.backstop.setUserBal p s ub).setPoolBal p _ = _
    rw [setBal_eq', q1]
  refine ⟨hm, by omega, htk, by have := r.nonneg; omega, ⟨p1, p2, p3⟩, ub.q4w, i, hi, q2, hb, ?_⟩
  rw [hb]
  rw [setBal_eq', q1] at r
  exact r

/-! ### claims -/

theorem claimLoop_same {now : Nat} {s : Address} : ∀ {ps : List Address} {c c' : Int} {cl cl' : SMap Int} {b b' : BackstopState},
    claimLoop now s ps (c, cl, b) = .ok (c', cl', b') →
    b' = { b with emisData := b'.emisData, userEmis := b'.userEmis, claimed := b'.claimed } ∧
    ((∀ p x, cl.get p = some x → x = 0 ∨ b.emisCfg p ≠ none) → ∀ p x, cl'.get p = some x → x = 0 ∨ b.emisCfg p ≠ none) := by
  intro ps
  induction ps with
  | nil =>
    intro c c' cl cl' b b' h
    simp only [claimLoop, pure_ok, Prod.mk.injEq] at h
    obtain ⟨rfl, rfl, rfl⟩ := h
    exact ⟨rfl, id⟩
  | cons p ps ih =>
    intro c c' cl cl' b b' h
    simp only [claimLoop, bind_ok, Prod.exists, chk_ok] at h
    obtain ⟨x, b1, hu, _, ⟨_, rfl⟩, h⟩ := h
    obtain ⟨h1, h2⟩ := ih h
    have e := emis_same hu
    unfold SameBals at e
    refine ⟨?_, fun hcl => ?_⟩
    · rw [h1]; rw [e]
    · have hcfg : b1.emisCfg = b.emisCfg := by rw [e]
      simp only [hcfg] at h2
      refine h2 fun q y hy => ?_
      rw [SMap.get_set] at hy
      split at hy
      · rename_i eq; subst eq
        cases hy
        rcases updateEmissions_ok hu with ⟨_, _, h0⟩ | ⟨cfg, ed, d, z, r⟩
        · exact .inl h0
        · right; rw [r.config]; simp
      · exact hcl q y hy

/-- a claim only adds shares of one account and tokens, never diluting the others -/
structure Credited (dst : Address) (b b' : BackstopState) : Prop where
  frame : b' = { b with poolBal := b'.poolBal, userBal := b'.userBal }
  q4w : ∀ p, (b'.getPoolBal p).q4w = (b.getPoolBal p).q4w
  tokens : ∀ p, (b.getPoolBal p).tokens ≤ (b'.getPoolBal p).tokens
  shares : ∀ p, (b.getPoolBal p).shares ≤ (b'.getPoolBal p).shares
  price : ∀ p, (b.getPoolBal p).shares ≠ 0 → (b.getPoolBal p).tokens * (b'.getPoolBal p).shares ≤ (b'.getPoolBal p).tokens * (b.getPoolBal p).shares
  users : ∀ p u, (b'.getUserBal p u).q4w = (b.getUserBal p u).q4w ∧ (b.getUserBal p u).shares ≤ (b'.getUserBal p u).shares ∧
    (u ≠ dst → b'.getUserBal p u = b.getUserBal p u)

theorem toShares_price {pb : PoolBalance} {a m : Int} (h : toShares pb a = .ok m) (ha : 0 ≤ a) (h0 : 0 ≤ pb.tokens) (h1 : 0 ≤ pb.shares) :
    0 ≤ m ∧ (pb.shares ≠ 0 → 0 < pb.tokens ∧ m * pb.tokens ≤ a * pb.shares ∧ a * pb.shares < m * pb.tokens + pb.tokens) ∧
    (pb.shares = 0 → m = a) := by
  unfold toShares at h
  simp only [ite_ok, pure_ok] at h
  rcases h with ⟨hz, rfl⟩ | ⟨hz, ht⟩
  · exact ⟨ha, fun h => absurd hz h, fun _ => rfl⟩
  · have hp : 0 < pb.tokens := by
      rcases h0.lt_or_eq with h | h
      · exact h
      · exfalso
        unfold fixedMulFloor mulDivFloor at ht
        rw [← h] at ht
        simp only [bind_ok, require_ok, ne_eq, not_true_eq_false, false_and, exists_false, and_false] at ht
    have hs := mulDivFloor_spec ht hp
    exact ⟨mulDivFloor_nonneg ht hp (mul_nonneg ha h1), fun _ => ⟨hp, hs.1, hs.2⟩, fun h => absurd h hz⟩

theorem creditLoop_credited {lp c : Int} {cl : SMap Int} {dst : Address} (hlp : 0 ≤ lp) (hc : 0 < c)
    (hcl : ∀ p x, cl.get p = some x → 0 ≤ x) : ∀ {ps : List Address} {b b' : BackstopState},
    (∀ p, 0 ≤ (b.getPoolBal p).tokens ∧ 0 ≤ (b.getPoolBal p).shares) →
    claimDepositLoop lp c cl dst ps b = .ok b' → Credited dst b b' ∧
      ∀ p, (p ∉ ps ∨ (cl.get p = some 0 ∧ (b.getPoolBal p).shares = 0)) →
        (b'.getPoolBal p).shares = (b.getPoolBal p).shares ∧ (b'.getPoolBal p).tokens = (b.getPoolBal p).tokens := by
  intro ps
  induction ps with
  | nil =>
    intro b b' _ h
    simp only [claimDepositLoop, pure_ok] at h
    subst h
    exact ⟨⟨rfl, fun _ => rfl, fun _ => le_refl _, fun _ => le_refl _, fun _ _ => le_refl _, fun _ _ => ⟨rfl, le_refl _, fun _ => rfl⟩⟩,
      fun _ _ => ⟨rfl, rfl⟩⟩
  | cons p ps ih =>
    intro b b' h0 h
    simp only [claimDepositLoop, bind_ok, unwrap_ok, pbDeposit, addShares, chk_ok, pure_ok] at h
    obtain ⟨x, hx, dep, hd, m, hm, _, ⟨_, ⟨_, rfl⟩, _, ⟨_, rfl⟩, rfl⟩, _, ⟨_, ⟨_, rfl⟩, rfl⟩, h⟩ := h
    have hx0 := hcl p x hx
    have hdep : 0 ≤ dep := mulDivFloor_nonneg hd hc (mul_nonneg hlp hx0)
    obtain ⟨m0, m1, m2⟩ := toShares_price hm hdep (h0 p).1 (h0 p).2
    rw [setBal_eq] at h
    set b1 := setBal b p dst _ _ with hb1
    have pb1 : ∀ q, b1.getPoolBal q = if q = p then
        { b.getPoolBal p with tokens := (b.getPoolBal p).tokens + dep, shares := (b.getPoolBal p).shares + m } else b.getPoolBal q :=
      fun q => getPoolBal_set _ _ _ _ _ _
    have ub1 : ∀ q v, b1.getUserBal q v = if q = p ∧ v = dst then
        { b.getUserBal p dst with shares := (b.getUserBal p dst).shares + m } else b.getUserBal q v :=
      fun q v => getUserBal_set _ _ _ _ _ _ _
    obtain ⟨k, kz⟩ := ih (b := b1) (fun q => by
      rw [pb1]; split
      · have := h0 p; constructor <;> simp only <;> omega
      · exact h0 q) h
    refine ⟨⟨?_, fun q => ?_, fun q => ?_, fun q => ?_, fun q hq => ?_, fun q v => ?_⟩, fun q hq => ?_⟩
    · rw [k.frame, hb1]; rfl
    · rw [k.q4w, pb1]; split
      · rename_i e; rw [e]
      · rfl
    · refine le_trans ?_ (k.tokens q)
      rw [pb1]; split
      · rename_i e; subst e; simp only; omega
      · exact le_refl _
    · refine le_trans ?_ (k.shares q)
      rw [pb1]; split
      · rename_i e; subst e; simp only; omega
      · exact le_refl _
    · by_cases e : q = p
      · subst e
        have kp := k.price q (by rw [pb1, if_pos rfl]; have := (h0 q).2; simp only; omega)
        rw [pb1, if_pos rfl] at kp
        simp only at kp
        obtain ⟨t0, t1, _⟩ := m1 hq
        have s0 : 0 < (b.getPoolBal q).shares := by have := (h0 q).2; omega
        have hT := k.tokens q
        have hS := k.shares q
        rw [pb1, if_pos rfl] at hT hS
        simp only at hT hS
        generalize (b.getPoolBal q).tokens = t at *
        generalize (b.getPoolBal q).shares = s at *
        generalize (b'.getPoolBal q).tokens = T at *
        generalize (b'.getPoolBal q).shares = S at *
        -- t * (s + m) ≤ (t + dep) * s and (t + dep) * S ≤ T * (s + m)
        have hsm : 0 < s + m := by omega
        have e1 : t * (s + m) * S ≤ (t + dep) * s * S := by
          have : t * (s + m) ≤ (t + dep) * s := by nlinarith
          exact mul_le_mul_of_nonneg_right this (by omega)
        have e2 : (t + dep) * S * s ≤ T * (s + m) * s := mul_le_mul_of_nonneg_right kp (by omega)
        have e3 : (t * S) * (s + m) ≤ (T * s) * (s + m) := by nlinarith
        exact le_of_mul_le_mul_right e3 hsm
      · have kp := k.price q (by rw [pb1, if_neg e]; exact hq)
        rw [pb1, if_neg e] at kp
        exact kp
    · obtain ⟨k1, k2, k3⟩ := k.users q v
      rw [ub1] at k1 k2 k3
      by_cases e : q = p ∧ v = dst
      · rw [if_pos e] at k1 k2 k3
        obtain ⟨rfl, rfl⟩ := e
        exact ⟨k1, by simp only at k2; omega, fun h => absurd rfl h⟩
      · rw [if_neg e] at k1 k2 k3
        exact ⟨k1, k2, k3⟩
    · by_cases e : q = p
      · subst e
        rcases hq with hq | ⟨hq, hs⟩
        · exact absurd List.mem_cons_self hq
        · rw [hq] at hx; cases hx
          have hd0 : dep = 0 := by
            have := mulDivFloor_spec hd hc
            have h1 : dep * c ≤ 0 := by nlinarith [this.1]
            by_contra hne
            have : 0 < dep := by omega
            nlinarith [mul_pos this hc]
          have hm0 : m = 0 := by rw [m2 hs, hd0]
          obtain ⟨r1, r2⟩ := kz q (.inr ⟨hq, by rw [pb1, if_pos rfl]; simp only; omega⟩)
          rw [r1, r2, pb1, if_pos rfl]
          simp only [hd0, hm0, add_zero, and_self]
      · have : q ∉ ps ∨ (cl.get q = some 0 ∧ (b1.getPoolBal q).shares = 0) := by
          rcases hq with hq | hq
          · left; exact fun h => hq (List.mem_cons_of_mem _ h)
          · right; rw [pb1, if_neg e]; exact hq
        obtain ⟨r1, r2⟩ := kz q this
        rw [r1, r2, pb1, if_neg e]
        exact ⟨rfl, rfl⟩

structure ClaimRes (w : World) (auth : List Address) (s : Address) (ps : List Address) (d : Address) (w' : World) : Prop where
  auth : s ∈ auth
  ex : ∃ b1, b1 = { w.backstop with emisData := b1.emisData, userEmis := b1.userEmis, claimed := b1.claimed } ∧
    Credited d b1 w'.backstop
  zero : ∀ p, w.backstop.emisCfg p = none → (w.backstop.getPoolBal p).shares = 0 →
    w'.backstop.getPoolBal p = w.backstop.getPoolBal p

theorem Credited.refl (dst : Address) (b : BackstopState) : Credited dst b b :=
  ⟨rfl, fun _ => rfl, fun _ => le_refl _, fun _ => le_refl _, fun _ _ => le_refl _, fun _ _ => ⟨rfl, le_refl _, fun _ => rfl⟩⟩

theorem claim_res {w w' : World} {auth : List Address} {s d : Address} {ps : List Address} {n : Int}
    (inv : BInv w.time w.backstop) (h : claim w auth s ps d = .ok (n, w')) : ClaimRes w auth s ps d w' := by
  simp only [claim, executeClaim, cometDeposit, bind_ok, pure_ok, Prod.exists, ite_ok, inst, unwrap_ok, requireAuth_ok,
    Prod.mk.injEq, chk_ok] at h
  obtain ⟨_, hm, _, _, c, cl, b1, hl, ⟨hc, i, hi, lp, w2, ⟨w3, ht, w4, hmt, s', ⟨_, rfl⟩, rfl, rfl⟩, b2, hd, _, rfl⟩ |
      ⟨_, _, rfl⟩⟩ := h
  · obtain ⟨l1, l2⟩ := claimLoop_same hl
    have l2 := l2 (by simp)
    obtain ⟨_, k2, k3, _⟩ :=
      claimLoop_ok (F := True) (U := fun _ => True) trivial (S := BS.of w) inv hl
    have mt := mint_res hmt
    have hw4 : w4.backstop = b1 := by rw [mt.frame]; show w3.backstop = b1; rw [(transfer_res ht).frame]; rfl
    have hcl : ∀ p x, cl.get p = some x → 0 ≤ x := by
      intro p x hx
      by_cases hp : p ∈ ps
      · obtain ⟨y, hy, hy0⟩ := k3 p hp
        rw [hx] at hy; cases hy; exact hy0
      · rw [claimLoop_keep hl p hp] at hx; simp at hx
    obtain ⟨c1, c2⟩ := creditLoop_credited (b' := b2) mt.nonneg hc hcl (b := b1)
      (fun p => ⟨k2.pool p, le_trans (k2.shares_nonneg p).1 (k2.shares_nonneg p).2⟩)
      (by simpa [hw4, World.setBackstop] using hd)
    refine ⟨hm, ⟨b1, l1, c1⟩, fun p hp hz => ?_⟩
    have e : b1.getPoolBal p = w.backstop.getPoolBal p := by rw [l1]; rfl
    have hh : p ∉ ps ∨ (cl.get p = some 0 ∧ (b1.getPoolBal p).shares = 0) := by
      by_cases hps : p ∈ ps
      · right
        obtain ⟨y, hy, _⟩ := k3 p hps
        rcases l2 p y hy with h | h
        · exact ⟨by rw [hy, h], by rw [e]; exact hz⟩
        · exact absurd hp h
      · exact .inl hps
    obtain ⟨r1, r2⟩ := c2 p hh
    have r3 := c1.q4w p
    rw [← e]
    show b2.getPoolBal p = b1.getPoolBal p
    generalize b2.getPoolBal p = X at *
    generalize b1.getPoolBal p = Y at *
    obtain ⟨x1, x2, x3⟩ := X; obtain ⟨y1, y2, y3⟩ := Y
    simp only at r1 r2 r3
    rw [r1, r2, r3]
  · obtain ⟨l1, _⟩ := claimLoop_same hl
    exact ⟨hm, ⟨b1, l1, .refl _ _⟩, fun p _ _ => by show b1.getPoolBal p = _; rw [l1]; rfl⟩

/-! ### gulp and the reward zone -/

theorem gulpPool_same {now : Nat} {tn tp tb : Int} {b b' : BackstopState} {p : Address}
    (h : gulpPool now tn tp tb b p = .ok b') :
    b' = { b with poolEmis := b'.poolEmis, emisCfg := b'.emisCfg, emisData := b'.emisData, received := b'.received } ∧
    ∀ q, q ≠ p → b'.poolEmis q = b.poolEmis q ∧ b'.emisCfg q = b.emisCfg q ∧ b'.emisData q = b.emisData q ∧ b'.received q = b.received q := by
  simp only [gulpPool, bind_ok, chk_ok] at h
  obtain ⟨nq, hnq, share, hs, np, _, e, _, nb, hnb, hg⟩ := h
  obtain ⟨d', eps, rfl, _⟩ := setEmisConfig_ok hg
  exact ⟨rfl, fun q hq => ⟨upd_ne hq, upd_ne hq, upd_ne hq, upd_ne hq⟩⟩

theorem gulpFold_same {now : Nat} {tn tp tb : Int} : ∀ {l : List Address} {b b' : BackstopState},
    l.foldlM (gulpPool now tn tp tb) b = .ok b' →
    b' = { b with poolEmis := b'.poolEmis, emisCfg := b'.emisCfg, emisData := b'.emisData, received := b'.received } ∧
    ∀ q, q ∉ l → b'.poolEmis q = b.poolEmis q ∧ b'.emisCfg q = b.emisCfg q ∧ b'.emisData q = b.emisData q ∧ b'.received q = b.received q := by
  intro l
  induction l with
  | nil => intro b b' h; rw [foldlM_nil] at h; subst h; exact ⟨rfl, fun _ _ => ⟨rfl, rfl, rfl, rfl⟩⟩
  | cons p l ih =>
    intro b b' h
    rw [foldlM_cons] at h
    obtain ⟨b1, h1, h2⟩ := h
    obtain ⟨g1, g2⟩ := gulpPool_same h1
    obtain ⟨i1, i2⟩ := ih h2
    refine ⟨by rw [i1]; rw [g1], fun q hq => ?_⟩
    simp only [List.mem_cons, not_or] at hq
    obtain ⟨a1, a2, a3, a4⟩ := g2 q hq.1
    obtain ⟨c1, c2, c3, c4⟩ := i2 q hq.2
    exact ⟨c1.trans a1, c2.trans a2, c3.trans a3, c4.trans a4⟩

structure RewardRes (w : World) (a r : Address) (w' : World) : Prop where
  new : a ∉ w.backstop.rewardZone
  above : ∃ pd, loadPoolData w a = .ok pd ∧ poolAboveThreshold pd = true
  ex : (w.backstop.rewardZone.length < maxRzLen w.time ∧
      w' = w.setBackstop { w.backstop with rewardZone := a :: w.backstop.rewardZone }) ∨
    (maxRzLen w.time ≤ w.backstop.rewardZone.length ∧ r ∈ w.backstop.rewardZone ∧
      w.time ≤ w.backstop.lastDistro + 24 * 60 * 60 ∧
      (w.backstop.getPoolBal r).tokens < (w.backstop.getPoolBal a).tokens ∧
      w' = w.setBackstop { w.backstop with rewardZone := replaceFirst w.backstop.rewardZone r a })

theorem loadPoolData_tokens {w : World} {p : Address} {d : PoolData} (h : loadPoolData w p = .ok d) :
    d.tokens = (w.backstop.getPoolBal p).tokens := by
  simp only [loadPoolData, bind_ok, pure_ok, Prod.exists, ite_ok] at h
  rcases h with ⟨_, _, _, _, _, _, _, _, _, _, rfl⟩ | ⟨_, _, _, _, _, _, _, _, _, _, rfl⟩ <;> rfl

theorem addReward_res {w w' : World} {a r : Address} (h : addReward w a r = .ok w') : RewardRes w a r w' := by
  simp only [addReward, bind_ok, pure_ok, ite_ok, require_ok] at h
  obtain ⟨_, hn, pd, hpd, _, hth, h⟩ := h
  have ht := loadPoolData_tokens hpd
  rcases h with ⟨hl, rz, rfl, rfl⟩ | ⟨hl, _, hr, lim, hlim, _, hld, _, htk, rz, rfl, rfl⟩
  · exact ⟨hn, ⟨pd, hpd, hth⟩, Or.inl (And.intro hl rfl)⟩
  · rw [subU_ok] at hlim
    obtain ⟨l1, l2⟩ := hlim
    exact ⟨hn, ⟨pd, hpd, hth⟩, .inr ⟨by omega, hr, by omega, by rw [← ht]; omega, rfl⟩⟩

/-! ### all calls -/

/-- what a call of the backstop does to the balances -/
inductive CallCase (w : World) (auth : List Address) (w' : World) : BackstopCall → Prop
  | deposit {s p a m} : DepositRes w auth s p a m w' → CallCase w auth w' (.deposit s p a)
  | queue {s p a} : QueueRes w auth s p a w' → CallCase w auth w' (.queueWithdrawal s p a)
  | dequeue {s p a} : DequeueRes w auth s p a w' → CallCase w auth w' (.dequeueWithdrawal s p a)
  | withdraw {s p a tk} : WithdrawRes w auth s p a tk w' → CallCase w auth w' (.withdraw s p a)
  | claim {s ps d} : ClaimRes w auth s ps d w' → CallCase w auth w' (.claim s ps d)
  | draw {p a d} : p ∈ auth → DrawRes w p a d w' → CallCase w auth w' (.draw p a d)
  | donate {s p a} : s ∈ auth → p ∈ auth → DonateRes w s p a w' → CallCase w auth w' (.donate s p a)
  | reward {a r} : RewardRes w a r w' → CallCase w auth w' (.addReward a r)
  | gulp : w.backstop.rewardZone ≠ [] → w'.backstop = { w.backstop with
        lastDistro := w'.backstop.lastDistro, poolEmis := w'.backstop.poolEmis, emisCfg := w'.backstop.emisCfg,
        emisData := w'.backstop.emisData, received := w'.backstop.received } →
      (∀ q, q ∉ w.backstop.rewardZone → w'.backstop.emisCfg q = w.backstop.emisCfg q ∧
        w'.backstop.poolEmis q = w.backstop.poolEmis q ∧ w'.backstop.emisData q = w.backstop.emisData q ∧
        w'.backstop.received q = w.backstop.received q) → CallCase w auth w' .gulpEmissions
  | init {t e u b f l} : w.backstop.inst = none →
      w'.backstop = { w.backstop with inst := some ⟨t, e, b, u, f⟩, dropList := some l, lastDistro := w'.backstop.lastDistro } →
      CallCase w auth w' (.initialize t e u b f l)
  | gulpPool {p} : p ∈ auth → w'.backstop = { w.backstop with poolEmis := upd w.backstop.poolEmis p 0 } →
      CallCase w auth w' (.gulpPoolEmissions p)
  | lpVal : w'.backstop = { w.backstop with lpVal := w'.backstop.lpVal } → CallCase w auth w' .updateTknVal
  | drop : w'.backstop = w.backstop → CallCase w auth w' .drop

theorem call_cases {w w' : World} {auth : List Address} {c : BackstopCall} (inv : BInv w.time w.backstop)
    (h : backstopCall w auth c = .ok w') : CallCase w auth w' c := by
  cases c with
  | «initialize» t e u b f l =>
    simp only [backstopCall, init, bind_ok, pure_ok, require_ok] at h
    obtain ⟨_, hn, _, _, _, _, rfl⟩ := h
    exact .init hn rfl
  | deposit s p a =>
    simp only [backstopCall, bind_ok, pure_ok, Prod.exists] at h
    obtain ⟨m, _, h, rfl⟩ := h
    exact .deposit (deposit_res h)
  | queueWithdrawal s p a => exact .queue (queue_res h)
  | dequeueWithdrawal s p a => exact .dequeue (dequeue_res h)
  | withdraw s p a =>
    simp only [backstopCall, bind_ok, pure_ok, Prod.exists] at h
    obtain ⟨m, _, h, rfl⟩ := h
    exact .withdraw (withdraw_res h)
  | gulpEmissions =>
    simp only [backstopCall, gulpEmissions, bind_ok, pure_ok, Prod.exists, Prod.mk.injEq, require_ok, chk_ok, inst, unwrap_ok] at h
    obtain ⟨_, _, ⟨_, hne, i, _, _, _, el, _, _, _, ne, ⟨_, rfl⟩, tb, htb, tp, _, tn, htn, b1, hf, _, rfl⟩, rfl⟩ := h
    obtain ⟨g1, g2⟩ := gulpFold_same hf
    refine .gulp hne ?_ fun q hq => ?_
    · show b1 = _; rw [g1]; rfl
    · obtain ⟨a1, a2, a3, a4⟩ := g2 q hq
      exact ⟨a2, a1, a3, a4⟩
  | addReward a r => exact .reward (addReward_res h)
  | gulpPoolEmissions p =>
    simp only [backstopCall, gulpPoolEmissionsAuth, gulpPoolEmissions, bind_ok, pure_ok, Prod.exists, Prod.mk.injEq, requireAuth_ok] at h
    obtain ⟨_, _, ⟨_, hp, _, _, i, _, _, _, w1, ha, _, rfl⟩, rfl⟩ := h
    obtain ⟨_, rfl⟩ := approve_res ha
    exact .gulpPool hp rfl
  | claim s ps d =>
    simp only [backstopCall, bind_ok, pure_ok, Prod.exists] at h
    obtain ⟨m, _, h, rfl⟩ := h
    exact .claim (claim_res inv h)
  | drop =>
    simp only [backstopCall, drop, bind_ok] at h
    obtain ⟨_, _, _, _, _, _, h⟩ := h
    obtain ⟨_, _, h3, _⟩ := Emitter.drop_ok (L := fun _ => False) (A := fun _ => False) h
    exact .drop h3
  | draw p a d =>
    simp only [backstopCall, draw, bind_ok, requireAuth_ok] at h
    obtain ⟨_, hp, h⟩ := h
    exact .draw hp (executeDraw_res h)
  | donate s p a =>
    simp only [backstopCall, donate, bind_ok, requireAuth_ok] at h
    obtain ⟨_, hs, _, hp, h⟩ := h
    exact .donate hs hp (executeDonate_res h)
  | updateTknVal =>
    simp only [backstopCall, updateTknVal, bind_ok, pure_ok] at h
    obtain ⟨_, _, _, _, _, _, rfl⟩ := h
    exact .lpVal rfl

end Backstop
end Blend
