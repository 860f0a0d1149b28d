import Verif.Spec.BackstopGroup
import Verif.Spec.Gift
import Verif.Lemmas.BFields
import Verif.Lemmas.EmitterInv
import Verif.Lemmas.PhiSum
import Verif.Props.WriteOff
import Verif.Examples.Demo
import Mathlib.Tactic.FieldSimp
/-
  C91: no group of accounts gains by depositing in and withdrawing from the backstop.

  The statements use `Verif/Spec/BackstopGroup.lean`.
-/

namespace Blend
namespace Backstop
open Spec

theorem queueTotal_eq (l : List Q4W) : queueTotal l = qsum l := rfl

theorem holding_nonneg {w : World} (hr : Reachable w) (p u : Address) : 0 ≤ holding w p u := by
  have h := hr.ball.inv.user p u
  unfold holding
  have h2 : 0 ≤ queueTotal (w.backstop.getUserBal p u).q4w := by
    unfold queueTotal
    refine List.sum_nonneg fun x hx => ?_
    obtain ⟨e, he, rfl⟩ := List.mem_map.1 hx
    exact h.amounts e he
  have := h.shares
  omega

theorem groupShares_le {w : World} (hr : Reachable w) (S : Finset Address) (p : Address) :
    0 ≤ groupShares w S p ∧ groupShares w S p ≤ (w.backstop.getPoolBal p).shares := by
  refine ⟨Finset.sum_nonneg fun u _ => holding_nonneg hr p u, ?_⟩
  have h1 := SMap.finset_le (m := w.backstop.userBal p) (g := fun u => holding w p u) (holding_nonneg hr p)
    (fun u hu => by unfold holding BackstopState.getUserBal; rw [hu]; rfl) S
  have h2 : (w.backstop.userBal p).sum (fun u _ => holding w p u) =
      (w.backstop.userBal p).sum fun _ ub => ub.shares + queueTotal ub.q4w :=
    SMap.sum_congr fun u ub hu => by unfold holding BackstopState.getUserBal; rw [hu]; rfl
  rw [(Props.C30_share_accounting hr p).1, ← h2]
  exact h1

/-- what a deposit, withdrawal, queueing or dequeueing does -/
structure Trade (w w' : World) (op : Op) (i : BackstopInst) (s p : Address) (a m : Int) : Prop where
  pool : (w'.backstop.getPoolBal p).tokens = (w.backstop.getPoolBal p).tokens + a ∧
    (w'.backstop.getPoolBal p).shares = (w.backstop.getPoolBal p).shares + m
  other : ∀ q, q ≠ p → w'.backstop.getPoolBal q = w.backstop.getPoolBal q
  held : ∀ q u, holding w' q u = holding w q u + if q = p ∧ u = s then m else 0
  wallet : ∀ x, x ≠ w.backstopAddr → w'.balance i.backstopToken x = w.balance i.backstopToken x - if x = s then a else 0
  price : (w.backstop.getPoolBal p).shares ≠ 0 → m * (w.backstop.getPoolBal p).tokens ≤ a * (w.backstop.getPoolBal p).shares
  first : (w.backstop.getPoolBal p).shares = 0 → m = a
  tight : (w.backstop.getPoolBal p).shares ≠ 0 →
    (0 ≤ m ∧ a * (w.backstop.getPoolBal p).shares ≤ m * (w.backstop.getPoolBal p).tokens + (w.backstop.getPoolBal p).tokens) ∨
    (m ≤ 0 ∧ a * (w.backstop.getPoolBal p).shares ≤ m * (w.backstop.getPoolBal p).tokens + (w.backstop.getPoolBal p).shares)
  idle : (∀ n auth, op ≠ .backstop auth (.deposit s p n)) → (∀ n auth, op ≠ .backstop auth (.withdraw s p n)) → a = 0 ∧ m = 0

theorem own_trade {w w' : World} {op : Op} {S P : Finset Address} {i : BackstopInst} (hr : Reachable w) (hi : w.backstop.inst = some i)
    (ho : OwnTrade S P op) (hs : step w op = .ok w') :
    ∃ s ∈ S, ∃ p ∈ P, ∃ a m, Trade w w' op i s p a m := by
  have ba := hr.ball
  have same : ∀ {b1 : BackstopState} {p s : Address} {pb : PoolBalance} {ub : UserBalance},
      SameBals w.backstop b1 → w'.backstop = setBal b1 p s pb ub →
        (∀ q, w'.backstop.getPoolBal q = if q = p then pb else w.backstop.getPoolBal q) ∧
        ∀ q v, w'.backstop.getUserBal q v = if q = p ∧ v = s then ub else w.backstop.getUserBal q v := by
    intro b1 p s pb ub h hb
    refine ⟨fun q => ?_, fun q v => ?_⟩
    · rw [hb, getPoolBal_set]
      have : b1.getPoolBal q = w.backstop.getPoolBal q := by unfold SameBals at h; rw [h]; rfl
      rw [this]
    · rw [hb, getUserBal_set]
      have : b1.getUserBal q v = w.backstop.getUserBal q v := by unfold SameBals at h; rw [h]; rfl
      rw [this]
  cases op with
  | backstop auth c =>
    simp only [step, bind_ok, require_ok] at hs
    obtain ⟨_, _, hc⟩ := hs
    cases call_cases ba.inv hc with
    | @deposit s p a m r =>
      obtain ⟨x, b1, i', w2, hu, hi', ht, hw⟩ := r.ex
      rw [hi] at hi'; cases hi'
      have hb : w'.backstop = _ := congrArg World.backstop hw
      obtain ⟨e1, e2⟩ := same (emis_same hu) hb
      obtain ⟨q1, q2, q3⟩ := toShares_price r.minted r.nonneg (ba.inv.pool p) (by have := ba.inv.shares_nonneg p; omega)
      refine ⟨s, ho.1, p, ho.2, a, m, ⟨?_, fun q hq => ?_, fun q u => ?_, fun x hx => ?_, fun h => (q2 h).2.1, q3,
        fun h => .inl ⟨q1, le_of_lt (q2 h).2.2⟩, fun h => absurd rfl (h a auth)⟩⟩
      · rw [e1, if_pos rfl]; exact ⟨rfl, rfl⟩
      · rw [e1, if_neg hq]
      · unfold holding
        rw [e2]
        split
        · rename_i h; obtain ⟨rfl, rfl⟩ := h; simp only; omega
        · omega
      · have : w'.balance i.backstopToken x = w2.balance i.backstopToken x := by rw [hw]; rfl
        rw [this, ht.bal]
        change w.balance _ _ + _ = _
        simp [moved, hx]
        split <;> omega
    | @queue s p a r =>
      obtain ⟨x, b1, hu, hw⟩ := r.ex
      have hb : w'.backstop = _ := congrArg World.backstop hw
      obtain ⟨e1, e2⟩ := same (emis_same hu) hb
      refine ⟨s, ho.1, p, ho.2, 0, 0, ⟨?_, fun q hq => ?_, fun q u => ?_, fun x hx => ?_, fun _ => by omega, fun _ => rfl,
        fun _ => .inl ⟨le_refl _, by have := ba.inv.pool p; omega⟩, fun _ _ => ⟨rfl, rfl⟩⟩⟩
      · rw [e1, if_pos rfl]; simp
      · rw [e1, if_neg hq]
      · unfold holding
        rw [e2]
        split
        · rename_i h; obtain ⟨rfl, rfl⟩ := h
          simp [queueTotal]
        · omega
      · rw [hw]; simp [World.balance, World.setBackstop]
    | @dequeue s p a r =>
      obtain ⟨x, b1, q', hu, hd, hw⟩ := r.ex
      obtain ⟨tk, r', hd⟩ := hd (ba.inv.user p s).amounts
      have hq := hd.qsum
      have hb : w'.backstop = _ := congrArg World.backstop hw
      obtain ⟨e1, e2⟩ := same (emis_same hu) hb
      refine ⟨s, ho.1, p, ho.2, 0, 0, ⟨?_, fun q hq => ?_, fun q u => ?_, fun x hx => ?_, fun _ => by omega, fun _ => rfl,
        fun _ => .inl ⟨le_refl _, by have := ba.inv.pool p; omega⟩, fun _ _ => ⟨rfl, rfl⟩⟩⟩
      · rw [e1, if_pos rfl]; simp
      · rw [e1, if_neg hq]
      · unfold holding
        rw [e2]
        split
        · rename_i h; obtain ⟨rfl, rfl⟩ := h
          simp only [queueTotal_eq]; omega
        · omega
      · rw [hw]; simp [World.balance, World.setBackstop]
    | @withdraw s p a tk r =>
      obtain ⟨q', i', hi', hd, hb, ht⟩ := r.ex
      rw [hi] at hi'; cases hi'
      obtain ⟨tk', r', hd⟩ := hd (ba.inv.user p s).amounts
      have hq := hd.qsum
      obtain ⟨e1, e2⟩ := same (b1 := w.backstop) rfl hb
      have hpaid := r.paid
      have hle := r.le
      have hpos := r.pos
      have h0 := r.nonneg
      unfold toTokens at hpaid
      simp only [ite_ok, pure_ok] at hpaid
      refine ⟨s, ho.1, p, ho.2, -tk, -a, ⟨?_, fun q hq => ?_, fun q u => ?_, fun x hx => ?_, fun h => ?_, fun h => ?_, fun h => .inr ⟨by omega, ?_⟩,
        fun _ h => absurd rfl (h a auth)⟩⟩
      · rw [e1, if_pos rfl]; constructor <;> simp only <;> omega
      · rw [e1, if_neg hq]
      · unfold holding
        rw [e2]
        split
        · rename_i h; obtain ⟨rfl, rfl⟩ := h
          simp only [queueTotal_eq]; omega
        · omega
      · rw [ht.bal]
        change w.balance _ _ + _ = _
        simp [moved, hx]
        split <;> omega
      · rcases hpaid with ⟨hz, _⟩ | ⟨_, hpaid⟩
        · exact absurd hz h
        · have := (mulDivFloor_spec hpaid (by have := ba.inv.shares_nonneg p; omega)).1
          linarith
      · rcases hpaid with ⟨_, hx⟩ | ⟨hz, _⟩
        · omega
        · exact absurd h hz
      · rcases hpaid with ⟨hz, _⟩ | ⟨_, hpaid⟩
        · exact absurd hz h
        · have := (mulDivFloor_spec hpaid (by have := ba.inv.shares_nonneg p; omega)).2
          linarith
    | _ => exact ho.elim
  | _ => exact ho.elim

/-- what a group could take out of a pool's backstop: its part of the tokens, or all of them if nobody has shares -/
def pot (T s h : ℚ) : ℚ := if s = 0 then T else T * h / s

theorem pot_trade {T s h a m : ℚ} (hs : 0 ≤ s) (hh : 0 ≤ h) (hle : h ≤ s) (hh' : 0 ≤ h + m) (hle' : h + m ≤ s + m)
    (hs' : 0 ≤ s + m) (hp : s ≠ 0 → m * T ≤ a * s) (hf : s = 0 → m = a) : pot (T + a) (s + m) (h + m) ≤ pot T s h + a := by
  unfold pot
  by_cases h0 : s = 0
  · have hma := hf h0
    subst h0 hma
    have : h = 0 := by linarith
    subst this
    by_cases hm : m = 0
    · simp [hm]
    · simp only [zero_add, hm, if_false, if_true]
      rw [mul_div_assoc, div_self hm, mul_one]
  · have hsp : 0 < s := lt_of_le_of_ne hs (Ne.symm h0)
    have hp := hp h0
    simp only [h0, if_false]
    by_cases h1 : s + m = 0
    · have : h = s := by linarith
      subst this
      simp only [h1, if_true]
      rw [mul_div_assoc, div_self h0, mul_one]
    · have hsp' : 0 < s + m := lt_of_le_of_ne hs' (Ne.symm h1)
      simp only [h1, if_false]
      rw [div_add' _ _ _ h0, div_le_div_iff₀ hsp' hsp]
      nlinarith [mul_le_mul_of_nonneg_right hp (sub_nonneg.2 hle)]

/-- the potential of a group -/
def gpot (w : World) (S : Finset Address) (p : Address) : ℚ :=
  pot ((w.backstop.getPoolBal p).tokens : ℚ) ((w.backstop.getPoolBal p).shares : ℚ) (groupShares w S p : ℚ)

theorem worth_le_gpot {w : World} (hr : Reachable w) (S : Finset Address) (p : Address) : worth w S p ≤ gpot w S p := by
  unfold worth gpot pot
  split
  · rename_i h
    rw [h, div_zero]
    have := hr.ball.inv.pool p
    exact_mod_cast this
  · exact le_refl _

theorem gpot_eq {w : World} {S : Finset Address} {p : Address}
    (h : (w.backstop.getPoolBal p).shares = 0 → (w.backstop.getPoolBal p).tokens = 0) : gpot w S p = worth w S p := by
  unfold worth gpot pot
  split
  · rename_i h0
    rw [h0, div_zero, h (by exact_mod_cast h0)]; rfl
  · rfl

theorem gpot_step {w w' : World} {op : Op} {S P : Finset Address} {i : BackstopInst} (hr : Reachable w) (hi : w.backstop.inst = some i)
    (hS : w.backstopAddr ∉ S) (hf : BackstopFair S P i.backstopToken w op) (hs : step w op = .ok w') :
    ((∑ x ∈ S, w'.balance i.backstopToken x : Int) : ℚ) + ∑ p ∈ P, gpot w' S p ≤
      ((∑ x ∈ S, w.balance i.backstopToken x : Int) : ℚ) + ∑ p ∈ P, gpot w S p := by
  have hr' := hr.step hs
  rcases hf with ho | hn
  · obtain ⟨s, hsS, p, hpP, a, m, t⟩ := own_trade hr hi ho hs
    have hw : ∑ x ∈ S, w'.balance i.backstopToken x = ∑ x ∈ S, w.balance i.backstopToken x - a := by
      rw [Finset.sum_congr rfl fun x hx => t.wallet x (fun e => hS (e ▸ hx)), Finset.sum_sub_distrib, Finset.sum_ite_eq' S s, if_pos hsS]
    have hg : ∀ q, groupShares w' S q = groupShares w S q + if q = p then m else 0 := by
      intro q
      unfold groupShares
      rw [Finset.sum_congr rfl fun x _ => t.held q x, Finset.sum_add_distrib]
      congr 1
      by_cases hq : q = p
      · simp [hq, hsS]
      · simp [hq]
    have hgp := hg p
    rw [if_pos rfl] at hgp
    obtain ⟨b1, b2⟩ := groupShares_le hr S p
    obtain ⟨b3, b4⟩ := groupShares_le hr' S p
    rw [hgp] at b3 b4
    rw [t.pool.2] at b4
    have hone : gpot w' S p ≤ gpot w S p + a := by
      unfold gpot
      rw [hgp, t.pool.1, t.pool.2]
      push_cast
      refine pot_trade ?_ (by exact_mod_cast b1) (by exact_mod_cast b2) (by exact_mod_cast b3) (by exact_mod_cast b4) ?_ ?_ ?_
      · exact_mod_cast b1.trans b2
      · exact_mod_cast b3.trans b4
      · intro h; exact_mod_cast t.price (by exact_mod_cast h)
      · intro h; exact_mod_cast t.first (by exact_mod_cast h)
    have hrest : ∑ q ∈ P, gpot w' S q ≤ ∑ q ∈ P, gpot w S q + a := by
      rw [← Finset.add_sum_erase P _ hpP, ← Finset.add_sum_erase P (fun q => gpot w S q) hpP]
      have : ∑ q ∈ P.erase p, gpot w' S q = ∑ q ∈ P.erase p, gpot w S q := by
        refine Finset.sum_congr rfl fun q hq => ?_
        have hne := (Finset.mem_erase.1 hq).1
        unfold gpot
        rw [hg q, if_neg hne, add_zero, t.other q hne]
      rw [this]
      linarith
    rw [hw]
    push_cast
    linarith
  · obtain ⟨h1, h2⟩ := hn w' hs
    refine add_le_add (by exact_mod_cast h1) (Finset.sum_le_sum fun p hp => ?_)
    obtain ⟨k1, k2, k3⟩ := h2 p hp
    have hg : groupShares w' S p = groupShares w S p := Finset.sum_congr rfl fun u hu => k3 u hu
    obtain ⟨b1, b2⟩ := groupShares_le hr S p
    have k1' : ((w'.backstop.getPoolBal p).tokens : ℚ) ≤ ((w.backstop.getPoolBal p).tokens : ℚ) := by exact_mod_cast k1
    unfold gpot pot
    rw [hg, k2]
    split
    · exact k1'
    · have c1 : (0 : ℚ) ≤ (groupShares w S p : ℚ) := by exact_mod_cast b1
      have c2 : (0 : ℚ) ≤ ((w.backstop.getPoolBal p).shares : ℚ) := by exact_mod_cast b1.trans b2
      exact div_le_div_of_nonneg_right (mul_le_mul_of_nonneg_right k1' c1) c2

theorem pot_others {T s h a m M : ℚ} (hs : 0 ≤ s) (hh : 0 ≤ h) (hle : h ≤ s) (hle' : h ≤ s + m) (hT : 0 ≤ T) (hM : 1 ≤ M)
    (hTM : T ≤ M * s) (hf : s = 0 → m = a)
    (ht : s ≠ 0 → (0 ≤ m ∧ a * s ≤ m * T + T) ∨ (m ≤ 0 ∧ a * s ≤ m * T + s)) : pot (T + a) (s + m) h ≤ pot T s h + M := by
  unfold pot
  by_cases h0 : s = 0
  · have hma := hf h0
    subst h0 hma
    have h1 : h = 0 := by linarith
    have h2 : T = 0 := by linarith
    subst h1 h2
    by_cases hm : m = 0
    · simp [hm]; linarith
    · simp [hm]; linarith
  · have hsp : 0 < s := lt_of_le_of_ne hs (Ne.symm h0)
    have ht := ht h0
    simp only [h0, if_false]
    by_cases h1 : s + m = 0
    · have : h = 0 := by linarith
      subst this
      simp only [h1, if_true, mul_zero, zero_div, zero_add]
      have hm : m = -s := by linarith
      subst hm
      rcases ht with ⟨hx, _⟩ | ⟨_, hx⟩
      · linarith
      · have : (T + a) * s ≤ 1 * s := by linarith
        exact (le_of_mul_le_mul_right this hsp).trans hM
    · have hsp' : 0 < s + m := lt_of_le_of_ne (hh.trans hle') (Ne.symm h1)
      simp only [h1, if_false]
      rw [div_add' _ _ _ h0, div_le_div_iff₀ hsp' hsp]
      have key : h * (a * s - m * T) ≤ M * s * (s + m) := by
        rcases ht with ⟨hm, hx⟩ | ⟨hm, hx⟩
        · calc h * (a * s - m * T) ≤ h * T := mul_le_mul_of_nonneg_left (by linarith) hh
            _ ≤ s * (M * s) := mul_le_mul hle hTM hT hs
            _ ≤ M * s * (s + m) := by nlinarith [mul_nonneg (mul_nonneg (by linarith : (0 : ℚ) ≤ M) hs) hm]
        · calc h * (a * s - m * T) ≤ h * s := mul_le_mul_of_nonneg_left (by linarith) hh
            _ ≤ (s + m) * s := mul_le_mul_of_nonneg_right hle' hs
            _ ≤ M * s * (s + m) := by nlinarith [mul_nonneg (mul_nonneg (by linarith : (0 : ℚ) ≤ M - 1) hs) hsp'.le]
      nlinarith [key]

theorem gpot_others {w w' : World} {op : Op} {S P : Finset Address} {i : BackstopInst} {M : Int} (hr : Reachable w)
    (hi : w.backstop.inst = some i) (hS : w.backstopAddr ∉ S) (hM : 1 ≤ M) (ho : OthersTrade S P op)
    (hp : ∀ p ∈ P, (w.backstop.getPoolBal p).tokens ≤ M * (w.backstop.getPoolBal p).shares) (hs : step w op = .ok w') :
    ((∑ x ∈ S, w'.balance i.backstopToken x : Int) : ℚ) + ∑ p ∈ P, gpot w' S p ≤
      ((∑ x ∈ S, w.balance i.backstopToken x : Int) : ℚ) + ∑ p ∈ P, gpot w S p + (M : ℚ) * (othersTrades S P op : ℚ) := by
  have hr' := hr.step hs
  obtain ⟨s0, hs0, ho⟩ := ho
  obtain ⟨s, hsS, p, hpP, a, m, t⟩ := own_trade hr hi ho hs
  rw [Finset.mem_singleton] at hsS
  subst hsS
  have hw : ∑ x ∈ S, w'.balance i.backstopToken x = ∑ x ∈ S, w.balance i.backstopToken x :=
    Finset.sum_congr rfl fun x hx => by
      have hne : x ≠ s := fun e => hs0 (e ▸ hx)
      rw [t.wallet x (fun e => hS (e ▸ hx)), if_neg hne, sub_zero]
  have hg : ∀ q, groupShares w' S q = groupShares w S q := fun q =>
    Finset.sum_congr rfl fun x hx => by
      have hne : x ≠ s := fun e => hs0 (e ▸ hx)
      rw [t.held q x, if_neg (fun e => hne e.2), add_zero]
  rw [hw]
  obtain ⟨b1, b2⟩ := groupShares_le hr S p
  obtain ⟨b3, b4⟩ := groupShares_le hr' S p
  rw [hg, t.pool.2] at b4
  have hT := hr.ball.inv.pool p
  have hrest : ∑ q ∈ P.erase p, gpot w' S q = ∑ q ∈ P.erase p, gpot w S q := by
    refine Finset.sum_congr rfl fun q hq => ?_
    unfold gpot
    rw [hg q, t.other q (Finset.mem_erase.1 hq).1]
  have hone : gpot w' S p ≤ gpot w S p + (M : ℚ) * (othersTrades S P op : ℚ) := by
    by_cases hc : othersTrades S P op = 0
    · obtain ⟨rfl, rfl⟩ := t.idle (fun n auth e => by subst e; simp [othersTrades, hs0, hpP] at hc)
        (fun n auth e => by subst e; simp [othersTrades, hs0, hpP] at hc)
      unfold gpot
      rw [hg, t.pool.1, t.pool.2, add_zero, add_zero, hc]
      simp
    · have h1 : (1 : ℚ) ≤ (othersTrades S P op : ℚ) := by exact_mod_cast Nat.one_le_iff_ne_zero.2 hc
      have hM' : (1 : ℚ) ≤ (M : ℚ) := by exact_mod_cast hM
      have : gpot w' S p ≤ gpot w S p + (M : ℚ) := by
        unfold gpot
        rw [hg, t.pool.1, t.pool.2]
        push_cast
        refine pot_others ?_ (by exact_mod_cast b1) (by exact_mod_cast b2) (by exact_mod_cast b4) (by exact_mod_cast hT) hM'
          (by exact_mod_cast hp p hpP) (fun h => ?_) (fun h => ?_)
        · exact_mod_cast b1.trans b2
        · exact_mod_cast t.first (by exact_mod_cast h)
        · exact_mod_cast t.tight (by exact_mod_cast h)
      nlinarith
  rw [← Finset.add_sum_erase P _ hpP, ← Finset.add_sum_erase P (fun q => gpot w S q) hpP, hrest]
  linarith

end Backstop

namespace Props
open Spec Demo Backstop

/-- **C91** Whatever deposits, withdrawals, queueings and dequeueings the members of a group make, in any order, number and size, at
the backstops of any set of pools, together with any other operations of anybody that give the group nothing: what the group has in backstop
tokens, its shares at their worth, does not grow. (The pools have backstop tokens only where somebody has shares: see
`C34_first_deposit_takes_donations`.) -/
theorem C91_no_gain {w w' : World} {S P : Finset Address} {i : BackstopInst} (hr : Reachable w) (hi : w.backstop.inst = some i)
    (hS : w.backstopAddr ∉ S)
    (h0 : ∀ p ∈ P, (w.backstop.getPoolBal p).shares = 0 → (w.backstop.getPoolBal p).tokens = 0) {l : List Op}
    (hh : Played (BackstopFair S P i.backstopToken) w l w') :
    backstopWealth w' S P i.backstopToken ≤ backstopWealth w S P i.backstopToken := by
  have key : ∀ {w w' : World} {l : List Op}, Played (BackstopFair S P i.backstopToken) w l w' → Reachable w → w.backstop.inst = some i →
      w.backstopAddr ∉ S → Reachable w' ∧
      ((∑ x ∈ S, w'.balance i.backstopToken x : Int) : ℚ) + ∑ p ∈ P, Backstop.gpot w' S p ≤
      ((∑ x ∈ S, w.balance i.backstopToken x : Int) : ℚ) + ∑ p ∈ P, Backstop.gpot w S p := by
    intro w w' l hh
    induction hh with
    | nil => exact fun hr _ _ => ⟨hr, le_refl _⟩
    | @cons w w1 w2 op l q h t ih =>
      intro hr hi hS
      have hi1 := Backstop.inst_keep hr (.tail (.refl _) ⟨op, h⟩) hi
      have ha : w1.backstopAddr = w.backstopAddr := (step_res hr.base h).backstopAddr
      obtain ⟨k1, k2⟩ := ih (hr.step h) hi1 (by rw [ha]; exact hS)
      exact ⟨k1, k2.trans (Backstop.gpot_step hr hi hS q h)⟩
  obtain ⟨hr', h⟩ := key hh hr hi hS
  unfold backstopWealth
  rw [Finset.sum_congr rfl fun p hp => (Backstop.gpot_eq (h0 p hp)).symm]
  exact (add_le_add_right (Finset.sum_le_sum fun p _ => Backstop.worth_le_gpot hr' S p) _).trans h

/-- **C91** A group that starts without shares there has in the end no more backstop tokens than it started with; a group that ends
without shares there has at most what it had, and what its shares were worth. -/
theorem C91_round_trip {w w' : World} {S P : Finset Address} {i : BackstopInst} (hr : Reachable w) (hi : w.backstop.inst = some i)
    (hS : w.backstopAddr ∉ S)
    (h0 : ∀ p ∈ P, (w.backstop.getPoolBal p).shares = 0 → (w.backstop.getPoolBal p).tokens = 0) {l : List Op}
    (hh : Played (BackstopFair S P i.backstopToken) w l w') :
    ((∀ p ∈ P, ∀ u ∈ S, holding w p u = 0) →
      ∑ x ∈ S, w'.balance i.backstopToken x ≤ ∑ x ∈ S, w.balance i.backstopToken x) ∧
    ((∀ p ∈ P, ∀ u ∈ S, holding w' p u = 0) →
      ((∑ x ∈ S, w'.balance i.backstopToken x : Int) : ℚ) ≤ ((∑ x ∈ S, w.balance i.backstopToken x : Int) : ℚ) + ∑ p ∈ P, worth w S p) := by
  have h := C91_no_gain hr hi hS h0 hh
  have hr' := played_reach hh hr
  have zero : ∀ {v : World} {p : Address}, (∀ u ∈ S, holding v p u = 0) → worth v S p = 0 := by
    intro v p hz
    unfold worth groupShares
    rw [Finset.sum_congr rfl hz]
    simp
  have pos : 0 ≤ ∑ p ∈ P, worth w' S p := Finset.sum_nonneg fun p _ => by
    unfold worth
    have h1 := groupShares_le hr' S p
    have h2 := hr'.ball.inv.pool p
    have h3 := h1.1.trans h1.2
    have e1 : (0 : ℚ) ≤ (groupShares w' S p : ℚ) := by exact_mod_cast h1.1
    have e2 : (0 : ℚ) ≤ ((w'.backstop.getPoolBal p).tokens : ℚ) := by exact_mod_cast h2
    have e3 : (0 : ℚ) ≤ ((w'.backstop.getPoolBal p).shares : ℚ) := by exact_mod_cast h3
    positivity
  unfold backstopWealth at h
  refine ⟨fun hz => ?_, fun hz => ?_⟩
  · rw [Finset.sum_congr rfl fun p hp => zero (hz p hp)] at h
    simp only [Finset.sum_const_zero, add_zero] at h
    have : ((∑ x ∈ S, w'.balance i.backstopToken x : Int) : ℚ) ≤ ((∑ x ∈ S, w.balance i.backstopToken x : Int) : ℚ) := by linarith
    exact_mod_cast this
  · rw [Finset.sum_congr rfl fun p hp => zero (hz p hp)] at h
    simpa using h

/-- **C91** With others depositing and withdrawing at the same backstops in between, the group gets by rounding at most the worth of one
share (and at most one token, if a share is worth less) for each of their deposits and withdrawals. -/
theorem C91_others {w w' : World} {S P : Finset Address} {i : BackstopInst} {M : Int} (hr : Reachable w) (hi : w.backstop.inst = some i)
    (hS : w.backstopAddr ∉ S) (hM : 1 ≤ M)
    (h0 : ∀ p ∈ P, (w.backstop.getPoolBal p).shares = 0 → (w.backstop.getPoolBal p).tokens = 0) {l : List Op}
    (hh : Played (BackstopBusy S P i.backstopToken M) w l w') :
    backstopWealth w' S P i.backstopToken ≤ backstopWealth w S P i.backstopToken + (M : ℚ) * ((l.map (othersTrades S P)).sum : ℚ) := by
  have key : ∀ {w w' : World} {l : List Op}, Played (BackstopBusy S P i.backstopToken M) w l w' → Reachable w →
      w.backstop.inst = some i → w.backstopAddr ∉ S → Reachable w' ∧
      ((∑ x ∈ S, w'.balance i.backstopToken x : Int) : ℚ) + ∑ p ∈ P, Backstop.gpot w' S p ≤
      ((∑ x ∈ S, w.balance i.backstopToken x : Int) : ℚ) + ∑ p ∈ P, Backstop.gpot w S p + (M : ℚ) * ((l.map (othersTrades S P)).sum : ℚ) := by
    intro w w' l hh
    induction hh with
    | nil => exact fun hr _ _ => ⟨hr, by simp⟩
    | @cons w w1 w2 op l q h t ih =>
      intro hr hi hS
      have hi1 := Backstop.inst_keep hr (.tail (.refl _) ⟨op, h⟩) hi
      have ha : w1.backstopAddr = w.backstopAddr := (step_res hr.base h).backstopAddr
      obtain ⟨k1, k2⟩ := ih (hr.step h) hi1 (by rw [ha]; exact hS)
      refine ⟨k1, ?_⟩
      have hM' : (1 : ℚ) ≤ (M : ℚ) := by exact_mod_cast hM
      have hn : (0 : ℚ) ≤ (othersTrades S P op : ℚ) := by exact_mod_cast Nat.zero_le _
      simp only [List.map_cons, List.sum_cons, Nat.cast_add]
      rcases q with q | ⟨q, hp⟩
      · have := Backstop.gpot_step hr hi hS q h
        nlinarith
      · have := Backstop.gpot_others hr hi hS hM q hp h
        nlinarith
  obtain ⟨hr', h⟩ := key hh hr hi hS
  unfold backstopWealth
  rw [Finset.sum_congr rfl fun p hp => (Backstop.gpot_eq (h0 p hp)).symm]
  exact (add_le_add_right (Finset.sum_le_sum fun p _ => Backstop.worth_le_gpot hr' S p) _).trans h

/-- dave joins the backstop and leaves it again, carol deposits in between -/
def visit : List Op := [
  .backstop [dave] (.deposit dave poolA 1000000003),
  .backstop [carol] (.deposit carol poolA 12345677),
  .backstop [dave] (.queueWithdrawal dave poolA 1003094646),
  .ledger 1814401 362880,
  .backstop [dave] (.withdraw dave poolA 1003094646)]

/-- The hypotheses are met by these two, at a time when a share is worth less than a token; dave's share of the tokens is rounded down twice. -/
example : ∃ w w' i, Reachable w ∧ w.backstop.inst = some i ∧ w.backstopAddr ∉ ({carol, dave} : Finset Address) ∧
    (∀ p ∈ ({poolA} : Finset Address), (w.backstop.getPoolBal p).shares = 0 → (w.backstop.getPoolBal p).tokens = 0) ∧
    Played (BackstopFair {carol, dave} {poolA} i.backstopToken) w visit w' ∧
    (w.backstop.getPoolBal poolA).tokens < (w.backstop.getPoolBal poolA).shares ∧
    holding w poolA dave = 0 ∧ holding w' poolA dave = 0 ∧ holding w poolA carol < holding w' poolA carol ∧
    w'.balance i.backstopToken dave < w.balance i.backstopToken dave := by
  have h : okAnd (Demo.run genesis story) (fun w => okAnd (Demo.run w visit) fun w' => optAnd w.backstop.inst fun i =>
      decide (w.backstopAddr ≠ carol ∧ w.backstopAddr ≠ dave ∧ (w.backstop.getPoolBal poolA).shares ≠ 0 ∧
        (w.backstop.getPoolBal poolA).tokens < (w.backstop.getPoolBal poolA).shares ∧
        holding w poolA dave = 0 ∧ holding w' poolA dave = 0 ∧ holding w poolA carol < holding w' poolA carol ∧
        w'.balance i.backstopToken dave < w.balance i.backstopToken dave)) = true := by decide +kernel
  obtain ⟨w, _, hr, h⟩ := Demo.reach h
  obtain ⟨w', hw', h⟩ := okAnd_iff.1 h
  obtain ⟨i, hi, h⟩ := optAnd_iff.1 h
  obtain ⟨a1, a2, a3, a4⟩ := of_decide_eq_true h
  refine ⟨w, w', i, hr, hi, by simp [a1, a2], ?_, played_run (fun op ho w => ?_) hw', a4⟩
  · intro p hp hz
    simp only [Finset.mem_singleton] at hp
    subst hp; exact absurd hz a3
  · simp only [visit, List.mem_cons, List.not_mem_nil, or_false] at ho
    rcases ho with rfl | rfl | rfl | rfl | rfl
    · exact .inl ⟨by simp, by simp⟩
    · exact .inl ⟨by simp, by simp⟩
    · exact .inl ⟨by simp, by simp⟩
    · refine .inr fun w1 h1 => ?_
      simp only [step, pure_ok] at h1
      subst h1
      exact ⟨le_refl _, fun p _ => ⟨le_refl _, rfl, fun _ _ => rfl⟩⟩
    · exact .inl ⟨by simp, by simp⟩

/-- The hypotheses of `C91_others` are met by dave alone, with carol as the stranger, a share being worth less than a token; and she is
counted. -/
example : ∃ w w' i, Reachable w ∧ w.backstop.inst = some i ∧ w.backstopAddr ∉ ({dave} : Finset Address) ∧
    (∀ p ∈ ({poolA} : Finset Address), (w.backstop.getPoolBal p).shares = 0 → (w.backstop.getPoolBal p).tokens = 0) ∧
    Played (BackstopBusy {dave} {poolA} i.backstopToken 1) w visit w' ∧ (visit.map (othersTrades {dave} {poolA})).sum = 1 := by
  have h : okAnd (Demo.run genesis story) (fun w => optAnd w.backstop.inst fun i =>
      decide (w.backstopAddr ≠ dave ∧ (w.backstop.getPoolBal poolA).shares ≠ 0) &&
      okAnd (Demo.run w visit) fun _ =>
      okAnd (step w (.backstop [dave] (.deposit dave poolA 1000000003))) fun w1 =>
      decide ((w1.backstop.getPoolBal poolA).tokens ≤ 1 * (w1.backstop.getPoolBal poolA).shares)) = true := by decide +kernel
  obtain ⟨w, _, hr, h⟩ := Demo.reach h
  obtain ⟨i, hi, h⟩ := optAnd_iff.1 h
  rw [Bool.and_eq_true] at h
  obtain ⟨h1, h⟩ := h
  obtain ⟨a1, a2⟩ := of_decide_eq_true h1
  obtain ⟨w', hw', h⟩ := okAnd_iff.1 h
  obtain ⟨w1, hw1, h⟩ := okAnd_iff.1 h
  have hle := of_decide_eq_true h
  refine ⟨w, w', i, hr, hi, by simp [a1], fun p hp hz => ?_, ?_, by decide⟩
  · simp only [Finset.mem_singleton] at hp
    subst hp; exact absurd hz a2
  · have own : ∀ w, ∀ op ∈ visit, op ≠ .backstop [carol] (.deposit carol poolA 12345677) → BackstopFair {dave} {poolA} i.backstopToken w op := by
      intro w op ho hne
      simp only [visit, List.mem_cons, List.not_mem_nil, or_false] at ho
      rcases ho with rfl | rfl | rfl | rfl | rfl
      · exact .inl ⟨by simp, by simp⟩
      · exact absurd rfl hne
      · exact .inl ⟨by simp, by simp⟩
      · refine .inr fun w1 h1 => ?_
        simp only [step, pure_ok] at h1
        subst h1
        exact ⟨le_refl _, fun p _ => ⟨le_refl _, rfl, fun _ _ => rfl⟩⟩
      · exact .inl ⟨by simp, by simp⟩
    obtain ⟨w2, hw2, hw'⟩ : ∃ w2, step w1 (.backstop [carol] (.deposit carol poolA 12345677)) = .ok w2 ∧
        Demo.run w2 (visit.drop 2) = .ok w' := by
      have h := hw'
      simp only [visit, Demo.run, bind_ok] at h
      obtain ⟨v1, hv1, v2, hv2, h⟩ := h
      rw [hw1] at hv1; cases hv1
      exact ⟨v2, hv2, by simpa only [visit, List.drop, Demo.run, bind_ok] using h⟩
    refine .cons (.inl (own w _ (by simp [visit]) (by simp))) hw1 (.cons (.inr ⟨⟨carol, by decide, ?_⟩, ?_⟩) hw2 ?_)
    · exact ⟨by simp, by simp⟩
    · intro p hp
      simp only [Finset.mem_singleton] at hp
      subst hp; exact hle
    · refine played_run (l := visit.drop 2) (fun op ho w => .inl (own w op (List.mem_of_mem_drop ho) ?_)) hw'
      simp only [visit, List.drop, List.mem_cons, List.not_mem_nil, or_false] at ho
      rcases ho with rfl | rfl | rfl <;> simp

end Props
end Blend
