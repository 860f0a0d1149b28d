import Verif.Lemmas.Blnd
import Verif.Props.BackstopExits
/-
  C55: the BLND the backstop holds covers all emissions it has promised.
-/

namespace Blend
namespace Spec

/-- a history all of whose operations satisfy `P` in the world they are executed in -/
inductive HistoryW (P : World → Op → Prop) : World → World → Prop
  | refl (w) : HistoryW P w w
  | tail {w w' w'' op} : HistoryW P w w' → P w' op → step w' op = .ok w'' → HistoryW P w w''

/-- The index of pool `p`'s depositors brought up to date at time `t`, if nothing else happens until then. -/
def IndexAt (w : World) (p : Address) (t : Nat) (index : Int) : Prop :=
  ∃ cfg ed ed', w.backstop.emisCfg p = some cfg ∧ w.backstop.emisData p = some ed ∧
    BIndexUpdate cfg t (unqueuedShares w p) (unqueuedShares w p) ed ed' ∧ index = ed'.index

end Spec

namespace Props
open Spec Backstop

theorem _root_.Blend.Spec.HistoryW.mono {P : World → Op → Prop} {Q : Op → Prop} {w w' : World} (h : HistoryW P w w')
    (hPQ : ∀ w op, P w op → Q op) : History Q w w' := by
  induction h with
  | refl => exact .refl _
  | tail _ hP hs ih => exact .tail ih (hPQ _ _ hP) hs

theorem _root_.Blend.Spec.HistoryW.steps {P : World → Op → Prop} {w w' : World} (h : HistoryW P w w') : Steps w w' := by
  induction h with
  | refl => exact .refl _
  | tail _ _ hs ih => exact .tail ih ⟨_, hs⟩

theorem historyW_blnd {P : World → Op → Prop} {w0 w : World} (hg : Genesis w0) (hh : HistoryW P w0 w)
    (hP : ∀ w op, P w op → ¬ ReturnSwap w op) : Reachable w ∧ BlndInv w := by
  induction hh with
  | refl => exact ⟨⟨_, hg, .refl _⟩, .genesis hg⟩
  | tail _ h1 hs ih => exact ⟨ih.1.step hs, ih.2.step ih.1 hs (hP _ _ h1)⟩

theorem poolEmis_nonneg {w : World} (hr : Reachable w) (p : Address) : 0 ≤ w.backstop.poolEmis p := by
  obtain ⟨w0, h0, hs⟩ := hr
  have : Reachable w ∧ ∀ p, 0 ≤ w.backstop.poolEmis p := by
    induction hs with
    | refl => exact ⟨⟨_, h0, .refl _⟩, fun p => by rw [h0.backstop]⟩
    | @tail a b hs hst ih =>
      obtain ⟨op, hop⟩ := hst
      refine ⟨ih.1.step hop, fun p => ?_⟩
      by_cases hg : ∃ auth, op = .backstop auth .gulpEmissions
      · obtain ⟨auth, rfl⟩ := hg
        obtain ⟨secs, x, _, _, _, h1, h2, h3, h4, _⟩ := C37_gulp ih.1 hop
        by_cases hp : p ∈ a.backstop.rewardZone
        · obtain ⟨s, s1, _, s2, _⟩ := h3 p hp
          have hs0 : 0 ≤ s := s1.nonneg h2 (by have := (h1 p hp).2; unfold ONE7; positivity)
          have := s2.nonneg (by norm_num [ONE7]) (by positivity)
          have := ih.2 p
          omega
        · rw [(h4 p hp).2.1]; exact ih.2 p
      · push Not at hg
        rcases (C37_only_gulp ih.1 hop hg p).2.2 with e | e
        · rw [e]; exact ih.2 p
        · rw [e]
  exact this.2 p

/-- what the depositors of a pool could claim at any later time is at most what is allotted and not yet paid -/
theorem pot_at {w : World} (hr : Reachable w) {p : Address} (hpot : PotOk w.backstop p) {t : Nat} {index : Int}
    (users : Finset Address) (hidx : users.Nonempty → IndexAt w p t index) {x : Address → Int}
    (hx : ∀ u ∈ users, BEntitled w p index u (x u)) : ∑ u ∈ users, x u ≤ w.backstop.received p - w.backstop.claimed p := by
  have inv := hr.ball.inv
  have hs0 : (0 : Int) < SCALAR_7 := by norm_num [SCALAR_7]
  have hb : ∀ u, 0 ≤ (w.backstop.getUserBal p u).shares := fun u => (inv.user p u).shares
  have ht : ∀ F : Finset Nat, ∑ u ∈ F, (w.backstop.getUserBal p u).shares ≤
      (w.backstop.getPoolBal p).shares - (w.backstop.getPoolBal p).q4w := by
    intro F
    have h1 := SMap.finset_le (m := w.backstop.userBal p) (g := fun u => (w.backstop.getUserBal p u).shares) hb
      (fun u hu => by unfold BackstopState.getUserBal; rw [hu]; rfl) F
    have h2 : (w.backstop.userBal p).sum (fun u _ => (w.backstop.getUserBal p u).shares) =
        (w.backstop.userBal p).sum fun _ ub => ub.shares :=
      SMap.sum_congr fun u ub hu => by unfold BackstopState.getUserBal; rw [hu]; rfl
    rw [inv.unq p, ← h2]
    exact h1
  cases hcf : w.backstop.emisCfg p with
  | none =>
    have hne : users = ∅ := by
      by_contra h
      obtain ⟨cfg, _, _, h1, _⟩ := hidx (Finset.nonempty_iff_ne_empty.2 h)
      rw [hcf] at h1; cases h1
    obtain ⟨_, _, h3, h4⟩ := inv.unset p hcf
    rw [hne, h3, h4]; simp
  | some cfg =>
    obtain ⟨ed, e1, e2, e3, e4⟩ := inv.isSet p cfg hcf
    have e7 := hpot cfg ed hcf e1
    -- the index at that time uses up at most what is still scheduled
    have key : ∃ J, (users.Nonempty → J = index) ∧ ed.index ≤ J ∧
        (J - ed.index) * ((w.backstop.getPoolBal p).shares - (w.backstop.getPoolBal p).q4w) ≤
          SCALAR_7 * ((cfg.eps : Int) * ((cfg.expiration - ed.lastTime : Nat) : Int)) := by
      have hz : (0 : Int) ≤ SCALAR_7 * ((cfg.eps : Int) * ((cfg.expiration - ed.lastTime : Nat) : Int)) := by
        unfold SCALAR_7; positivity
      by_cases hne : users.Nonempty
      · obtain ⟨c', d', d'', h1, h2, h3, rfl⟩ := hidx hne
        rw [hcf] at h1; cases h1
        rw [e1] at h2; cases h2
        refine ⟨d''.index, fun _ => rfl, ?_⟩
        rcases h3 with ⟨rfl, _⟩ | ⟨_, k2, k3, k4, k5⟩
        · exact ⟨le_refl _, by simpa using hz⟩
        · have k6 := k5.nonneg k4 (by unfold ONE7; positivity)
          refine ⟨by omega, le_trans k5.1 ?_⟩
          have : ((min t cfg.expiration - ed.lastTime : Nat) : Int) ≤ ((cfg.expiration - ed.lastTime : Nat) : Int) := by
            have : min t cfg.expiration - ed.lastTime ≤ cfg.expiration - ed.lastTime := by omega
            exact_mod_cast this
          have h8 := mul_le_mul_of_nonneg_left this (show (0 : Int) ≤ ONE7 * (cfg.eps : Int) by unfold ONE7; positivity)
          unfold SCALAR_7; unfold ONE7 at h8 ⊢
          linarith
      · exact ⟨ed.index, fun h => absurd h hne, le_refl _, by simpa using hz⟩
    obtain ⟨J, hJ, hJ1, hJ2⟩ := key
    have hok : UserOk J (w.backstop.userEmis p) := fun u y hy => by
      obtain ⟨a, b, c⟩ := e4 u y hy
      exact ⟨a, b.trans hJ1, c⟩
    have h1 := phi_ge_finset (le_of_lt hs0) (e3.trans hJ1) hok hb ht users
    rw [phi_index _ _ _ ed.index J] at h1
    have h2 : SCALAR_7 * ∑ u ∈ users, x u ≤ ∑ u ∈ users,
        (SCALAR_7 * (userEntry (w.backstop.userEmis p) u).accrued +
          (w.backstop.getUserBal p u).shares * (J - (userEntry (w.backstop.userEmis p) u).index)) := by
      rw [Finset.mul_sum]
      refine Finset.sum_le_sum fun u hu => ?_
      have := (hx u hu).1
      rw [emisRecord_eq, ← hJ ⟨u, hu⟩] at this
      unfold SCALAR_7
      unfold ONE7 at this
      linarith
    have h4 : SCALAR_7 * ∑ u ∈ users, x u ≤ SCALAR_7 * (w.backstop.received p - w.backstop.claimed p) := by
      rw [mul_sub]
      linarith
    exact le_of_mul_le_mul_left h4 hs0

/-- **C55** In every history in which each backstop claim is credited to the claimant and the emitter is not
swapped back to a backstop it left before: at any moment the BLND the backstop holds covers, all at once,
for any pools and any of their depositors,
* everything these depositors could claim at any time `t` from now on if nothing else happens (`index p` is the
  index of pool `p` brought up to date at `t`, and `x p u` the entitlement of `u` at this index),
* the emissions that wait for these pools to be gulped,
* the allowances these pools have to pay out emissions to their users, and
* one token for every second the emitter has distributed to the backstop and the backstop has not gulped yet.
(The emitter mints the backstop's BLND token, and the backstop token is a different token.) -/
theorem C55_emissions_funded {w0 w : World} (hg : Genesis w0)
    (hh : HistoryW (fun w op => OwnClaim op ∧ ¬ ReturnSwap w op) w0 w) {i : BackstopInst} {ei : EmitterInst}
    (hi : w.backstop.inst = some i) (hei : w.emitter.inst = some ei) (hbl : ei.blnd = i.blnd) (hne : i.blnd ≠ i.backstopToken)
    (t : Nat) (pools : Finset Address) (users : Address → Finset Address) (index : Address → Int) (x : Address → Address → Int)
    (hidx : ∀ p ∈ pools, (users p).Nonempty → IndexAt w p t (index p))
    (hx : ∀ p ∈ pools, ∀ u ∈ users p, BEntitled w p (index p) u (x p u)) :
    ∃ last, w.emitter.lastDistro w.backstopAddr = some last ∧ w.backstop.lastDistro ≤ last ∧
      ∑ p ∈ pools, (∑ u ∈ users p, x p u + w.backstop.poolEmis p + w.allowance i.blnd w.backstopAddr p) +
        ((last : Int) - w.backstop.lastDistro) * ONE7 ≤ w.balance i.blnd w.backstopAddr := by
  obtain ⟨hr, k⟩ := historyW_blnd hg hh fun _ _ h => h.2
  obtain ⟨_, hpot⟩ := history_pot hg (hh.mono fun _ _ h => h.1)
  obtain ⟨_, l, k1, k2, k3⟩ := k.known (by rw [hi]; simp)
  refine ⟨l, k2, k3, ?_⟩
  obtain ⟨S, hS⟩ := k.keep.cover i hi ⟨hne, ei, hei, hbl⟩
  have h1 := hS (S ∪ pools) Finset.subset_union_left
  have hn : ∀ p, 0 ≤ owed w i.blnd p := by
    intro p
    have h1 := poolEmis_nonneg hr p
    have h2 := k.keep.raw i.blnd p
    have h3 := pot_at hr (hpot p) (t := 0) (index := 0) (x := fun _ => 0) ∅ (by simp) (by simp)
    simp only [Finset.sum_empty] at h3
    unfold owed
    omega
  have h2 : ∑ p ∈ pools, owed w i.blnd p ≤ ∑ p ∈ S ∪ pools, owed w i.blnd p :=
    Finset.sum_le_sum_of_subset_of_nonneg Finset.subset_union_right fun p _ _ => hn p
  have h3 : ∑ p ∈ pools, (∑ u ∈ users p, x p u + w.backstop.poolEmis p + w.allowance i.blnd w.backstopAddr p) ≤
      ∑ p ∈ pools, owed w i.blnd p := by
    refine Finset.sum_le_sum fun p hp => ?_
    have h4 := pot_at hr (hpot p) (users p) (hidx p hp) (hx p hp)
    have h5 := allowance_le k.keep.raw i.blnd p
    unfold owed
    linarith
  have h6 : pending w = ((l : Int) - w.backstop.lastDistro) * ONE7 := by unfold pending; rw [k2]; rfl
  rw [h6] at h1
  linarith

theorem historyW_of_run {P : World → Op → Prop} : ∀ {ops : List Op} {w w' : World}, Demo.run w ops = .ok w' →
    (∀ op ∈ ops, ∀ w, P w op) → ∀ w0, HistoryW P w0 w → HistoryW P w0 w'
  | [], w, w', h, _, w0, h0 => by simp only [Demo.run, pure_ok] at h; exact h ▸ h0
  | op :: ops, w, w', h, hP, w0, h0 => by
    simp only [Demo.run, bind_ok] at h
    obtain ⟨w1, h1, h2⟩ := h
    exact historyW_of_run h2 (fun o ho => hP o (by simp [ho])) w0 (.tail h0 (hP op (by simp) w) h1)

/-- The demo after carol has claimed, another emitter distribution and another gulp by the backstop (not the pool): carol is
entitled to a positive amount, emissions wait for the pool, and the pool has an allowance. -/
example : ∃ w i ei index x, HistoryW (fun w op => OwnClaim op ∧ ¬ ReturnSwap w op) Demo.genesis w ∧ w.backstop.inst = some i ∧
    w.emitter.inst = some ei ∧ ei.blnd = i.blnd ∧ i.blnd ≠ i.backstopToken ∧ IndexAt w Demo.poolA (w.time + 500) index ∧
    BEntitled w Demo.poolA index Demo.carol x ∧ 0 < x ∧ 0 < w.backstop.poolEmis Demo.poolA ∧
    0 < w.allowance i.blnd w.backstopAddr Demo.poolA := by
  obtain ⟨w, hw, hr, h⟩ := Demo.reach (ops := Demo.setup ++ Demo.trade ++ Demo.emissions ++ Demo.claims ++
      [.ledger 5000 1000, .emitter [] .distribute, .backstop [] .gulpEmissions, .ledger 1000 200, .emitter [] .distribute])
    (f := fun w => Demo.optAnd w.backstop.inst fun i => Demo.optAnd w.emitter.inst fun ei =>
      Demo.optAnd (w.backstop.emisCfg Demo.poolA) fun cfg => Demo.optAnd (w.backstop.emisData Demo.poolA) fun ed =>
      decide (ei.blnd = i.blnd ∧ i.blnd ≠ i.backstopToken ∧ 0 < w.backstop.poolEmis Demo.poolA ∧
        0 < w.allowance i.blnd w.backstopAddr Demo.poolA ∧
        ed.lastTime < min (w.time + 500) cfg.expiration ∧ 0 < cfg.eps ∧ 0 < unqueuedShares w Demo.poolA ∧
        0 < (emisRecord (w.backstop.userEmis Demo.poolA) Demo.carol).accrued +
          (w.backstop.getUserBal Demo.poolA Demo.carol).shares *
            (ed.index + (((min (w.time + 500) cfg.expiration - ed.lastTime : Nat) : Int) * cfg.eps * ONE7) / unqueuedShares w Demo.poolA -
              (emisRecord (w.backstop.userEmis Demo.poolA) Demo.carol).index) / ONE7))
    (by decide +kernel)
  simp only [Demo.optAnd_iff, decide_eq_true_eq] at h
  obtain ⟨i, hi, ei, hei, cfg, hcfg, ed, hed, h1, h2, h3, h4, h5, h6, h7, h8⟩ := h
  have fl : ∀ a b : Int, 0 < b → IsFloor (a / b) a b := fun a b hb =>
    ⟨Int.ediv_mul_le a (ne_of_gt hb), by have := Int.lt_ediv_add_one_mul_self a hb; linarith⟩
  refine ⟨w, i, ei, _, _, historyW_of_run hw ?_ _ (.refl _), hi, hei, h1, h2,
    ⟨cfg, ed, ⟨ed.index + (((min (w.time + 500) cfg.expiration - ed.lastTime : Nat) : Int) * cfg.eps * ONE7) / unqueuedShares w Demo.poolA,
      w.time + 500⟩, hcfg, hed, .inr ⟨rfl, h5, h6, h7, ?_⟩, rfl⟩, ?_, h8, h3, h4⟩
  · intro op hop w1
    refine ⟨?_, ?_⟩
    · intro auth s ps d e
      subst e
      simp [Demo.setup, Demo.trade, Demo.emissions, Demo.claims] at hop
      obtain ⟨_, rfl, _, rfl⟩ := hop
      rfl
    · rintro ⟨auth, s, rfl, _⟩
      simp [Demo.setup, Demo.trade, Demo.emissions, Demo.claims] at hop
  · simpa using fl _ _ h7
  · unfold BEntitled
    simpa using fl _ ONE7 (by norm_num [ONE7])

/-- The demo run in which the emitter is swapped to another backstop and, some 200 days later, back. -/
def _root_.Blend.Demo.returnSwap : List Op := Demo.setup ++ Demo.trade ++ Demo.emissions ++ [
  .tokenMint Demo.lpA Demo.dave 1000000000000,
  .emitter [] (.queueSwap Demo.dave Demo.lpA),
  .ledger 2700000 500000,
  .emitter [] .swapBackstop,
  .tokenMint Demo.lpA Demo.backstopA 1000000000000,
  .emitter [] (.queueSwap Demo.backstopA Demo.lpA),
  .ledger 17000000 3000000,
  .emitter [] .swapBackstop,
  .backstop [] .gulpEmissions]

/-- **C55 is false when the emitter returns to a backstop** (finding): the time in between was not minted to
it, but the backstop counts it at its next gulp; the emissions that then wait for a single pool already exceed
the BLND the backstop holds. -/
theorem C55_fails_after_return_swap : ∃ w i, History OwnClaim Demo.genesis w ∧ w.backstop.inst = some i ∧
    w.balance i.blnd w.backstopAddr < w.backstop.poolEmis Demo.poolA := by
  obtain ⟨w, hw, hr, h⟩ := Demo.reach (ops := Demo.returnSwap)
    (f := fun w => Demo.optAnd w.backstop.inst fun i => decide (w.balance i.blnd w.backstopAddr < w.backstop.poolEmis Demo.poolA))
    (by decide +kernel)
  simp only [Demo.optAnd_iff, decide_eq_true_eq] at h
  obtain ⟨i, hi, h⟩ := h
  refine ⟨w, i, history_of_run hw ?_ _ (.refl _), hi, h⟩
  intro op hop auth s ps d e
  subst e
  simp [Demo.returnSwap, Demo.setup, Demo.trade, Demo.emissions] at hop

end Props
end Blend
