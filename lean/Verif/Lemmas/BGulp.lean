import Verif.Lemmas.Threshold
import Verif.Lemmas.BStep
/-
  `gulp_emissions` of the backstop in detail.
-/

namespace Blend
namespace Spec

/-- `x` is the part of pool `p`'s backstop tokens that is not queued for withdrawal -/
def Unqueued (w : World) (p : Address) (x : Int) : Prop :=
  ∃ q, ((w.backstop.getPoolBal p).shares = 0 → q = 0) ∧
    ((w.backstop.getPoolBal p).shares ≠ 0 →
      IsFloor q ((w.backstop.getPoolBal p).q4w * (w.backstop.getPoolBal p).tokens) (w.backstop.getPoolBal p).shares) ∧
    x = (w.backstop.getPoolBal p).tokens - q

/-- emissions of a schedule that are still to come at time `now` -/
def remaining (cfg : Option EmisConfig) (now : Nat) : Int :=
  match cfg with
  | none => 0
  | some c => (c.eps : Int) * ((c.expiration - now : Nat) : Int)

end Spec

namespace Backstop
open Spec

theorem setEmisConfig_eps {b b' : BackstopState} {now : Nat} {p : Address} {pb : PoolBalance} {n : Int} (hn : 0 ≤ n)
    (h : setEmisConfig b now p pb n = .ok b') :
    ∃ eps : Nat, b'.emisCfg p = some ⟨now + 604800, eps⟩ ∧ IsFloor eps (n + remaining (b.emisCfg p) now) 604800 ∧
      b'.received p = b.received p + n := by
  have heps : ∀ {left : Int} {eps : Nat}, 0 ≤ left → toU64 (Int.tdiv left (7 * 24 * 60 * 60)) = .ok eps →
      IsFloor eps left 604800 := by
    intro left eps hl he
    have h1 : (eps : Int) = Int.tdiv left (7 * 24 * 60 * 60) := (toU64_ok.1 he).2.2
    rw [h1]
    exact tdiv_floor hl (by norm_num)
  unfold setEmisConfig at h
  cases hcf : b.emisCfg p with
  | none =>
    simp only [hcf, bind_ok, pure_ok, Prod.exists, Prod.mk.injEq] at h
    obtain ⟨left, b1, ⟨rfl, rfl⟩, eps, he, rfl⟩ := h
    exact ⟨eps, by simp [upd_same], by simpa [remaining] using heps hn he, by simp [upd_same]⟩
  | some cfg =>
    simp only [hcf, bind_ok, Prod.exists] at h
    obtain ⟨d, q1, hq, h⟩ := h
    obtain ⟨ed, he0, rfl, k1, _, _⟩ := dataUpdate_ok hq
    have hst : ∃ d' : EmisData, 
        (if d.lastTime ≠ now then
          { b with emisData := upd (upd b.emisData p (some d)) p (some { d with lastTime := now }) }
         else { b with emisData := upd b.emisData p (some d) }) =
        { b with emisData := upd b.emisData p (some d') } := by
      split
      · refine ⟨{ d with lastTime := now }, ?_⟩
        congr 1; funext x; simp only [upd_apply]; split <;> rfl
      · exact ⟨d, rfl⟩
    obtain ⟨d', f3⟩ := hst
    simp only at h
    rw [f3] at h
    simp only [ite_ok, bind_ok, pure_ok, chk_ok, chkU64_ok, Prod.mk.injEq] at h
    rcases h with ⟨_, rem, ⟨_, rfl⟩, l, ⟨_, rfl⟩, _, rfl, eps, he, rfl⟩ | ⟨hx, _, rfl, eps, he, rfl⟩
    · refine ⟨eps, by simp [upd_same], ?_, by simp [upd_same]⟩
      have := heps (by positivity) he
      push_cast at this
      exact this
    · refine ⟨eps, by simp [upd_same], ?_, by simp [upd_same]⟩
      have := heps hn he
      have e : cfg.expiration - now = 0 := by omega
      simpa [remaining, e] using this

theorem unqueued_spec {w : World} (inv : BInv w.time w.backstop) {p : Address} {x : Int}
    (h : nonQueuedTokens (w.backstop.getPoolBal p) = .ok x) : Unqueued w p x := by
  have hs := inv.shares_nonneg p
  simp only [nonQueuedTokens, toTokens, bind_ok, ite_ok, pure_ok, chk_ok] at h
  obtain ⟨q, ⟨hz, rfl⟩ | ⟨hz, hq⟩, _, rfl⟩ := h
  · exact ⟨_, fun _ => by omega, fun h => absurd hz h, rfl⟩
  · exact ⟨q, fun h => absurd h hz, fun _ => isFloor_of_mulDiv hq (by omega), rfl⟩

theorem totalNonQueued_sum {b : BackstopState} {x : Address → Int} : ∀ {l : List Address} {t t' : Int},
    l.foldlM (fun acc p => do
      let t ← nonQueuedTokens (b.getPoolBal p)
      chk (acc + t)) t = .ok t' →
    (∀ p ∈ l, ∀ y, nonQueuedTokens (b.getPoolBal p) = .ok y → x p = y) →
    t' = t + (l.map x).sum := by
  intro l
  induction l with
  | nil => intro t t' h _; rw [foldlM_nil] at h; subst h; simp
  | cons p l ih =>
    intro t t' h hx
    rw [foldlM_cons] at h
    obtain ⟨t1, h1, h2⟩ := h
    simp only [bind_ok, chk_ok] at h1
    obtain ⟨y, hy, _, rfl⟩ := h1
    rw [ih h2 fun q hq => hx q (by simp [hq])]
    have := hx p (by simp) y hy
    simp only [List.map_cons, List.sum_cons, this]; ring

theorem totalNonQueued_some {b : BackstopState} : ∀ {l : List Address} {t t' : Int},
    l.foldlM (fun acc p => do
      let t ← nonQueuedTokens (b.getPoolBal p)
      chk (acc + t)) t = .ok t' → ∀ p ∈ l, ∃ y, nonQueuedTokens (b.getPoolBal p) = .ok y := by
  intro l
  induction l with
  | nil => intro t t' h p hp; simp at hp
  | cons p l ih =>
    intro t t' h q hq
    rw [foldlM_cons] at h
    obtain ⟨t1, h1, h2⟩ := h
    simp only [bind_ok, chk_ok] at h1
    obtain ⟨y, hy, _, rfl⟩ := h1
    rcases List.mem_cons.1 hq with rfl | hq
    · exact ⟨y, hy⟩
    · exact ih h2 q hq

/-- what one pool gets -/
structure GulpAt (now : Nat) (tn tp tb : Int) (b b' : BackstopState) (p : Address) : Prop where
  ex : ∃ nq s np nb, nonQueuedTokens (b.getPoolBal p) = .ok nq ∧ fixedDivFloor nq tn SCALAR_7 = .ok s ∧
    fixedMulFloor s tp SCALAR_7 = .ok np ∧ fixedMulFloor s tb SCALAR_7 = .ok nb ∧
    b'.poolEmis p = b.poolEmis p + np ∧ b'.received p = b.received p + nb ∧
    (0 ≤ nb → ∃ eps : Nat, b'.emisCfg p = some ⟨now + 604800, eps⟩ ∧ IsFloor eps (nb + remaining (b.emisCfg p) now) 604800)

theorem gulpPool_at {now : Nat} {tn tp tb : Int} {b b' : BackstopState} {p : Address}
    (h : gulpPool now tn tp tb b p = .ok b') : GulpAt now tn tp tb b b' p := by
  simp only [gulpPool, bind_ok, chk_ok] at h
  obtain ⟨nq, hnq, share, hs, np, hnp, e, ⟨_, rfl⟩, nb, hnb, hg⟩ := h
  obtain ⟨d', eps, hb, _⟩ := setEmisConfig_ok hg
  refine ⟨nq, share, np, nb, hnq, hs, hnp, hnb, ?_, ?_, fun h0 => ?_⟩
  · rw [hb]; simp [upd_same]
  · rw [hb]; simp [upd_same]
  · obtain ⟨eps, h1, h2, _⟩ := setEmisConfig_eps h0 hg
    exact ⟨eps, h1, h2⟩

theorem gulpFold_at {now : Nat} {tn tp tb : Int} : ∀ {l : List Address} {b b' : BackstopState},
    l.foldlM (gulpPool now tn tp tb) b = .ok b' → l.Nodup → ∀ p ∈ l, GulpAt now tn tp tb b b' p := by
  intro l
  induction l with
  | nil => intro b b' h _ p hp; simp at hp
  | cons q l ih =>
    intro b b' h hn p hp
    rw [foldlM_cons] at h
    obtain ⟨b1, h1, h2⟩ := h
    rw [List.nodup_cons] at hn
    obtain ⟨g1, g2⟩ := gulpPool_same h1
    obtain ⟨_, i2⟩ := gulpFold_same h2
    rcases List.mem_cons.1 hp with e | hp'
    · subst e
      obtain ⟨nq, s, np, nb, k1, k2, k3, k4, k5, k6, k7⟩ := (gulpPool_at h1).ex
      obtain ⟨j1, j2, _, j4⟩ := i2 p hn.1
      exact ⟨nq, s, np, nb, k1, k2, k3, k4, by rw [j1, k5], by rw [j4, k6], by rw [j2]; exact k7⟩
    · obtain ⟨nq, s, np, nb, k1, k2, k3, k4, k5, k6, k7⟩ := (ih h2 hn.2 p hp').ex
      have hne : p ≠ q := fun e => hn.1 (e ▸ hp')
      obtain ⟨j1, j2, _, j4⟩ := g2 p hne
      have e : b1.getPoolBal p = b.getPoolBal p := by rw [g1]; rfl
      rw [e] at k1
      rw [j1] at k5; rw [j4] at k6; rw [j2] at k7
      exact ⟨nq, s, np, nb, k1, k2, k3, k4, k5, k6, k7⟩

end Backstop
end Blend
