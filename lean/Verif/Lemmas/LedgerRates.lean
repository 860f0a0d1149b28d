import Verif.Lemmas.DataStep
import Verif.Lemmas.LiveLiq
import Verif.Spec.SameLedger
/-
  Rates of reserves, and the values of positions, are fixed within a ledger (C63, C64).
-/

namespace Blend
namespace Pool
open Spec

variable {w w' : World} {op : Op} {p a : Address}

theorem resConfig_step (hr : Reachable w) (h : step w op = .ok w') (hn : ∀ auth, op ≠ .pool p auth (.setReserve a)) :
    (w'.pools p).resConfig a = (w.pools p).resConfig a := by
  rcases admin_step hr.base h p with hs | hc
  · rw [hs.resConfig]
  generalize w'.pools p = ps' at *
  cases hc with
  | inst op i' _ => rfl
  | queue => rfl
  | cancel => rfl
  | expire => rfl
  | emis auth i l ps' _ _ hs =>
    unfold setPoolEmissions at hs
    simp only [bind_ok, Prod.exists, require_ok, pure_ok] at hs
    obtain ⟨_, _, _, _, _, rfl⟩ := hs
    rfl
  | setReserve auth b q ps' _ _ hs =>
    have e : a ≠ b := by rintro rfl; exact hn auth rfl
    obtain ⟨_, e1⟩ := hs.resConfig
    rw [e1, upd_ne e]

theorem resList_step (hr : Reachable w) (h : step w op = .ok w') (hn : ∀ auth b, op ≠ .pool p auth (.setReserve b)) :
    (w'.pools p).resList = (w.pools p).resList := by
  rcases admin_step hr.base h p with hs | hc
  · rw [hs.resList]
  generalize w'.pools p = ps' at *
  cases hc with
  | inst op i' _ => rfl
  | queue => rfl
  | cancel => rfl
  | expire => rfl
  | emis auth i l ps' _ _ hs =>
    unfold setPoolEmissions at hs
    simp only [bind_ok, Prod.exists, require_ok, pure_ok] at hs
    obtain ⟨_, _, _, _, _, rfl⟩ := hs
    rfl
  | setReserve auth b q ps' _ _ hs => exact absurd rfl (hn auth b)

theorem rate_step (hr : Reachable w) (h : step w op = .ok w') {i : PoolInst} (hi : (w.pools p).inst = some i) :
    ∃ i', (w'.pools p).inst = some i' ∧ i'.config.oracle = i.config.oracle ∧ i'.backstop = i.backstop ∧
      ((∀ auth r m, op ≠ .pool p auth (.updatePool r m)) → i'.config.bstopRate = i.config.bstopRate) := by
  rcases inst_step hr.base h p with e | ⟨i', e, hc⟩
  · exact ⟨i, by rw [e]; exact hi, rfl, rfl, fun _ => rfl⟩
  refine ⟨i', e, ?_⟩
  cases hc with
  | init _ _ _ _ _ _ _ h0 => rw [hi] at h0; cases h0
  | deploy _ _ _ _ _ _ _ h0 => rw [hi] at h0; cases h0
  | setAdmin _ j _ h0 => rw [hi] at h0; cases h0; exact ⟨rfl, rfl, fun _ => rfl⟩
  | update auth j r m h0 => rw [hi] at h0; cases h0; exact ⟨rfl, rfl, fun hn => absurd rfl (hn auth r m)⟩
  | updateStatus _ j _ _ h0 => rw [hi] at h0; cases h0; exact ⟨rfl, rfl, fun _ => rfl⟩
  | setStatus _ j _ _ h0 => rw [hi] at h0; cases h0; exact ⟨rfl, rfl, fun _ => rfl⟩

/-- within a ledger no operation changes the rates of a reserve -/
theorem rates_fixed (hr : Reachable w) (hp : w.poolAddr p = true) (h : step w op = .ok w') (hw : WithinLedger p op) {d : ReserveData}
    (hd : Current (w.pools p) w.time a d) :
    ∃ d', Current (w'.pools p) w'.time a d' ∧ d'.bRate = d.bRate ∧ d'.dRate = d.dRate := by
  have ht := ((step_frame hr.base h).time hw.1).1
  obtain ⟨c, d0, i, h1, h2, h3, h4⟩ := id hd
  obtain ⟨i', hi', _, _, hrate⟩ := rate_step hr h h3
  rcases data_step hr h hp h2 with ⟨hn, e⟩ | ⟨dA, d', hcur, e, e1, e2, e3, _⟩
  · refine ⟨d, ⟨c, d0, i', ?_, e, hi', ?_⟩, rfl, rfl⟩
    · rw [resConfig_step hr h hn]; exact h1
    · rw [hrate hw.2, ht]; exact h4
  · have := Current.unique hd hcur
    subst this
    obtain ⟨c', hc'⟩ := ((hr.step h).base.cfg p).data a d' e
    refine ⟨d', ⟨c', d', i', hc', e, hi', accrue_idem ?_⟩, e2, e1⟩
    rw [ht, e3]; exact accrue_time h4

/-- the debt rate after accrual does not depend on the take rate -/
theorem accrue_dRate {c : ReserveConfig} {t1 t2 now : Nat} {d x y : ReserveData} (h1 : accrue c t1 now d = .ok x)
    (h2 : accrue c t2 now d = .ok y) : x.dRate = y.dRate := by
  rcases accrue_cases h1 with ⟨e, rfl⟩ | ⟨e, rfl, e'⟩ | ⟨util, acc, irm, ps, pl, dR, pol, e1, e2, e3, hu, hac, hps, hpl, hdR, hpol, hx⟩ <;>
  rcases accrue_cases h2 with ⟨f, rfl⟩ | ⟨f, rfl, f'⟩ | ⟨util', acc', irm', ps', pl', dR', pol', f1, f2, f3, gu, gac, gps, gpl, gdR, gpol, hy⟩
  · rfl
  · exact absurd e f
  · exact absurd e f1
  · exact absurd f e
  · rfl
  · rcases e' with e' | e'
    · exact absurd e' f2
    · rw [e'] at gu; cases gu; exact absurd rfl f3
  · exact absurd f e1
  · rcases f' with f' | f'
    · exact absurd f' e2
    · rw [f'] at hu; cases hu; exact absurd rfl e3
  · rw [hu] at gu; cases gu
    rw [hac] at gac; cases gac
    rw [hdR] at gdR; cases gdR
    rcases hx with ⟨_, rfl⟩ | ⟨_, _, _, _, _, rfl⟩ <;> rcases hy with ⟨_, rfl⟩ | ⟨_, _, _, _, _, rfl⟩ <;> rfl

/-- … the debt rate not even when the take rate changes -/
theorem dRate_fixed (hr : Reachable w) (hp : w.poolAddr p = true) (h : step w op = .ok w') (hw : ∀ dt ds, op ≠ .ledger dt ds) {d d' : ReserveData}
    (hd : Current (w.pools p) w.time a d) (hd' : Current (w'.pools p) w'.time a d') : d'.dRate = d.dRate := by
  by_cases hu : WithinLedger p op
  · obtain ⟨d2, h2, _, e⟩ := rates_fixed hr hp h hu hd
    rw [Current.unique hd' h2]; exact e
  · have : ∃ auth r m, op = .pool p auth (.updatePool r m) := by
      by_contra hn
      push Not at hn
      exact hu ⟨hw, hn⟩
    obtain ⟨auth, r, m, rfl⟩ := this
    have ht := ((step_frame hr.base h).time hw).1
    obtain ⟨c, d0, i, h1, h2, h3, h4⟩ := id hd
    obtain ⟨c', d1, i', g1, g2, g3, g4⟩ := hd'
    rcases data_step hr h hp h2 with ⟨hn, e⟩ | ⟨dA, d'', hcur, e, e1, e2, e3, _⟩
    · rw [resConfig_step hr h hn, h1] at g1; cases g1
      rw [e] at g2; cases g2
      rw [ht] at g4
      exact accrue_dRate g4 h4
    · have := Current.unique hd hcur
      subst this
      rw [e] at g2; cases g2
      rw [ht] at g4
      rw [accrue_idem (by rw [e3]; exact accrue_time h4)] at g4
      cases g4
      exact e1

end Pool
end Blend
