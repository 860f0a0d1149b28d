import Verif.Lemmas.LedgerRates
import Verif.Lemmas.OracleFrame
import Verif.Lemmas.UserFrame
import Verif.Spec.Access
/-
  The values of positions are fixed within a ledger (C64).
-/

namespace Blend
namespace Pool
open Spec

variable {w w' : World} {op : Op} {p u : Address} {V V' : PoolState}

/-- the reserves `V'` in the world `w'` have the rates, parameters and prices of the reserves `V` in `w` -/
structure SameTerms (w : World) (V : PoolState) (w' : World) (V' : PoolState) : Prop where
  list : V'.resList = V.resList
  config : V'.resConfig = V.resConfig
  price : ∀ {a x}, FreshPrice w V a x → FreshPrice w' V' a x
  cur : ∀ {a d}, Current V w.time a d → ∃ d', Current V' w'.time a d' ∧ d'.bRate = d.bRate ∧ d'.dRate = d.dRate
  dec : ∀ {n}, PriceDecimals w V n → PriceDecimals w' V' n

theorem SameTerms.refl (w : World) (V : PoolState) : SameTerms w V w V :=
  ⟨rfl, rfl, id, fun h => ⟨_, h, rfl, rfl⟩, id⟩

theorem SameTerms.trans {w1 w2 w3 : World} {V1 V2 V3 : PoolState} (h : SameTerms w1 V1 w2 V2) (h' : SameTerms w2 V2 w3 V3) :
    SameTerms w1 V1 w3 V3 :=
  ⟨h'.list.trans h.list, h'.config.trans h.config, fun x => h'.price (h.price x),
    fun x => by
      obtain ⟨d, h1, h2, h3⟩ := h.cur x
      obtain ⟨d', h4, h5, h6⟩ := h'.cur h1
      exact ⟨d', h4, h5.trans h2, h6.trans h3⟩, fun x => h'.dec (h.dec x)⟩

namespace SameTerms
variable (s : SameTerms w V w' V')
include s

theorem total (f : Nat → Int) : Spec.total V' f = Spec.total V f := by unfold Spec.total; rw [s.list]

theorem coll {pos : Positions} {C : Int} (h : CollateralValue w V pos C) : CollateralValue w' V' pos C := by
  obtain ⟨f, hf, rfl⟩ := h
  refine ⟨f, fun i hi => ?_, (s.total f).symm⟩
  rw [s.list] at hi
  rcases hf i hi with h0 | ⟨a, c, d, x, n, e, h1, h2, h3, h4, h5, h6⟩
  · exact .inl h0
  · obtain ⟨d', g1, g2, g3⟩ := s.cur h3
    exact .inr ⟨a, c, d', x, n, e, by rw [s.list]; exact h1, by rw [s.config]; exact h2, g1, s.price h4, by rw [g2]; exact h5, h6⟩

theorem liab {pos : Positions} {C : Int} (h : LiabilityValue w V pos C) : LiabilityValue w' V' pos C := by
  obtain ⟨f, hf, rfl⟩ := h
  refine ⟨f, fun i hi => ?_, (s.total f).symm⟩
  rw [s.list] at hi
  rcases hf i hi with h0 | ⟨a, c, d, x, n, e, h1, h2, h3, h4, h5, h6⟩
  · exact .inl h0
  · obtain ⟨d', g1, g2, g3⟩ := s.cur h3
    exact .inr ⟨a, c, d', x, n, e, by rw [s.list]; exact h1, by rw [s.config]; exact h2, g1, s.price h4, by rw [g3]; exact h5, h6⟩

theorem rawColl {pos : Positions} {C : Int} (h : RawCollateral w V pos C) : RawCollateral w' V' pos C := by
  obtain ⟨f, hf, rfl⟩ := h
  refine ⟨f, fun i hi => ?_, (s.total f).symm⟩
  rw [s.list] at hi
  rcases hf i hi with h0 | ⟨a, c, d, x, n, h1, h2, h3, h4, h5, h6⟩
  · exact .inl h0
  · obtain ⟨d', g1, g2, g3⟩ := s.cur h3
    exact .inr ⟨a, c, d', x, n, by rw [s.list]; exact h1, by rw [s.config]; exact h2, g1, s.price h4, by rw [g2]; exact h5, h6⟩

theorem rawLiab {pos : Positions} {C : Int} (h : RawLiability w V pos C) : RawLiability w' V' pos C := by
  obtain ⟨f, hf, rfl⟩ := h
  refine ⟨f, fun i hi => ?_, (s.total f).symm⟩
  rw [s.list] at hi
  rcases hf i hi with h0 | ⟨a, c, d, x, n, h1, h2, h3, h4, h5, h6⟩
  · exact .inl h0
  · obtain ⟨d', g1, g2, g3⟩ := s.cur h3
    exact .inr ⟨a, c, d', x, n, by rw [s.list]; exact h1, by rw [s.config]; exact h2, g1, s.price h4, by rw [g3]; exact h5, h6⟩

theorem healthy {pos : Positions} (h : Healthy w V pos) : Healthy w' V' pos := by
  obtain ⟨C, L, n, h1, h2, h3, h4⟩ := h
  exact ⟨C, L, n, s.coll h1, s.liab h2, s.dec h3, h4⟩

end SameTerms

theorem terms_step (hr : Reachable w) (hp : w.poolAddr p = true) (h : step w op = .ok w') {i : PoolInst}
    (hi : (w.pools p).inst = some i) (hw : WithinLedger p op) (ho : ∀ o, op ≠ .oracles o)
    (hs : ∀ auth a, op ≠ .pool p auth (.setReserve a)) : SameTerms w (w.pools p) w' (w'.pools p) := by
  have ht := ((step_frame hr.base h).time hw.1).1
  have hor := step_oracle h ho
  obtain ⟨i', hi', e1, e2, _⟩ := rate_step hr h hi
  refine ⟨resList_step hr h hs, funext fun a => resConfig_step hr h fun auth => hs auth a, ?_,
    fun {a d} hd => rates_fixed hr hp h hw hd, ?_⟩
  · rintro a x ⟨j, ts, h1, h2, h3⟩
    rw [hi] at h1; cases h1
    exact ⟨i', ts, hi', by rw [hor, e1]; exact h2, by rw [ht]; exact h3⟩
  · rintro n ⟨j, h1, h2⟩
    rw [hi] at h1; cases h1
    exact ⟨i', hi', by rw [hor, e1]; exact h2⟩

theorem terms_back (hr : Reachable w) (hp : w.poolAddr p = true) (h : step w op = .ok w') {i : PoolInst}
    (hi : (w.pools p).inst = some i) (hw : WithinLedger p op) (ho : ∀ o, op ≠ .oracles o)
    (hs : ∀ auth a, op ≠ .pool p auth (.setReserve a)) : SameTerms w' (w'.pools p) w (w.pools p) := by
  have ht := ((step_frame hr.base h).time hw.1).1
  have hor := step_oracle h ho
  obtain ⟨i', hi', e1, e2, e3⟩ := rate_step hr h hi
  have hc : (w'.pools p).resConfig = (w.pools p).resConfig := funext fun a => resConfig_step hr h fun auth => hs auth a
  refine ⟨(resList_step hr h hs).symm, hc.symm, ?_, ?_, ?_⟩
  · rintro a x ⟨j, ts, h1, h2, h3⟩
    rw [hi'] at h1; cases h1
    exact ⟨i, ts, hi, by rw [← hor, ← e1]; exact h2, by rw [← ht]; exact h3⟩
  · rintro a d ⟨c, d0, j, h1, h2, h3, h4⟩
    rw [hi'] at h3; cases h3
    rw [hc] at h1
    have cfg := hr.base.cfg p
    obtain ⟨_, dB, _, hB⟩ := cfg.list a (List.mem_of_getElem? (cfg.idx a c h1))
    rcases data_step hr h hp hB with ⟨_, e⟩ | ⟨dA, d', hcur, e, f1, f2, f3, _⟩
    · rw [h2] at e; cases e
      exact ⟨d, ⟨c, d0, i, h1, hB, hi, by rw [← e3 hw.2, ← ht]; exact h4⟩, rfl, rfl⟩
    · rw [h2] at e; cases e
      refine ⟨dA, hcur, ?_⟩
      obtain ⟨_, _, _, _, _, _, hacc⟩ := hcur
      rw [accrue_idem (by rw [ht, f3]; exact accrue_time hacc)] at h4
      cases h4
      exact ⟨f2.symm, f1.symm⟩
  · rintro n ⟨j, h1, h2⟩
    rw [hi'] at h1; cases h1
    exact ⟨i, hi, by rw [← hor, ← e1]; exact h2⟩

end Pool
end Blend
