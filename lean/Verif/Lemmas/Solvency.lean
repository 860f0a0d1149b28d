import Verif.Lemmas.PoolInv
/-
  Solvency of a pool's reserves, and growth of the rates.
-/

namespace Blend
namespace Pool
open Spec

/-- floor of `x * rate / 10^9` -/
def floor9 (x rate : Int) : Int := Int.fdiv (x * rate) SCALAR_9

theorem floor9_spec (x r : Int) : floor9 x r * 1000000000 ≤ x * r ∧ x * r < (floor9 x r + 1) * 1000000000 := by
  unfold floor9 SCALAR_9
  rw [Int.fdiv_eq_ediv_of_nonneg _ (by norm_num)]
  omega

theorem ceil9_spec (x r : Int) : x * r ≤ ceil9 x r * 1000000000 ∧ (ceil9 x r - 1) * 1000000000 < x * r := by
  unfold ceil9 SCALAR_9
  rw [Int.fdiv_eq_ediv_of_nonneg _ (by norm_num)]
  omega

/-- what the reserve owns minus what it owes, with the debt written off added back -/
def worth (S : VS) (a : Address) (d : ReserveData) : Int :=
  S.vb a + ceil9 (d.dSupply + S.pd a) d.dRate - d.backstopCredit - floor9 (d.bSupply + S.pb a) d.bRate +
    S.ps.writtenOff a

/-- solvency invariant -/
structure Solv (now : Nat) (S : VS) : Prop where
  inv : PInv now S
  transit : ∀ a, S.pb a ≠ 0 ∨ S.pd a ≠ 0 → ∃ d, S.ps.resData a = some d ∧ d.lastTime = now
  fresh : ∀ a, S.ps.resData a = none → 0 ≤ S.vb a ∧ S.ps.writtenOff a = 0
  worth : ∀ a d, S.ps.resData a = some d → 0 ≤ worth S a d

theorem floor9_mono {x r x' r' : Int} (h : x * r ≤ x' * r') : floor9 x r ≤ floor9 x' r' := by
  have h1 := floor9_spec x r
  have h2 := floor9_spec x' r'
  omega

theorem ceil9_mono {x r x' r' : Int} (h : x * r ≤ x' * r') : ceil9 x r ≤ ceil9 x' r' := by
  have h1 := ceil9_spec x r
  have h2 := ceil9_spec x' r'
  omega

theorem ceil9_add_le (x y r : Int) : ceil9 (x + y) r ≤ ceil9 x r + ceil9 y r := by
  have h1 := ceil9_spec x r
  have h2 := ceil9_spec y r
  have h3 := ceil9_spec (x + y) r
  have h4 : (x + y) * r = x * r + y * r := by ring
  omega

theorem ceil9_shift {x δ r y : Int} (h : -(y * SCALAR_9) ≤ δ * r) : ceil9 x r - y ≤ ceil9 (x + δ) r := by
  have h1 := ceil9_spec x r
  have h3 := ceil9_spec (x + δ) r
  have h4 : (x + δ) * r = x * r + δ * r := by ring
  unfold SCALAR_9 at h
  omega

theorem floor9_shift {x δ r y : Int} (h : δ * r ≤ y * SCALAR_9) : floor9 (x + δ) r ≤ floor9 x r + y := by
  have h1 := floor9_spec x r
  have h3 := floor9_spec (x + δ) r
  have h4 : (x + δ) * r = x * r + δ * r := by ring
  unfold SCALAR_9 at h
  omega

theorem totalSupply_eq {d : ReserveData} {x : Int} (h : d.totalSupply = .ok x) : x = floor9 d.bSupply d.bRate := by
  unfold ReserveData.totalSupply ReserveData.toAssetFromB fixedMulFloor at h
  exact (mulDivFloor_ok.1 h).2.2.2

theorem totalLiab_eq {d : ReserveData} {x : Int} (h : d.totalLiabilities = .ok x) :
    x = ceil9 d.dSupply d.dRate := by
  unfold ReserveData.totalLiabilities ReserveData.toAssetFromD fixedMulCeil at h
  exact (mulDivCeil_ok.1 h).2.2.2

/-- Accrual does not lower the worth of a reserve. -/
theorem accrue_worth {c : ReserveConfig} {rate now : Nat} {r r' : ReserveData}
    (h : accrue c rate now r = .ok r') (ok : DataOk r) (hle : r.lastTime ≤ now) (ht : c.util ≤ 9500000)
    (hrate : rate < 10000000) :
    ceil9 r.dSupply r.dRate - r.backstopCredit - floor9 r.bSupply r.bRate ≤
    ceil9 r'.dSupply r'.dRate - r'.backstopCredit - floor9 r'.bSupply r'.bRate := by
  have hm := accrue_mono h ok ht hrate
  rcases accrue_cases h with ⟨h1, rfl⟩ | ⟨_, rfl, _⟩ | ⟨util, acc, irm, ps, pl, dR, pol, h1, h2, h3, hu, hac, hps, hpl, hdR, hpol, hr⟩
  · exact le_refl _
  · exact le_refl _
  · have e1 := totalSupply_eq hps
    have e2 := totalLiab_eq hpl
    have e3 := totalLiab_eq hpol
    simp only at e3
    rcases hr with ⟨_, rfl⟩ | ⟨nc, bR, hpos, hnc, hbR, rfl⟩
    · rcases hm with hm | ⟨h, _⟩
      · have := ceil9_mono (x := r.dSupply) (x' := r.dSupply) (mul_le_mul_of_nonneg_left hm.1 ok.dSupply)
        simp only at this ⊢
        omega
      · omega
    · have hbs : 0 < r.bSupply := lt_of_le_of_ne ok.bSupply (Ne.symm h2)
      have h4 := (mulDivFloor_spec hbR hbs).1
      have h5 := floor9_spec r.bSupply bR
      unfold SCALAR_9 at h4
      have h6 : r.bSupply * bR = bR * r.bSupply := by ring
      have h7 : floor9 r.bSupply bR ≤ ps + (pol - pl) - nc := by
        have : floor9 r.bSupply bR * 1000000000 ≤ (ps + (pol - pl) - nc) * 1000000000 := by omega
        omega
      simp only
      omega

theorem Solv.same {now : Nat} {S S' : VS} (h : Solv now S) (hi : PInv now S')
    (h1 : S'.ps.resData = S.ps.resData) (h2 : S'.vb = S.vb) (h3 : S'.pb = S.pb) (h4 : S'.pd = S.pd)
    (h5 : S'.ps.writtenOff = S.ps.writtenOff) : Solv now S' := by
  refine ⟨hi, ?_, ?_, ?_⟩
  · rw [h1, h3, h4]; exact h.transit
  · rw [h1, h2, h5]; exact h.fresh
  · unfold Pool.worth
    rw [h1, h2, h3, h4, h5]; exact h.worth

/-- the data of one reserve changes -/
theorem Solv.upd_data {now : Nat} {S S' : VS} (h : Solv now S) (hi : PInv now S') {a : Address}
    {d d' : ReserveData} (hd : S.ps.resData a = some d) (h1 : S'.ps.resData = upd S.ps.resData a (some d'))
    (h2 : ∀ b, b ≠ a → S'.vb b = S.vb b) (h3 : ∀ b, b ≠ a → S'.pb b = S.pb b)
    (h4 : ∀ b, b ≠ a → S'.pd b = S.pd b) (h5 : S'.ps.writtenOff = S.ps.writtenOff)
    (ht : S'.pb a ≠ 0 ∨ S'.pd a ≠ 0 → d'.lastTime = now) (hw : Pool.worth S a d ≤ Pool.worth S' a d') : Solv now S' := by
  refine ⟨hi, ?_, ?_, ?_⟩
  · intro b hb
    rw [h1]
    by_cases e : b = a
    · subst e; exact ⟨d', upd_same, ht hb⟩
    · rw [h3 b e, h4 b e] at hb
      obtain ⟨x, hx, ht⟩ := h.transit b hb
      exact ⟨x, by rw [upd_ne e]; exact hx, ht⟩
  · intro b hb
    rw [h1, upd_apply] at hb
    split at hb
    · simp at hb
    · rename_i e
      rw [h2 b e, h5]; exact h.fresh b hb
  · intro b x hx
    rw [h1, upd_apply] at hx
    split at hx
    · rename_i e; subst e; cases hx
      exact le_trans (h.worth b d hd) hw
    · rename_i e
      have := h.worth b x hx
      unfold Pool.worth at this ⊢
      rw [h2 b e, h3 b e, h4 b e, h5]; exact this

theorem accrue_solv {now : Nat} {S S' : VS} (cfg : CfgOk S.ps) (h : Solv now S) (hi : PInv now S') {a : Address}
    {c : ReserveConfig} {d r d' : ReserveData} {i : PoolInst}
    (hc : S.ps.resConfig a = some c) (hd : S.ps.resData a = some d) (hin : S.ps.inst = some i)
    (ha : accrue c i.config.bstopRate now d = .ok r)
    (e1 : d'.dSupply = r.dSupply) (e2 : d'.bSupply = r.bSupply) (e3 : d'.dRate = r.dRate)
    (e4 : d'.bRate = r.bRate) (e5 : d'.backstopCredit = r.backstopCredit) (e6 : d'.lastTime = r.lastTime)
    (h1 : S'.ps.resData = upd S.ps.resData a (some d'))
    (h2 : S'.vb = S.vb) (h3 : S'.pb = S.pb) (h4 : S'.pd = S.pd)
    (h5 : S'.ps.writtenOff = S.ps.writtenOff) : Solv now S' := by
  refine h.upd_data hi hd h1 (fun b _ => by rw [h2]) (fun b _ => by rw [h3]) (fun b _ => by rw [h4]) h5
    (fun _ => by rw [e6]; exact accrue_time ha) ?_
  by_cases hz : S.pb a = 0 ∧ S.pd a = 0
  · have := accrue_worth ha (h.inv.dataOk cfg hd) (h.inv.rates a d hd).2.2.2.2 (cfg.valid a c hc).util
      (cfg.rate i hin)
    unfold Pool.worth
    rw [h2, h3, h4, h5, e1, e2, e3, e4, e5, hz.1, hz.2, add_zero, add_zero, add_zero, add_zero]
    omega
  · have hz' : S.pb a ≠ 0 ∨ S.pd a ≠ 0 := by tauto
    obtain ⟨x, hx, htm⟩ := h.transit a hz'
    rw [hd] at hx; cases hx
    rw [← htm] at ha
    rw [accrue_idem rfl] at ha
    cases ha
    unfold Pool.worth
    rw [h2, h3, h4, h5, e1, e2, e3, e4, e5]

theorem micro_solv {now : Nat} {U : Address → Prop} {S S' : VS} (cfg : CfgOk S.ps) (h : PMicro now U S S')
    (sol : Solv now S) : Solv now S' := by
  have hi := micro_inv cfg h sol.inv
  cases h with
  | touch u h => exact sol.same hi rfl rfl rfl rfl rfl
  | accrue a c d d' i h1 h2 h3 h4 =>
    exact accrue_solv cfg sol hi h1 h2 h3 h4 rfl rfl rfl rfl rfl rfl rfl rfl rfl rfl rfl
  | share V1 k a u c d δ x m' vb' pb' pd' h0 h1 h2 h3 h4 h5 h6 =>
    obtain ⟨o1, o2, _, _, _, ow, _⟩ := updateEmissions_other h4
    have hlt : (k.addSupply d δ).lastTime = now := by cases k <;> exact h3
    refine sol.upd_data (d' := k.addSupply d δ) hi h2 (by show upd V1.resData a _ = _; rw [o1.resData]) ?_ ?_ ?_ ow
      (fun _ => hlt) ?_
    · cases h6 with
      | paid y hp => exact fun b hb => upd_ne hb
      | transitB hk => exact fun b hb => rfl
      | transitD hk => exact fun b hb => rfl
    · cases h6 with
      | paid y hp => exact fun b hb => rfl
      | transitB hk => exact fun b hb => upd_ne hb
      | transitD hk => exact fun b hb => rfl
    · cases h6 with
      | paid y hp => exact fun b hb => rfl
      | transitB hk => exact fun b hb => rfl
      | transitD hk => exact fun b hb => upd_ne hb
    · unfold Pool.worth
      simp only [ow]
      cases h6 with
      | paid y hp =>
        have hp := hp sol.inv.pos
        rw [upd_same]
        cases k with
        | liab =>
          have := ceil9_shift (x := d.dSupply + S.pd a) hp
          simp only [Kind.addSupply]
          rw [show d.dSupply + δ + S.pd a = d.dSupply + S.pd a + δ by ring]
          omega
        | coll =>
          have := floor9_shift (x := d.bSupply + S.pb a) hp
          simp only [Kind.addSupply]
          rw [show d.bSupply + δ + S.pb a = d.bSupply + S.pb a + δ by ring]
          omega
        | supp =>
          have := floor9_shift (x := d.bSupply + S.pb a) hp
          simp only [Kind.addSupply]
          rw [show d.bSupply + δ + S.pb a = d.bSupply + S.pb a + δ by ring]
          omega
      | transitB hk =>
        rw [upd_same]
        cases k with
        | liab => exact absurd rfl hk
        | coll =>
          simp only [Kind.addSupply]
          rw [show d.bSupply + δ + (S.pb a - δ) = d.bSupply + S.pb a by ring]
        | supp =>
          simp only [Kind.addSupply]
          rw [show d.bSupply + δ + (S.pb a - δ) = d.bSupply + S.pb a by ring]
      | transitD hk =>
        subst hk
        rw [upd_same]
        simp only [Kind.addSupply]
        rw [show d.dSupply + δ + (S.pd a - δ) = d.dSupply + S.pd a by ring]
  | credit a d x h1 h2 =>
    refine sol.upd_data hi h1 rfl (fun b hb => upd_ne hb) (fun _ _ => rfl) (fun _ _ => rfl) rfl (fun _ => h2) ?_
    unfold Pool.worth
    simp only [upd_same]
    omega
  | auction t u x => exact sol.same hi rfl rfl rfl rfl rfl
  | emis V1 k a u c d i claim amt h0 h1 h2 h3 h4 =>
    obtain ⟨o1, o2, _, _, _, ow, _⟩ := updateEmissions_other h4
    exact sol.same hi o1.resData rfl rfl rfl ow
  | gulp V' a id n h1 h2 h3 =>
    obtain ⟨ed, ec, rfl⟩ := updateReserveEmisConfig_other h3
    exact sol.same hi rfl rfl rfl rfl rfl
  | setInst i' h1 h2 => exact sol.same hi rfl rfl rfl rfl rfl
  | queueReserve V' a c h =>
    unfold queueSetReserve PoolState.getInst at h
    simp only [bind_ok, require_ok, unwrap_ok, pure_ok] at h
    obtain ⟨_, hn, _, hv, i, hi', rfl⟩ := h
    exact sol.same hi rfl rfl rfl rfl rfl
  | unqueue a => exact sol.same hi rfl rfl rfl rfl rfl
  | setReserve V' a h =>
    obtain ⟨q, hq, _, h⟩ := setReserve_ok h
    rcases h with ⟨old, d, i, r, h1, h2, h3, h4, h5, rfl⟩ | ⟨h1, h2, rfl⟩
    · refine accrue_solv cfg sol hi h1 h2 h3 h4 ?_ ?_ ?_ ?_ ?_ ?_ rfl rfl rfl rfl rfl <;> split <;> rfl
    · have hn : S.ps.resData a = none := by
        cases hd : S.ps.resData a with
        | none => rfl
        | some d => obtain ⟨c, hc⟩ := cfg.data a d hd; rw [h1] at hc; simp at hc
      obtain ⟨hf1, hf2⟩ := sol.fresh a hn
      have hpb : S.pb a = 0 := by
        by_contra hh
        obtain ⟨d, hd, _⟩ := sol.transit a (.inl hh); rw [hn] at hd; simp at hd
      have hpd : S.pd a = 0 := by
        by_contra hh
        obtain ⟨d, hd, _⟩ := sol.transit a (.inr hh); rw [hn] at hd; simp at hd
      refine ⟨hi, ?_, ?_, ?_⟩
      · intro b hb
        have e : b ≠ a := by
          rintro rfl; rcases hb with hb | hb
          · exact hb hpb
          · exact hb hpd
        obtain ⟨d, hd, ht⟩ := sol.transit b hb
        exact ⟨d, by simp only [upd_ne e]; exact hd, ht⟩
      · intro b hb
        simp only [upd_apply] at hb
        split at hb
        · simp at hb
        · exact sol.fresh b hb
      · intro b x hx
        simp only [upd_apply] at hx
        split at hx
        · rename_i e; subst e; cases hx
          unfold Pool.worth ceil9 floor9
          simp [hpb, hpd, hf2, hf1]
        · exact sol.worth b x hx
  | poolEmis V' l h =>
    unfold setPoolEmissions at h
    simp only [bind_ok, Prod.exists, require_ok, pure_ok] at h
    obtain ⟨_, _, _, _, _, rfl⟩ := h
    exact sol.same hi rfl rfl rfl rfl rfl
  | writeOff f h =>
    refine ⟨hi, ?_, ?_, ?_⟩
    · intro a ha
      simp only [ne_eq, not_true, or_false] at ha
      exact sol.transit a (.inl ha)
    · intro a ha
      obtain ⟨h1, h2⟩ := sol.fresh a ha
      refine ⟨h1, ?_⟩
      rcases h a with ⟨_, e⟩ | ⟨d, hd, _⟩
      · show f a = 0; rw [e]; exact h2
      · have ha' : S.ps.resData a = none := ha
        rw [hd] at ha'; simp at ha'
    · intro a d hd
      have hd' : S.ps.resData a = some d := hd
      have hw := sol.worth a d hd'
      unfold Pool.worth at hw ⊢
      simp only [add_zero]
      rcases h a with ⟨e0, e⟩ | ⟨d1, hd1, e⟩
      · rw [e0, add_zero] at hw
        rw [e]; exact hw
      · rw [hd'] at hd1; cases hd1
        rw [e]
        have := ceil9_add_le d.dSupply (S.pd a) d.dRate
        omega
  | gain vb' h =>
    refine ⟨hi, sol.transit, ?_, ?_⟩
    · intro a ha
      obtain ⟨h1, h2⟩ := sol.fresh a ha
      exact ⟨le_trans h1 (h a), h2⟩
    · intro a d hd
      have hw := sol.worth a d hd
      have := h a
      unfold Pool.worth at hw ⊢
      simp only at hw ⊢
      omega

/-- the rates and the time of the last update of every reserve only grow; reserves are never removed -/
def RatesGrow (S S' : VS) : Prop := ∀ a d, S.ps.resData a = some d → ∃ d', S'.ps.resData a = some d' ∧
  d.dRate ≤ d'.dRate ∧ d.bRate ≤ d'.bRate ∧ d.lastTime ≤ d'.lastTime

theorem RatesGrow.of_eq {S S' : VS} (h : S'.ps.resData = S.ps.resData) : RatesGrow S S' :=
  fun _ d hd => ⟨d, by rw [h]; exact hd, le_refl _, le_refl _, le_refl _⟩

theorem RatesGrow.upd {S S' : VS} {a : Address} {d d' : ReserveData} (hd : S.ps.resData a = some d)
    (h1 : S'.ps.resData = upd S.ps.resData a (some d'))
    (h2 : d.dRate ≤ d'.dRate ∧ d.bRate ≤ d'.bRate ∧ d.lastTime ≤ d'.lastTime) : RatesGrow S S' := by
  intro b x hx
  by_cases e : b = a
  · subst e; rw [hd] at hx; cases hx
    exact ⟨d', by rw [h1]; exact upd_same, h2⟩
  · exact ⟨x, by rw [h1, upd_ne e]; exact hx, le_refl _, le_refl _, le_refl _⟩

theorem micro_rates {now : Nat} {U : Address → Prop} {S S' : VS} (cfg : CfgOk S.ps) (inv : PInv now S)
    (h : PMicro now U S S') : RatesGrow S S' := by
  have hacc : ∀ {a c d d' i}, S.ps.resConfig a = some c → S.ps.resData a = some d → S.ps.inst = some i →
      accrue c i.config.bstopRate now d = .ok d' →
      d.dRate ≤ d'.dRate ∧ d.bRate ≤ d'.bRate ∧ d.lastTime ≤ d'.lastTime := by
    intro a c d d' i h1 h2 h3 h4
    rcases accrue_mono h4 (inv.dataOk cfg h2) (cfg.valid a c h1).util (cfg.rate i h3) with h | ⟨h, _⟩
    · exact ⟨h.1, h.2.1, h.2.2.2⟩
    · have := (inv.rates a d h2).2.2.2.2; omega
  cases h with
  | touch u h => exact .of_eq rfl
  | accrue a c d d' i h1 h2 h3 h4 => exact .upd h2 rfl (hacc h1 h2 h3 h4)
  | share V1 k a u c d δ x m' vb' pb' pd' h0 h1 h2 h3 h4 h5 h6 =>
    obtain ⟨o1, _⟩ := updateEmissions_other h4
    refine .upd (d' := k.addSupply d δ) h2 (by show upd V1.resData a _ = _; rw [o1.resData]) ?_
    cases k <;> exact ⟨le_refl _, le_refl _, le_refl _⟩
  | credit a d x h1 h2 => exact .upd h1 rfl ⟨le_refl _, le_refl _, le_refl _⟩
  | auction t u x => exact .of_eq rfl
  | emis V1 k a u c d i claim amt h0 h1 h2 h3 h4 =>
    obtain ⟨o1, _⟩ := updateEmissions_other h4
    exact .of_eq o1.resData
  | gulp V' a id n h1 h2 h3 =>
    obtain ⟨ed, ec, rfl⟩ := updateReserveEmisConfig_other h3
    exact .of_eq rfl
  | setInst i' h1 h2 => exact .of_eq rfl
  | queueReserve V' a c h =>
    unfold queueSetReserve PoolState.getInst at h
    simp only [bind_ok, require_ok, unwrap_ok, pure_ok] at h
    obtain ⟨_, hn, _, hv, i, hi', rfl⟩ := h
    exact .of_eq rfl
  | unqueue a => exact .of_eq rfl
  | setReserve V' a h =>
    obtain ⟨q, hq, _, h⟩ := setReserve_ok h
    rcases h with ⟨old, d, i, r, h1, h2, h3, h4, h5, rfl⟩ | ⟨h1, h2, rfl⟩
    · have := hacc h1 h2 h3 h4
      refine .upd h2 rfl ?_
      split <;> exact this
    · intro b x hx
      have e : b ≠ a := by
        rintro rfl
        obtain ⟨c, hc⟩ := cfg.data b x hx; rw [h1] at hc; simp at hc
      exact ⟨x, by simp only [upd_ne e]; exact hx, le_refl _, le_refl _, le_refl _⟩
  | poolEmis V' l h =>
    unfold setPoolEmissions at h
    simp only [bind_ok, Prod.exists, require_ok, pure_ok] at h
    obtain ⟨_, _, _, _, _, rfl⟩ := h
    exact .of_eq rfl
  | writeOff f h => exact .of_eq rfl
  | gain vb' h => exact .of_eq rfl

end Pool

theorem Reachable.solv {w : World} (h : Reachable w) {p : Address} (hp : w.poolAddr p = true) :
    Pool.Solv w.time (.of w p) :=
  h.pool_inv (I := Pool.Solv)
    (fun now vb hvb => ⟨Pool.PInv.init now vb, by simp, fun a _ => ⟨hvb a, rfl⟩, by simp⟩)
    (fun ht h1 h2 hi => ⟨hi.inv.later ht, fun a ha => by rw [h1, h2] at ha; simp at ha, hi.fresh, hi.worth⟩)
    (fun cfg hm hi => Pool.micro_solv cfg hm hi) hp

theorem Reachable.ratesGrow {w w' : World} (h : Reachable w) (hs : Steps w w') {p : Address}
    (hp : w.poolAddr p = true) : Pool.RatesGrow (.of w p) (.of w' p) :=
  h.pool_rel (I := Pool.PInv) (fun h hp => h.pinv hp) (fun cfg hm hi => Pool.micro_inv cfg hm hi)
    (fun _ => .of_eq rfl)
    (fun h1 h2 a d hd => by
      obtain ⟨d1, e1, l1, l2, l3⟩ := h1 a d hd
      obtain ⟨d2, e2, m1, m2, m3⟩ := h2 a d1 e1
      exact ⟨d2, e2, le_trans l1 m1, le_trans l2 m2, le_trans l3 m3⟩)
    (fun cfg hi hm => Pool.micro_rates cfg hi hm) hs hp

theorem Reachable.cfgExt {w w' : World} (h : Reachable w) (hs : Steps w w') {p : Address}
    (hp : w.poolAddr p = true) : Pool.CfgExt (w.pools p) (w'.pools p) :=
  h.pool_rel (I := Pool.PInv) (Rel := fun S S' => Pool.CfgExt S.ps S'.ps) (fun h hp => h.pinv hp)
    (fun cfg hm hi => Pool.micro_inv cfg hm hi)
    (fun _ => .refl _) (fun h1 h2 => h1.trans h2) (fun cfg hi hm => (Pool.micro_cfg hm cfg).2) hs hp

end Blend
