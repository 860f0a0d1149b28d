import Verif.Lemmas.Reach
/-
  The main invariant of a pool: rates, share totals, positive balances.
-/

namespace Blend
namespace Pool
open Spec

/-- total over all users of one kind of shares of reserve index `i` -/
def tot (ps : PoolState) (k : Kind) (i : Nat) : Int := ps.positions.sum fun _ pos => (k.map pos).bal i

/-- The invariant of a pool's (virtual) storage at ledger time `now`. -/
structure PInv (now : Nat) (S : VS) : Prop where
  rates : ∀ a d, S.ps.resData a = some d → 1000000000 ≤ d.dRate ∧ 1000000000 ≤ d.bRate ∧
    100000000 ≤ d.irMod ∧ d.irMod ≤ 10000000000 ∧ d.lastTime ≤ now
  bals : ∀ u pos (k : Kind) i v, S.ps.positions.get u = some pos → (k.map pos).get i = some v →
    0 < v ∧ i < S.ps.resList.length
  dsum : ∀ a c d, S.ps.resConfig a = some c → S.ps.resData a = some d →
    d.dSupply = tot S.ps .liab c.index
  bsum : ∀ a c d, S.ps.resConfig a = some c → S.ps.resData a = some d →
    d.bSupply = tot S.ps .coll c.index + tot S.ps .supp c.index

theorem PInv.pos {now : Nat} {S : VS} (h : PInv now S) : PosOk S.ps :=
  ⟨fun a d hd => by have := h.rates a d hd; omega, fun u pos k i v h1 h2 => (h.bals u pos k i v h1 h2).1⟩

theorem PInv.bal_nonneg {now : Nat} {S : VS} (h : PInv now S) (k : Kind) (u : Address) (pos : Positions) (i : Nat)
    (hp : S.ps.positions.get u = some pos) : 0 ≤ (k.map pos).bal i := by
  unfold SMap.bal
  cases hv : (k.map pos).get i with
  | none => simp
  | some v => have := (h.bals u pos k i v hp hv).1; simp; omega

theorem PInv.tot_nonneg {now : Nat} {S : VS} (h : PInv now S) (k : Kind) (i : Nat) : 0 ≤ tot S.ps k i :=
  SMap.sum_nonneg fun u pos hp => h.bal_nonneg k u pos i hp

theorem PInv.dataOk {now : Nat} {S : VS} (h : PInv now S) (cfg : CfgOk S.ps) {a : Address} {d : ReserveData}
    (hd : S.ps.resData a = some d) : DataOk d := by
  obtain ⟨c, hc⟩ := cfg.data a d hd
  obtain ⟨h1, h2, h3, h4, _⟩ := h.rates a d hd
  refine ⟨h1, h2, ?_, ?_, h3, h4⟩
  · rw [h.dsum a c d hc hd]; exact h.tot_nonneg _ _
  · rw [h.bsum a c d hc hd]; have := h.tot_nonneg .coll c.index; have := h.tot_nonneg .supp c.index; omega

/-- the balances of one kind of a user's positions -/
theorem getPositions_bal (ps : PoolState) (u : Address) (k : Kind) (i : Nat) :
    (k.map (getPositions ps u)).bal i = ((ps.positions.get u).map fun pos => (k.map pos).bal i).getD 0 := by
  unfold getPositions
  cases ps.positions.get u with
  | some pos => rfl
  | none => cases k <;> rfl

/-- totals after a user's positions are replaced -/
theorem tot_set (ps ps' : PoolState) (u : Address) (pos : Positions) (k : Kind) (i : Nat)
    (h : ps'.positions = ps.positions.set u pos) :
    tot ps' k i = tot ps k i + (k.map pos).bal i - (k.map (getPositions ps u)).bal i := by
  unfold tot
  rw [h, SMap.sum_set, getPositions_bal]

theorem map_put (k k' : Kind) (pos : Positions) (m : SMap Int) :
    k'.map (k.put pos m) = if k' = k then m else k'.map pos := by
  cases k <;> cases k' <;> rfl

theorem getPositions_get {ps : PoolState} {u : Address} {k : Kind} {i : Nat} {v : Int}
    (h : (k.map (getPositions ps u)).get i = some v) :
    ∃ pos, ps.positions.get u = some pos ∧ (k.map pos).get i = some v := by
  unfold getPositions at h
  cases hp : ps.positions.get u with
  | some pos => rw [hp] at h; exact ⟨pos, rfl, h⟩
  | none => rw [hp] at h; cases k <;> simp [Positions.default, Kind.map] at h

theorem PInv.same {now : Nat} {S S' : VS} (h : PInv now S) (h1 : S'.ps.resData = S.ps.resData)
    (h2 : S'.ps.resConfig = S.ps.resConfig) (h3 : S'.ps.resList = S.ps.resList)
    (h4 : S'.ps.positions = S.ps.positions) : PInv now S' := by
  refine ⟨?_, ?_, ?_, ?_⟩
  · rw [h1]; exact h.rates
  · rw [h3, h4]; exact h.bals
  · unfold tot; rw [h1, h2, h4]; exact h.dsum
  · unfold tot; rw [h1, h2, h4]; exact h.bsum

/-- a reserve's data changes, not its share totals -/
theorem PInv.upd_data {now : Nat} {S S' : VS} (h : PInv now S) {a : Address} {d d' : ReserveData}
    (hd : S.ps.resData a = some d) (h1 : S'.ps.resData = upd S.ps.resData a (some d'))
    (h2 : S'.ps.resConfig = S.ps.resConfig) (h3 : S'.ps.resList = S.ps.resList)
    (h4 : S'.ps.positions = S.ps.positions) (hb : d'.bSupply = d.bSupply) (hs : d'.dSupply = d.dSupply)
    (hr : 1000000000 ≤ d'.dRate ∧ 1000000000 ≤ d'.bRate ∧
      100000000 ≤ d'.irMod ∧ d'.irMod ≤ 10000000000 ∧ d'.lastTime ≤ now) : PInv now S' := by
  have hdd : ∀ b x, S'.ps.resData b = some x → (b = a ∧ x = d') ∨ (S.ps.resData b = some x) := by
    intro b x hx
    rw [h1, upd_apply] at hx
    split at hx
    · cases hx; exact .inl ⟨‹_›, rfl⟩
    · exact .inr hx
  refine ⟨?_, ?_, ?_, ?_⟩
  · intro b x hx
    rcases hdd b x hx with ⟨rfl, rfl⟩ | hx
    · exact hr
    · exact h.rates b x hx
  · rw [h3, h4]; exact h.bals
  · intro b c x hc hx
    unfold tot; rw [h4]
    rw [h2] at hc
    rcases hdd b x hx with ⟨rfl, rfl⟩ | hx
    · rw [hs]; exact h.dsum b c d hc hd
    · exact h.dsum b c x hc hx
  · intro b c x hc hx
    unfold tot; rw [h4]
    rw [h2] at hc
    rcases hdd b x hx with ⟨rfl, rfl⟩ | hx
    · rw [hb]; exact h.bsum b c d hc hd
    · exact h.bsum b c x hc hx

theorem accrue_rates {c : ReserveConfig} {rate now : Nat} {r r' : ReserveData}
    (h : accrue c rate now r = .ok r') (ok : DataOk r) (hle : r.lastTime ≤ now) (ht : c.util ≤ 9500000)
    (hrate : rate < 10000000) : 1000000000 ≤ r'.dRate ∧ 1000000000 ≤ r'.bRate ∧
      100000000 ≤ r'.irMod ∧ r'.irMod ≤ 10000000000 ∧ r'.lastTime ≤ now := by
  have h1 := accrue_irMod h ⟨ok.irMod_lo, ok.irMod_hi⟩
  have h2 := accrue_time h
  have := ok.dRate
  have := ok.bRate
  rcases accrue_mono h ok ht hrate with h3 | ⟨h3, _⟩
  · exact ⟨by omega, by omega, h1.1, h1.2, by omega⟩
  · omega

theorem micro_inv {now : Nat} {U : Address → Prop} {S S' : VS} (cfg : CfgOk S.ps) (h : PMicro now U S S')
    (inv : PInv now S) : PInv now S' := by
  cases h with
  | touch u h =>
    have hs : ∀ k i, tot (setPositions S.ps u (getPositions S.ps u)) k i = tot S.ps k i := by
      intro k i
      rw [tot_set S.ps _ u (getPositions S.ps u) k i rfl]; ring
    refine ⟨inv.rates, ?_, ?_, ?_⟩
    · intro x pos k i v hx hv
      simp only [setPositions, SMap.get_set] at hx
      split at hx
      · cases hx
        obtain ⟨pos, h1, h2⟩ := getPositions_get hv
        exact inv.bals u pos k i v h1 h2
      · exact inv.bals x pos k i v hx hv
    · intro a c d hc hd
      rw [hs]; exact inv.dsum a c d hc hd
    · intro a c d hc hd
      rw [hs, hs]; exact inv.bsum a c d hc hd
  | accrue a c d d' i h1 h2 h3 h4 =>
    obtain ⟨hb, hs⟩ := accrue_supplies h4
    exact inv.upd_data h2 rfl rfl rfl rfl hb hs
      (accrue_rates h4 (inv.dataOk cfg h2) (inv.rates a d h2).2.2.2.2 (cfg.valid a c h1).util
        (cfg.rate i h3))
  | share V1 k a u c d δ x m' vb' pb' pd' h0 h1 h2 h3 h4 h5 h6 =>
    obtain ⟨o1, o2, _⟩ := updateEmissions_other h4
    have hm := h5 inv.pos
    have hbal : ∀ j, m'.bal j = if j = c.index then (k.map (getPositions S.ps u)).bal c.index + δ
        else (k.map (getPositions S.ps u)).bal j := by
      intro j
      rcases hm with ⟨_, rfl⟩ | ⟨_, rfl⟩
      · rw [SMap.bal_set]
      · rw [bal_setBal]
    have hget : ∀ j v, m'.get j = some v → 0 < v ∧ (j = c.index ∨ (k.map (getPositions S.ps u)).get j = some v) := by
      intro j v hv
      have old : (k.map (getPositions S.ps u)).get j = some v → 0 < v := by
        intro hv
        obtain ⟨pos, g1, g2⟩ := getPositions_get hv
        exact (inv.bals u pos k j v g1 g2).1
      rcases hm with ⟨hp, rfl⟩ | ⟨hp, rfl⟩
      · rw [SMap.get_set] at hv
        split at hv
        · cases hv; exact ⟨hp, .inl ‹_›⟩
        · exact ⟨old hv, .inr hv⟩
      · unfold setBal at hv
        split at hv
        · rw [SMap.get_del] at hv
          split at hv
          · simp at hv
          · exact ⟨old hv, .inr hv⟩
        · rw [SMap.get_set] at hv
          split at hv
          · cases hv; exact ⟨by omega, .inl ‹_›⟩
          · exact ⟨old hv, .inr hv⟩
    have htot : ∀ k' j, tot { V1 with
        positions := V1.positions.set u (k.put (getPositions S.ps u) m')
        resData := upd V1.resData a (some (k.addSupply d δ)) } k' j =
        tot S.ps k' j + if k' = k ∧ j = c.index then δ else 0 := by
      intro k' j
      rw [tot_set S.ps _ u (k.put (getPositions S.ps u) m') k' j (by rw [o2])]
      rw [map_put]
      by_cases hk : k' = k
      · subst hk
        rw [if_pos rfl, hbal]
        by_cases hj : j = c.index
        · subst hj; simp; ring
        · simp [hj]
      · simp [hk]
    have hidx : ∀ b cb, S.ps.resConfig b = some cb → cb.index = c.index → b = a := fun b cb hb e =>
      cfg.index_inj hb h1 e
    have hlen : c.index < S.ps.resList.length := by
      have := cfg.idx a c h1
      rw [List.getElem?_eq_some_iff] at this
      exact this.1
    refine ⟨?_, ?_, ?_, ?_⟩
    · intro b y hy
      simp only [upd_apply] at hy
      split at hy
      · have := inv.rates a d h2
        cases hy
        cases k <;> exact this
      · rw [o1.resData] at hy; exact inv.rates b y hy
    · intro y pos k' i v hy hv
      simp only [SMap.get_set, o1.resList, o2] at hy ⊢
      split at hy
      · cases hy
        rw [map_put] at hv
        split at hv
        · obtain ⟨g1, g2⟩ := hget i v hv
          refine ⟨g1, ?_⟩
          rcases g2 with rfl | g2
          · exact hlen
          · obtain ⟨pos, g3, g4⟩ := getPositions_get g2
            exact (inv.bals u pos k i v g3 g4).2
        · obtain ⟨pos, g3, g4⟩ := getPositions_get hv
          exact inv.bals u pos k' i v g3 g4
      · exact inv.bals y pos k' i v hy hv
    · intro b cb y hcb hy
      simp only [o1.resConfig] at hcb
      rw [htot]
      simp only [upd_apply] at hy
      split at hy
      · rename_i e; subst e
        rw [h1] at hcb; cases hcb; cases hy
        have := inv.dsum b c d h1 h2
        cases k <;> simp [Kind.addSupply, this]
      · rename_i e
        rw [o1.resData] at hy
        rw [if_neg (fun hh => e (hidx b cb hcb hh.2)), add_zero]
        exact inv.dsum b cb y hcb hy
    · intro b cb y hcb hy
      simp only [o1.resConfig] at hcb
      rw [htot, htot]
      simp only [upd_apply] at hy
      split at hy
      · rename_i e; subst e
        rw [h1] at hcb; cases hcb; cases hy
        have := inv.bsum b c d h1 h2
        cases k <;> simp [Kind.addSupply, this] <;> ring
      · rename_i e
        rw [o1.resData] at hy
        rw [if_neg (fun hh => e (hidx b cb hcb hh.2)), if_neg (fun hh => e (hidx b cb hcb hh.2)),
          add_zero, add_zero]
        exact inv.bsum b cb y hcb hy
  | credit a d x h1 h2 =>
    exact inv.upd_data h1 rfl rfl rfl rfl rfl rfl (inv.rates a d h1)
  | auction t u x => exact inv.same rfl rfl rfl rfl
  | emis V1 k a u c d i claim amt h0 h1 h2 h3 h4 =>
    obtain ⟨o1, o2, _⟩ := updateEmissions_other h4
    exact inv.same o1.resData o1.resConfig o1.resList o2
  | gulp V' a id n h1 h2 h3 =>
    obtain ⟨ed, ec, rfl⟩ := updateReserveEmisConfig_other h3
    exact inv.same rfl rfl rfl rfl
  | setInst i' h1 h2 => exact inv.same rfl rfl rfl rfl
  | queueReserve V' a c h =>
    unfold queueSetReserve PoolState.getInst at h
    simp only [bind_ok, require_ok, unwrap_ok, pure_ok] at h
    obtain ⟨_, hn, _, hv, i, hi, rfl⟩ := h
    exact inv.same rfl rfl rfl rfl
  | unqueue a => exact inv.same rfl rfl rfl rfl
  | setReserve V' a h =>
    obtain ⟨q, hq, _, h⟩ := setReserve_ok h
    rcases h with ⟨old, d, i, r, h1, h2, h3, h4, h5, rfl⟩ | ⟨h1, h2, rfl⟩
    · obtain ⟨hb, hs⟩ := accrue_supplies h4
      have hr := accrue_rates h4 (inv.dataOk cfg h2) (inv.rates a d h2).2.2.2.2 (cfg.valid a old h1).util
        (cfg.rate i h3)
      obtain ⟨d', hd'⟩ : ∃ d', (if old.rBase ≠ q.newConfig.rBase ∨ old.rOne ≠ q.newConfig.rOne ∨
            old.rTwo ≠ q.newConfig.rTwo ∨
            old.rThree ≠ q.newConfig.rThree ∨ old.util ≠ q.newConfig.util
            then { r with irMod := SCALAR_9 } else r) = d' := ⟨_, rfl⟩
      have hp : d'.bSupply = d.bSupply ∧ d'.dSupply = d.dSupply ∧ 1000000000 ≤ d'.dRate ∧ 1000000000 ≤ d'.bRate ∧
          100000000 ≤ d'.irMod ∧ d'.irMod ≤ 10000000000 ∧ d'.lastTime ≤ now := by
        subst hd'
        split
        · exact ⟨hb, hs, hr.1, hr.2.1, by simp [SCALAR_9], by simp [SCALAR_9], hr.2.2.2.2⟩
        · exact ⟨hb, hs, hr⟩
      have key := inv.upd_data (S' := { S with ps := { S.ps with
        resData := upd S.ps.resData a (some d') } }) h2 rfl rfl rfl rfl hp.1 hp.2.1 hp.2.2
      rw [hd']
      refine ⟨key.rates, key.bals, ?_, ?_⟩
      · intro b cb y hcb hy
        simp only [upd_apply] at hcb
        split at hcb
        · rename_i e; subst e; cases hcb; exact key.dsum b old y h1 hy
        · exact key.dsum b cb y hcb hy
      · intro b cb y hcb hy
        simp only [upd_apply] at hcb
        split at hcb
        · rename_i e; subst e; cases hcb; exact key.bsum b old y h1 hy
        · exact key.bsum b cb y hcb hy
    · have hz : ∀ k, tot S.ps k S.ps.resList.length = 0 := by
        intro k
        unfold tot
        have h1 := SMap.sum_le (m := S.ps.positions) (f := fun _ pos => (k.map pos).bal S.ps.resList.length)
          (g := fun _ _ => 0) ?_
        · have h2 : (S.ps.positions.sum fun _ _ => 0) = 0 := by
            unfold SMap.sum
            induction S.ps.positions.toList with
            | nil => rfl
            | cons x l ih => simp [ih]
          have := inv.tot_nonneg k S.ps.resList.length
          unfold tot at this
          omega
        · intro u pos hp
          unfold SMap.bal
          cases hv : (k.map pos).get S.ps.resList.length with
          | none => simp
          | some v => have := (inv.bals u pos k _ v hp hv).2; omega
      refine ⟨?_, ?_, ?_, ?_⟩
      · intro b y hy
        simp only [upd_apply] at hy
        split at hy
        · cases hy
          exact ⟨by simp [SCALAR_9], by simp [SCALAR_9], by simp [SCALAR_9], by simp [SCALAR_9], le_refl _⟩
        · exact inv.rates b y hy
      · intro u pos k i v hp hv
        have := inv.bals u pos k i v hp hv
        simp only [List.length_append, List.length_singleton]
        omega
      · intro b cb y hcb hy
        simp only [upd_apply] at hcb hy
        split at hcb
        · rename_i e; subst e; cases hcb
          simp only [if_true, Option.some.injEq] at hy
          subst hy
          exact (hz .liab).symm
        · rename_i e
          rw [if_neg e] at hy
          exact inv.dsum b cb y hcb hy
      · intro b cb y hcb hy
        simp only [upd_apply] at hcb hy
        split at hcb
        · rename_i e; subst e; cases hcb
          simp only [if_true, Option.some.injEq] at hy
          subst hy
          have e1 := hz .coll
          have e2 := hz .supp
          unfold tot at e1 e2 ⊢
          simp only
          omega
        · rename_i e
          rw [if_neg e] at hy
          exact inv.bsum b cb y hcb hy
  | poolEmis V' l h =>
    unfold setPoolEmissions at h
    simp only [bind_ok, Prod.exists, require_ok, pure_ok] at h
    obtain ⟨_, _, _, _, _, rfl⟩ := h
    exact inv.same rfl rfl rfl rfl
  | writeOff f h => exact inv.same rfl rfl rfl rfl
  | gain vb' h => exact inv.same rfl rfl rfl rfl

theorem PInv.init (now : Nat) (vb : Address → Int) : PInv now ⟨{}, vb, fun _ => 0, fun _ => 0⟩ :=
  ⟨by simp, by simp, by simp, by simp⟩

theorem PInv.later {now now' : Nat} {S : VS} (h : now ≤ now') (inv : PInv now S) : PInv now' S :=
  ⟨fun a d hd => by have := inv.rates a d hd; omega, inv.bals, inv.dsum, inv.bsum⟩

end Pool

theorem Reachable.pinv {w : World} (h : Reachable w) {p : Address} (hp : w.poolAddr p = true) :
    Pool.PInv w.time (.of w p) :=
  h.pool_inv (fun now vb _ => Pool.PInv.init now vb) (fun ht _ _ hi => hi.later ht)
    (fun cfg hm hi => Pool.micro_inv cfg hm hi) hp

end Blend
