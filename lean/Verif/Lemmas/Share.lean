import Verif.Lemmas.Entitle
/-
  When the record of a user is brought up to date, through the small steps of an operation.
-/

namespace Blend
namespace Pool
open Spec

/-- what small steps at time `now` do to the record and the balance of `u`: nothing, or the record is brought up to the new index;
unless there was no supply while emissions were due -/
def RecRel (now : Nat) (u : Address) (id : Nat) (ps ps' : PoolState) : Prop :=
  (userEntry (ps'.userEmis id) u = userEntry (ps.userEmis id) u ∧ ebal ps' id u = ebal ps id u ∧
    (etot ps' id = etot ps id ∨ Settled now ps' id)) ∨
  (Settled now ps' id ∧ ∀ ed', ps'.emisData id = some ed' → (userEntry (ps'.userEmis id) u).index = ed'.index) ∨
  (etot ps id = 0 ∧ ¬ Settled now ps id)

theorem RecRel.same {now : Nat} {u : Address} {id : Nat} {ps ps' : PoolState}
    (h2 : ps'.userEmis id = ps.userEmis id) (h3 : ebal ps' id u = ebal ps id u) (h4 : etot ps' id = etot ps id) :
    RecRel now u id ps ps' :=
  .inl ⟨by rw [h2], h3, .inl h4⟩

theorem RecRel.same' {now : Nat} {u : Address} {id : Nat} {ps ps' : PoolState}
    (h2 : ps'.userEmis = ps.userEmis) (h3 : ps'.positions = ps.positions) : RecRel now u id ps ps' :=
  .same (by rw [h2]) (by unfold ebal getPositions; rw [h3]) (by unfold etot; rw [h3])

/-- the update of the emissions of `v` in a small step, followed by a change of its balance -/
theorem recRel_update {now : Nat} {S : VS} {V1 V2 : PoolState} {id : Nat} {u v : Address} {s amt : Int} {claim : Bool}
    (hs : 0 < s)
    (h : updateEmissions S.ps now id (etot S.ps id) s v (ebal S.ps id v) claim = .ok (amt, V1))
    {a : Address} {c : ReserveConfig} {cfg : EmisConfig} (hcf : S.ps.emisConfig id = some cfg)
    (ha : S.ps.resList[id / 2]? = some a) (hc : S.ps.resConfig a = some c)
    (hrel : EmisRel now S.ps V2) (h1 : V2.emisData = V1.emisData) (h2 : V2.userEmis = V1.userEmis)
    (h3 : V2.emisConfig = V1.emisConfig)
    (hbal : ∀ x, x ≠ v → ebal V2 id x = ebal S.ps id x) : RecRel now u id S.ps V2 := by
  obtain ⟨o1, _⟩ := updateEmissions_other h
  obtain ⟨d, x, e1, e2, e3, e4, e5, e6, e7⟩ := updateEmissions_entitle h hs hcf
  have hlast : Settled now V2 id ∨ (etot S.ps id = 0 ∧ ¬ Settled now S.ps id) := by
    by_cases h0 : etot S.ps id = 0
    · by_cases hst : Settled now S.ps id
      · exact .inl (hst.step hrel ha hc).1
      · exact .inr ⟨h0, hst⟩
    · exact .inl ⟨cfg, d, by rw [h3, o1.emisConfig, hcf], by rw [h1, e1], e7 h0⟩
  have hentry : ∀ y, userEntry (V2.userEmis id) y = if y = v then x else userEntry (S.ps.userEmis id) y := by
    intro y
    rw [h2, e2]
    unfold userEntry
    rw [SMap.get_set]
    split <;> rfl
  rcases hlast with hl | hl
  · by_cases hu : u = v
    · refine .inr (.inl ⟨hl, fun ed' he => ?_⟩)
      rw [h1, e1] at he; cases he
      rw [hentry, if_pos hu, e3]
    · exact .inl ⟨by rw [hentry, if_neg hu], hbal u hu, .inr hl⟩
  · exact .inr (.inr hl)

theorem micro_rec {now : Nat} {U : Address → Prop} {S S' : VS} (cfg : CfgOk S.ps) (inv : EInv now S) (h : PMicro now U S S')
    {u : Address} {id : Nat} {cf : EmisConfig} (hcf : S.ps.emisConfig id = some cf) {a : Address} {c : ReserveConfig}
    (ha : S.ps.resList[id / 2]? = some a) (hc : S.ps.resConfig a = some c) :
    RecRel now u id S.ps S'.ps := by
  have hrel := micro_index cfg inv (h.mono (U' := fun _ => True) fun _ _ => trivial)
  cases h with
  | touch v h =>
    refine .same rfl ?_ ?_
    · rw [ebal_set S.ps _ v _ id rfl]
      split
      · rename_i e; rw [e]; rfl
      · rfl
    · rw [etot_set S.ps _ v _ id rfl]
      unfold ebal; ring
  | accrue a c d d' i h1 h2 h3 h4 => exact .same' rfl rfl
  | share V1 k a' v c' d δ x m' vb' pb' pd' h0 h1 h2 h3 h4 h5 h6 =>
    obtain ⟨o1, o2, o3, o4, o5, o6⟩ := updateEmissions_other h4
    have hm := h5 inv.inv.pos
    have hbal : ∀ j, j ≠ c'.index → m'.bal j = (k.map (getPositions S.ps v)).bal j := by
      intro j hj
      rcases hm with ⟨_, rfl⟩ | ⟨_, rfl⟩
      · rw [SMap.bal_set, if_neg hj]
      · rw [bal_setBal, if_neg hj]
    have hpos : ({ V1 with
        positions := V1.positions.set v (k.put (getPositions S.ps v) m')
        resData := upd V1.resData a' (some (k.addSupply d δ)) } : PoolState).positions =
        S.ps.positions.set v (k.put (getPositions S.ps v) m') := by simp only [o2]
    by_cases hid : id = k.id c'.index
    · subst hid
      rw [cfg.list_idx h1 k] at ha; cases ha
      rw [h1] at hc; cases hc
      rw [inv.inv.supply_eq h1 h2, emisBal_eq] at h4
      refine recRel_update (by positivity) h4 hcf (cfg.list_idx h1 k) h1 hrel rfl rfl rfl fun y hy => ?_
      rw [ebal_set S.ps _ v _ _ hpos, if_neg hy]
    · have hput := posBal_put (k := k) (pos := getPositions S.ps v) (m' := m') hbal hid
      refine .same ?_ ?_ ?_
      · exact (updateEmissions_otherId h4 hid).2
      · rw [ebal_set S.ps _ v _ _ hpos, hput]
        split
        · rename_i e; rw [e]; rfl
        · rfl
      · rw [etot_set S.ps _ v _ _ hpos, hput]
        unfold ebal; ring
  | credit a d x h1 h2 => exact .same' rfl rfl
  | auction t u x => exact .same' rfl rfl
  | emis V1 k a' v c' d i claim amt h0 h1 h2 h3 h4 =>
    have hi : i = c'.index := by
      rcases h3 with h3 | h3
      · exact (cfg.index_list h3 h1).symm
      · exact h3
    subst hi
    obtain ⟨o1, o2, o3, o4, o5, o6⟩ := updateEmissions_other h4
    by_cases hid : id = k.id c'.index
    · subst hid
      rw [cfg.list_idx h1 k] at ha; cases ha
      rw [h1] at hc; cases hc
      rw [inv.inv.supply_eq h1 h2, emisBal_eq] at h4
      refine recRel_update (by positivity) h4 hcf (cfg.list_idx h1 k) h1 hrel rfl rfl rfl fun y hy => ?_
      unfold ebal getPositions; simp only [o2]
    · refine .same ?_ ?_ ?_
      · exact (updateEmissions_otherId h4 hid).2
      · unfold ebal getPositions; simp only [o2]
      · unfold etot; simp only [o2]
  | gulp V' a id n h1 h2 h3 =>
    obtain ⟨g1, g2, hV⟩ := updateReserveEmisConfig_other h3
    rw [hV]
    exact .same' rfl rfl
  | setInst i' h1 h2 => exact .same' rfl rfl
  | queueReserve V' a c h =>
    unfold queueSetReserve PoolState.getInst at h
    simp only [bind_ok, require_ok, unwrap_ok, pure_ok] at h
    obtain ⟨_, hn, _, hv, i, hi, rfl⟩ := h
    exact .same' rfl rfl
  | unqueue a => exact .same' rfl rfl
  | setReserve V' a h =>
    obtain ⟨q, hq, _, h⟩ := setReserve_ok h
    rcases h with ⟨old, d, i, r, h1, h2, h3, h4, h5, rfl⟩ | ⟨h1, h2, rfl⟩
    · exact .same' rfl rfl
    · exact .same' rfl rfl
  | poolEmis V' l h =>
    unfold setPoolEmissions at h
    simp only [bind_ok, require_ok, pure_ok, Prod.exists] at h
    obtain ⟨_, _, _, _, _, rfl⟩ := h
    exact .same' rfl rfl
  | writeOff f h => exact .same' rfl rfl
  | gain vb' h => exact .same' rfl rfl

theorem micros_rec {now : Nat} {U : Address → Prop} {S S' : VS} (cfg : CfgOk S.ps) (inv : EInv now S) (h : PMicros now U S S')
    {u : Address} {id : Nat} {cf : EmisConfig} (hcf : S.ps.emisConfig id = some cf) {a : Address} {c : ReserveConfig}
    (ha : S.ps.resList[id / 2]? = some a) (hc : S.ps.resConfig a = some c) :
    RecRel now u id S.ps S'.ps := by
  induction h with
  | refl => exact .same' rfl rfl
  | @tail S1 S2 h12 h2 ih =>
    obtain ⟨rel, inv1, cfg1⟩ := micros_index cfg inv (h12.mono (U' := fun _ => True) fun _ _ => trivial)
    obtain ⟨_, _, ed, _, _, hed, _, _, _, _⟩ := (inv.emis id).isSet cf hcf
    obtain ⟨cf1, ed1, k1, k2, _⟩ := rel.rel id cf ed a c hcf hed ha hc
    obtain ⟨l, hl⟩ := rel.ext.list
    obtain ⟨c1, hc1, _, hdec⟩ := rel.ext.cfg a c hc
    have ha1 : S1.ps.resList[id / 2]? = some a := by
      rw [hl, List.getElem?_append_left]
      · exact ha
      · rw [List.getElem?_eq_some_iff] at ha; exact ha.1
    have rel2 := micro_index cfg1 inv1 (h2.mono (U' := fun _ => True) fun _ _ => trivial)
    have h1 := micro_rec cfg1 inv1 h2 (u := u) k1 ha1 hc1
    obtain ⟨cf2, ed2, r1, r2, r3, _⟩ := rel2.rel id cf1 ed1 a c1 k1 k2 ha1 hc1
    rcases ih with ⟨g1, g2, g3⟩ | ⟨g1, g2⟩ | g
    · rcases h1 with ⟨f1, f2, f3⟩ | f | ⟨f1, f2⟩
      · refine .inl ⟨f1.trans g1, f2.trans g2, ?_⟩
        rcases g3 with g3 | g3
        · rcases f3 with f3 | f3
          · exact .inl (f3.trans g3)
          · exact .inr f3
        · exact .inr (g3.step rel2 ha1 hc1).1
      · exact .inr (.inl f)
      · rcases g3 with g3 | g3
        · exact .inr (.inr ⟨by rw [← g3]; exact f1, fun hst => f2 (hst.step rel ha hc).1⟩)
        · exact absurd g3 f2
    · obtain ⟨s1, s2⟩ := g1.step rel2 ha1 hc1
      rcases h1 with ⟨f1, f2, f3⟩ | f | ⟨f1, f2⟩
      · refine .inr (.inl ⟨s1, fun ed' he => ?_⟩)
        rw [f1, g2 ed1 k2, s2 ed1 ed' k2 he]
      · exact .inr (.inl f)
      · exact absurd g1 f2
    · exact .inr (.inr g)

/-- what `u` can claim exactly, without rounding, times `s`, if the index were `J` -/
def exactAt (ps : PoolState) (id : Nat) (s : Int) (u : Address) (J : Int) : Int :=
  s * (userEntry (ps.userEmis id) u).accrued + ebal ps id u * (J - (userEntry (ps.userEmis id) u).index)

theorem exactAt_bounds {ps : PoolState} {id : Nat} {s : Int} {u : Address} {J : Int} (hs : 0 < s) :
    s * entAt ps id s u J ≤ exactAt ps id s u J ∧ exactAt ps id s u J < s * (entAt ps id s u J + 1) := by
  have hf := fdiv_spec (a := ebal ps id u * (J - (userEntry (ps.userEmis id) u).index)) hs
  unfold entAt exactAt
  constructor <;> nlinarith [hf.1, hf.2]

/-- through the small steps of an operation that starts with a supply, what was paid to `u` and what he can claim grows by no more
than his balance before times the growth of the index, not even by rounding -/
theorem micros_exact {now : Nat} {U : Address → Prop} {S S' : VS} (cfg : CfgOk S.ps) (inv : EInv now S) (h : PMicros now U S S')
    {u : Address} {id : Nat} {cf : EmisConfig} (hcf : S.ps.emisConfig id = some cf) {a : Address} {c : ReserveConfig}
    (ha : S.ps.resList[id / 2]? = some a) (hc : S.ps.resConfig a = some c) (h0 : etot S.ps id ≠ 0) {ed ed' : EmisData}
    (hed' : S'.ps.emisData id = some ed') :
    ∃ P : Int, 0 ≤ P ∧ P ≤ S'.ps.claimed id - S.ps.claimed id ∧ ((∀ v, U v → v = u) → P = S'.ps.claimed id - S.ps.claimed id) ∧
      (¬ U u → P = 0) ∧
      10 ^ c.decimals * P + exactAt S'.ps id (10 ^ c.decimals) u ed'.index ≤
        exactAt S.ps id (10 ^ c.decimals) u ed.index + ebal S.ps id u * (ed'.index - ed.index) := by
  have h10 : (0 : Int) < 10 ^ c.decimals := by positivity
  obtain ⟨P, p0, p1, p2, pn, p3, p4⟩ := micros_entitle cfg inv h (u := u) hcf ha hc
  refine ⟨P, p0, p1, p2, pn, ?_⟩
  have e : exactAt S.ps id (10 ^ c.decimals) u ed.index + ebal S.ps id u * (ed'.index - ed.index) =
      exactAt S.ps id (10 ^ c.decimals) u ed'.index := by unfold exactAt; ring
  rw [e]
  rcases micros_rec cfg inv h (u := u) hcf ha hc with ⟨g1, g2, _⟩ | ⟨g1, g2⟩ | ⟨g1, _⟩
  · have hent : entAt S'.ps id (10 ^ c.decimals) u ed'.index = entAt S.ps id (10 ^ c.decimals) u ed'.index := by
      unfold entAt; rw [g1, g2]
    have hx : exactAt S'.ps id (10 ^ c.decimals) u ed'.index = exactAt S.ps id (10 ^ c.decimals) u ed'.index := by
      unfold exactAt; rw [g1, g2]
    have hP : P = 0 := by
      rcases p4 with ⟨rfl, _⟩ | ⟨_, f⟩ | ⟨f, _⟩
      · rfl
      · have := f ed' hed'; omega
      · exact absurd f h0
    rw [hx, hP]; omega
  · have hi := g2 ed' hed'
    have hx : exactAt S'.ps id (10 ^ c.decimals) u ed'.index = 10 ^ c.decimals * entAt S'.ps id (10 ^ c.decimals) u ed'.index := by
      unfold exactAt entAt; rw [hi]; simp
    have hq : entAt S'.ps id (10 ^ c.decimals) u ed'.index + P = entAt S.ps id (10 ^ c.decimals) u ed'.index := by
      rcases p4 with ⟨rfl, f1, f2, _⟩ | ⟨_, f⟩ | ⟨f, _⟩
      · unfold entAt; rw [f1, f2]; omega
      · exact f ed' hed'
      · exact absurd f h0
    rw [hx, ← mul_add, add_comm, hq]
    exact (exactAt_bounds h10).1
  · exact absurd g1 h0

end Pool
end Blend
