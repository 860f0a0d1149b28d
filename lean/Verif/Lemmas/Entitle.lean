import Verif.Props.PoolEmissions
import Verif.Lemmas.CfgFrame
/-
  What a user can claim of a reserve token, through the small steps of an operation.
-/

namespace Blend
namespace Pool
open Spec

/-- what the user could claim if the index were `J` -/
def entAt (ps : PoolState) (id : Nat) (s : Int) (u : Address) (J : Int) : Int :=
  (userEntry (ps.userEmis id) u).accrued + Int.fdiv (ebal ps id u * (J - (userEntry (ps.userEmis id) u).index)) s

/-- no emissions are due: the index cannot change any more at this time -/
def Settled (now : Nat) (ps : PoolState) (id : Nat) : Prop :=
  ∃ cfg ed, ps.emisConfig id = some cfg ∧ ps.emisData id = some ed ∧
    (cfg.expiration ≤ ed.lastTime ∨ ed.lastTime = now ∨ cfg.eps = 0)

theorem Settled.step {now : Nat} {ps ps' : PoolState} {id : Nat} (h : Settled now ps id) (he : EmisRel now ps ps') {a : Address}
    {c : ReserveConfig} (ha : ps.resList[id / 2]? = some a) (hc : ps.resConfig a = some c) :
    Settled now ps' id ∧ ∀ ed ed', ps.emisData id = some ed → ps'.emisData id = some ed' → ed'.index = ed.index := by
  obtain ⟨cfg, ed, h1, h2, h3⟩ := h
  obtain ⟨cfg', ed', k1, k2, k3, k4, k5⟩ := he.rel id cfg ed a c h1 h2 ha hc
  rcases k5 with ⟨rfl, k5⟩ | ⟨k5, k6, mid, k7, k8⟩
  · have : ed' = ed := by
      rcases k5 with k5 | ⟨q1, q2, q3, _⟩
      · exact k5.1
      · exfalso
        rcases h3 with h3 | h3 | h3 <;> omega
    subst this
    exact ⟨⟨_, _, k1, k2, h3⟩, fun x y hx hy => by rw [h2] at hx; rw [k2] at hy; cases hx; cases hy; rfl⟩
  · have : mid = ed := by
      rcases k8 0 with k8 | ⟨q1, q2, q3, _⟩
      · exact k8.1
      · exfalso
        rcases h3 with h3 | h3 | h3 <;> omega
    subst this
    exact ⟨⟨_, _, k1, k2, .inr (.inl k6)⟩, fun x y hx hy => by rw [h2] at hx; rw [k2] at hy; cases hx; cases hy; exact k7.symm⟩

theorem dataUpdate_settled {ps ps' : PoolState} {now id : Nat} {supply s : Int} {cfg : EmisConfig} {d : EmisData}
    (h : updateEmisDataWith ps now id supply s cfg = .ok (d, ps')) (hs : supply ≠ 0) :
    cfg.expiration ≤ d.lastTime ∨ d.lastTime = now ∨ cfg.eps = 0 := by
  unfold updateEmisDataWith at h
  simp only [bind_ok, ite_ok, unwrap_ok, pure_ok, Prod.mk.injEq, chk_ok] at h
  obtain ⟨ed, he, ⟨hc, rfl, rfl⟩ | ⟨hc, dt, hdt, num, ⟨_, rfl⟩, add, hadd, idx, ⟨_, rfl⟩, rfl, rfl⟩⟩ := h
  · rcases hc with h | h | h | h
    · exact .inl h
    · exact .inr (.inl h.symm)
    · exact .inr (.inr h)
    · exact absurd h hs
  · simp only
    split
    · exact .inl (le_refl _)
    · exact .inr (.inl rfl)

/-- the record of a user after an update of his emissions, exactly -/
theorem userUpdate_exact {ps ps' : PoolState} {d : EmisData} {id : Nat} {s : Int} {u : Address} {bal amt : Int} {claim : Bool}
    (h : updateUserEmis ps d id s u bal claim = .ok (amt, ps')) (hs : 0 < s) :
    ∃ x, ps' = { ps with userEmis := upd ps.userEmis id ((ps.userEmis id).set u x) } ∧ x.index = d.index ∧
      (claim = false → amt = 0) ∧ (claim = true → x.accrued = 0) ∧
      amt + x.accrued = (userEntry (ps.userEmis id) u).accrued +
        Int.fdiv (bal * (d.index - (userEntry (ps.userEmis id) u).index)) s := by
  have hset : ∀ {acc : Int}, acc = (userEntry (ps.userEmis id) u).accrued +
        Int.fdiv (bal * (d.index - (userEntry (ps.userEmis id) u).index)) s →
      setUserEmis ps u id d.index acc claim = (amt, ps') →
      ∃ x, ps' = { ps with userEmis := upd ps.userEmis id ((ps.userEmis id).set u x) } ∧ x.index = d.index ∧
      (claim = false → amt = 0) ∧ (claim = true → x.accrued = 0) ∧
      amt + x.accrued = (userEntry (ps.userEmis id) u).accrued +
        Int.fdiv (bal * (d.index - (userEntry (ps.userEmis id) u).index)) s := by
    intro acc hle h
    unfold setUserEmis at h
    split at h
    · rename_i hc
      simp only [Prod.mk.injEq] at h
      obtain ⟨rfl, rfl⟩ := h
      exact ⟨⟨d.index, 0⟩, rfl, rfl, by simp [hc], fun _ => rfl, by simpa using hle⟩
    · rename_i hc
      simp only [Prod.mk.injEq] at h
      obtain ⟨rfl, rfl⟩ := h
      exact ⟨⟨d.index, acc⟩, rfl, rfl, fun _ => rfl, fun e => absurd e hc, by simpa using hle⟩
  unfold updateUserEmis at h
  cases hu : (ps.userEmis id).get u with
  | some ud =>
    have eu : userEntry (ps.userEmis id) u = ud := by unfold userEntry; rw [hu]; rfl
    rw [eu] at hset ⊢
    simp only [hu, ite_ok, bind_ok, pure_ok, chk_ok] at h
    rcases h with ⟨_, ⟨hb0, dl, ⟨_, rfl⟩, _, _, acc, hacc, ac, ⟨_, rfl⟩, h⟩ | ⟨hb0, ac, rfl, h⟩⟩ | ⟨hc, h⟩
    · obtain ⟨_, _, _, rfl⟩ := mulDivFloor_ok.1 hacc
      exact hset rfl h
    · push Not at hb0
      exact hset (by rw [hb0]; simp) h
    · simp only [Prod.mk.injEq] at h
      obtain ⟨rfl, rfl⟩ := h
      push Not at hc
      refine ⟨ud, ?_, hc.1, fun _ => rfl, fun e => absurd e hc.2, by rw [← hc.1]; simp⟩
      have : upd ps.userEmis id ((ps.userEmis id).set u ud) = ps.userEmis := by
        funext x; rw [upd_apply]; split
        · subst x; exact SMap.set_self hu
        · rfl
      rw [this]
  | none =>
    have eu : userEntry (ps.userEmis id) u = ⟨0, 0⟩ := by unfold userEntry; rw [hu]; rfl
    rw [eu] at hset ⊢
    simp only [hu, ite_ok, bind_ok, pure_ok] at h
    rcases h with ⟨hb0, h⟩ | ⟨hb0, acc, hacc, h⟩
    · exact hset (by simp [hb0]) h
    · obtain ⟨_, _, _, rfl⟩ := mulDivFloor_ok.1 hacc
      exact hset (by simp) h

theorem updateEmissions_entitle {now id : Nat} {ps V1 : PoolState} {supply s bal amt : Int} {u : Address} {claim : Bool}
    (h : updateEmissions ps now id supply s u bal claim = .ok (amt, V1)) (hs : 0 < s) {cfg : EmisConfig}
    (hc : ps.emisConfig id = some cfg) :
    ∃ d x, V1.emisData id = some d ∧ V1.userEmis id = (ps.userEmis id).set u x ∧ x.index = d.index ∧
      (claim = false → amt = 0) ∧ (claim = true → x.accrued = 0) ∧
      amt + x.accrued = (userEntry (ps.userEmis id) u).accrued +
        Int.fdiv (bal * (d.index - (userEntry (ps.userEmis id) u).index)) s ∧
      (supply ≠ 0 → cfg.expiration ≤ d.lastTime ∨ d.lastTime = now ∨ cfg.eps = 0) := by
  unfold updateEmissions updateEmisData at h
  simp only [hc, bind_ok, Prod.exists, pure_ok, Prod.mk.injEq] at h
  obtain ⟨od, p1, ⟨d, p2, hd, rfl, rfl⟩, h⟩ := h
  simp only at h
  obtain ⟨x, rfl, m1, m2, m3, m4⟩ := userUpdate_exact h hs
  have hdata : p2.emisData id = some d ∧ p2.userEmis = ps.userEmis := by
    unfold updateEmisDataWith at hd
    simp only [bind_ok, ite_ok, unwrap_ok, pure_ok, Prod.mk.injEq, chk_ok] at hd
    obtain ⟨ed, he, ⟨_, rfl, rfl⟩ | ⟨_, dt, _, num, _, add, _, idx, _, rfl, rfl⟩⟩ := hd
    · exact ⟨he, rfl⟩
    · exact ⟨upd_same .., rfl⟩
  rw [hdata.2] at m4
  exact ⟨d, x, hdata.1, by simp [hdata.2], m1, m2, m3, m4, dataUpdate_settled hd⟩

/-- what small steps at time `now` that touch the accounts `U` do to what `u` can claim: it is as if the new index had applied
before, unless there was no supply while emissions were due; then it is at least that. `P` is what `u` was paid. -/
def EntRel (now : Nat) (U : Address → Prop) (u id : Nat) (s : Int) (ps ps' : PoolState) : Prop :=
  ∃ P : Int, 0 ≤ P ∧ P ≤ ps'.claimed id - ps.claimed id ∧ ((∀ v, U v → v = u) → P = ps'.claimed id - ps.claimed id) ∧
    (¬ U u → P = 0) ∧ (∀ ed', ps'.emisData id = some ed' → entAt ps id s u ed'.index ≤ entAt ps' id s u ed'.index + P) ∧
    ((P = 0 ∧ userEntry (ps'.userEmis id) u = userEntry (ps.userEmis id) u ∧ ebal ps' id u = ebal ps id u ∧ etot ps' id = etot ps id) ∨
     (Settled now ps' id ∧ ∀ ed', ps'.emisData id = some ed' → entAt ps' id s u ed'.index + P = entAt ps id s u ed'.index) ∨
     (etot ps id = 0 ∧ ¬ Settled now ps id))

theorem EntRel.same {now : Nat} {U : Address → Prop} {u id : Nat} {s : Int} {ps ps' : PoolState} (h1 : ps'.claimed id = ps.claimed id)
    (h2 : ps'.userEmis id = ps.userEmis id) (h3 : ebal ps' id u = ebal ps id u) (h4 : etot ps' id = etot ps id) :
    EntRel now U u id s ps ps' := by
  refine ⟨0, le_refl _, by omega, fun _ => by omega, fun _ => rfl, fun ed' _ => ?_, .inl ⟨rfl, by rw [h2], h3, h4⟩⟩
  unfold entAt
  rw [h2, h3]; omega

theorem EntRel.same' {now : Nat} {U : Address → Prop} {u id : Nat} {s : Int} {ps ps' : PoolState} (h1 : ps'.claimed = ps.claimed)
    (h2 : ps'.userEmis = ps.userEmis) (h3 : ps'.positions = ps.positions) : EntRel now U u id s ps ps' :=
  .same (by rw [h1]) (by rw [h2]) (by unfold ebal getPositions; rw [h3]) (by unfold etot; rw [h3])

theorem ebal_le_etot {now : Nat} {S : VS} (h : PInv now S) (id : Nat) (u : Address) : ebal S.ps id u ≤ etot S.ps id := by
  unfold ebal etot getPositions
  cases hp : S.ps.positions.get u with
  | none =>
    simp only [Option.getD_none, posBal_default]
    exact h.etot_nonneg id
  | some pos => exact SMap.le_sum (fun k v hv => h.posBal_nonneg hv id) hp

theorem entAt_mono {ps : PoolState} {id : Nat} {s : Int} {u : Address} {J J' : Int} (hs : 0 < s) (hb : 0 ≤ ebal ps id u) (h : J ≤ J') :
    entAt ps id s u J ≤ entAt ps id s u J' := by
  unfold entAt
  have : ebal ps id u * (J - (userEntry (ps.userEmis id) u).index) ≤ ebal ps id u * (J' - (userEntry (ps.userEmis id) u).index) :=
    Int.mul_le_mul_of_nonneg_left (by omega) hb
  have h1 := fdiv_spec (a := ebal ps id u * (J - (userEntry (ps.userEmis id) u).index)) hs
  have h2 := fdiv_spec (a := ebal ps id u * (J' - (userEntry (ps.userEmis id) u).index)) hs
  have : Int.fdiv (ebal ps id u * (J - (userEntry (ps.userEmis id) u).index)) s ≤
      Int.fdiv (ebal ps id u * (J' - (userEntry (ps.userEmis id) u).index)) s := by
    by_contra hlt
    push Not at hlt
    nlinarith
  omega

/-- the update of the emissions of `v` in a small step, followed by a change of its balance -/
theorem entRel_update {now : Nat} {U : Address → Prop} {S : VS} {V1 V2 : PoolState} {id : Nat} {u v : Address} {s amt : Int} {claim : Bool}
    (inv : EInv now S) (hs : 0 < s) (hU : U v)
    (h : updateEmissions S.ps now id (etot S.ps id) s v (ebal S.ps id v) claim = .ok (amt, V1))
    {a : Address} {c : ReserveConfig} {cfg : EmisConfig} (hcf : S.ps.emisConfig id = some cfg)
    (ha : S.ps.resList[id / 2]? = some a) (hc : S.ps.resConfig a = some c)
    (hrel : EmisRel now S.ps V2) (h1 : V2.emisData = V1.emisData) (h2 : V2.userEmis = V1.userEmis)
    (h3 : V2.emisConfig = V1.emisConfig) (hcl : V2.claimed id = S.ps.claimed id + amt)
    (hbal : ∀ x, x ≠ v → ebal V2 id x = ebal S.ps id x) : EntRel now U u id s S.ps V2 := by
  have hamt : 0 ≤ amt := by
    rcases emisUpdate_ok h hs (inv.inv.ebal_nonneg _ _) (inv.inv.etot_nonneg _) with ⟨_, _, rfl⟩ | hk
    · exact le_refl _
    · obtain ⟨_, _, ed, _, _, e3, e4, e5, e6, _⟩ := (inv.emis id).isSet cfg hcf
      obtain ⟨_, _, _, _, _, _, _, _, _, hz, _⟩ := hk cfg ed hcf e3 e4 e5 e6
      exact hz
  obtain ⟨o1, _⟩ := updateEmissions_other h
  obtain ⟨d, x, e1, e2, e3, e4, e5, e6, e7⟩ := updateEmissions_entitle h hs hcf
  have hlast : Settled now V2 id ∨ (etot S.ps id = 0 ∧ ¬ Settled now S.ps id) := by
    by_cases h0 : etot S.ps id = 0
    · by_cases hst : Settled now S.ps id
      · exact .inl (hst.step hrel ha hc).1
      · exact .inr ⟨h0, hst⟩
    · exact .inl ⟨cfg, d, by rw [h3, o1.emisConfig, hcf], by rw [h1, e1], e7 h0⟩
  have hentry : ∀ y, userEntry (V2.userEmis id) y = if y = v then x else userEntry (S.ps.userEmis id) y := by
    intro y
    rw [h2, e2]
    unfold userEntry
    rw [SMap.get_set]
    split <;> rfl
  by_cases hu : u = v
  · subst hu
    have heq : entAt V2 id s u d.index + amt = entAt S.ps id s u d.index := by
      unfold entAt
      rw [hentry, if_pos rfl, e3]
      have : Int.fdiv (ebal V2 id u * (d.index - d.index)) s = 0 := by simp
      rw [this]; omega
    refine ⟨amt, hamt, by omega, fun _ => by omega, fun hn => absurd hU hn, fun ed' he => ?_, ?_⟩
    · rw [h1, e1] at he; cases he; omega
    · rcases hlast with hl | hl
      · exact .inr (.inl ⟨hl, fun ed' he => by rw [h1, e1] at he; cases he; exact heq⟩)
      · exact .inr (.inr hl)
  · have heq : ∀ J, entAt V2 id s u J = entAt S.ps id s u J := by
      intro J
      unfold entAt
      rw [hentry, if_neg hu, hbal u hu]
    refine ⟨0, le_refl _, by omega, fun hall => absurd (hall v hU).symm hu, fun _ => rfl, fun ed' he => by rw [heq]; omega, ?_⟩
    rcases hlast with hl | hl
    · exact .inr (.inl ⟨hl, fun ed' _ => by rw [heq]; omega⟩)
    · exact .inr (.inr hl)

theorem micro_entitle {now : Nat} {U : Address → Prop} {S S' : VS} (cfg : CfgOk S.ps) (inv : EInv now S) (h : PMicro now U S S')
    {u : Address} {id : Nat} {cf : EmisConfig} (hcf : S.ps.emisConfig id = some cf) {a : Address} {c : ReserveConfig}
    (ha : S.ps.resList[id / 2]? = some a) (hc : S.ps.resConfig a = some c) :
    EntRel now U u id (10 ^ c.decimals) S.ps S'.ps := by
  have hrel := micro_index cfg inv (h.mono (U' := fun _ => True) fun _ _ => trivial)
  cases h with
  | touch v h =>
    refine .same rfl rfl ?_ ?_
    · rw [ebal_set S.ps _ v _ id rfl]
      split
      · rename_i e; rw [e]; rfl
      · rfl
    · rw [etot_set S.ps _ v _ id rfl]
      unfold ebal; ring
  | accrue a c d d' i h1 h2 h3 h4 => exact .same' rfl rfl rfl
  | share V1 k a' v c' d δ x m' vb' pb' pd' h0 h1 h2 h3 h4 h5 h6 =>
    obtain ⟨o1, o2, o3, o4, o5, o6⟩ := updateEmissions_other h4
    have hm := h5 inv.inv.pos
    have hbal : ∀ j, j ≠ c'.index → m'.bal j = (k.map (getPositions S.ps v)).bal j := by
      intro j hj
      rcases hm with ⟨_, rfl⟩ | ⟨_, rfl⟩
      · rw [SMap.bal_set, if_neg hj]
      · rw [bal_setBal, if_neg hj]
    have hpos : ({ V1 with
        positions := V1.positions.set v (k.put (getPositions S.ps v) m')
        resData := upd V1.resData a' (some (k.addSupply d δ)) } : PoolState).positions =
        S.ps.positions.set v (k.put (getPositions S.ps v) m') := by simp only [o2]
    by_cases hid : id = k.id c'.index
    · subst hid
      rw [cfg.list_idx h1 k] at ha; cases ha
      rw [h1] at hc; cases hc
      rw [inv.inv.supply_eq h1 h2, emisBal_eq] at h4
      obtain ⟨_, _, _, _, _, e4, _⟩ := updateEmissions_entitle h4 (by positivity) hcf
      refine entRel_update inv (by positivity) h0 h4 hcf (cfg.list_idx h1 k) h1 hrel rfl rfl rfl ?_ fun y hy => ?_
      · rw [e4 rfl]
        show V1.claimed _ = _
        rw [o4]; omega
      · rw [ebal_set S.ps _ v _ _ hpos, if_neg hy]
    · have hput := posBal_put (k := k) (pos := getPositions S.ps v) (m' := m') hbal hid
      refine .same ?_ ?_ ?_ ?_
      · show V1.claimed id = _
        rw [o4]
      · exact (updateEmissions_otherId h4 hid).2
      · rw [ebal_set S.ps _ v _ _ hpos, hput]
        split
        · rename_i e; rw [e]; rfl
        · rfl
      · rw [etot_set S.ps _ v _ _ hpos, hput]
        unfold ebal; ring
  | credit a d x h1 h2 => exact .same' rfl rfl rfl
  | auction t u x => exact .same' rfl rfl rfl
  | emis V1 k a' v c' d i claim amt h0 h1 h2 h3 h4 =>
    have hi : i = c'.index := by
      rcases h3 with h3 | h3
      · exact (cfg.index_list h3 h1).symm
      · exact h3
    subst hi
    obtain ⟨o1, o2, o3, o4, o5, o6⟩ := updateEmissions_other h4
    by_cases hid : id = k.id c'.index
    · subst hid
      rw [cfg.list_idx h1 k] at ha; cases ha
      rw [h1] at hc; cases hc
      rw [inv.inv.supply_eq h1 h2, emisBal_eq] at h4
      refine entRel_update inv (by positivity) h0 h4 hcf (cfg.list_idx h1 k) h1 hrel rfl rfl rfl ?_ fun y hy => ?_
      · simp only [upd_apply, if_true, o4]
      · unfold ebal getPositions; simp only [o2]
    · refine .same ?_ ?_ ?_ ?_
      · simp only [upd_apply, if_neg hid, o4]
      · exact (updateEmissions_otherId h4 hid).2
      · unfold ebal getPositions; simp only [o2]
      · unfold etot; simp only [o2]
  | gulp V' a id n h1 h2 h3 =>
    obtain ⟨g1, g2, hV⟩ := updateReserveEmisConfig_other h3
    rw [hV]
    exact .same' rfl rfl rfl
  | setInst i' h1 h2 => exact .same' rfl rfl rfl
  | queueReserve V' a c h =>
    unfold queueSetReserve PoolState.getInst at h
    simp only [bind_ok, require_ok, unwrap_ok, pure_ok] at h
    obtain ⟨_, hn, _, hv, i, hi, rfl⟩ := h
    exact .same' rfl rfl rfl
  | unqueue a => exact .same' rfl rfl rfl
  | setReserve V' a h =>
    obtain ⟨q, hq, _, h⟩ := setReserve_ok h
    rcases h with ⟨old, d, i, r, h1, h2, h3, h4, h5, rfl⟩ | ⟨h1, h2, rfl⟩
    · exact .same' rfl rfl rfl
    · exact .same' rfl rfl rfl
  | poolEmis V' l h =>
    unfold setPoolEmissions at h
    simp only [bind_ok, require_ok, pure_ok, Prod.exists] at h
    obtain ⟨_, _, _, _, _, rfl⟩ := h
    exact .same' rfl rfl rfl
  | writeOff f h => exact .same' rfl rfl rfl
  | gain vb' h => exact .same' rfl rfl rfl

theorem micros_entitle {now : Nat} {U : Address → Prop} {S S' : VS} (cfg : CfgOk S.ps) (inv : EInv now S) (h : PMicros now U S S')
    {u : Address} {id : Nat} {cf : EmisConfig} (hcf : S.ps.emisConfig id = some cf) {a : Address} {c : ReserveConfig}
    (ha : S.ps.resList[id / 2]? = some a) (hc : S.ps.resConfig a = some c) :
    EntRel now U u id (10 ^ c.decimals) S.ps S'.ps := by
  have h10 : (0 : Int) < 10 ^ c.decimals := by positivity
  induction h with
  | refl => exact .same' rfl rfl rfl
  | @tail S1 S2 h12 h2 ih =>
    obtain ⟨P, p0, p1, p2, pn, p3, p4⟩ := ih
    obtain ⟨rel, inv1, cfg1⟩ := micros_index cfg inv (h12.mono (U' := fun _ => True) fun _ _ => trivial)
    obtain ⟨_, _, ed, _, _, hed, _, _, _, _⟩ := (inv.emis id).isSet cf hcf
    obtain ⟨cf1, ed1, k1, k2, _⟩ := rel.rel id cf ed a c hcf hed ha hc
    obtain ⟨l, hl⟩ := rel.ext.list
    obtain ⟨c1, hc1, _, hdec⟩ := rel.ext.cfg a c hc
    have ha1 : S1.ps.resList[id / 2]? = some a := by
      rw [hl, List.getElem?_append_left]
      · exact ha
      · rw [List.getElem?_eq_some_iff] at ha; exact ha.1
    have rel2 := micro_index cfg1 inv1 (h2.mono (U' := fun _ => True) fun _ _ => trivial)
    obtain ⟨Q, q0, q1, q2, qn, q3, q4⟩ := micro_entitle cfg1 inv1 h2 (u := u) k1 ha1 hc1
    rw [hdec] at q3 q4
    obtain ⟨cf2, ed2, r1, r2, r3, _⟩ := rel2.rel id cf1 ed1 a c1 k1 k2 ha1 hc1
    have lower : entAt S.ps id (10 ^ c.decimals) u ed2.index ≤ entAt S2.ps id (10 ^ c.decimals) u ed2.index + (P + Q) := by
      have l2 := q3 ed2 r2
      have l1 := p3 ed1 k2
      rcases p4 with ⟨rfl, g1, g2, g3⟩ | ⟨g1, g2⟩ | ⟨g1, g2⟩
      · have : entAt S1.ps id (10 ^ c.decimals) u ed2.index = entAt S.ps id (10 ^ c.decimals) u ed2.index := by
          unfold entAt; rw [g1, g2]
        omega
      · have e := (g1.step rel2 ha1 hc1).2 ed1 ed2 k2 r2
        rw [e] at l2 ⊢
        omega
      · have hb0 : ebal S.ps id u = 0 := by
          have := ebal_le_etot inv.inv id u
          have := inv.inv.ebal_nonneg id u
          omega
        have hz : ∀ J, entAt S.ps id (10 ^ c.decimals) u J = (userEntry (S.ps.userEmis id) u).accrued := by
          intro J; unfold entAt; rw [hb0]; simp
        rw [hz] at l1 ⊢
        have := entAt_mono (s := 10 ^ c.decimals) h10 (inv1.inv.ebal_nonneg id u) r3
        omega
    refine ⟨P + Q, by omega, by omega, fun hU => by rw [p2 hU, q2 hU]; omega, fun hn => by rw [pn hn, qn hn]; rfl, fun ed' he => ?_, ?_⟩
    · rw [r2] at he; cases he; exact lower
    · rcases p4 with ⟨rfl, g1, g2, g3⟩ | ⟨g1, g2⟩ | g
      · have heq : ∀ J, entAt S1.ps id (10 ^ c.decimals) u J = entAt S.ps id (10 ^ c.decimals) u J := by
          intro J; unfold entAt; rw [g1, g2]
        rcases q4 with ⟨rfl, f1, f2, f3⟩ | ⟨f1, f2⟩ | ⟨f1, f2⟩
        · exact .inl ⟨by omega, f1.trans g1, f2.trans g2, f3.trans g3⟩
        · refine .inr (.inl ⟨f1, fun ed' he => ?_⟩)
          have := f2 ed' he
          rw [heq] at this; omega
        · refine .inr (.inr ⟨by rw [← g3]; exact f1, fun hst => f2 (hst.step rel ha hc).1⟩)
      · obtain ⟨s1, s2⟩ := g1.step rel2 ha1 hc1
        have e := s2 ed1 ed2 k2 r2
        refine .inr (.inl ⟨s1, fun ed' he => ?_⟩)
        rw [r2] at he; cases he
        have l1 := g2 ed1 k2
        rcases q4 with ⟨rfl, f1, f2, f3⟩ | ⟨f1, f2⟩ | ⟨f1, f2⟩
        · have heq : entAt S2.ps id (10 ^ c.decimals) u ed2.index = entAt S1.ps id (10 ^ c.decimals) u ed2.index := by
            unfold entAt; rw [f1, f2]
          rw [heq, e]; omega
        · have := f2 ed2 r2
          rw [e] at this ⊢; omega
        · exact absurd g1 f2
      · exact .inr (.inr g)

end Pool
end Blend
