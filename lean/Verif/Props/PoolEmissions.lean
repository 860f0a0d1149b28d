import Verif.Lemmas.PoolEmis
import Verif.Lemmas.PhiSum
import Verif.Examples.Demo
/-
  C25, C26: emissions of a pool's reserve tokens.
-/

namespace Blend
namespace Spec

/-- The balance of reserve token `id` in a position. Ids are `2 * index` for the debt token and
`2 * index + 1` for the supply token of the reserve with that index; collateral and other supply both
count. -/
def tokenBalance (ps : PoolState) (id : Nat) (user : Address) : Int :=
  match ps.positions.get user with
  | none => 0
  | some pos =>
    if id % 2 = 0 then pos.liabilities.bal (id / 2)
    else pos.collateral.bal (id / 2) + pos.supply.bal (id / 2)

/-- The emission record of a user; a user without one has accrued nothing since index 0. -/
def emisRecord (m : SMap UserEmis) (user : Address) : UserEmis :=
  match m.get user with
  | none => ⟨0, 0⟩
  | some x => x

/-- `x` is what the user could claim of reserve token `id` right now without a further update of the
index: what is recorded, plus the balance times the index growth since the record, rounded down. -/
def Entitled (ps : PoolState) (id : Nat) (decimals : Nat) (index : Int) (user : Address) (x : Int) : Prop :=
  IsFloor (x - (emisRecord (ps.userEmis id) user).accrued)
    (tokenBalance ps id user * (index - (emisRecord (ps.userEmis id) user).index)) (10 ^ decimals)

end Spec

namespace Pool
theorem tokenBalance_eq (ps : PoolState) (id : Nat) (u : Address) : Spec.tokenBalance ps id u = ebal ps id u := by
  unfold Spec.tokenBalance ebal getPositions posBal
  cases ps.positions.get u with
  | none => simp [Positions.default]
  | some pos => rfl
end Pool

theorem emisRecord_eq (m : SMap UserEmis) (u : Address) : Spec.emisRecord m u = userEntry m u := by
  unfold Spec.emisRecord userEntry
  cases m.get u <;> rfl

namespace Spec

/-- The supply of reserve token `id` recorded for its reserve. -/
def tokenSupply (d : ReserveData) (id : Nat) : Int := if id % 2 = 0 then d.dSupply else d.bSupply

/-- What happens to an emission index under schedule `cfg` at time `now`, while the supply of the token
goes from `S` to `S'`. Either nothing happens, and then the supply stays the same unless no emissions
were due (there was no supply, nothing is emitted, or everything up to `now` or the expiration is already
accounted for). Or the index grows by the tokens emitted since the last update, up to `now` but not after
the expiration, divided by the supply before the operation, rounded down. Only if there was no supply
before the operation can another supply be used. -/
def IndexUpdate (cfg : EmisConfig) (one : Int) (now : Nat) (S S' : Int) (ed ed' : EmisData) : Prop :=
  (ed' = ed ∧ (S' = S ∨ S = 0 ∨ cfg.eps = 0 ∨ min now cfg.expiration ≤ ed.lastTime)) ∨
    (ed.lastTime < ed'.lastTime ∧ ed'.lastTime = min now cfg.expiration ∧ 0 < cfg.eps ∧
      ∃ s : Int, 0 < s ∧ (S = s ∨ S = 0) ∧
      IsFloor (ed'.index - ed.index) (((ed'.lastTime - ed.lastTime : Nat) : Int) * cfg.eps * one) s)

/-- `index` is the emission index of a token with supply `S` brought up to date at time `t`, when `ed` is recorded: the
recorded index if nothing has been emitted since (the schedule is over or emits nothing, or there is no supply), else it has grown by
the tokens emitted since the last update, up to `t` but not after the expiration, divided by the supply, rounded down. -/
def UpToDate (cfg : EmisConfig) (one : Int) (t : Nat) (S : Int) (ed : EmisData) (index : Int) : Prop :=
  (S = 0 ∨ cfg.eps = 0 ∨ min t cfg.expiration ≤ ed.lastTime → index = ed.index) ∧
  (0 < S → 0 < cfg.eps → ed.lastTime < min t cfg.expiration →
    IsFloor (index - ed.index) (((min t cfg.expiration - ed.lastTime : Nat) : Int) * cfg.eps * one) S)

end Spec

namespace Pool
open Spec

/-- an update brings the index of a reserve token up to date -/
theorem dataUpdate_upToDate {ps ps' : PoolState} {now id : Nat} {supply s : Int} {cfg : EmisConfig}
    {ed d : EmisData} (h : updateEmisDataWith ps now id supply s cfg = .ok (d, ps'))
    (he : ps.emisData id = some ed) : UpToDate cfg s now supply ed d.index := by
  unfold updateEmisDataWith at h
  simp only [bind_ok, ite_ok, unwrap_ok, pure_ok, Prod.mk.injEq, chk_ok, he, Option.some.injEq] at h
  obtain ⟨_, rfl, ⟨hc, rfl, rfl⟩ | ⟨hc, dt, hdt, num, ⟨_, rfl⟩, add, hadd, idx, ⟨_, rfl⟩, rfl, rfl⟩⟩ := h
  · exact ⟨fun _ => rfl, fun h1 h2 h3 => by omega⟩
  · push Not at hc
    obtain ⟨c1, c2, c3, c4⟩ := hc
    have ht : (if now > cfg.expiration then cfg.expiration else now) = min now cfg.expiration := by
      split <;> omega
    rw [ht] at hdt
    obtain ⟨hd1, hd2⟩ := subU_ok.1 hdt
    subst hd2
    refine ⟨fun h => by omega, fun h1 h2 h3 => ?_⟩
    have := mulDivFloor_spec hadd h1
    simp only [IsFloor, add_sub_cancel_right]
    exact ⟨this.1, by linarith [this.2]⟩

/-- what one update does to the index of a reserve token -/
theorem dataUpdate_exact {ps ps' : PoolState} {now id : Nat} {supply s : Int} {cfg : EmisConfig}
    {ed d : EmisData} (h : updateEmisDataWith ps now id supply s cfg = .ok (d, ps'))
    (he : ps.emisData id = some ed) (hl : ed.lastTime ≤ now) (hsup : 0 ≤ supply) (S' : Int) :
    IndexUpdate cfg s now supply S' ed d := by
  unfold updateEmisDataWith at h
  simp only [bind_ok, ite_ok, unwrap_ok, pure_ok, Prod.mk.injEq, chk_ok, he, Option.some.injEq] at h
  obtain ⟨_, rfl, ⟨hc, rfl, rfl⟩ | ⟨hc, dt, hdt, num, ⟨_, rfl⟩, add, hadd, idx, ⟨_, rfl⟩, rfl, rfl⟩⟩ := h
  · refine .inl ⟨rfl, ?_⟩
    omega
  · push Not at hc
    obtain ⟨c1, c2, c3, c4⟩ := hc
    have ht : (if now > cfg.expiration then cfg.expiration else now) = min now cfg.expiration := by
      split <;> omega
    rw [ht] at hdt ⊢
    have hsup' : 0 < supply := by omega
    right
    refine ⟨by simp only; omega, rfl, by omega, supply, hsup', .inl rfl, ?_⟩
    have := mulDivFloor_spec hadd hsup'
    have hd := (subU_ok.1 hdt).2
    subst hd
    unfold IsFloor
    simp only [add_sub_cancel_right]
    exact ⟨this.1, by linarith [this.2]⟩

theorem IndexUpdate.trans {cfg : EmisConfig} {one : Int} {now : Nat} {A B C : Int} {a b c : EmisData}
    (h1 : IndexUpdate cfg one now A B a b) (h2 : IndexUpdate cfg one now B C b c) :
    IndexUpdate cfg one now A C a c := by
  rcases h1 with ⟨rfl, h1⟩ | ⟨h3, h4, h5⟩
  · rcases h2 with ⟨rfl, h2⟩ | ⟨k3, k4, k5, s, k6, k7, k8⟩
    · exact .inl ⟨rfl, by omega⟩
    · exact .inr ⟨k3, k4, k5, s, k6, by omega, k8⟩
  · rcases h2 with ⟨rfl, h2⟩ | ⟨k3, k4, _⟩
    · exact .inr ⟨h3, h4, h5⟩
    · omega

theorem IndexUpdate.refl {cfg : EmisConfig} {one : Int} {now : Nat} {A : Int} {a : EmisData} :
    IndexUpdate cfg one now A A a a := .inl ⟨rfl, .inl rfl⟩

/-- what small steps at time `now` do to the emission indexes -/
structure EmisRel (now : Nat) (ps ps' : PoolState) : Prop where
  ext : CfgExt ps ps'
  rel : ∀ id cfg ed a c, ps.emisConfig id = some cfg → ps.emisData id = some ed →
    ps.resList[id / 2]? = some a → ps.resConfig a = some c →
    ∃ cfg' ed', ps'.emisConfig id = some cfg' ∧ ps'.emisData id = some ed' ∧
      ed.index ≤ ed'.index ∧ ed.lastTime ≤ ed'.lastTime ∧
      ((cfg' = cfg ∧ IndexUpdate cfg (10 ^ c.decimals) now (etot ps id) (etot ps' id) ed ed') ∨
       (cfg'.expiration = now + 604800 ∧ ed'.lastTime = now ∧ ∃ mid, mid.index = ed'.index ∧
          ∀ S', IndexUpdate cfg (10 ^ c.decimals) now (etot ps id) S' ed mid))

theorem EmisRel.same' {now : Nat} {ps ps' : PoolState} (h : CfgExt ps ps') (h1 : ps'.emisConfig = ps.emisConfig)
    (h2 : ps'.emisData = ps.emisData) (h3 : ∀ id, etot ps' id = etot ps id) : EmisRel now ps ps' :=
  ⟨h, fun id cfg ed a c hc hd _ _ => ⟨cfg, ed, by rw [h1, hc], by rw [h2, hd], le_refl _, le_refl _,
    .inl ⟨rfl, by rw [h3]; exact IndexUpdate.refl⟩⟩⟩

theorem EmisRel.same {now : Nat} {ps ps' : PoolState} (h : CfgExt ps ps') (h1 : ps'.emisConfig = ps.emisConfig)
    (h2 : ps'.emisData = ps.emisData) (h3 : ps'.positions = ps.positions) : EmisRel now ps ps' :=
  .same' h h1 h2 fun id => by unfold etot; rw [h3]

theorem EmisRel.trans {now : Nat} {a b c : PoolState} (h1 : EmisRel now a b) (h2 : EmisRel now b c) :
    EmisRel now a c := by
  refine ⟨h1.ext.trans h2.ext, fun id cfg ed x cf hc hd hx hcf => ?_⟩
  obtain ⟨cfg1, ed1, k1, k2, k3, k4, k5⟩ := h1.rel id cfg ed x cf hc hd hx hcf
  obtain ⟨l, hl⟩ := h1.ext.list
  obtain ⟨cf', e1, _, e3⟩ := h1.ext.cfg x cf hcf
  have hx' : b.resList[id / 2]? = some x := by
    rw [hl, List.getElem?_append_left]
    · exact hx
    · rw [List.getElem?_eq_some_iff] at hx; exact hx.1
  obtain ⟨cfg2, ed2, l1, l2, l3, l4, l5⟩ := h2.rel id cfg1 ed1 x cf' k1 k2 hx' e1
  rw [e3] at l5
  refine ⟨cfg2, ed2, l1, l2, le_trans k3 l3, le_trans k4 l4, ?_⟩
  rcases l5 with ⟨rfl, l5⟩ | ⟨l5, l6, mid, l7, l8⟩
  · rcases k5 with ⟨rfl, k5⟩ | ⟨k5, k6, mid, k7, k8⟩
    · exact .inl ⟨rfl, IndexUpdate.trans k5 l5⟩
    · right
      have : ed2 = ed1 := by
        rcases l5 with l5 | l5
        · exact l5.1
        · omega
      subst this
      exact ⟨k5, k6, mid, k7, k8⟩
  · right
    refine ⟨l5, l6, ?_⟩
    rcases k5 with ⟨rfl, k5⟩ | ⟨k5, k6, mid', k7, k8⟩
    · exact ⟨mid, l7, fun S' => IndexUpdate.trans k5 (l8 S')⟩
    · have : mid = ed1 := by
        rcases l8 0 with l8 | l8
        · exact l8.1
        · omega
      subst this
      exact ⟨mid', by rw [k7, l7], k8⟩

theorem updateUserEmis_data {ps ps' : PoolState} {d : EmisData} {id : Nat} {s : Int} {u : Address} {bal amt : Int}
    {claim : Bool} (h : updateUserEmis ps d id s u bal claim = .ok (amt, ps')) :
    ps'.emisData = ps.emisData ∧ ps'.emisConfig = ps.emisConfig := by
  have hset : ∀ {ix ac : Int}, setUserEmis ps u id ix ac claim = (amt, ps') →
      ps'.emisData = ps.emisData ∧ ps'.emisConfig = ps.emisConfig := by
    intro ix ac h
    unfold setUserEmis at h
    split at h <;> (simp only [Prod.mk.injEq] at h; obtain ⟨_, rfl⟩ := h; exact ⟨rfl, rfl⟩)
  unfold updateUserEmis at h
  split at h
  · simp only [ite_ok, bind_ok, pure_ok, chk_ok] at h
    rcases h with ⟨_, h⟩ | ⟨_, h⟩
    · rcases h with ⟨_, _, _, _, _, _, _, _, _, h⟩ | ⟨_, _, _, h⟩ <;> exact hset h
    · simp only [Prod.mk.injEq] at h; obtain ⟨_, rfl⟩ := h; exact ⟨rfl, rfl⟩
  · simp only [ite_ok, bind_ok, pure_ok] at h
    rcases h with ⟨_, h⟩ | ⟨_, _, _, h⟩ <;> exact hset h

theorem updateEmissions_exact {ps V1 : PoolState} {now id : Nat} {supply s bal amt : Int} {u : Address}
    {claim : Bool} (h : updateEmissions ps now id supply s u bal claim = .ok (amt, V1))
    {cfg : EmisConfig} {ed : EmisData} (hc : ps.emisConfig id = some cfg)
    (he : ps.emisData id = some ed) (hl : ed.lastTime ≤ now) (hs : 0 < s) (hsup : 0 ≤ supply) :
    ∃ d, V1.emisData id = some d ∧ V1.emisConfig = ps.emisConfig ∧ ed.index ≤ d.index ∧ ed.lastTime ≤ d.lastTime ∧
      ∀ S', IndexUpdate cfg s now supply S' ed d := by
  unfold updateEmissions updateEmisData at h
  simp only [hc, bind_ok, Prod.exists, pure_ok, Prod.mk.injEq] at h
  obtain ⟨_, _, ⟨d, p2, hd, rfl, rfl⟩, h⟩ := h
  obtain ⟨h1, h2⟩ := updateUserEmis_data h
  obtain ⟨rfl, k1, k2, _⟩ := dataUpdate_ok hd he hl hs hsup
  exact ⟨d, by rw [h1]; simp, h2, k1, k2, dataUpdate_exact hd he hl hsup⟩

/-- the schedule is restarted with new emissions -/
theorem gulp_index {ps V' : PoolState} {now id : Nat} {a : Address} {n : Int} {cfg : EmisConfig} {ed : EmisData}
    {rd : ReserveData} {c : ReserveConfig} (hcc : ps.resConfig a = some c)
    (h : updateReserveEmisConfig ps now a id n = .ok V') (hc : ps.emisConfig id = some cfg)
    (he : ps.emisData id = some ed) (hl : ed.lastTime ≤ now) (hd : ps.resData a = some rd)
    (hsup : 0 ≤ if id % 2 = 0 then rd.dSupply else rd.bSupply) :
    ∃ cfg' ed', V'.emisConfig id = some cfg' ∧ V'.emisData id = some ed' ∧ ed.index ≤ ed'.index ∧
      ed'.lastTime = now ∧ cfg'.expiration = now + 604800 ∧ ∃ mid, mid.index = ed'.index ∧ ∀ S',
        IndexUpdate cfg (10 ^ c.decimals) now (if id % 2 = 0 then rd.dSupply else rd.bSupply) S' ed mid := by
  unfold updateReserveEmisConfig at h
  simp only [hc, hd, hcc, bind_ok, unwrap_ok, pow10_ok, Option.some.injEq, Prod.exists] at h
  obtain ⟨_, rfl, _, rfl, _, ⟨_, rfl⟩, d, q1, hq, h⟩ := h
  obtain ⟨rfl, k1, k2, k3, _⟩ := dataUpdate_ok hq he hl (by positivity) hsup
  have hst : ∃ d' : EmisData, d'.index = d.index ∧ d'.lastTime = now ∧
      (if d.lastTime ≠ now then
        { ps with emisData := upd (upd ps.emisData id (some d)) id (some { d with lastTime := now }) }
       else { ps with emisData := upd ps.emisData id (some d) }) =
      { ps with emisData := upd ps.emisData id (some d') } := by
    split
    · exact ⟨{ d with lastTime := now }, rfl, rfl, by rw [upd_upd]⟩
    · rename_i e; push Not at e
      exact ⟨d, rfl, e, rfl⟩
  obtain ⟨d', f1, f2, f3⟩ := hst
  rw [f3] at h
  simp only [ite_ok, bind_ok, pure_ok, chk_ok, chkU64_ok] at h
  rcases h with ⟨_, rem, ⟨_, rfl⟩, l, ⟨_, rfl⟩, _, rfl, eps, _, rfl⟩ | ⟨hx, _, rfl, eps, _, rfl⟩ <;>
    exact ⟨_, d', upd_same .., upd_same .., by rw [f1]; exact k1, f2, rfl, d, f1.symm,
      fun S' => dataUpdate_exact hq he hl hsup S'⟩

theorem micro_index {now : Nat} {S S' : VS} (cfg : CfgOk S.ps) (inv : EInv now S)
    (h : PMicro now (fun _ => True) S S') : EmisRel now S.ps S'.ps := by
  have hx := (micro_cfg h cfg).2
  have hlast : ∀ id cf ed, S.ps.emisConfig id = some cf → S.ps.emisData id = some ed → ed.lastTime ≤ now := by
    intro id cf ed hc hd
    obtain ⟨_, _, ed', _, _, e3, e4, _⟩ := (inv.emis id).isSet cf hc
    rw [hd] at e3; cases e3; exact e4
  have updL : ∀ {V1 V2 : PoolState} {k : Kind} {a u c d bal amt claim}, S.ps.resConfig a = some c →
      S.ps.resData a = some d →
      updateEmissions S.ps now (k.id c.index) (k.supply d) (10 ^ c.decimals) u bal claim = .ok (amt, V1) →
      V2.emisData = V1.emisData → V2.emisConfig = V1.emisConfig →
      (∀ id, id ≠ k.id c.index → etot V2 id = etot S.ps id) → CfgExt S.ps V2 → EmisRel now S.ps V2 := by
    intro V1 V2 k a u c d bal amt claim hc hd h h1 h2 hpos hx
    refine ⟨hx, fun id cf ed a' c' hcf hed ha' hc' => ?_⟩
    by_cases hid : id = k.id c.index
    · subst hid
      obtain ⟨d', e1, e2, e3, e4, e5⟩ := updateEmissions_exact h hcf hed (hlast _ _ _ hcf hed) (by positivity)
        (by rw [inv.inv.supply_eq hc hd]; exact inv.inv.etot_nonneg _)
      refine ⟨cf, d', by rw [h2, e2, hcf], by rw [h1, e1], e3, e4, .inl ⟨rfl, ?_⟩⟩
      rw [cfg.list_idx hc k] at ha'; cases ha'
      rw [hc] at hc'; cases hc'
      rw [inv.inv.supply_eq hc hd] at e5
      exact e5 _
    · obtain ⟨q1, _⟩ := updateEmissions_otherId h hid
      obtain ⟨o1, _⟩ := updateEmissions_other h
      exact ⟨cf, ed, by rw [h2, o1.emisConfig, hcf], by rw [h1, q1, hed], le_refl _, le_refl _,
        .inl ⟨rfl, by rw [hpos _ hid]; exact IndexUpdate.refl⟩⟩
  cases h with
  | touch u h =>
    refine .same' hx rfl rfl fun id => ?_
    rw [etot_set S.ps _ u _ id rfl]
    unfold ebal; ring
  | accrue a c d d' i h1 h2 h3 h4 => exact .same hx rfl rfl rfl
  | share V1 k a u c d δ x m' vb' pb' pd' h0 h1 h2 h3 h4 h5 h6 =>
    obtain ⟨o1, o2, o3, o4, o5, o6⟩ := updateEmissions_other h4
    have hm := h5 inv.inv.pos
    have hbal : ∀ j, j ≠ c.index → m'.bal j = (k.map (getPositions S.ps u)).bal j := by
      intro j hj
      rcases hm with ⟨_, rfl⟩ | ⟨_, rfl⟩
      · rw [SMap.bal_set, if_neg hj]
      · rw [bal_setBal, if_neg hj]
    have hpos : ({ V1 with
        positions := V1.positions.set u (k.put (getPositions S.ps u) m')
        resData := upd V1.resData a (some (k.addSupply d δ)) } : PoolState).positions =
        S.ps.positions.set u (k.put (getPositions S.ps u) m') := by simp only [o2]
    refine updL h1 h2 h4 rfl rfl (fun id hid => ?_) hx
    have hput := posBal_put (k := k) (pos := getPositions S.ps u) (m' := m') hbal hid
    rw [etot_set S.ps _ u _ _ hpos, hput]
    unfold ebal; ring
  | credit a d x h1 h2 => exact .same hx rfl rfl rfl
  | auction t u x => exact .same hx rfl rfl rfl
  | emis V1 k a u c d i claim amt h0 h1 h2 h3 h4 =>
    have hi : i = c.index := by
      rcases h3 with h3 | h3
      · exact (cfg.index_list h3 h1).symm
      · exact h3
    subst hi
    obtain ⟨o1, o2, o3, o4, o5, o6⟩ := updateEmissions_other h4
    exact updL h1 h2 h4 rfl rfl (fun id _ => by unfold etot; simp only [o2]) hx
  | gulp V' a id n h1 h2 h3 =>
    have h3' := h3
    obtain ⟨g1, g2, hV⟩ := updateReserveEmisConfig_other h3
    have hpos : V'.positions = S.ps.positions := by rw [hV]
    refine ⟨hx, fun id' cf ed a' c' hcf hed ha' hc' => ?_⟩
    by_cases hid : id' = id
    · subst hid
      have ha : a ∈ S.ps.resList := by
        rw [List.getElem?_eq_some_iff] at h1
        obtain ⟨_, rfl⟩ := h1
        exact List.getElem_mem _
      obtain ⟨c, d, hc, hd⟩ := cfg.list a ha
      have hidx := cfg.index_list h1 hc
      have hl := hlast _ _ _ hcf hed
      rw [h1] at ha'; cases ha'
      rw [hc] at hc'; cases hc'
      have hsup : (if id' % 2 = 0 then d.dSupply else d.bSupply) = etot S.ps id' := by
        split
        · have := inv.inv.supply_eq hc hd .liab
          rw [show Kind.liab.id c'.index = id' by simp only [Kind.id]; omega] at this
          exact this
        · have := inv.inv.supply_eq hc hd .coll
          rw [show Kind.coll.id c'.index = id' by simp only [Kind.id]; omega] at this
          exact this
      obtain ⟨cfg', ed', e1, e2, e3, e4, e5, mid, e6, e7⟩ := gulp_index hc h3' hcf hed hl hd
        (by rw [hsup]; exact inv.inv.etot_nonneg _)
      rw [hsup] at e7
      exact ⟨cfg', ed', e1, e2, e3, by omega, .inr ⟨e5, e4, mid, e6, e7⟩⟩
    · obtain ⟨q1, q2⟩ := gulp_otherId h3' hid
      have ht : etot V' id' = etot S.ps id' := by unfold etot; rw [hpos]
      exact ⟨cf, ed, by rw [q2, hcf], by rw [q1, hed], le_refl _, le_refl _, .inl ⟨rfl, by rw [ht]; exact IndexUpdate.refl⟩⟩
  | setInst i' h1 h2 => exact .same hx rfl rfl rfl
  | queueReserve V' a c h =>
    unfold queueSetReserve PoolState.getInst at h
    simp only [bind_ok, require_ok, unwrap_ok, pure_ok] at h
    obtain ⟨_, hn, _, hv, i, hi, rfl⟩ := h
    exact .same hx rfl rfl rfl
  | unqueue a => exact .same hx rfl rfl rfl
  | setReserve V' a h =>
    obtain ⟨q, hq, _, h⟩ := setReserve_ok h
    rcases h with ⟨old, d, i, r, h1, h2, h3, h4, h5, rfl⟩ | ⟨h1, h2, rfl⟩
    · exact .same hx rfl rfl rfl
    · exact .same hx rfl rfl rfl
  | poolEmis V' l h =>
    unfold setPoolEmissions at h
    simp only [bind_ok, require_ok, pure_ok, Prod.exists] at h
    obtain ⟨_, _, _, _, _, rfl⟩ := h
    exact .same hx rfl rfl rfl
  | writeOff f h => exact .same hx rfl rfl rfl
  | gain vb' h => exact .same hx rfl rfl rfl

theorem micros_index {now : Nat} {S S' : VS} (cfg : CfgOk S.ps) (inv : EInv now S)
    (h : PMicros now (fun _ => True) S S') : EmisRel now S.ps S'.ps ∧ EInv now S' ∧ CfgOk S'.ps := by
  induction h with
  | refl => exact ⟨.same (.of_same rfl rfl rfl fun _ d h => ⟨d, h⟩) rfl rfl rfl, inv, cfg⟩
  | tail _ h ih =>
    obtain ⟨h1, h2, h3⟩ := ih
    exact ⟨h1.trans (micro_index h3 h2 h), micro_emis h3 h h2, (micro_cfg h h3).1⟩

end Pool

namespace Props
open Spec

/-- **C26** In every reachable world, for every reserve token that has emissions and every finite set
of users: what was ever paid out for the token plus what these users are still entitled to is at most
what was ever allotted to the token. -/
theorem C26_pool_emissions_bounded {w : World} (h : Reachable w) {p : Address} (hp : w.poolAddr p = true)
    {id : Nat} {asset : Address} {c : ReserveConfig} {ed : EmisData}
    (ha : (w.pools p).resList[id / 2]? = some asset) (hc : (w.pools p).resConfig asset = some c)
    (hed : (w.pools p).emisData id = some ed) (users : Finset Address) (entitled : Address → Int)
    (he : ∀ u ∈ users, Entitled (w.pools p) id c.decimals ed.index u (entitled u)) :
    (w.pools p).claimed id + ∑ u ∈ users, entitled u ≤ (w.pools p).received id := by
  have ei := h.einv hp
  have ok := ei.emis id
  cases hcf : (w.pools p).emisConfig id with
  | none =>
    have := (ok.unset hcf).1
    rw [show (Pool.VS.of w p).ps = w.pools p from rfl, hed] at this
    simp at this
  | some cfg =>
    obtain ⟨a, c', d, e1, e2, e3, e4, e5, e6, e7⟩ := ok.isSet cfg hcf
    change (w.pools p).resList[id / 2]? = some a at e1
    rw [ha] at e1; cases e1
    change (w.pools p).resConfig asset = some c' at e2
    rw [hc] at e2; cases e2
    change (w.pools p).emisData id = some d at e3
    rw [hed] at e3; cases e3
    change UserOk ed.index ((w.pools p).userEmis id) at e6
    set s : Int := 10 ^ c.decimals with hs
    have hs0 : 0 < s := by positivity
    have hb : ∀ u, 0 ≤ Pool.ebal (w.pools p) id u := ei.inv.ebal_nonneg id
    have ht : ∀ F : Finset Nat, ∑ u ∈ F, Pool.ebal (w.pools p) id u ≤ Pool.etot (w.pools p) id := by
      intro F
      have h1 := SMap.finset_le (m := (w.pools p).positions) (g := Pool.ebal (w.pools p) id) hb
        (fun u hu => by unfold Pool.ebal Pool.getPositions; rw [hu]; exact Pool.posBal_default id) F
      have h2 : (w.pools p).positions.sum (fun u _ => Pool.ebal (w.pools p) id u) = Pool.etot (w.pools p) id :=
        SMap.sum_congr fun u pos hp => by unfold Pool.ebal Pool.getPositions; rw [hp]; rfl
      omega
    have h1 := phi_ge_finset (le_of_lt hs0) e5 e6 hb ht users
    have h2 : s * ∑ u ∈ users, entitled u ≤ ∑ u ∈ users,
        (s * (userEntry ((w.pools p).userEmis id) u).accrued +
          Pool.ebal (w.pools p) id u * (ed.index - (userEntry ((w.pools p).userEmis id) u).index)) := by
      rw [Finset.mul_sum]
      refine Finset.sum_le_sum fun u hu => ?_
      have := (he u hu).1
      rw [emisRecord_eq, Pool.tokenBalance_eq] at this
      nlinarith
    have h3 : 0 ≤ s * ((cfg.eps : Int) * ((cfg.expiration - ed.lastTime : Nat) : Int)) := by positivity
    have h4 : s * ((w.pools p).claimed id + ∑ u ∈ users, entitled u) ≤ s * (w.pools p).received id := by
      rw [mul_add]
      change phi s (Pool.ebal (w.pools p) id) (Pool.etot (w.pools p) id) ed.index ((w.pools p).userEmis id) +
        s * (w.pools p).claimed id + _ ≤ s * (w.pools p).received id at e7
      linarith
    exact le_of_mul_le_mul_left h4 hs0

/-- The hypotheses are met after the demo history: bob and two others, with something paid out. -/
example : ∃ w p id asset c ed, Reachable w ∧ w.poolAddr p = true ∧ (w.pools p).resList[id / 2]? = some asset ∧
    (w.pools p).resConfig asset = some c ∧ (w.pools p).emisData id = some ed ∧ 0 < (w.pools p).claimed id ∧
    0 < ed.index ∧ 0 < tokenBalance (w.pools p) id Demo.bob := by
  obtain ⟨w, _, hr, h⟩ := Demo.reach (ops := Demo.setup ++ Demo.trade ++ Demo.emissions ++ Demo.claims)
    (f := fun w => w.poolAddr Demo.poolA && (decide ((w.pools Demo.poolA).resList[0 / 2]? = some Demo.usdcA) &&
      Demo.optAnd ((w.pools Demo.poolA).resConfig Demo.usdcA) fun _ =>
        Demo.optAnd ((w.pools Demo.poolA).emisData 0) fun ed =>
          decide (0 < (w.pools Demo.poolA).claimed 0 ∧ 0 < ed.index ∧
            0 < tokenBalance (w.pools Demo.poolA) 0 Demo.bob))) (by decide +kernel)
  simp only [Bool.and_eq_true, decide_eq_true_eq, Demo.optAnd_iff] at h
  obtain ⟨h1, h2, c, h3, ed, h4, h5, h6, h7⟩ := h
  exact ⟨w, _, 0, _, c, ed, hr, h1, h2, h3, h4, h5, h6, h7⟩

/-- **C25** One operation, at the ledger time of the world it runs in. The emission index of a reserve
token and its update time never fall. The schedule is kept and the index is updated as `IndexUpdate`
says, with the supplies of the token before and after the operation; or the schedule is restarted for
seven days from `now`, after such an update, which leaves nothing due. -/
theorem C25_pool_index_step {w w' : World} {op : Op} (h : Reachable w) (hs : step w op = .ok w') {p : Address}
    (hp : w.poolAddr p = true) {id : Nat} {asset : Address} {c : ReserveConfig} {d d' : ReserveData}
    {cfg : EmisConfig} {ed : EmisData} (ha : (w.pools p).resList[id / 2]? = some asset)
    (hc : (w.pools p).resConfig asset = some c) (hd : (w.pools p).resData asset = some d)
    (hd' : (w'.pools p).resData asset = some d') (hcfg : (w.pools p).emisConfig id = some cfg)
    (hed : (w.pools p).emisData id = some ed) :
    ∃ cfg' ed', (w'.pools p).emisConfig id = some cfg' ∧ (w'.pools p).emisData id = some ed' ∧
      ed.index ≤ ed'.index ∧ ed.lastTime ≤ ed'.lastTime ∧
      ((cfg' = cfg ∧ IndexUpdate cfg (10 ^ c.decimals) w.time (tokenSupply d id) (tokenSupply d' id) ed ed') ∨
       (cfg'.expiration = w.time + 604800 ∧ ed'.lastTime = w.time ∧ ∃ mid, mid.index = ed'.index ∧
          ∀ S', IndexUpdate cfg (10 ^ c.decimals) w.time (tokenSupply d id) S' ed mid)) := by
  have r := step_res h.base hs
  have hm := (r.micros p hp).mono (U' := fun _ => True) (fun _ _ => trivial)
  have hall := Pool.micros_index (h.base.cfg p) (h.einv hp) hm
  have sup : ∀ {w : World} (_ : Reachable w) {c : ReserveConfig} {d : ReserveData} (_ : w.poolAddr p = true),
      (w.pools p).resList[id / 2]? = some asset → (w.pools p).resConfig asset = some c →
      (w.pools p).resData asset = some d → tokenSupply d id = Pool.etot (w.pools p) id := by
    intro w h c d hp ha hc hd
    have hidx := (h.base.cfg p).index_list ha hc
    unfold tokenSupply
    split
    · have := (h.einv hp).inv.supply_eq hc hd .liab
      rw [show Pool.Kind.liab.id c.index = id by simp only [Pool.Kind.id]; omega] at this
      exact this
    · have := (h.einv hp).inv.supply_eq hc hd .coll
      rw [show Pool.Kind.coll.id c.index = id by simp only [Pool.Kind.id]; omega] at this
      exact this
  have hx := hall.1.ext
  obtain ⟨l, hl⟩ := hx.list
  obtain ⟨c', e1, _, _⟩ := hx.cfg asset c hc
  have ha' : (w'.pools p).resList[id / 2]? = some asset := by
    rw [show (w'.pools p).resList = (w.pools p).resList ++ l from hl, List.getElem?_append_left]
    · exact ha
    · rw [List.getElem?_eq_some_iff] at ha; exact ha.1
  rw [sup h hp ha hc hd, sup (h.step hs) (r.poolAddr ▸ hp) ha' e1 hd']
  exact hall.1.rel id cfg ed asset c hcfg hed ha hc

/-- The hypotheses are met, and the index really grows, when bob claims in the demo history. -/
example : ∃ w w' op p id asset c d d' cfg ed ed', Reachable w ∧ step w op = .ok w' ∧ w.poolAddr p = true ∧
    (w.pools p).resList[id / 2]? = some asset ∧ (w.pools p).resConfig asset = some c ∧
    (w.pools p).resData asset = some d ∧ (w'.pools p).resData asset = some d' ∧
    (w.pools p).emisConfig id = some cfg ∧ (w.pools p).emisData id = some ed ∧
    (w'.pools p).emisData id = some ed' ∧ ed.index < ed'.index := by
  obtain ⟨w, w', _, hr, hs, h⟩ := Demo.reach_step (ops := Demo.setup ++ Demo.trade ++ Demo.emissions)
    (op := .pool Demo.poolA [Demo.bob] (.claim Demo.bob [0, 3] Demo.bob))
    (f := fun w w' => w.poolAddr Demo.poolA && (decide ((w.pools Demo.poolA).resList[0 / 2]? = some Demo.usdcA) &&
      (Demo.optAnd ((w.pools Demo.poolA).resConfig Demo.usdcA) fun _ =>
        Demo.optAnd ((w.pools Demo.poolA).resData Demo.usdcA) fun _ =>
        Demo.optAnd ((w'.pools Demo.poolA).resData Demo.usdcA) fun _ =>
        Demo.optAnd ((w.pools Demo.poolA).emisConfig 0) fun _ =>
        Demo.optAnd ((w.pools Demo.poolA).emisData 0) fun ed =>
        Demo.optAnd ((w'.pools Demo.poolA).emisData 0) fun ed' =>
          decide (ed.index < ed'.index)))) (by decide +kernel)
  simp only [Bool.and_eq_true, decide_eq_true_eq, Demo.optAnd_iff] at h
  obtain ⟨h1, h2, c, h3, d, h4, d', h5, cfg, h6, ed, h7, ed', h8, h9⟩ := h
  exact ⟨w, w', _, _, 0, _, c, d, d', cfg, ed, ed', hr, hs, h1, h2, h3, h4, h5, h6, h7, h8, h9⟩

/-- **C25** Over any history the emission index of a reserve token never falls. -/
theorem C25_pool_index_monotone {w w' : World} (h : Reachable w) (hs : Steps w w') {p : Address}
    (hp : w.poolAddr p = true) {id : Nat} {ed : EmisData} (hed : (w.pools p).emisData id = some ed) :
    ∃ ed', (w'.pools p).emisData id = some ed' ∧ ed.index ≤ ed'.index ∧ ed.lastTime ≤ ed'.lastTime := by
  have key : Reachable w' ∧ w'.poolAddr = w.poolAddr ∧ ∃ ed',
      (w'.pools p).emisData id = some ed' ∧ ed.index ≤ ed'.index ∧ ed.lastTime ≤ ed'.lastTime := by
    induction hs with
    | refl => exact ⟨h, rfl, ed, hed, le_refl _, le_refl _⟩
    | @tail a b hab hst ih =>
      obtain ⟨h1, h2, ed1, h4, h5, h6⟩ := ih
      obtain ⟨op, hst⟩ := hst
      have r := step_res h1.base hst
      have hm := (r.micros p (h2 ▸ hp)).mono (U' := fun _ => True) (fun _ _ => trivial)
      have ei := h1.einv (p := p) (h2 ▸ hp)
      cases hcf : (a.pools p).emisConfig id with
      | none =>
        have := ((ei.emis id).unset hcf).1
        change (a.pools p).emisData id = none at this
        rw [h4] at this; simp at this
      | some cfg =>
        obtain ⟨x, c, _, f1, f2, _⟩ := (ei.emis id).isSet cfg hcf
        obtain ⟨cfg', ed', k1, k2, k3, k4, k5⟩ :=
          (Pool.micros_index (h1.base.cfg p) ei hm).1.rel id cfg ed1 x c hcf h4 f1 f2
        exact ⟨h1.step hst, r.poolAddr.trans h2, ed', k2, le_trans h5 k3, le_trans h6 k4⟩
  obtain ⟨_, _, ed', h1, h2⟩ := key
  exact ⟨ed', h1, h2⟩

end Props
end Blend
