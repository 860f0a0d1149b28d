import Verif.Lemmas.Share
/-
  What is emitted and what is left to be emitted of a reserve token, through the small steps of an operation.
-/

namespace Blend
namespace Pool
open Spec

/-- what is emitted to a supply of `etot ps id` and what is left to be emitted is no more than what was left and what was allotted -/
def StreamRel (id : Nat) (s : Int) (ps ps' : PoolState) : Prop :=
  ∀ cfg ed cfg' ed', ps.emisConfig id = some cfg → ps.emisData id = some ed → ps'.emisConfig id = some cfg' →
    ps'.emisData id = some ed' →
    (ed'.index - ed.index) * etot ps id + s * ((cfg'.eps : Int) * ((cfg'.expiration - ed'.lastTime : Nat) : Int)) ≤
      s * ((cfg.eps : Int) * ((cfg.expiration - ed.lastTime : Nat) : Int)) + s * (ps'.received id - ps.received id)

theorem StreamRel.same {id : Nat} {s : Int} {ps ps' : PoolState} (h1 : ps'.emisConfig id = ps.emisConfig id)
    (h2 : ps'.emisData id = ps.emisData id) (h3 : ps'.received id = ps.received id) : StreamRel id s ps ps' := by
  intro cfg ed cfg' ed' k1 k2 k3 k4
  rw [h1, k1] at k3; cases k3
  rw [h2, k2] at k4; cases k4
  rw [h3]; simp

theorem StreamRel.same' {id : Nat} {s : Int} {ps ps' : PoolState} (h1 : ps'.emisConfig = ps.emisConfig)
    (h2 : ps'.emisData = ps.emisData) (h3 : ps'.received = ps.received) : StreamRel id s ps ps' :=
  .same (by rw [h1]) (by rw [h2]) (by rw [h3])

/-- an update of the emissions of a user emits what is due -/
theorem streamRel_update {now : Nat} {S : VS} {V1 V2 : PoolState} {id : Nat} {v : Address} {s amt : Int} {claim : Bool}
    (inv : EInv now S) (hs : 0 < s)
    (h : updateEmissions S.ps now id (etot S.ps id) s v (ebal S.ps id v) claim = .ok (amt, V1))
    (h1 : V2.emisData = V1.emisData) (h3 : V2.emisConfig = V1.emisConfig) (h4 : V2.received = V1.received) :
    StreamRel id s S.ps V2 := by
  intro cfg ed cfg' ed' k1 k2 k3 k4
  obtain ⟨_, _, ed0, _, _, e3, e4, e5, e6, _⟩ := (inv.emis id).isSet cfg k1
  rw [k2] at e3; cases e3
  rcases emisUpdate_ok h hs (inv.inv.ebal_nonneg _ _) (inv.inv.etot_nonneg _) with ⟨hn, _⟩ | hk
  · rw [hn] at k1; cases k1
  · obtain ⟨d, x, rfl, m1, m2, m3, m4, _⟩ := hk cfg ed k1 k2 e4 e5 e6
    rw [h3] at k3
    change S.ps.emisConfig id = some cfg' at k3
    rw [k1] at k3; cases k3
    rw [h1] at k4
    change upd S.ps.emisData id (some d) id = some ed' at k4
    rw [upd_same] at k4; cases k4
    rw [h4]
    change _ ≤ _ + s * (S.ps.received id - S.ps.received id)
    simp only [sub_self, mul_zero, add_zero]
    exact m4

/-- a gulp emits what is due, and schedules at most what was left and what is new -/
theorem streamRel_gulp {now id : Nat} {ps V' : PoolState} {a : Address} {n : Int} {c : ReserveConfig}
    {rd : ReserveData} (hok : EmisOk now ps id)
    (h : updateReserveEmisConfig ps now a id n = .ok V') (hn : 0 ≤ n)
    (ha : ps.resList[id / 2]? = some a) (hc : ps.resConfig a = some c) (hd : ps.resData a = some rd)
    (hsup : (if id % 2 = 0 then rd.dSupply else rd.bSupply) = etot ps id) (ht : 0 ≤ etot ps id) :
    StreamRel id (10 ^ c.decimals) ps V' := by
  have heps : ∀ {left : Int} {eps : Nat}, 0 ≤ left → toU64 (Int.tdiv left (7 * 24 * 60 * 60)) = .ok eps →
      (eps : Int) * ((now + 7 * 24 * 60 * 60 - now : Nat) : Int) ≤ left := by
    intro left eps hl he
    have h1 : (eps : Int) = Int.tdiv left (7 * 24 * 60 * 60) := (toU64_ok.1 he).2.2
    rw [h1, Int.tdiv_eq_ediv_of_nonneg hl, Nat.add_sub_cancel_left]
    push_cast
    omega
  have hs0 : (0 : Int) < 10 ^ c.decimals := by positivity
  intro cfg ed cfg' ed' g1 g2 g3 g4
  unfold updateReserveEmisConfig at h
  obtain ⟨a', c', ed0, e1, e2, e3, e4, e5, e6, e7⟩ := hok.isSet cfg g1
  rw [g2] at e3; cases e3
  simp only [g1, hc, hd, bind_ok, unwrap_ok, pow10_ok, Option.some.injEq, Prod.exists] at h
  obtain ⟨_, rfl, _, rfl, _, ⟨_, rfl⟩, d, q1, hq, h⟩ := h
  rw [hsup] at hq
  obtain ⟨rfl, k1, k2, k3, k4, _⟩ := dataUpdate_ok hq g2 e4 hs0 ht
  have key : ∃ d' left eps, d'.index = d.index ∧ d'.lastTime = now ∧ 0 ≤ left ∧
      left ≤ n + (cfg.eps : Int) * ((cfg.expiration - d.lastTime : Nat) : Int) ∧
      toU64 (Int.tdiv left (7 * 24 * 60 * 60)) = .ok eps ∧
      V' = { ps with
        emisData := upd ps.emisData id (some d')
        emisConfig := upd ps.emisConfig id (some ⟨now + 7 * 24 * 60 * 60, eps⟩)
        received := upd ps.received id (ps.received id + n) } := by
    have hl : ∀ {left : Int} {rem : Nat}, rem = cfg.eps * (cfg.expiration - now) → left = n + (rem : Int) →
        0 ≤ left ∧ left ≤ n + (cfg.eps : Int) * ((cfg.expiration - d.lastTime : Nat) : Int) := by
      intro left rem h1 h2
      refine ⟨by omega, ?_⟩
      rw [h2, h1]
      have : cfg.eps * (cfg.expiration - now) ≤ cfg.eps * (cfg.expiration - d.lastTime) :=
        Nat.mul_le_mul_left _ (by omega)
      have : ((cfg.eps * (cfg.expiration - now) : Nat) : Int) ≤
        ((cfg.eps * (cfg.expiration - d.lastTime) : Nat) : Int) := by exact_mod_cast this
      push_cast at this ⊢
      omega
    have hst : ∃ d', d'.index = d.index ∧ d'.lastTime = now ∧
        (if d.lastTime ≠ now then
          { ps with emisData := upd (upd ps.emisData id (some d)) id (some { d with lastTime := now }) }
         else { ps with emisData := upd ps.emisData id (some d) }) =
        { ps with emisData := upd ps.emisData id (some d') } := by
      split
      · exact ⟨{ d with lastTime := now }, rfl, rfl, by rw [upd_upd]⟩
      · rename_i e; push Not at e
        exact ⟨d, rfl, e, rfl⟩
    obtain ⟨d', f1, f2, f3⟩ := hst
    rw [f3] at h
    simp only [ite_ok, bind_ok, pure_ok, chk_ok, chkU64_ok, exists_eq_left] at h
    rcases h with ⟨_, rem, ⟨_, rfl⟩, l, ⟨_, rfl⟩, _, rfl, eps, he, rfl⟩ | ⟨hx, _, rfl, eps, he, rfl⟩
    · obtain ⟨g1, g2⟩ := hl (left := n + ((cfg.eps * (cfg.expiration - now) : Nat) : Int)) rfl rfl
      exact ⟨d', _, eps, f1, f2, g1, g2, he, rfl⟩
    · refine ⟨d', _, eps, f1, f2, hn, ?_, he, rfl⟩
      have : (0:Int) ≤ (cfg.eps : Int) * ((cfg.expiration - d.lastTime : Nat) : Int) := by positivity
      omega
  obtain ⟨d', left, eps, f1, f2, l1, l2, he, rfl⟩ := key
  simp only [upd_same, Option.some.injEq] at g3 g4
  subst g3 g4
  have p2 := heps l1 he
  have p3 := mul_le_mul_of_nonneg_left (le_trans p2 l2) (le_of_lt hs0)
  simp only [upd_same, f1, f2]
  rw [mul_add] at p3
  have : ps.received id + n - ps.received id = n := by ring
  rw [this]
  linarith

theorem micro_stream {now : Nat} {U : Address → Prop} {S S' : VS} (cfg : CfgOk S.ps) (inv : EInv now S) (h : PMicro now U S S')
    {id : Nat} {a : Address} {c : ReserveConfig}
    (ha : S.ps.resList[id / 2]? = some a) (hc : S.ps.resConfig a = some c) :
    StreamRel id (10 ^ c.decimals) S.ps S'.ps := by
  cases h with
  | touch v h => exact .same' rfl rfl rfl
  | accrue a c d d' i h1 h2 h3 h4 => exact .same' rfl rfl rfl
  | share V1 k a' v c' d δ x m' vb' pb' pd' h0 h1 h2 h3 h4 h5 h6 =>
    obtain ⟨o1, o2, o3, o4, o5, o6⟩ := updateEmissions_other h4
    by_cases hid : id = k.id c'.index
    · subst hid
      rw [cfg.list_idx h1 k] at ha; cases ha
      rw [h1] at hc; cases hc
      rw [inv.inv.supply_eq h1 h2, emisBal_eq] at h4
      exact streamRel_update inv (by positivity) h4 rfl rfl rfl
    · refine .same ?_ ?_ ?_
      · show V1.emisConfig id = _
        rw [o1.emisConfig]
      · exact (updateEmissions_otherId h4 hid).1
      · show V1.received id = _
        rw [o5]
  | credit a d x h1 h2 => exact .same' rfl rfl rfl
  | auction t u x => exact .same' rfl rfl rfl
  | emis V1 k a' v c' d i claim amt h0 h1 h2 h3 h4 =>
    have hi : i = c'.index := by
      rcases h3 with h3 | h3
      · exact (cfg.index_list h3 h1).symm
      · exact h3
    subst hi
    obtain ⟨o1, o2, o3, o4, o5, o6⟩ := updateEmissions_other h4
    by_cases hid : id = k.id c'.index
    · subst hid
      rw [cfg.list_idx h1 k] at ha; cases ha
      rw [h1] at hc; cases hc
      rw [inv.inv.supply_eq h1 h2, emisBal_eq] at h4
      exact streamRel_update inv (by positivity) h4 rfl rfl rfl
    · refine .same ?_ ?_ ?_
      · show V1.emisConfig id = _
        rw [o1.emisConfig]
      · exact (updateEmissions_otherId h4 hid).1
      · show V1.received id = _
        rw [o5]
  | gulp V' a' id' n h1 h2 h3 =>
    have h3' := h3
    obtain ⟨g1, g2, hV⟩ := updateReserveEmisConfig_other h3
    by_cases hid : id = id'
    · subst hid
      obtain ⟨c', d, hc', hd⟩ := cfg.list a' (by
        rw [List.getElem?_eq_some_iff] at h1
        obtain ⟨_, rfl⟩ := h1
        exact List.getElem_mem _)
      have hidx := cfg.index_list h1 hc'
      rw [h1] at ha; cases ha
      rw [hc'] at hc; cases hc
      refine streamRel_gulp (inv.emis id) h3' h2 h1 hc' hd ?_ (inv.inv.etot_nonneg _)
      split
      · have := inv.inv.supply_eq hc' hd .liab
        rw [show Kind.liab.id c.index = id by simp only [Kind.id]; omega] at this
        exact this
      · have := inv.inv.supply_eq hc' hd .coll
        rw [show Kind.coll.id c.index = id by simp only [Kind.id]; omega] at this
        exact this
    · obtain ⟨q1, q2⟩ := gulp_otherId h3' hid
      refine .same q2 q1 ?_
      rw [hV]
      simp only [upd_apply, if_neg hid]
  | setInst i' h1 h2 => exact .same' rfl rfl rfl
  | queueReserve V' a c h =>
    unfold queueSetReserve PoolState.getInst at h
    simp only [bind_ok, require_ok, unwrap_ok, pure_ok] at h
    obtain ⟨_, hn, _, hv, i, hi, rfl⟩ := h
    exact .same' rfl rfl rfl
  | unqueue a => exact .same' rfl rfl rfl
  | setReserve V' a h =>
    obtain ⟨q, hq, _, h⟩ := setReserve_ok h
    rcases h with ⟨old, d, i, r, h1, h2, h3, h4, h5, rfl⟩ | ⟨h1, h2, rfl⟩
    · exact .same' rfl rfl rfl
    · exact .same' rfl rfl rfl
  | poolEmis V' l h =>
    unfold setPoolEmissions at h
    simp only [bind_ok, require_ok, pure_ok, Prod.exists] at h
    obtain ⟨_, _, _, _, _, rfl⟩ := h
    exact .same' rfl rfl rfl
  | writeOff f h => exact .same' rfl rfl rfl
  | gain vb' h => exact .same' rfl rfl rfl

theorem micros_stream {now : Nat} {U : Address → Prop} {S S' : VS} (cfg : CfgOk S.ps) (inv : EInv now S) (h : PMicros now U S S')
    {id : Nat} {cf : EmisConfig} (hcf : S.ps.emisConfig id = some cf) {a : Address} {c : ReserveConfig}
    (ha : S.ps.resList[id / 2]? = some a) (hc : S.ps.resConfig a = some c) :
    StreamRel id (10 ^ c.decimals) S.ps S'.ps := by
  have h10 : (0 : Int) < 10 ^ c.decimals := by positivity
  induction h with
  | refl => exact .same' rfl rfl rfl
  | @tail S1 S2 h12 h2 ih =>
    obtain ⟨rel, inv1, cfg1⟩ := micros_index cfg inv (h12.mono (U' := fun _ => True) fun _ _ => trivial)
    obtain ⟨_, _, ed, _, _, hed, _, _, _, _⟩ := (inv.emis id).isSet cf hcf
    obtain ⟨cf1, ed1, k1, k2, _⟩ := rel.rel id cf ed a c hcf hed ha hc
    obtain ⟨l, hl⟩ := rel.ext.list
    obtain ⟨c1, hc1, _, hdec⟩ := rel.ext.cfg a c hc
    have ha1 : S1.ps.resList[id / 2]? = some a := by
      rw [hl, List.getElem?_append_left]
      · exact ha
      · rw [List.getElem?_eq_some_iff] at ha; exact ha.1
    have rel2 := micro_index cfg1 inv1 (h2.mono (U' := fun _ => True) fun _ _ => trivial)
    have m2 := micro_stream cfg1 inv1 h2 ha1 hc1
    rw [hdec] at m2
    intro cfg0 ed0 cfg2 ed2 j1 j2 j3 j4
    rw [hcf] at j1; cases j1
    rw [hed] at j2; cases j2
    obtain ⟨_, ed2', _, r2, r3, _⟩ := rel2.rel id cf1 ed1 a c1 k1 k2 ha1 hc1
    rw [j4] at r2; cases r2
    have b1 := ih cf ed cf1 ed1 hcf hed k1 k2
    have b2 := m2 cf1 ed1 cfg2 ed2 k1 k2 j3 j4
    have e : (ed2.index - ed.index) * etot S.ps id = (ed2.index - ed1.index) * etot S.ps id + (ed1.index - ed.index) * etot S.ps id := by ring
    have key : (ed2.index - ed1.index) * etot S.ps id ≤ (ed2.index - ed1.index) * etot S1.ps id := by
      have set : Settled now S1.ps id → (ed2.index - ed1.index) * etot S.ps id ≤ (ed2.index - ed1.index) * etot S1.ps id := by
        intro g
        rw [(g.step rel2 ha1 hc1).2 ed1 ed2 k2 j4]; simp
      rcases micros_rec cfg inv h12 (u := 0) hcf ha hc with ⟨_, _, g | g⟩ | ⟨g, _⟩ | ⟨g, _⟩
      · rw [g]
      · exact set g
      · exact set g
      · rw [g, mul_zero]
        exact Int.mul_nonneg (by omega) (inv1.inv.etot_nonneg id)
    rw [e]
    have : (10 : Int) ^ c.decimals * (S2.ps.received id - S.ps.received id) =
      10 ^ c.decimals * (S2.ps.received id - S1.ps.received id) + 10 ^ c.decimals * (S1.ps.received id - S.ps.received id) := by ring
    linarith

end Pool
end Blend
