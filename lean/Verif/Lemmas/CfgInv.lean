import Verif.Lemmas.PoolCall
/-
  The configuration of a pool stays well formed; reserves keep their identity.
-/

namespace Blend
namespace Pool
open Spec

theorem CfgOk.empty : CfgOk {} :=
  ⟨by simp, by simp, by simp, by simp, by simp, by simp, by simp, by simp⟩

/-- emission updates of the data change only the emission data -/
theorem updateReserveEmisConfig_other {ps ps' : PoolState} {now id : Nat} {a : Address} {n : Int}
    (h : updateReserveEmisConfig ps now a id n = .ok ps') :
    ∃ ed ec, ps' = { ps with
      emisData := ed
      emisConfig := ec
      received := upd ps.received id (ps.received id + n) } := by
  have hw : ∀ {ps ps' : PoolState} {s sc : Int} {cfg : EmisConfig} {d : EmisData},
      updateEmisDataWith ps now id s sc cfg = .ok (d, ps') → ∃ ed, ps' = { ps with emisData := ed } := by
    intro ps ps' s sc cfg d h
    unfold updateEmisDataWith at h
    simp only [bind_ok, ite_ok, unwrap_ok, pure_ok, Prod.mk.injEq] at h
    obtain ⟨_, _, ⟨_, _, rfl⟩ | ⟨_, _, _, _, _, _, _, _, _, _, rfl⟩⟩ := h
    · exact ⟨_, rfl⟩
    · exact ⟨_, rfl⟩
  unfold updateReserveEmisConfig at h
  cases hc : ps.emisConfig id with
  | none =>
    simp only [hc, bind_ok, pure_ok, Prod.exists, Prod.mk.injEq] at h
    obtain ⟨_, _, ⟨rfl, rfl⟩, _, _, rfl⟩ := h
    exact ⟨_, _, rfl⟩
  | some cfg =>
    simp only [hc, bind_ok, Prod.exists, unwrap_ok, ite_ok, pure_ok, Prod.mk.injEq] at h
    obtain ⟨c, _, rd, _, sc, _, d, p1, hu, h⟩ := h
    obtain ⟨ed, rfl⟩ := hw hu
    have fin : ∀ x : PoolState, (if d.lastTime ≠ now then
        ({ ps with emisData := upd ed id (some { d with lastTime := now }) } : PoolState)
        else { ps with emisData := ed }) = x → ∃ ed, x = { ps with emisData := ed } := by
      intro x hx
      split at hx <;> exact ⟨_, hx.symm⟩
    rcases h with ⟨_, _, _, _, _, _, _, ⟨rfl, h⟩, _, _, rfl⟩ | ⟨_, _, _, ⟨rfl, h⟩, _, _, rfl⟩
    · obtain ⟨_, rfl⟩ := fin _ h; exact ⟨_, _, rfl⟩
    · obtain ⟨_, rfl⟩ := fin _ h; exact ⟨_, _, rfl⟩

/-- the two ways `set_reserve` can succeed -/
theorem setReserve_ok {ps ps' : PoolState} {now : Nat} {a : Address} (h : setReserve ps now a = .ok ps') :
    ∃ q, ps.resInit a = some q ∧ q.unlockTime ≤ now ∧
    ((∃ old d i r, ps.resConfig a = some old ∧ ps.resData a = some d ∧ ps.inst = some i ∧
        accrue old i.config.bstopRate now d = .ok r ∧ old.decimals = q.newConfig.decimals ∧
        ps' = { ps with
          resInit := upd ps.resInit a none
          resData := upd ps.resData a (some
            (if old.rBase ≠ q.newConfig.rBase ∨ old.rOne ≠ q.newConfig.rOne ∨ old.rTwo ≠ q.newConfig.rTwo ∨
              old.rThree ≠ q.newConfig.rThree ∨ old.util ≠ q.newConfig.util
             then { r with irMod := SCALAR_9 } else r))
          resConfig := upd ps.resConfig a (some { q.newConfig with index := old.index }) }) ∨
     (ps.resConfig a = none ∧ ps.resList.length ≠ 32 ∧
        ps' = { ps with
          resInit := upd ps.resInit a none
          resList := ps.resList ++ [a]
          resData := upd ps.resData a (some ⟨SCALAR_9, SCALAR_9, SCALAR_9, 0, 0, 0, now⟩)
          resConfig := upd ps.resConfig a (some { q.newConfig with index := ps.resList.length }) })) := by
  unfold setReserve at h
  simp only [bind_ok, unwrap_ok, require_ok] at h
  obtain ⟨q, hq, _, hu, h⟩ := h
  refine ⟨q, hq, by omega, ?_⟩
  unfold initReserve at h
  cases hc : ps.resConfig a with
  | none =>
    simp only [hc, bind_ok, require_ok, pure_ok] at h
    obtain ⟨_, hl, rfl⟩ := h
    exact .inr ⟨rfl, hl, rfl⟩
  | some old =>
    simp only [hc, bind_ok, require_ok, pure_ok, Prod.exists] at h
    obtain ⟨cache, hcl, r, c1, hl, _, hdec, rfl⟩ := h
    obtain ⟨_, hr0, _, i, hi, hcfg⟩ := load_ok (now := now) hcl
    have hl' : Reserve.load { ps with resInit := upd ps.resInit a none } cache.config.bstopRate now a = .ok r := by
      have := load_any (by simp [hr0]) hl
      obtain ⟨_, _, _, h | ⟨_, h⟩⟩ := this
      · rw [hr0] at h; simp at h
      · exact h
    obtain ⟨rm, c, d, h1, h2, h3⟩ := load_match hl'
    simp only at h1 h2 hi
    rw [hc] at h1; cases h1
    rw [hcfg] at h3
    left
    refine ⟨old, d, i, r.data, rfl, h2, hi, h3, hdec, ?_⟩
    obtain ⟨_, hcf, hidx, _⟩ := rm.cfg
    simp only at hcf
    rw [hc] at hcf; cases hcf
    unfold Reserve.store
    simp only [hidx]
    congr 1
    · split <;> simp [rm.asset]

/-- reserves keep their identity: the list only grows at its end; index and decimals are fixed -/
structure CfgExt (ps ps' : PoolState) : Prop where
  list : ∃ l, ps'.resList = ps.resList ++ l
  cfg : ∀ a c, ps.resConfig a = some c → ∃ c', ps'.resConfig a = some c' ∧ c'.index = c.index ∧
    c'.decimals = c.decimals
  inst : ∀ i, ps.inst = some i → ∃ i', ps'.inst = some i' ∧ i'.backstop = i.backstop ∧ i'.blnd = i.blnd
  data : ∀ a d, ps.resData a = some d → ∃ d', ps'.resData a = some d'

theorem CfgExt.refl (ps : PoolState) : CfgExt ps ps :=
  ⟨⟨[], by simp⟩, fun _ c h => ⟨c, h, rfl, rfl⟩, fun i h => ⟨i, h, rfl, rfl⟩, fun _ d h => ⟨d, h⟩⟩

theorem CfgExt.trans {a b c : PoolState} (h : CfgExt a b) (h' : CfgExt b c) : CfgExt a c := by
  refine ⟨?_, fun x cf hx => ?_, fun i hi => ?_, fun x d hx => ?_⟩
  · obtain ⟨l, e⟩ := h.list; obtain ⟨l', e'⟩ := h'.list
    exact ⟨l ++ l', by rw [e', e, List.append_assoc]⟩
  · obtain ⟨c1, h1, h2, h3⟩ := h.cfg x cf hx
    obtain ⟨c2, h4, h5, h6⟩ := h'.cfg x c1 h1
    exact ⟨c2, h4, h5.trans h2, h6.trans h3⟩
  · obtain ⟨i1, h1, h2, h3⟩ := h.inst i hi
    obtain ⟨i2, h4, h5, h6⟩ := h'.inst i1 h1
    exact ⟨i2, h4, h5.trans h2, h6.trans h3⟩
  · obtain ⟨d1, h1⟩ := h.data x d hx
    exact h'.data x d1 h1

theorem CfgExt.of_same {ps ps' : PoolState} (h1 : ps'.inst = ps.inst) (h2 : ps'.resConfig = ps.resConfig)
    (h3 : ps'.resList = ps.resList) (h4 : ∀ a d, ps.resData a = some d → ∃ d', ps'.resData a = some d') :
    CfgExt ps ps' :=
  ⟨⟨[], by simp [h3]⟩, fun _ c h => ⟨c, by rw [h2]; exact h, rfl, rfl⟩,
    fun i h => ⟨i, by rw [h1]; exact h, rfl, rfl⟩, h4⟩

theorem upd_data {f : Address → Option ReserveData} {a : Address} {d' : ReserveData} (b : Address)
    (d : ReserveData) (h : f b = some d) : ∃ x, upd f a (some d') b = some x := by
  rw [upd_apply]; split
  · exact ⟨_, rfl⟩
  · exact ⟨d, h⟩

theorem CfgOk.upd_resData {ps ps' : PoolState} (cfg : CfgOk ps) {a : Address} {d d' : ReserveData}
    (ha : ps.resData a = some d) (h1 : ps'.inst = ps.inst) (h2 : ps'.resConfig = ps.resConfig)
    (h3 : ps'.resInit = ps.resInit) (h4 : ps'.resList = ps.resList)
    (h5 : ps'.resData = upd ps.resData a (some d')) : CfgOk ps' := by
  refine ⟨h4 ▸ cfg.nodup, h4 ▸ cfg.len, by rw [h2, h4]; exact cfg.idx, ?_, ?_,
    by rw [h2]; exact cfg.valid, by rw [h3]; exact cfg.queued, by rw [h1]; exact cfg.rate⟩
  · rw [h2, h4, h5]
    intro b hb
    obtain ⟨c, d, hc, hd⟩ := cfg.list b hb
    obtain ⟨x, hx⟩ := upd_data (a := a) (d' := d') b d hd
    exact ⟨c, x, hc, hx⟩
  · rw [h2, h5]
    intro b x hx
    rw [upd_apply] at hx
    split at hx
    · rename_i e; subst e; exact cfg.data _ _ ha
    · exact cfg.data _ _ hx

theorem micro_cfg {now : Nat} {U : Address → Prop} {S S' : VS} (h : PMicro now U S S')
    (cfg : CfgOk S.ps) : CfgOk S'.ps ∧ CfgExt S.ps S'.ps := by
  cases h with
  | touch u h =>
    exact ⟨cfg.same ⟨rfl, rfl, rfl, rfl, rfl, rfl, rfl, rfl, rfl⟩, .of_same rfl rfl rfl fun _ d h => ⟨d, h⟩⟩
  | accrue a c d d' i h1 h2 h3 h4 =>
    exact ⟨cfg.upd_resData h2 rfl rfl rfl rfl rfl, .of_same rfl rfl rfl (upd_data)⟩
  | share V1 k a u c d δ x m' vb' pb' pd' h0 h1 h2 h3 h4 h5 h6 =>
    obtain ⟨o1, _⟩ := updateEmissions_other h4
    refine ⟨cfg.upd_resData (d' := k.addSupply d δ) h2 o1.inst o1.resConfig o1.resInit o1.resList ?_,
      .of_same o1.inst o1.resConfig o1.resList ?_⟩
    · show upd V1.resData a _ = upd S.ps.resData a _
      rw [o1.resData]
    · show ∀ b d, S.ps.resData b = some d → ∃ x, upd V1.resData a _ b = some x
      rw [o1.resData]; exact upd_data
  | credit a d x h1 h2 =>
    exact ⟨cfg.upd_resData h1 rfl rfl rfl rfl rfl, .of_same rfl rfl rfl (upd_data)⟩
  | auction t u x =>
    exact ⟨cfg.same ⟨rfl, rfl, rfl, rfl, rfl, rfl, rfl, rfl, rfl⟩, .of_same rfl rfl rfl fun _ d h => ⟨d, h⟩⟩
  | emis V1 k a u c d i claim amt h0 h1 h2 h3 h4 =>
    obtain ⟨o1, _⟩ := updateEmissions_other h4
    exact ⟨(cfg.same o1).same' ⟨rfl, rfl, rfl, rfl, rfl, rfl, rfl⟩,
      .of_same o1.inst o1.resConfig o1.resList fun b d h => ⟨d, by
        show V1.resData b = some d
        rw [o1.resData]; exact h⟩⟩
  | gulp V' a id n h1 h2 h3 =>
    obtain ⟨ed, ec, rfl⟩ := updateReserveEmisConfig_other h3
    exact ⟨⟨cfg.nodup, cfg.len, cfg.idx, cfg.list, cfg.data, cfg.valid, cfg.queued, cfg.rate⟩,
      .of_same rfl rfl rfl fun _ d h => ⟨d, h⟩⟩
  | setInst i' h1 h2 =>
    refine ⟨⟨cfg.nodup, cfg.len, cfg.idx, cfg.list, cfg.data, cfg.valid, cfg.queued, ?_⟩,
      ⟨⟨[], by simp⟩, fun _ c h => ⟨c, h, rfl, rfl⟩, fun i hi => ⟨i', rfl, h2 i hi⟩, fun _ d h => ⟨d, h⟩⟩⟩
    intro i hi
    simp only [Option.some.injEq] at hi
    subst hi
    rcases h1 with h1 | ⟨j, hj, e⟩
    · exact h1
    · rw [e]; exact cfg.rate j hj
  | queueReserve V' a c h =>
    unfold queueSetReserve PoolState.getInst at h
    simp only [bind_ok, require_ok, unwrap_ok, pure_ok] at h
    obtain ⟨_, hn, _, hv, i, hi, rfl⟩ := h
    refine ⟨⟨cfg.nodup, cfg.len, cfg.idx, cfg.list, cfg.data, cfg.valid, ?_, cfg.rate⟩,
      .of_same rfl rfl rfl fun _ d h => ⟨d, h⟩⟩
    intro b q hq
    simp only [upd_apply] at hq
    split at hq
    · cases hq; exact validMetadata_iff.1 hv
    · exact cfg.queued b q hq
  | unqueue a =>
    refine ⟨⟨cfg.nodup, cfg.len, cfg.idx, cfg.list, cfg.data, cfg.valid, ?_, cfg.rate⟩,
      .of_same rfl rfl rfl fun _ d h => ⟨d, h⟩⟩
    intro b q hq
    simp only [upd_apply] at hq
    split at hq
    · simp at hq
    · exact cfg.queued b q hq
  | setReserve V' a h =>
    obtain ⟨q, hq, _, h⟩ := setReserve_ok h
    have hqv := cfg.queued a q hq
    have hqueued : ∀ b q', upd S.ps.resInit a none b = some q' → ValidConfig q'.newConfig := by
      intro b q' hq'
      simp only [upd_apply] at hq'
      split at hq'
      · simp at hq'
      · exact cfg.queued b q' hq'
    have hvalid : ∀ n b c, upd S.ps.resConfig a (some { q.newConfig with index := n }) b = some c →
        ValidConfig c := by
      intro n b c hb
      rw [upd_apply] at hb
      split at hb
      · cases hb
        exact ⟨hqv.decimals, hqv.cFactor, hqv.lFactor, hqv.util, hqv.maxUtil, hqv.util_lt, hqv.rBase_lo,
          hqv.rBase_hi, hqv.r12, hqv.r23, hqv.reactivity⟩
      · exact cfg.valid b c hb
    rcases h with ⟨old, d, i, r, h1, h2, h3, h4, h5, rfl⟩ | ⟨h1, h2, rfl⟩
    · refine ⟨⟨cfg.nodup, cfg.len, ?_, ?_, ?_, hvalid _, hqueued, cfg.rate⟩,
        ⟨⟨[], by simp⟩, ?_, fun i hi => ⟨i, hi, rfl, rfl⟩, upd_data⟩⟩
      · intro b c hb
        simp only [upd_apply] at hb
        split at hb
        · rename_i e; subst e; cases hb; exact cfg.idx _ old h1
        · exact cfg.idx b c hb
      · intro b hb
        obtain ⟨c, d, hc, hd⟩ := cfg.list b hb
        obtain ⟨x, hx⟩ := upd_data (a := a) (d' := if old.rBase ≠ q.newConfig.rBase ∨
          old.rOne ≠ q.newConfig.rOne ∨ old.rTwo ≠ q.newConfig.rTwo ∨
          old.rThree ≠ q.newConfig.rThree ∨ old.util ≠ q.newConfig.util
          then { r with irMod := SCALAR_9 } else r) b d hd
        by_cases e : b = a
        · subst e; exact ⟨_, x, upd_same .., hx⟩
        · exact ⟨c, x, by simp [upd_ne e, hc], hx⟩
      · intro b x hx
        by_cases e : b = a
        · subst e; exact ⟨_, upd_same ..⟩
        · simp only [upd_ne e] at hx ⊢
          exact cfg.data b x hx
      · intro b c hb
        by_cases e : b = a
        · subst e
          rw [h1] at hb; cases hb
          exact ⟨_, upd_same .., rfl, h5.symm⟩
        · exact ⟨c, by simp only [upd_ne e]; exact hb, rfl, rfl⟩
    · have hnotin : a ∉ S.ps.resList := by
        intro hm
        obtain ⟨c, _, hc, _⟩ := cfg.list a hm
        rw [h1] at hc; simp at hc
      refine ⟨⟨?_, ?_, ?_, ?_, ?_, hvalid _, hqueued, cfg.rate⟩,
        ⟨⟨[a], rfl⟩, ?_, fun i hi => ⟨i, hi, rfl, rfl⟩, upd_data⟩⟩
      · simp only
        rw [List.nodup_append]
        refine ⟨cfg.nodup, by simp, ?_⟩
        intro x hx y hy
        simp only [List.mem_singleton] at hy
        subst hy
        intro e; subst e; exact hnotin hx
      · have := cfg.len
        simp only [List.length_append, List.length_singleton]
        omega
      · intro b c hb
        simp only [upd_apply] at hb
        split at hb
        · rename_i e; subst e; cases hb; simp
        · have hi := cfg.idx b c hb
          rw [List.getElem?_append_left]
          · exact hi
          · rw [List.getElem?_eq_some_iff] at hi
            exact hi.1
      · intro b hb
        by_cases e : b = a
        · subst e; exact ⟨_, _, upd_same .., upd_same ..⟩
        · simp only [List.mem_append, List.mem_singleton, e, or_false] at hb
          obtain ⟨c, d, hc, hd⟩ := cfg.list b hb
          exact ⟨c, d, by simp only [upd_ne e]; exact hc, by simp only [upd_ne e]; exact hd⟩
      · intro b x hx
        by_cases e : b = a
        · subst e; exact ⟨_, upd_same ..⟩
        · simp only [upd_ne e] at hx ⊢
          exact cfg.data b x hx
      · intro b c hb
        have e : b ≠ a := by intro e; subst e; rw [h1] at hb; simp at hb
        exact ⟨c, by simp only [upd_ne e]; exact hb, rfl, rfl⟩
  | poolEmis V' l h =>
    unfold setPoolEmissions at h
    simp only [bind_ok, Prod.exists, require_ok, pure_ok] at h
    obtain ⟨_, _, _, _, _, rfl⟩ := h
    exact ⟨⟨cfg.nodup, cfg.len, cfg.idx, cfg.list, cfg.data, cfg.valid, cfg.queued, cfg.rate⟩, .of_same rfl rfl rfl fun _ d h => ⟨d, h⟩⟩
  | writeOff f h =>
    exact ⟨cfg.same ⟨rfl, rfl, rfl, rfl, rfl, rfl, rfl, rfl, rfl⟩, .of_same rfl rfl rfl fun _ d h => ⟨d, h⟩⟩
  | gain vb' h => exact ⟨cfg, .refl _⟩

theorem micros_cfg {now : Nat} {U : Address → Prop} {S S' : VS} (h : PMicros now U S S')
    (cfg : CfgOk S.ps) : CfgOk S'.ps ∧ CfgExt S.ps S'.ps := by
  induction h with
  | refl => exact ⟨cfg, .refl _⟩
  | tail _ hs ih =>
    obtain ⟨h1, h2⟩ := ih
    obtain ⟨h3, h4⟩ := micro_cfg hs h1
    exact ⟨h3, h2.trans h4⟩

end Pool
end Blend
