import Verif.Lemmas.LiveOrder
/-
  Which errors the loops over the positions of an account can run into (C60, C61).
-/

namespace Blend
namespace Pool
open Spec

variable {E : Err → Bool} {now : Nat} {U : Address → Prop}

/-- the invariants of a pool in the middle of an operation -/
structure VOk (now : Nat) (S : VS) : Prop where
  cfg : CfgOk S.ps
  einv : EInv now S
  claimed : ∀ id, 0 ≤ S.ps.claimed id

theorem VOk.micro {S S' : VS} (h : VOk now S) (m : PMicro now U S S') : VOk now S' :=
  ⟨(micro_cfg m h.cfg).1, micro_emis h.cfg m h.einv, fun id => le_trans (h.claimed id) (micro_claimed h.cfg h.einv m id)⟩

theorem VOk.micros {S S' : VS} (h : VOk now S) (m : PMicros now U S S') : VOk now S' := by
  induction m with
  | refl => exact h
  | tail _ h2 ih => exact ih.micro h2

theorem VOk.of {w : World} {p : Address} (hr : Reachable w) (hp : w.poolAddr p = true) : VOk w.time (.of w p) :=
  ⟨hr.base.cfg p, hr.einv hp, hr.claimed_nonneg hp⟩

/-- loading a reserve in the middle of an operation -/
theorem load_ctx {ps : PoolState} {cache : Cache} {us : List User} {vb pb pd : Address → Int} {a : Address} {c : ReserveConfig} {d : ReserveData} {st : Bool}
    (hov : E .overflow = false) (ok : CacheOk ps now cache) (v : VOk now ⟨overlay ps cache us, vb, pb, pd⟩)
    (hc : ps.resConfig a = some c) (hd : overlayData ps cache a = some d) : NoErr E (cache.loadReserve ps now a st) := by
  have ov : ∀ {P : Prop}, E .overflow = true → P := fun h => by rw [hov] at h; cases h
  have cur := CacheCur.of ok us
  obtain ⟨i, hi, hic⟩ := ok.config
  have hcv : (overlay ps cache us).resConfig a = some c := hc
  have hdv : (overlay ps cache us).resData a = some d := hd
  have hok := v.einv.inv.dataOk v.cfg hdv
  have hac : NoErr E (accrue c i.config.bstopRate now d) :=
    accrue_live (v.cfg.valid a c hcv) hok (v.einv.inv.rates a d hdv).2.2.2.2 (v.cfg.rate i hi) ov
  unfold Cache.loadReserve
  dsimp only
  have key : ∀ x : Cache, (if st = true ∧ a ∉ cache.toStore then { cache with toStore := cache.toStore ++ [a] } else cache) = x →
      x.reserves = cache.reserves ∧ x.config = cache.config := by
    rintro x rfl; split <;> exact ⟨rfl, rfl⟩
  obtain ⟨k1, k2⟩ := key _ rfl
  rw [k1, k2]
  cases hg : cache.reserves.get a with
  | some r => exact NoErr.pure
  | none =>
    have hd0 : ps.resData a = some d := by
      have := hd
      unfold overlayData at this
      rw [hg] at this
      exact this
    refine NoErr.bind ?_ fun _ _ => NoErr.pure
    unfold Reserve.load
    refine NoErr.bind (NoErr.unwrap hc) fun c' hc' => ?_
    rw [unwrap_ok, hc] at hc'; cases hc'
    refine NoErr.bind (NoErr.unwrap hd0) fun d' hd' => ?_
    rw [unwrap_ok, hd0] at hd'; cases hd'
    refine NoErr.bind ?_ fun _ _ => NoErr.bind ?_ fun _ _ => NoErr.pure
    · unfold pow10
      exact NoErr.chk ov
    · rw [← hic]; exact hac

/-- the emission update of a share operation -/
theorem emis_ctx {c : UCtx} {us : List User} {vb pb pd : Address → Int} {a : Address} {r : Reserve} {cache : Cache}
    (hov : E .overflow = false) (v : VOk now (c.vs us vb pb pd)) (hl : Loaded c.ps now c.cache a r cache) (k : Kind) :
    NoErr E (updateEmissions c.ps now (k.id r.index) (k.supply r.data) r.scalar c.user.addr (k.emisBal c.user.pos r.index) false) := by
  refine noErr_emis_overlay (cache := c.cache) (us := us ++ [c.user]) ?_
  obtain ⟨cf, d, i, hc, hd, hi, hic, hac⟩ := hl.data
  obtain ⟨c', hc', e1, e2, _⟩ := hl.rm.cfg
  rw [hc] at hc'; cases hc'
  have hd' : (c.vs us vb pb pd).ps.resData a = some d := hd
  have hcv : (c.vs us vb pb pd).ps.resConfig a = some cf := hc
  have hidx := v.cfg.idx a cf hcv
  have hdiv : k.id cf.index / 2 = cf.index := by cases k <;> simp only [Kind.id] <;> omega
  have h := emissions_live (claim := false) (E := E) (S := c.vs us vb pb pd) (id := k.id cf.index) (a := a) (c := cf) (u := c.user.addr)
    v.einv (v.claimed _) (by rw [hdiv]; exact hidx) hcv (v.cfg.valid a cf hcv).decimals (fun hE => by rw [hov] at hE; cases hE)
  have e3 : k.supply r.data = etot (c.vs us vb pb pd).ps (k.id cf.index) := by
    rw [← v.einv.inv.supply_eq hcv hd' k]
    have := accrue_supplies hac
    cases k <;> simp only [Kind.supply] <;> omega
  have e4 := emisBal_eq (c.vs us vb pb pd).ps k cf.index c.user.addr
  have e5 : getPositions (c.vs us vb pb pd).ps c.user.addr = c.user.pos := getPositions_overlay_last _ _ us _
  rw [e5] at e4
  rw [e1, e2, e3, e4]
  exact h

/-- a share operation fails only for these reasons -/
def LiveOp (f : ShareOp) (k : Kind) (add : Bool) : Prop :=
  ∀ {E : Err → Bool} {ps now u r amt}, E .overflow = false → amt ≠ 0 → (add = false → amt ≤ (k.map u.pos).bal r.index) →
    NoErr E (updateEmissions ps now (k.id r.index) (k.supply r.data) r.scalar u.addr (k.emisBal u.pos r.index) false) →
    NoErr E (f ps now u r amt)

theorem liveAddLiab : LiveOp addLiabilities .liab true := by
  intro E ps now u r amt hov h0 _ hem
  have ov : ∀ {P : Prop}, E .overflow = true → P := fun h => by rw [hov] at h; cases h
  unfold addLiabilities updateDEmis
  exact NoErr.bind (NoErr.req h0) fun _ _ => NoErr.bind (NoErr.bind hem fun _ _ => NoErr.pure) fun _ _ =>
    NoErr.bind (NoErr.chk ov) fun _ _ => NoErr.bind (NoErr.chk ov) fun _ _ => NoErr.pure

theorem liveRemoveLiab : LiveOp removeLiabilities .liab false := by
  intro E ps now u r amt hov h0 hle hem
  have ov : ∀ {P : Prop}, E .overflow = true → P := fun h => by rw [hov] at h; cases h
  have hle := hle rfl
  simp only [Kind.map] at hle
  unfold removeLiabilities updateDEmis requireNonneg
  refine NoErr.bind (NoErr.req h0) fun _ _ => NoErr.bind (NoErr.bind hem fun _ _ => NoErr.pure) fun _ _ =>
    NoErr.bind (NoErr.chk ov) fun nb hnb => NoErr.bind (NoErr.req ?_) fun _ _ => NoErr.bind (NoErr.chk ov) fun _ _ => NoErr.pure
  rw [chk_ok] at hnb
  omega

theorem liveAddColl : LiveOp addCollateral .coll true := by
  intro E ps now u r amt hov h0 _ hem
  have ov : ∀ {P : Prop}, E .overflow = true → P := fun h => by rw [hov] at h; cases h
  unfold addCollateral updateBEmis User.totalSupply
  refine NoErr.bind (NoErr.req h0) fun _ _ => NoErr.bind (NoErr.chk ov) fun tot ht => NoErr.bind (NoErr.bind ?_ fun _ _ => NoErr.pure) fun _ _ =>
    NoErr.bind (NoErr.chk ov) fun _ _ => NoErr.bind (NoErr.chk ov) fun _ _ => NoErr.pure
  rw [chk_ok] at ht
  rw [ht.2]
  exact hem

theorem liveRemoveColl : LiveOp removeCollateral .coll false := by
  intro E ps now u r amt hov h0 hle hem
  have ov : ∀ {P : Prop}, E .overflow = true → P := fun h => by rw [hov] at h; cases h
  have hle := hle rfl
  simp only [Kind.map] at hle
  unfold removeCollateral updateBEmis User.totalSupply requireNonneg
  refine NoErr.bind (NoErr.req h0) fun _ _ => NoErr.bind (NoErr.chk ov) fun tot ht => NoErr.bind (NoErr.bind ?_ fun _ _ => NoErr.pure) fun _ _ =>
    NoErr.bind (NoErr.chk ov) fun nb hnb => NoErr.bind (NoErr.req ?_) fun _ _ => NoErr.bind (NoErr.chk ov) fun _ _ => NoErr.pure
  · rw [chk_ok] at ht
    rw [ht.2]
    exact hem
  · rw [chk_ok] at hnb
    omega

/-- the reserve exists in the middle of an operation -/
theorem VOk.data {ps : PoolState} {cache : Cache} {us : List User} {vb pb pd : Address → Int} (v : VOk now ⟨overlay ps cache us, vb, pb, pd⟩)
    {a : Address} {c : ReserveConfig} (hc : ps.resConfig a = some c) : ∃ d, overlayData ps cache a = some d := by
  have hcv : (overlay ps cache us).resConfig a = some c := hc
  have hidx := v.cfg.idx a c hcv
  obtain ⟨c', d, _, hd⟩ := v.cfg.list a (List.mem_of_getElem? hidx)
  exact ⟨d, hd⟩

/-- one share operation -/
theorem apply_live {f : ShareOp} {k : Kind} {add : Bool} {c : UCtx} {us : List User} {vb pb pd : Address → Int} {a : Address} {amt : Int} {cf : ReserveConfig}
    (hov : E .overflow = false) (hlv : LiveOp f k add) (ok : CacheOk c.ps now c.cache) (v : VOk now (c.vs us vb pb pd))
    (hc : c.ps.resConfig a = some cf) (h0 : amt ≠ 0) (hle : add = false → amt ≤ (k.map c.user.pos).bal cf.index) :
    NoErr E (c.apply now f a amt) := by
  obtain ⟨d, hd⟩ := v.data hc
  unfold UCtx.apply
  refine NoErr.bind (load_ctx hov ok v hc hd) fun rc hrc => ?_
  obtain ⟨r, cache1⟩ := rc
  have hl := loadReserve_true ok hrc
  obtain ⟨c', hc', e1, _⟩ := hl.rm.cfg
  rw [hc] at hc'; cases hc'
  exact NoErr.bind (hlv hov h0 (by rw [e1]; exact hle) (emis_ctx hov v hl k)) fun _ _ => NoErr.pure

/-- what one share operation does to the positions in flight -/
theorem apply_pos {f : ShareOp} {k : Kind} {add : Bool} {c c' : UCtx} {a : Address} {amt : Int} {cf : ReserveConfig} (hop : IsShareOp f k add)
    (ok : CacheOk c.ps now c.cache) (hc : c.ps.resConfig a = some cf) (h : c.apply now f a amt = .ok c') :
    (∀ k', k' ≠ k → k'.map c'.user.pos = k'.map c.user.pos) ∧
    ∀ i, (k.map c'.user.pos).bal i = (k.map c.user.pos).bal i + (if i = cf.index then (if add then amt else -amt) else 0) := by
  unfold UCtx.apply at h
  simp only [bind_ok, Prod.exists, pure_ok] at h
  obtain ⟨r, cache1, hl, ps', u', r', hf, rfl⟩ := h
  have hld := loadReserve_true ok hl
  obtain ⟨c', hc', e1, _⟩ := hld.rm.cfg
  rw [hc] at hc'; cases hc'
  obtain ⟨_, _, _, _, hpos⟩ := hop hf
  cases add
  · simp only [Bool.false_eq_true, if_false] at hpos ⊢
    rw [hpos.2]
    refine ⟨fun k' hk => by cases k <;> cases k' <;> first | rfl | exact absurd rfl hk, fun i => ?_⟩
    have : k.map (k.put c.user.pos (setBal (k.map c.user.pos) r.index ((k.map c.user.pos).bal r.index - amt))) =
        setBal (k.map c.user.pos) r.index ((k.map c.user.pos).bal r.index - amt) := by cases k <;> rfl
    rw [this, e1]
    unfold setBal
    split
    · rename_i hz
      unfold SMap.bal
      rw [SMap.get_del]
      split
      · rename_i hi
        rw [hi]
        unfold SMap.bal at hz
        simp only [Option.getD_none]
        omega
      · omega
    · unfold SMap.bal
      rw [SMap.get_set]
      split
      · rename_i hi
        rw [hi]
        simp only [Option.getD_some]
        omega
      · omega
  · simp only [if_true] at hpos ⊢
    rw [hpos]
    refine ⟨fun k' hk => by cases k <;> cases k' <;> first | rfl | exact absurd rfl hk, fun i => ?_⟩
    have : k.map (k.put c.user.pos ((k.map c.user.pos).set r.index ((k.map c.user.pos).bal r.index + amt))) =
        (k.map c.user.pos).set r.index ((k.map c.user.pos).bal r.index + amt) := by cases k <;> rfl
    rw [this, e1]
    unfold SMap.bal
    rw [SMap.get_set]
    split
    · rename_i hi
      rw [hi]
      simp only [Option.getD_some]
    · omega

/-- a loop of share operations -/
theorem fold_live {f : ShareOp} {k : Kind} {add : Bool} {us : List User} (hov : E .overflow = false) (hop : IsShareOp f k add) (hlv : LiveOp f k add) :
    ∀ (l : List (Nat × Int)) (c : UCtx) (vb pb pd : Address → Int), CacheOk c.ps now c.cache → VOk now (c.vs us vb pb pd) →
    l.Pairwise (fun a b => a.1 < b.1) → (∀ kv ∈ l, 0 < kv.2) →
    (∀ kv ∈ l, ∃ cf, c.ps.resConfig kv.1 = some cf ∧ (add = false → kv.2 ≤ (k.map c.user.pos).bal cf.index)) →
    NoErr E (l.foldlM (fun c kv => c.apply now f kv.1 kv.2) c) := by
  intro l
  induction l with
  | nil => intro c _ _ _ _ _ _ _ _; exact NoErr.pure
  | cons kv l ih =>
    intro c vb pb pd ok v hs hpos hres
    rw [List.foldlM_cons]
    obtain ⟨h1, h2⟩ := List.pairwise_cons.1 hs
    obtain ⟨cf, hcf, hle⟩ := hres kv (by simp)
    have hkv := hpos kv (by simp)
    refine NoErr.bind (apply_live hov hlv ok v hcf (by omega) hle) fun c1 hc1 => ?_
    have s1 := ctx_transit (U := fun _ => True) (us := us) (vb := vb) (pb := pb) (pd := pd) hop ok trivial (fun _ => hkv.le) hc1
    refine ih c1 _ _ _ s1.cacheOk (v.micros s1.micros) h2 (fun x hx => hpos x (by simp [hx])) fun x hx => ?_
    obtain ⟨cx, hcx, hlx⟩ := hres x (by simp [hx])
    refine ⟨cx, by rw [s1.same.resConfig]; exact hcx, fun ha => ?_⟩
    rw [(apply_pos hop ok hcf hc1).2]
    have hne : cx.index ≠ cf.index := by
      intro e
      exact Nat.ne_of_gt (h1 x hx) (v.cfg.index_inj (a := x.1) (b := kv.1) (c := cx) (d := cf) hcx hcf e)
    rw [if_neg hne]
    have := hlx ha
    omega

/-- a loop of share operations leaves the other kinds of shares alone -/
theorem fold_pos {f : ShareOp} {k : Kind} {add : Bool} (hop : IsShareOp f k add) : ∀ (l : List (Nat × Int)) (c c' : UCtx),
    CacheOk c.ps now c.cache → (∀ kv ∈ l, 0 < kv.2) → (∀ kv ∈ l, ∃ cf, c.ps.resConfig kv.1 = some cf) →
    l.foldlM (fun c kv => c.apply now f kv.1 kv.2) c = .ok c' → ∀ k', k' ≠ k → k'.map c'.user.pos = k'.map c.user.pos := by
  intro l
  induction l with
  | nil => intro c c' _ _ _ h; rw [foldlM_nil] at h; subst h; exact fun _ _ => rfl
  | cons kv l ih =>
    intro c c' ok hpos hres h
    rw [foldlM_cons] at h
    obtain ⟨c1, h1, h2⟩ := h
    obtain ⟨cf, hcf⟩ := hres kv (by simp)
    have s1 := ctx_transit (U := fun _ => True) (us := []) (vb := fun _ => 0) (pb := fun _ => 0) (pd := fun _ => 0) hop ok trivial
      (fun _ => (hpos kv (by simp)).le) h1
    intro k' hk
    rw [ih c1 c' s1.cacheOk (fun x hx => hpos x (by simp [hx])) (fun x hx => by
      rw [s1.same.resConfig]; exact hres x (by simp [hx])) h2 k' hk]
    exact (apply_pos hop ok hcf h1).1 k' hk

theorem AllPos.pos {m : SMap Int} (h : AllPos m) : ∀ kv ∈ m.toList, 0 < kv.2 := fun kv hkv => h kv.1 kv.2 (SMap.mem_toList.1 hkv)

/-- every entry of `m` is a reserve -/
def AllRes (ps : PoolState) (m : SMap Int) : Prop := ∀ a v, m.get a = some v → ∃ cf, ps.resConfig a = some cf

theorem rm_live {c : UCtx} {us : List User} {vb pb pd : Address → Int} {coll liab : SMap Int} (hov : E .overflow = false)
    (ok : CacheOk c.ps now c.cache) (v : VOk now (c.vs us vb pb pd)) (hc : AllPos coll) (hl : AllPos liab)
    (hcr : ∀ a x, coll.get a = some x → ∃ cf, c.ps.resConfig a = some cf ∧ x ≤ c.user.pos.collateral.bal cf.index)
    (hlr : ∀ a x, liab.get a = some x → ∃ cf, c.ps.resConfig a = some cf ∧ x ≤ c.user.pos.liabilities.bal cf.index) :
    NoErr E (rmPositions now c coll liab) := by
  unfold rmPositions
  refine NoErr.bind (fold_live hov isRemoveColl liveRemoveColl _ c vb pb pd ok v coll.sorted hc.pos fun kv hkv => ?_) fun c1 hc1 => ?_
  · obtain ⟨cf, h1, h2⟩ := hcr kv.1 kv.2 (SMap.mem_toList.1 hkv)
    exact ⟨cf, h1, fun _ => h2⟩
  · have s1 := ctx_fold (U := fun _ => True) (us := us) isRemoveColl _ _ _ vb pb pd ok trivial (by simp) hc1
    have hp := fold_pos isRemoveColl _ c c1 ok hc.pos (fun kv hkv => (hcr kv.1 kv.2 (SMap.mem_toList.1 hkv)).imp fun _ h => h.1) hc1 .liab (by decide)
    simp only [Kind.map] at hp
    refine fold_live hov isRemoveLiab liveRemoveLiab _ c1 vb _ _ s1.cacheOk (v.micros s1.micros) liab.sorted hl.pos fun kv hkv => ?_
    obtain ⟨cf, h1, h2⟩ := hlr kv.1 kv.2 (SMap.mem_toList.1 hkv)
    refine ⟨cf, by rw [s1.same.resConfig]; exact h1, fun _ => ?_⟩
    simp only [Kind.map]
    rw [hp]; exact h2

theorem add_live {c : UCtx} {us : List User} {vb pb pd : Address → Int} {coll liab : SMap Int} (hov : E .overflow = false)
    (ok : CacheOk c.ps now c.cache) (v : VOk now (c.vs us vb pb pd)) (hc : AllPos coll) (hl : AllPos liab)
    (hcr : AllRes c.ps coll) (hlr : AllRes c.ps liab) :
    NoErr E (addPositions now c coll liab) := by
  unfold addPositions
  refine NoErr.bind (fold_live hov isAddColl liveAddColl _ c vb pb pd ok v coll.sorted hc.pos fun kv hkv => ?_) fun c1 hc1 => ?_
  · obtain ⟨cf, h1⟩ := hcr kv.1 kv.2 (SMap.mem_toList.1 hkv)
    exact ⟨cf, h1, by simp⟩
  · have s1 := ctx_fold (U := fun _ => True) (us := us) isAddColl _ _ _ vb pb pd ok trivial (fun _ => hc.list) hc1
    refine fold_live hov isAddLiab liveAddLiab _ c1 vb _ _ s1.cacheOk (v.micros s1.micros) liab.sorted hl.pos fun kv hkv => ?_
    obtain ⟨cf, h1⟩ := hlr kv.1 kv.2 (SMap.mem_toList.1 hkv)
    exact ⟨cf, by rw [s1.same.resConfig]; exact h1, by simp⟩

end Pool
end Blend
