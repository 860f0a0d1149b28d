import Verif.Spec.Liquidation
import Verif.Lemmas.LiveLiq
import Verif.Lemmas.LiveCtx
/-
  Creating a liquidation auction of any size (C72).
-/

namespace Blend
namespace Pool
open Spec

variable {E : Err → Bool} {w : World} {p u : Address}

theorem floor_ediv {x y : Int} (h : 0 < y) : IsFloor (x / y) x y :=
  ⟨Int.ediv_mul_le x (ne_of_gt h), Int.lt_ediv_add_one_mul_self x h⟩

theorem liqAmounts_entries {resList : List Address} {pct scalar : Int} (hsc : 0 < scalar) (hnd : resList.Nodup) {pos m : SMap Int}
    (h : liqAmounts resList pct scalar pos.toList .empty = .ok m) :
    (∀ i x, pos.get i = some x → ∃ a v, resList[i]? = some a ∧ m.get a = some v ∧ IsCeil v (x * pct) scalar) ∧
    (∀ a v, m.get a = some v → ∃ i x, resList[i]? = some a ∧ pos.get i = some x ∧ IsCeil v (x * pct) scalar) := by
  obtain ⟨h1, h2⟩ := liqAmounts_ok hsc hnd _ _ _ pos.sorted h
  refine ⟨fun i x hx => h1 i x (SMap.mem_toList.2 hx), fun a v hv => ?_⟩
  by_contra hc
  have := h2 a fun i x hx hi => ?_
  · rw [this] at hv; simp [SMap.get_empty] at hv
  · obtain ⟨b, v', hb, hv', hc'⟩ := h1 i x hx
    rw [hi] at hb; cases hb
    rw [hv] at hv'; cases hv'
    exact hc ⟨i, x, hi, SMap.mem_toList.1 hx, hc'⟩

/-- the parts of debt and collateral in a liquidation are between nothing and everything -/
theorem liqShare_range {S C Cr L Lr pct wd share : Int} {n : Nat} (hS : 1 ≤ S) (hCr : C ≤ Cr) (hC : 0 ≤ C) (hLr : Lr ≤ L)
    (hLr0 : 0 ≤ Lr) (hn : n ≤ 100) (h : LiquidationShare S C Cr L Lr n pct wd share) :
    0 < Cr ∧ 0 < Lr ∧ 0 ≤ pct ∧ pct ≤ S ∧ 0 ≤ wd ∧ 0 ≤ share ∧ share ≤ S := by
  obtain ⟨hp, cf, lf, ratio, half, x, sh, h1, h2, h3, h4, h5, h6, h7, h8⟩ := h
  have c0 : 0 < Cr := by
    by_contra hlt
    have e : Cr = 0 := by omega
    have := h1.1; have := h1.2
    rw [e] at *
    omega
  have l0 : 0 < Lr := by
    by_contra hlt
    have e : Lr = 0 := by omega
    have := h2.1; have := h2.2
    rw [e] at *
    omega
  have p0 : 0 ≤ pct := by
    have := hp.2
    have : (0 : Int) ≤ (n : Int) * S := mul_nonneg (by positivity) (by omega)
    omega
  have p1 : pct ≤ S := by
    have := hp.1
    have : (n : Int) * S ≤ 100 * S := mul_le_mul_of_nonneg_right (by omega) (by omega)
    omega
  have cf1 : cf ≤ S := by
    by_contra hlt
    have := h1.1
    have e1 : C * S ≤ Cr * S := mul_le_mul_of_nonneg_right hCr (by omega)
    nlinarith
  have lf1 : S ≤ lf := by
    have := h2.2
    by_contra hlt
    have e1 : Lr * S ≤ L * S := mul_le_mul_of_nonneg_right hLr (by omega)
    nlinarith
  have r1 : ratio ≤ S := by
    by_contra hlt
    have k0 : (ratio - 1) * lf < cf * S := h3.1
    have k1 : S * lf ≤ (ratio - 1) * lf := mul_le_mul_of_nonneg_right (by omega) (by omega)
    have k2 : cf * S ≤ lf * S := mul_le_mul_of_nonneg_right (by omega) (by omega)
    rw [Int.mul_comm lf] at k2
    omega
  have hh : 0 ≤ half := IsCeil.nonneg h4 (by omega) (mul_nonneg (by omega) (by omega))
  have x0 : 0 ≤ x := IsFloor.nonneg h5 (by omega) (mul_nonneg (by omega) p0)
  have w0 : 0 ≤ wd := IsFloor.nonneg h6 (by omega) (mul_nonneg x0 (by omega))
  have s0 : 0 ≤ sh := IsCeil.nonneg h7 c0 (mul_nonneg w0 (by omega))
  refine ⟨c0, l0, p0, p1, w0, ?_, ?_⟩ <;> rw [h8] <;> omega

theorem liqShare_unique' {S C Cr L Lr pct wd share pct' wd' share' : Int} {n : Nat} (hS : 1 ≤ S) (hCr : C ≤ Cr) (hC : 0 ≤ C) (hLr : Lr ≤ L)
    (hLr0 : 0 ≤ Lr) (hn : n ≤ 100) (h : LiquidationShare S C Cr L Lr n pct wd share) (h' : LiquidationShare S C Cr L Lr n pct' wd' share') :
    pct = pct' ∧ wd = wd' ∧ share = share' := by
  obtain ⟨c0, l0, p0, p1, _⟩ := liqShare_range hS hCr hC hLr hLr0 hn h
  obtain ⟨hp, cf, lf, ratio, half, x, sh, h1, h2, h3, h4, h5, h6, h7, h8⟩ := h
  obtain ⟨hp', cf', lf', ratio', half', x', sh', h1', h2', h3', h4', h5', h6', h7', h8'⟩ := h'
  have e0 : pct = pct' := floor_unique hp hp' (by decide)
  subst e0
  have e1 : cf = cf' := floor_unique h1 h1' c0
  have e2 : lf = lf' := floor_unique h2 h2' l0
  subst e1 e2
  have lf1 : S ≤ lf := by
    have := h2.2
    by_contra hlt
    have e1 : Lr * S ≤ L * S := mul_le_mul_of_nonneg_right hLr (by omega)
    nlinarith
  have e3 : ratio = ratio' := ceil_unique h3 h3' (by omega)
  subst e3
  have e4 : half = half' := ceil_unique h4 h4' (by omega)
  have e5 : x = x' := floor_unique h5 h5' (by omega)
  subst e4 e5
  have e6 : wd = wd' := floor_unique h6 h6' (by omega)
  subst e6
  have e7 : sh = sh' := ceil_unique h7 h7' c0
  exact ⟨rfl, rfl, by rw [h8, h8', e7]⟩

theorem liqShare_unique {S C Cr L Lr pct wd share pct' wd' share' : Int} {n : Nat} (hS : 1 ≤ S) (hCr : C ≤ Cr) (hC : 0 ≤ C) (hLr : Lr ≤ L)
    (hLr0 : 0 ≤ Lr) (hn : n ≤ 100) (h : LiquidationShare S C Cr L Lr n pct wd share) (h' : LiquidationShare S C Cr L Lr n pct' wd' share') :
    pct = pct' ∧ share = share' := by
  obtain ⟨a, _, b⟩ := liqShare_unique' hS hCr hC hLr hLr0 hn h h'
  exact ⟨a, b⟩

theorem fold_nonzero {now : Nat} {f : ShareOp} {k : Kind} {add : Bool} (hop : IsShareOp f k add) : ∀ (l : List (Nat × Int)) (c c' : UCtx),
    l.foldlM (fun c kv => c.apply now f kv.1 kv.2) c = .ok c' → ∀ kv ∈ l, kv.2 ≠ 0 := by
  intro l
  induction l with
  | nil => intro c c' _ kv h; cases h
  | cons kv l ih =>
    intro c c' h
    rw [foldlM_cons] at h
    obtain ⟨c1, h1, h2⟩ := h
    intro x hx
    rcases List.mem_cons.1 hx with rfl | hx
    · unfold UCtx.apply at h1
      simp only [bind_ok, Prod.exists] at h1
      obtain ⟨r, ca, _, ps', u', r', hf, _⟩ := h1
      exact (hop hf).1
    · exact ih c1 c' h2 x hx

theorem rm_nonzero {now : Nat} {c c' : UCtx} {coll liab : SMap Int} (h : rmPositions now c coll liab = .ok c') :
    (∀ a v, coll.get a = some v → v ≠ 0) ∧ (∀ a v, liab.get a = some v → v ≠ 0) := by
  unfold rmPositions at h
  simp only [bind_ok] at h
  obtain ⟨c1, h1, h2⟩ := h
  exact ⟨fun a v hv => fold_nonzero isRemoveColl _ _ _ h1 (a, v) (SMap.mem_toList.2 hv),
    fun a v hv => fold_nonzero isRemoveLiab _ _ _ h2 (a, v) (SMap.mem_toList.2 hv)⟩

/-- the quote fails only because a number leaves its range -/
theorem liqQuote_any (hov : E .overflow = false) {pd : PositionData} {percent : Nat} (hS : 1 ≤ pd.scalar) (hCr : 0 < pd.collateralRaw) (hLr : 0 < pd.liabilityRaw)
    (hL : pd.liabilityRaw ≤ pd.liabilityBase) : NoErr E (liqQuote pd percent) := by
  have ov : ∀ {P : Prop}, E .overflow = true → P := fun h => by rw [hov] at h; cases h
  unfold liqQuote fixedDivFloor fixedDivCeil fixedMulFloor
  dsimp only
  refine NoErr.bind (NoErr.chk ov) fun m _ => NoErr.bind (NoErr.mulDivFloor (by omega) ov) fun cf _ =>
    NoErr.bind (NoErr.mulDivFloor (by omega) ov) fun lf hlf => NoErr.bind (NoErr.mulDivCeil ?_ ov) fun ratio _ => NoErr.bind (NoErr.chk ov) fun dif _ =>
    NoErr.bind (NoErr.chk ov) fun two htwo => NoErr.bind (NoErr.mulDivCeil ?_ ov) fun half _ => NoErr.bind (NoErr.chk ov) fun inc _ =>
    NoErr.bind (NoErr.mulDivFloor (by omega) ov) fun x _ => NoErr.bind (NoErr.mulDivFloor (by omega) ov) fun wd _ =>
    NoErr.bind (NoErr.mulDivCeil (by omega) ov) fun sh _ => NoErr.pure
  · have := (mulDivFloor_spec hlf (by omega)).2
    by_contra hlt
    have h1 : (lf + 1) * pd.liabilityRaw ≤ pd.scalar * pd.liabilityRaw := mul_le_mul_of_nonneg_right (by omega) (by omega)
    have h2 : pd.liabilityRaw * pd.scalar ≤ pd.liabilityBase * pd.scalar := mul_le_mul_of_nonneg_right hL (by omega)
    rw [Int.mul_comm pd.scalar] at h1
    linarith
  · rw [chk_ok] at htwo
    omega

/-- the raw values exist if the risk adjusted ones do -/
theorem values_of {V : PoolState} {pos : Positions} {C L : Int} (hC : CollateralValue w V pos C) (hL : LiabilityValue w V pos L) :
    ∃ Cr Lr, Values w V pos C Cr L Lr := by
  obtain ⟨f, hf, eC⟩ := hC
  obtain ⟨g, hg, eL⟩ := hL
  have e1 : ∀ i, ∃ v, i < V.resList.length → RawCollItem w V i (pos.collateral.bal i) v := by
    intro i
    by_cases hi : i < V.resList.length
    · rcases hf i hi with ⟨h, _⟩ | ⟨a, c, d, x, n, e, h1, h2, h3, h4, h5, _⟩
      · exact ⟨0, fun _ => .inl ⟨h, rfl⟩⟩
      · exact ⟨x * n / 10 ^ c.decimals, fun _ => .inr ⟨a, c, d, x, n, h1, h2, h3, h4, h5, floor_ediv (by positivity)⟩⟩
    · exact ⟨0, fun h => absurd h hi⟩
  have e2 : ∀ i, ∃ v, i < V.resList.length → RawLiabItem w V i (pos.liabilities.bal i) v := by
    intro i
    by_cases hi : i < V.resList.length
    · rcases hg i hi with ⟨h, _⟩ | ⟨a, c, d, x, n, e, h1, h2, h3, h4, h5, _⟩
      · exact ⟨0, fun _ => .inl ⟨h, rfl⟩⟩
      · have hpos : (0 : Int) < 10 ^ c.decimals := by positivity
        refine ⟨-(-(x * n) / 10 ^ c.decimals), fun _ => .inr ⟨a, c, d, x, n, h1, h2, h3, h4, h5, ?_⟩⟩
        have k1 := Int.ediv_mul_le (-(x * n)) (ne_of_gt hpos)
        have k2 := Int.lt_ediv_add_one_mul_self (-(x * n)) hpos
        constructor <;> nlinarith
    · exact ⟨0, fun h => absurd h hi⟩
  choose f' hf' using e1
  choose g' hg' using e2
  exact ⟨_, _, ⟨f, hf, eC⟩, ⟨f', hf', rfl⟩, ⟨g, hg, eL⟩, ⟨g', hg', rfl⟩⟩

theorem band_iff {S C L k k' : Int} (h1 : IsFloor k (S * 10300000) ONE7) (h2 : IsCeil k' (S * 11500000) ONE7) :
    HealthBand S C L ↔ 0 < L ∧ k * L ≤ C * S ∧ C * S < (k' + 1) * L := by
  have e1 : IsFloor k (S * 103) 100 := by unfold IsFloor ONE7 at *; omega
  have e2 : IsCeil k' (S * 115) 100 := by unfold IsCeil ONE7 at *; omega
  constructor
  · rintro ⟨h0, lo, hi, a1, a2, a3, a4⟩
    rw [floor_unique a1 e1 (by decide)] at a3
    rw [ceil_unique a2 e2 (by decide)] at a4
    exact ⟨h0, a3, a4⟩
  · rintro ⟨h0, a3, a4⟩
    exact ⟨h0, k, k', e1, e2, a3, a4⟩

theorem hf_live (hov : E .overflow = false) {pd : PositionData} {n : Nat} (hs : pd.scalar = 10 ^ n) (hb : HealthBand (10 ^ n) pd.collateralBase pd.liabilityBase) :
    (NoErr E (pd.isHfOver 11500000) ∧ ∀ b, pd.isHfOver 11500000 = .ok b → b = false) ∧
    (NoErr E (pd.isHfUnder 10300000) ∧ ∀ b, pd.isHfUnder 10300000 = .ok b → b = false) := by
  have ov : ∀ {P : Prop}, E .overflow = true → P := fun h => by rw [hov] at h; cases h
  have hL := hb.1
  have h0 : pd.liabilityBase ≠ 0 := by omega
  unfold PositionData.isHfOver PositionData.isHfUnder PositionData.healthFactor fixedDivFloor fixedMulFloor fixedMulCeil
  rw [if_neg h0, if_neg h0]
  refine ⟨⟨?_, fun b h => ?_⟩, ?_, fun b h => ?_⟩
  · exact NoErr.bind (NoErr.mulDivCeil (by decide) ov) fun _ _ => NoErr.bind (NoErr.mulDivFloor (by omega) ov) fun _ _ => NoErr.pure
  · simp only [bind_ok, pure_ok] at h
    obtain ⟨k, hk, hf, hhf, rfl⟩ := h
    have e1 := ceil_spec hk (by decide)
    have e2 := mulDivFloor_spec hhf (by omega)
    rw [hs] at e1 e2
    obtain ⟨_, lo, hi, a1, a2, a3, a4⟩ := hb
    have e : hi = k := ceil_unique a2 (by unfold IsCeil at *; unfold SCALAR_7 at e1; omega) (by decide)
    subst e
    by_contra hc
    simp only [decide_eq_false_iff_not, not_not] at hc
    have := mul_le_mul_of_nonneg_right (by omega : hi + 1 ≤ hf) hL.le
    have := e2.1
    omega
  · exact NoErr.bind (NoErr.mulDivFloor (by decide) ov) fun _ _ => NoErr.bind (NoErr.mulDivFloor (by omega) ov) fun _ _ => NoErr.pure
  · simp only [bind_ok, pure_ok] at h
    obtain ⟨k, hk, hf, hhf, rfl⟩ := h
    have e1 := floor_spec hk (by decide)
    have e2 := mulDivFloor_spec hhf (by omega)
    rw [hs] at e1 e2
    obtain ⟨_, lo, hi, a1, a2, a3, a4⟩ := hb
    have e : lo = k := floor_unique a1 (by unfold IsFloor at *; unfold SCALAR_7 at e1; omega) (by decide)
    subst e
    by_contra hc
    simp only [decide_eq_false_iff_not, not_not] at hc
    have := mul_le_mul_of_nonneg_right (by omega : hf + 1 ≤ lo) hL.le
    have := e2.2
    linarith

/-- two caches that agree, but for reserves that one of them has not loaded yet -/
structure Sim (now : Nat) (c d : UCtx) : Prop where
  ps : c.ps = d.ps
  user : c.user = d.user
  config : c.cache.config = d.cache.config
  old : ∀ a r, d.cache.reserves.get a = some r → c.cache.reserves.get a = some r
  new : ∀ a r, c.cache.reserves.get a = some r → d.cache.reserves.get a = some r ∨
    (d.cache.reserves.get a = none ∧ Reserve.load c.ps c.cache.config.bstopRate now a = .ok r)

theorem load_same {ps ps' : PoolState} (h : SameConfig ps ps') (rate now : Nat) (a : Address) : Reserve.load ps' rate now a = Reserve.load ps rate now a := by
  unfold Reserve.load
  rw [h.resConfig, h.resData]

theorem loadReserve_eq (c : Cache) (ps : PoolState) (now : Nat) (a : Address) (st : Bool) : ∃ c', c'.config = c.config ∧ c'.reserves = c.reserves ∧
    c.loadReserve ps now a st = (match c.reserves.get a with | some r => pure r | none => Reserve.load ps c.config.bstopRate now a) >>= fun r => pure (r, c') := by
  unfold Cache.loadReserve
  dsimp only
  have key : ∀ x : Cache, (if st = true ∧ a ∉ c.toStore then { c with toStore := c.toStore ++ [a] } else c) = x →
      x.reserves = c.reserves ∧ x.config = c.config := by
    rintro x rfl; split <;> exact ⟨rfl, rfl⟩
  obtain ⟨k1, k2⟩ := key _ rfl
  refine ⟨_, k2, k1, ?_⟩
  rw [k1, k2]
  cases c.reserves.get a <;> rfl

theorem Sim.apply {now : Nat} {f : ShareOp} {k : Kind} {add : Bool} (hop : IsShareOp f k add) {c d : UCtx} (h : Sim now c d) (a : Address) (amt : Int)
    (hd : NoErr E (d.apply now f a amt)) (hm : ∀ r, d.cache.reserves.get a = some r → r.asset = a) :
    NoErr E (c.apply now f a amt) ∧ ∀ c', c.apply now f a amt = .ok c' → ∃ d', d.apply now f a amt = .ok d' ∧ Sim now c' d' := by
  obtain ⟨c1, e1, e2, e3⟩ := loadReserve_eq c.cache c.ps now a true
  obtain ⟨d1, f1, f2, f3⟩ := loadReserve_eq d.cache d.ps now a true
  have key : (match c.cache.reserves.get a with | some r => pure r | none => Reserve.load c.ps c.cache.config.bstopRate now a) =
      (match d.cache.reserves.get a with | some r => pure r | none => Reserve.load d.ps d.cache.config.bstopRate now a) := by
    cases hc : c.cache.reserves.get a with
    | some r =>
      rcases h.new a r hc with hd' | ⟨hd', hl⟩
      · rw [hd']
      · rw [hd']
        simp only
        rw [← h.ps, ← h.config, hl]
        rfl
    | none =>
      cases hd' : d.cache.reserves.get a with
      | some r => rw [h.old a r hd'] at hc; cases hc
      | none =>
        simp only
        rw [h.ps, h.config]
  unfold UCtx.apply at hd ⊢
  rw [f3, ← key] at hd
  rw [e3, f3, ← key]
  generalize hq : (match c.cache.reserves.get a with | some r => pure r | none => Reserve.load c.ps c.cache.config.bstopRate now a : R Reserve) = m at *
  rw [h.ps, h.user]
  cases m with
  | error e =>
    refine ⟨fun e' he' hx => hd e' he' ?_, fun c' hc' => ?_⟩
    · simpa [bind, Except.bind] using hx
    · simp [bind, Except.bind] at hc'
  | ok r =>
    have hr : r.asset = a := by
      cases hx : d.cache.reserves.get a with
      | some r' => rw [hx] at key; simp only [pure, Except.pure, Except.ok.injEq] at key; subst key; exact hm _ hx
      | none => rw [hx] at key; exact (load_match key.symm).1.asset
    cases hf : f d.ps now d.user r amt with
    | error e =>
      refine ⟨fun e' he' hx => hd e' he' ?_, fun c' hc' => ?_⟩
      · simpa [bind, Except.bind, pure, Except.pure, hf] using hx
      · simp [bind, Except.bind, pure, Except.pure, hf] at hc'
    | ok y =>
      obtain ⟨ps', u', r'⟩ := y
      simp only [bind, Except.bind, pure, Except.pure, hf]
      refine ⟨fun e' _ hx => (by cases hx), fun c' hc' => ⟨_, rfl, ?_⟩⟩
      simp only [Except.ok.injEq] at hc'
      subst hc'
      obtain ⟨sc, _, _⟩ := share_same hop hf
      have ha' : r'.asset = a := by
        obtain ⟨_, _, _, h5, _⟩ := hop hf
        rw [h5]; exact hr
      refine ⟨rfl, rfl, ?_, fun b x hb => ?_, fun b x hb => ?_⟩
      · simp only [Cache.put]; rw [e1, f1, h.config]
      · simp only [Cache.put] at hb ⊢
        rw [SMap.get_set] at hb ⊢
        rw [f2] at hb; rw [e2]
        split
        · rename_i hx; rw [if_pos hx] at hb; exact hb
        · rename_i hx; rw [if_neg hx] at hb; exact h.old b x hb
      · simp only [Cache.put] at hb ⊢
        rw [SMap.get_set] at hb ⊢
        rw [e2] at hb; rw [f2]
        split
        · rename_i hx; rw [if_pos hx] at hb; exact .inl hb
        · rename_i hx; rw [if_neg hx] at hb
          rcases h.new b x hb with h1 | ⟨h1, h2⟩
          · exact .inl h1
          · refine .inr ⟨h1, ?_⟩
            rw [load_same sc, ← h.ps, e1]
            exact h2

theorem Sim.fold {now : Nat} {f : ShareOp} {k : Kind} (hop : IsShareOp f k false) : ∀ (l : List (Nat × Int)) (c d : UCtx), Sim now c d →
    CacheOk d.ps now d.cache → NoErr E (l.foldlM (fun c kv => c.apply now f kv.1 kv.2) d) →
    NoErr E (l.foldlM (fun c kv => c.apply now f kv.1 kv.2) c) ∧
    ∀ c', l.foldlM (fun c kv => c.apply now f kv.1 kv.2) c = .ok c' → ∃ d', l.foldlM (fun c kv => c.apply now f kv.1 kv.2) d = .ok d' ∧ Sim now c' d' ∧
      CacheOk d'.ps now d'.cache := by
  intro l
  induction l with
  | nil =>
    intro c d h ok _
    refine ⟨NoErr.pure, fun c' hc' => ?_⟩
    rw [foldlM_nil] at hc'; subst hc'
    exact ⟨d, rfl, h, ok⟩
  | cons kv l ih =>
    intro c d h ok hd
    rw [List.foldlM_cons] at hd
    have hd1 : NoErr E (d.apply now f kv.1 kv.2) := fun e he hx => hd e he (by rw [hx]; rfl)
    obtain ⟨k1, k2⟩ := h.apply hop kv.1 kv.2 hd1 fun r hr => (ok.res _ r hr).asset
    rw [List.foldlM_cons, List.foldlM_cons]
    have next : ∀ c1, c.apply now f kv.1 kv.2 = .ok c1 → ∃ d1, d.apply now f kv.1 kv.2 = .ok d1 ∧ Sim now c1 d1 ∧ CacheOk d1.ps now d1.cache ∧
        NoErr E (l.foldlM (fun c kv => c.apply now f kv.1 kv.2) d1) := by
      intro c1 hc1
      obtain ⟨d1, hd1, hs⟩ := k2 c1 hc1
      have s1 := ctx_transit (U := fun _ => True) (us := []) (vb := fun _ => 0) (pb := fun _ => 0) (pd := fun _ => 0) hop ok trivial (by simp) hd1
      refine ⟨d1, hd1, hs, s1.cacheOk, ?_⟩
      rw [hd1] at hd
      exact hd
    refine ⟨NoErr.bind k1 fun c1 hc1 => ?_, fun c' hc' => ?_⟩
    · obtain ⟨d1, _, hs, ok1, hn⟩ := next c1 hc1
      exact (ih c1 d1 hs ok1 hn).1
    · rw [bind_ok] at hc'
      obtain ⟨c1, hc1, hc'⟩ := hc'
      obtain ⟨d1, hd1, hs, ok1, hn⟩ := next c1 hc1
      obtain ⟨d', hd', hs'⟩ := (ih c1 d1 hs ok1 hn).2 c' hc'
      exact ⟨d', by rw [hd1]; exact hd', hs'⟩

theorem Sim.rm {now : Nat} {c d : UCtx} (h : Sim now c d) (ok : CacheOk d.ps now d.cache) {coll liab : SMap Int}
    (hd : NoErr E (rmPositions now d coll liab)) : NoErr E (rmPositions now c coll liab) := by
  unfold rmPositions at hd ⊢
  have h1 : NoErr E (coll.toList.foldlM (fun c kv => c.apply now removeCollateral kv.1 kv.2) d) := fun e he hx => hd e he (by rw [hx]; rfl)
  obtain ⟨k1, k2⟩ := h.fold isRemoveColl _ _ _ ok h1
  refine NoErr.bind k1 fun c1 hc1 => ?_
  obtain ⟨d1, hd1, hs, ok1⟩ := k2 c1 hc1
  rw [hd1] at hd
  exact (hs.fold isRemoveLiab _ _ _ ok1 hd).1

end Pool
end Blend
