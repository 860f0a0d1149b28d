import Verif.Lemmas.Health
import Verif.Lemmas.MicroLiq
import Verif.Lemmas.AuctionStep
/-
  Moving positions (`rm_positions`, `add_positions`) and the creation of a liquidation auction.
-/

namespace Blend
namespace Pool
open Spec

theorem CacheCur.same {V ps ps' : PoolState} {now : Nat} {cache : Cache} (h : CacheCur V ps now cache) (hs : SameConfig ps ps') :
    CacheCur V ps' now cache := by
  refine ⟨fun a r hr => ?_, fun a hr => ?_, ?_, h.inst.trans hs.inst.symm, h.resConfig.trans hs.resConfig.symm, h.resList.trans hs.resList.symm⟩
  · obtain ⟨⟨h1, h2, h3⟩, h4⟩ := h.cached a r hr
    exact ⟨⟨h1, h2, by rw [hs.resConfig]; exact h3⟩, h4⟩
  · rw [hs.resData]; exact h.rest a hr
  · rw [hs.inst]; exact h.config

/-- what happens to the shares when positions are moved: `move k i` shares of kind `k` of reserve `i` are added -/
structure Moved (V : PoolState) (now : Nat) (c c' : UCtx) (move : Kind → Nat → Int) : Prop where
  cur : CacheCur V c'.ps now c'.cache
  same : SameConfig c.ps c'.ps
  positions : c'.ps.positions = c.ps.positions
  auctions : c'.ps.auctions = c.ps.auctions
  addr : c'.user.addr = c.user.addr
  bal : ∀ k i, (k.map c'.user.pos).bal i = (k.map c.user.pos).bal i + move k i
  credit : ∀ a, credAt V now c'.cache a = credAt V now c.cache a

theorem Moved.trans {V : PoolState} {now : Nat} {a b c : UCtx} {m n : Kind → Nat → Int} (h : Moved V now a b m) (h' : Moved V now b c n) :
    Moved V now a c (fun k i => m k i + n k i) :=
  ⟨h'.cur, h.same.trans h'.same, h'.positions.trans h.positions, h'.auctions.trans h.auctions, h'.addr.trans h.addr,
    fun k i => by rw [h'.bal, h.bal]; omega, fun a => (h'.credit a).trans (h.credit a)⟩

theorem apply_moved {V : PoolState} {now : Nat} {c c' : UCtx} {f : ShareOp} {k : Kind} {add : Bool} {a : Address} {amt : Int}
    (hop : IsShareOp f k add) (cur : CacheCur V c.ps now c.cache) (h : c.apply now f a amt = .ok c') :
    ∃ cc, V.resConfig a = some cc ∧
      Moved V now c c' (fun k' i => if k' = k ∧ i = cc.index then (if add then amt else -amt) else 0) ∧
      (add = false → 0 ≤ (k.map c'.user.pos).bal cc.index) := by
  unfold UCtx.apply at h
  simp only [bind_ok, Prod.exists, pure_ok] at h
  obtain ⟨r, cache1, hl, ps', u', r', hf, rfl⟩ := h
  obtain ⟨hm, hrates, hcfg, hcur⟩ := cur.load hl
  obtain ⟨cc, hcc, hci, hcs, hrest⟩ := hm.cfg
  have hs := hop hf
  obtain ⟨hne, ⟨x, he⟩, hua, rfl, hpos⟩ := hs
  obtain ⟨ed, ue, hps', _⟩ := updateEmissions_frame he
  have hsame : SameConfig c.ps ps' := by subst hps'; exact ⟨rfl, rfl, rfl, rfl, rfl, rfl, rfl, rfl, rfl⟩
  have hm' : ResMatch c.ps now a { r with data := k.addSupply r.data (if add then amt else -amt) } :=
    ⟨hm.asset, by rw [addSupply_lastTime]; exact hm.time, cc, hcc, hci, hcs, hrest⟩
  have hr' : RatesOf V now a (k.addSupply r.data (if add then amt else -amt)) := by
    obtain ⟨d, hd, e1, e2, e3⟩ := hrates
    exact ⟨d, hd, by rw [← e1]; cases k <;> rfl, by rw [← e2]; cases k <;> rfl, by rw [← e3]; cases k <;> rfl⟩
  have hbal : ∀ k' i, (k'.map u'.pos).bal i = (k'.map c.user.pos).bal i +
      if k' = k ∧ i = cc.index then (if add then amt else -amt) else 0 := by
    intro k' i
    cases add <;> cases k <;> cases k' <;> simp only [if_true, if_false, Bool.false_eq_true, Kind.map, Kind.put] at hpos <;>
      simp [Kind.map, hpos, bal_setBal, SMap.bal_set, hci] <;> split <;> simp_all <;> omega
  refine ⟨cc, by rw [cur.resConfig]; exact hcc, ⟨(hcur.put hm' hr').same hsame, hsame, by subst hps'; rfl, by subst hps'; rfl, hua, hbal, fun b => ?_⟩, ?_⟩
  · rw [credAt_put]
    obtain ⟨e1, e2⟩ := cur.credit hl
    have e3 : (k.addSupply r.data (if add then amt else -amt)).backstopCredit = r.data.backstopCredit := by cases k <;> rfl
    show (if b = r.asset then (k.addSupply r.data (if add then amt else -amt)).backstopCredit else _) = _
    rw [e3, e1, hm.asset]
    split
    · subst_vars; rfl
    · simp [credAt, e2]
  rintro rfl
  simp only [Bool.false_eq_true, if_false] at hpos
  have := hbal k cc.index
  simp only [Bool.false_eq_true, if_false, and_self, if_true] at this
  show 0 ≤ (k.map u'.pos).bal cc.index
  rw [this, ← hci]; omega

/-- the amount listed for the asset whose reserve has index `i` -/
def listed (V : PoolState) (m : Address → Int) (i : Nat) : Int := match V.resList[i]? with | some a => m a | none => 0

theorem fold_moved {V : PoolState} {now : Nat} {f : ShareOp} {k : Kind} {add : Bool} (hop : IsShareOp f k add) (cfg : CfgOk V) :
    ∀ (l : List (Nat × Int)) (c c' : UCtx), CacheCur V c.ps now c.cache →
      l.foldlM (fun c kv => c.apply now f kv.1 kv.2) c = .ok c' →
      Moved V now c c' (fun k' i => if k' = k then (if add then listed V (lsum l) i else -listed V (lsum l) i) else 0) ∧
      (add = false → (∀ i, 0 ≤ (k.map c.user.pos).bal i) → ∀ i, 0 ≤ (k.map c'.user.pos).bal i) := by
  intro l
  induction l with
  | nil =>
    intro c c' cur h
    rw [foldlM_nil] at h; subst h
    refine ⟨⟨cur, .refl _, rfl, rfl, rfl, fun k' i => ?_, fun _ => rfl⟩, fun _ h => h⟩
    simp only [listed, lsum_nil]
    cases V.resList[i]? <;> simp
  | cons kv l ih =>
    intro c c' cur h
    rw [foldlM_cons] at h
    obtain ⟨c1, h1, h2⟩ := h
    obtain ⟨cc, hcc, m1, n1⟩ := apply_moved hop cur h1
    obtain ⟨m2, n2⟩ := ih c1 c' m1.cur h2
    have m := m1.trans m2
    refine ⟨⟨m.cur, m.same, m.positions, m.auctions, m.addr, fun k' i => ?_, m.credit⟩, fun ha h0 => n2 ha fun i => ?_⟩
    · rw [m.bal]
      by_cases hk : k' = k
      · subst hk
        simp only [true_and, if_true]
        have key : listed V (lsum (kv :: l)) i = (if i = cc.index then kv.2 else 0) + listed V (lsum l) i := by
          unfold listed
          cases hi : V.resList[i]? with
          | none =>
            have : i ≠ cc.index := by
              rintro rfl; rw [cfg.idx _ _ hcc] at hi; cases hi
            simp [this]
          | some b =>
            simp only [lsum_cons]
            congr 1
            by_cases hb : kv.1 = b
            · subst hb
              rw [if_pos rfl, if_pos (cfg.index_list hi hcc).symm]
            · rw [if_neg hb, if_neg]
              rintro rfl
              rw [cfg.idx _ _ hcc] at hi
              exact hb (Option.some.inj hi)
        rw [key]
        cases add <;> simp <;> split <;> omega
      · simp [hk]
    · by_cases hi : i = cc.index
      · subst hi; exact n1 ha
      · rw [m1.bal]; simp [hi, h0]

/-- `rm_positions` removes exactly the listed shares and leaves no balance negative -/
theorem rmPositions_moved {V : PoolState} {now : Nat} {c c' : UCtx} {coll liab : SMap Int} (cfg : CfgOk V)
    (cur : CacheCur V c.ps now c.cache) (h : rmPositions now c coll liab = .ok c') :
    Moved V now c c' (fun k i => match k with
      | .coll => -listed V coll.bal i
      | .liab => -listed V liab.bal i
      | .supp => 0) ∧
    ((∀ k i, 0 ≤ (Kind.map k c.user.pos).bal i) → ∀ k i, 0 ≤ (Kind.map k c'.user.pos).bal i) := by
  unfold rmPositions at h
  simp only [bind_ok] at h
  obtain ⟨c1, h1, h2⟩ := h
  obtain ⟨m1, n1⟩ := fold_moved isRemoveColl cfg _ _ _ cur h1
  obtain ⟨m2, n2⟩ := fold_moved isRemoveLiab cfg _ _ _ m1.cur h2
  have e1 : lsum coll.toList = coll.bal := funext fun a => lsum_toList _ _
  have e2 : lsum liab.toList = liab.bal := funext fun a => lsum_toList _ _
  rw [e1] at m1
  rw [e2] at m2
  have m := m1.trans m2
  refine ⟨⟨m.cur, m.same, m.positions, m.auctions, m.addr, fun k i => ?_, m.credit⟩, fun h0 k i => ?_⟩
  · rw [m.bal]; cases k <;> simp
  · cases k with
    | liab =>
      refine n2 rfl (fun j => ?_) i
      rw [m1.bal]; simp [h0]
    | coll =>
      rw [m2.bal]; simp only [reduceCtorEq, if_false, Int.add_zero]
      exact n1 rfl (h0 _) i
    | supp => rw [m2.bal, m1.bal]; simp [h0]

/-- `add_positions` adds exactly the listed shares -/
theorem addPositions_moved {V : PoolState} {now : Nat} {c c' : UCtx} {coll liab : SMap Int} (cfg : CfgOk V)
    (cur : CacheCur V c.ps now c.cache) (h : addPositions now c coll liab = .ok c') :
    Moved V now c c' (fun k i => match k with
      | .coll => listed V coll.bal i
      | .liab => listed V liab.bal i
      | .supp => 0) := by
  unfold addPositions at h
  simp only [bind_ok] at h
  obtain ⟨c1, h1, h2⟩ := h
  obtain ⟨m1, _⟩ := fold_moved isAddColl cfg _ _ _ cur h1
  obtain ⟨m2, _⟩ := fold_moved isAddLiab cfg _ _ _ m1.cur h2
  have e1 : lsum coll.toList = coll.bal := funext fun a => lsum_toList _ _
  have e2 : lsum liab.toList = liab.bal := funext fun a => lsum_toList _ _
  rw [e1] at m1
  rw [e2] at m2
  have m := m1.trans m2
  exact ⟨m.cur, m.same, m.positions, m.auctions, m.addr, fun k i => by rw [m.bal]; cases k <;> simp, m.credit⟩

/-! ### the quote -/

theorem liqAmounts_ok {resList : List Address} {pct scalar : Int} (hsc : 0 < scalar) (hnd : resList.Nodup) :
    ∀ (l : List (Nat × Int)) (m m' : SMap Int), l.Pairwise (fun a b => a.1 < b.1) →
      liqAmounts resList pct scalar l m = .ok m' →
      (∀ i x, (i, x) ∈ l → ∃ a v, resList[i]? = some a ∧ m'.get a = some v ∧ IsCeil v (x * pct) scalar) ∧
      (∀ a, (∀ i x, (i, x) ∈ l → resList[i]? ≠ some a) → m'.get a = m.get a) := by
  intro l
  induction l with
  | nil => intro m m' _ h; unfold liqAmounts at h; cases h; simp
  | cons kv l ih =>
    obtain ⟨i, amount⟩ := kv
    intro m m' hs h
    unfold liqAmounts at h
    simp only [bind_ok, unwrap_ok] at h
    obtain ⟨a, ha, x, hx, h⟩ := h
    rw [List.pairwise_cons] at hs
    obtain ⟨h1, h2⟩ := ih _ _ hs.2 h
    refine ⟨fun j y hj => ?_, fun b hb => ?_⟩
    · rcases List.mem_cons.1 hj with e | hj
      · cases e
        refine ⟨a, x, ha, ?_, ceil_spec hx hsc⟩
        rw [h2, SMap.get_set_same]
        intro j y hjy hc
        have := hs.1 _ hjy
        have e := (List.getElem?_inj (l := resList) (i := i) (j := j) (by
          rw [List.getElem?_eq_some_iff] at ha; exact ha.1) hnd).1 (ha.trans hc.symm)
        simp only at this; omega
      · exact h1 j y hj
    · rw [h2 b fun j y hj => hb j y (by simp [hj]), SMap.get_set_ne]
      rintro rfl
      exact hb i amount (by simp) ha

/-- the amounts in the lot or bid -/
theorem liqAmounts_bal {resList : List Address} {pct scalar : Int} (hsc : 0 < scalar) (hnd : resList.Nodup) {pos m : SMap Int}
    (h : liqAmounts resList pct scalar pos.toList .empty = .ok m) :
    (∀ i a, resList[i]? = some a → IsCeil (m.bal a) (pos.bal i * pct) scalar) ∧
    (∀ a, a ∉ resList → m.get a = none) ∧
    (∀ i, pos.bal i ≠ 0 → ∃ a, resList[i]? = some a) := by
  obtain ⟨h1, h2⟩ := liqAmounts_ok hsc hnd _ _ _ pos.sorted h
  refine ⟨fun i a hi => ?_, fun a ha => ?_, fun i hi => ?_⟩
  · by_cases hx : ∃ x, pos.get i = some x
    · obtain ⟨x, hx⟩ := hx
      obtain ⟨b, v, hb, hv, hc⟩ := h1 i x (SMap.mem_toList.2 hx)
      rw [hb] at hi; cases hi
      simp only [SMap.bal, hv, hx, Option.getD_some]; exact hc
    · have hn : pos.get i = none := by
        cases hg : pos.get i with
        | none => rfl
        | some x => exact absurd ⟨x, hg⟩ hx
      have : m.get a = none := by
        rw [h2 a, SMap.get_empty]
        intro j y hj hc
        have e := (List.getElem?_inj (l := resList) (i := i) (j := j) (by
          rw [List.getElem?_eq_some_iff] at hi; exact hi.1) hnd).1 (hi.trans hc.symm)
        subst e
        rw [SMap.mem_toList, hn] at hj; cases hj
      simp only [SMap.bal, this, hn, Option.getD_none]
      exact ⟨by omega, by omega⟩
  · rw [h2 a, SMap.get_empty]
    intro i x _ hc
    exact ha (List.mem_of_getElem? hc)
  · cases hg : pos.get i with
    | none => simp [SMap.bal, hg] at hi
    | some x =>
      obtain ⟨a, _, ha, _⟩ := h1 i x (SMap.mem_toList.2 hg)
      exact ⟨a, ha⟩

theorem rawColl_nonneg {w : World} {V : PoolState} {pos : Positions} {C : Int} (h : RawCollateral w V pos C) (hp : PricesOk w V)
    (hr : RatesPos V w.time) (hb : ∀ i, 0 ≤ pos.collateral.bal i) : 0 ≤ C := by
  obtain ⟨f, hf, rfl⟩ := h
  refine sum_range_nonneg fun i hi => ?_
  rcases hf i hi with ⟨_, h0⟩ | ⟨a, c, d, x, n, hli, _, hcur, ⟨_, _, hinst, hx, _⟩, h1, h2⟩
  · omega
  · have n0 := IsFloor.nonneg h1 (by decide) (Int.mul_nonneg (hb i) (by have := (hr a d hcur).1; omega))
    exact IsFloor.nonneg h2 (by positivity) (Int.mul_nonneg (hp _ _ _ _ hinst (List.mem_of_getElem? hli) hx) n0)

theorem rawLiab_nonneg {w : World} {V : PoolState} {pos : Positions} {C : Int} (h : RawLiability w V pos C) (hp : PricesOk w V)
    (hr : RatesPos V w.time) (hb : ∀ i, 0 ≤ pos.liabilities.bal i) : 0 ≤ C := by
  obtain ⟨f, hf, rfl⟩ := h
  refine sum_range_nonneg fun i hi => ?_
  rcases hf i hi with ⟨_, h0⟩ | ⟨a, c, d, x, n, hli, _, hcur, ⟨_, _, hinst, hx, _⟩, h1, h2⟩
  · omega
  · have n0 := IsCeil.nonneg h1 (by decide) (Int.mul_nonneg (hb i) (by have := (hr a d hcur).2; omega))
    exact IsCeil.nonneg h2 (by positivity) (Int.mul_nonneg (hp _ _ _ _ hinst (List.mem_of_getElem? hli) hx) n0)

theorem divFloor_ne {x y d v : Int} (h : fixedDivFloor x y d = .ok v) : y ≠ 0 := by
  rintro rfl
  unfold fixedDivFloor mulDivFloor at h
  simp [bind_ok, require_ok] at h

theorem divCeil_ne {x y d v : Int} (h : fixedDivCeil x y d = .ok v) : y ≠ 0 := by
  rintro rfl
  unfold fixedDivCeil mulDivCeil at h
  simp [bind_ok, require_ok] at h

theorem liqQuote_ok {pd : PositionData} {percent : Nat} {pct wd share : Int} {n : Nat} (hs : pd.scalar = 10 ^ n)
    (hC : 0 ≤ pd.collateralBase) (hCr : 0 ≤ pd.collateralRaw) (hL : 0 ≤ pd.liabilityBase) (hLr : 0 ≤ pd.liabilityRaw)
    (h : liqQuote pd percent = .ok (pct, wd, share)) :
    LiquidationShare (10 ^ n) pd.collateralBase pd.collateralRaw pd.liabilityBase pd.liabilityRaw percent pct wd share ∧
      0 < pd.collateralRaw := by
  unfold liqQuote at h
  simp only [bind_ok, chk_ok, pure_ok, Prod.mk.injEq] at h
  obtain ⟨m, ⟨_, rfl⟩, cf, h1, lf, h2, ratio, h3, dif, ⟨_, rfl⟩, two, ⟨_, rfl⟩, half, h4, inc, ⟨_, rfl⟩, x, h5, wd', h6, sh, h7, rfl, rfl, rfl⟩ := h
  have hS : 0 < pd.scalar := by rw [hs]; positivity
  have hCr' : 0 < pd.collateralRaw := by have := divCeil_ne h7; omega
  have hLr' : 0 < pd.liabilityRaw := by have := divFloor_ne h2; omega
  have f1 := floor_spec h1 hCr'
  have f2 := floor_spec h2 hLr'
  have hlf : 0 ≤ lf := IsFloor.nonneg f2 hLr' (by positivity)
  have hlf' : 0 < lf := by have := divCeil_ne h3; omega
  rw [hs] at *
  refine ⟨⟨?_, cf, lf, ratio, half, x, sh, f1, f2, ceil_spec h3 hlf', ceil_spec h4 (by omega), floor_spec h5 hS, ?_, ceil_spec h7 hCr', ?_⟩, hCr'⟩
  · rw [Int.tdiv_eq_ediv_of_nonneg (by positivity)]
    exact ⟨by omega, by omega⟩
  · have := floor_spec h6 hS
    rwa [Int.add_comm half] at this
  · rw [Int.min_def]; split <;> split <;> omega

/-- the creation of a liquidation auction -/
structure LiqCreated (w : World) (p user : Address) (percent : Nat) (a : AuctionData) : Prop where
  fresh : (w.pools p).auctions 0 user = none
  range : 1 ≤ percent ∧ percent ≤ 100
  block : a.block = w.seq + 1
  values : ∃ pd n pct wd share, ValuedAs w (w.pools p) (getPositions (w.pools p) user) pd ∧
    PriceDecimals w (w.pools p) n ∧ pd.collateralBase ≤ pd.liabilityBase ∧ 0 ≤ pd.collateralBase ∧ 0 < pd.collateralRaw ∧
    LiquidationShare (10 ^ n) pd.collateralBase pd.collateralRaw pd.liabilityBase pd.liabilityRaw percent pct wd share ∧
    (∀ i x, (w.pools p).resList[i]? = some x →
      IsCeil (a.lot.bal x) ((getPositions (w.pools p) user).collateral.bal i * share) (10 ^ n) ∧
      IsCeil (a.bid.bal x) ((getPositions (w.pools p) user).liabilities.bal i * pct) (10 ^ n)) ∧
    (∀ x, x ∉ (w.pools p).resList → a.lot.get x = none ∧ a.bid.get x = none) ∧
    (percent = 100 → pd.collateralRaw ≤ wd) ∧
    (percent < 100 → ∃ pos' pd', LeftAfter (w.pools p) (getPositions (w.pools p) user) a.lot a.bid pos' ∧
      ValuedAs w (w.pools p) pos' pd' ∧ 0 ≤ pd'.collateralBase ∧ 0 ≤ pd'.liabilityBase ∧ pd'.scalar = 10 ^ n ∧
      pd'.isHfOver 11500000 = .ok false ∧ pd'.isHfUnder 10300000 = .ok false)

theorem overlay_loaded {ps : PoolState} {cache : Cache} (h : cache.reserves = .empty) : overlay ps cache [] = ps := by
  have := overlay_load (ps := ps) h []
  simpa using this

theorem createUserLiq_ok {w : World} {p user : Address} {percent : Nat} {a : AuctionData} {ps : PoolState} (cfg : CfgOk (w.pools p))
    (hprice : PricesOk w (w.pools p)) (hr : RatesPos (w.pools p) w.time) (hpos : ∀ k i, 0 ≤ (Kind.map k (getPositions (w.pools p) user)).bal i)
    (h : createUserLiq w p user percent = .ok (a, ps)) : LiqCreated w p user percent a := by
  unfold createUserLiq at h
  simp only [bind_ok, require_ok, Prod.exists, pure_ok, ite_ok, Prod.mk.injEq, chkU32_ok] at h
  obtain ⟨_, hnone, _, hpc, blk, ⟨_, rfl⟩, cache, hc, pd, cache1, hpd, _, hcl, pct, wd, sh, hq, lot, hlot, bid, hbid, h⟩ := h
  obtain ⟨ok0, hr0, _, _⟩ := load_ok (now := w.time) hc
  have cur0 : CacheCur (w.pools p) (w.pools p) w.time cache := by
    have := CacheCur.of ok0 []
    rwa [overlay_loaded hr0] at this
  obtain ⟨cur1, va⟩ := calcPositionData_ok cur0 (hpos .coll) (hpos .liab) hpd
  have hC := collValue_nonneg va.coll hprice hr (hpos .coll)
  have hCr := rawColl_nonneg va.collRaw hprice hr (hpos .coll)
  have hL := liabValue_nonneg va.liab hprice hr (hpos .liab)
  have hLr := rawLiab_nonneg va.liabRaw hprice hr (hpos .liab)
  obtain ⟨n, hn, hsc⟩ := va.scalar
  obtain ⟨hshare, hCr'⟩ := liqQuote_ok hsc hC hCr hL hLr hq
  have hS : 0 < pd.scalar := by rw [hsc]; positivity
  obtain ⟨l1, l2, _⟩ := liqAmounts_bal hS cfg.nodup hlot
  obtain ⟨b1, b2, _⟩ := liqAmounts_bal hS cfg.nodup hbid
  have hlb : a.lot = lot ∧ a.bid = bid ∧ a.block = w.seq + 1 := by
    rcases h with ⟨_, _, _, rfl, _⟩ | ⟨_, c, _, nd, _, _, _, _, _, _, _, _, _, _, rfl, _⟩ <;> exact ⟨rfl, rfl, rfl⟩
  obtain ⟨rfl, rfl, hblk⟩ := hlb
  refine ⟨by simpa using hnone, by omega, hblk, pd, n, pct, wd, sh, va, hn, by omega, hC, hCr', hshare, fun i x hi => ?_, fun x hx => ⟨l2 x hx, b2 x hx⟩, ?_, ?_⟩
  · rw [← hsc]; exact ⟨l1 i x hi, b1 i x hi⟩
  · rintro rfl
    rcases h with ⟨_, _, hw, _⟩ | ⟨h0, _⟩
    · omega
    · exact absurd rfl h0
  · intro hlt
    rcases h with ⟨h0, _⟩ | ⟨_, c, hrm, nd, c2, hcalc, over, hover, _, hno, under, hunder, _, hnu, _⟩
    · omega
    · obtain ⟨mv, hnn⟩ := rmPositions_moved cfg cur1 hrm
      have hnn' := hnn hpos
      obtain ⟨_, va'⟩ := calcPositionData_ok mv.cur (hnn' .coll) (hnn' .liab) hcalc
      obtain ⟨n', hn', hsc'⟩ := va'.scalar
      have : n' = n := by
        obtain ⟨i, hi, e⟩ := hn
        obtain ⟨i', hi', e'⟩ := hn'
        rw [hi] at hi'; cases hi'
        rw [← e, ← e']
      subst this
      refine ⟨c.user.pos, nd, fun i => ⟨fun x hx => ?_, hnn' .coll i, hnn' .liab i, ?_⟩, va', ?_, ?_, hsc', ?_, ?_⟩
      · have e1 := mv.bal .coll i
        have e2 := mv.bal .liab i
        simp only [listed, hx, Kind.map] at e1 e2
        exact ⟨e1, e2⟩
      · have e3 := mv.bal .supp i
        simp only [Kind.map, Int.add_zero] at e3
        exact e3
      · exact collValue_nonneg va'.coll hprice hr (hnn' .coll)
      · exact liabValue_nonneg va'.liab hprice hr (hnn' .liab)
      · rw [hover]; simpa using hno
      · rw [hunder]; simpa using hnu

theorem _root_.Blend.Reachable.ratesPos {w : World} (hr : Reachable w) {p : Address} (hp : w.poolAddr p = true) :
    RatesPos (w.pools p) w.time := by
  have pi := hr.pinv hp
  have cfg := hr.base.cfg p
  rintro a d ⟨c, d0, i, hc, hd, hi, hac⟩
  have hdo : DataOk d0 := pi.dataOk cfg hd
  have hr := accrue_rates hac hdo (pi.rates a d0 hd).2.2.2.2 (cfg.valid a c hc).util (cfg.rate i hi)
  omega

theorem _root_.Blend.Reachable.bal_nonneg {w : World} (hr : Reachable w) {p : Address} (hp : w.poolAddr p = true) (u : Address)
    (k : Kind) (i : Nat) : 0 ≤ (k.map (getPositions (w.pools p) u)).bal i := by
  unfold getPositions
  cases h : (w.pools p).positions.get u with
  | none => cases k <;> simp [Kind.map, Positions.default]
  | some pos => exact (hr.pinv hp).bal_nonneg k u pos i h

theorem liquidation_created {w w' : World} (hr : Reachable w) {p u : Address} {auth : List Address} {n : Nat}
    (h : step w (.pool p auth (.newLiquidation u n)) = .ok w') (hprice : PricesOk w (w.pools p)) :
    u ≠ p ∧ (∀ i, (w.pools p).inst = some i → u ≠ i.backstop) ∧
    ∃ a, (w'.pools p).auctions 0 u = some a ∧ LiqCreated w p u n a := by
  simp only [step, bind_ok, require_ok, call, createLiquidation, PoolState.getInst, unwrap_ok, pure_ok, Prod.exists] at h
  obtain ⟨_, hp, _, _, i, hi, _, hne, a, ps, hcr, rfl⟩ := h
  rw [not_or] at hne
  refine ⟨hne.1, fun j hj => ?_, a, ?_, createUserLiq_ok (hr.base.cfg p) hprice (hr.ratesPos hp) (hr.bal_nonneg hp u) hcr⟩
  · rw [hi] at hj; cases hj; exact hne.2
  · rw [pools_setPool]; exact setAuction_same ..

theorem hf_bounds {C L : Int} {n : Nat} (hn : 2 ≤ n) {k k' : Int} (h1 : IsFloor k (10 ^ n * 10300000) ONE7) (h2 : IsCeil k' (10 ^ n * 11500000) ONE7)
    (h3 : k * L ≤ C * 10 ^ n) (h4 : C * 10 ^ n < (k' + 1) * L) :
    103 * L ≤ 100 * C ∧ 100 * 10 ^ n * C < (115 * 10 ^ n + 100) * L := by
  obtain ⟨m, rfl⟩ : ∃ m, n = m + 2 := ⟨n - 2, by omega⟩
  have e : (10 : Int) ^ (m + 2) = 100 * 10 ^ m := by rw [pow_add]; ring
  have hpos : (0 : Int) < 10 ^ m := by positivity
  rw [e] at h1 h2 h3 h4 ⊢
  clear e
  generalize (10 : Int) ^ m = t at *
  unfold IsFloor IsCeil ONE7 at *
  have hk : k = 103 * t := by omega
  have hk' : k' = 115 * t := by omega
  subst hk hk'
  constructor
  · have : 0 ≤ t * (100 * C - 103 * L) := by nlinarith
    have := nonneg_of_mul_nonneg_right this hpos
    omega
  · nlinarith

theorem ceil_le {v b s S : Int} (h : IsCeil v (b * s) S) (hS : 0 < S) (hb : 0 ≤ b) (hs : s ≤ S) : v ≤ b := by
  by_contra hlt
  push Not at hlt
  have h1 : b * s ≤ b * S := Int.mul_le_mul_of_nonneg_left hs hb
  have h2 : b * S ≤ (v - 1) * S := Int.mul_le_mul_of_nonneg_right (by omega) hS.le
  have := h.1
  omega

theorem ceil_unit {v b S : Int} (h : IsCeil v (b * S) S) (hS : 0 < S) : v = b := by
  have h1 : v - 1 < b := lt_of_mul_lt_mul_right h.1 hS.le
  have h2 : b ≤ v := le_of_mul_le_mul_right h.2 hS
  omega

end Pool
end Blend
