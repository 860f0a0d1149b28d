import Verif.Lemmas.LiqTerms
import Verif.Props.Liquidatable
/-
  C72: exactly the liquidation auctions that have terms can be created.
-/

namespace Blend
namespace Props
open Spec Pool Demo

variable {w : World} {p u : Address} {auth : List Address} {n : Nat}

/-- the amounts listed by a new liquidation auction are positive -/
theorem liq_positive {a : AuctionData} {ps : PoolState} (hr : Reachable w) (hp : w.poolAddr p = true) (hpr : PricesOk w (w.pools p))
    (h : createUserLiq w p u n = .ok (a, ps)) :
    Positive a.lot ∧ Positive a.bid ∧ ∀ i x, (w.pools p).resList[i]? = some x →
      (0 < (getPositions (w.pools p) u).collateral.bal i → 0 < a.lot.bal x) ∧ (0 < (getPositions (w.pools p) u).liabilities.bal i → 0 < a.bid.bal x) := by
  have cfg := hr.base.cfg p
  have hcr := createUserLiq_ok cfg hpr (hr.ratesPos hp) (hr.bal_nonneg hp u) h
  obtain ⟨pd, dec, pct, wd, share, va, hdec, hle, h0, hCr0, hls, hamt, hnone, hfull, _⟩ := hcr.values
  unfold createUserLiq at h
  simp only [bind_ok, require_ok, Prod.exists, pure_ok, ite_ok, Prod.mk.injEq, chkU32_ok] at h
  obtain ⟨_, _, _, hpc, blk, _, cache, hc, pd1, cache1, hpd, _, _, pct1, wd1, sh1, hq, lot, hlot, bid, hbid, h⟩ := h
  obtain ⟨ok0, hr0, _, _⟩ := load_ok (now := w.time) hc
  have cur0 : CacheCur (w.pools p) (w.pools p) w.time cache := by
    have := CacheCur.of ok0 []
    rwa [overlay_loaded hr0] at this
  obtain ⟨_, va1⟩ := calcPositionData_ok cur0 (hr.bal_nonneg hp u .coll) (hr.bal_nonneg hp u .liab) hpd
  obtain ⟨dec1, _, hsc⟩ := va1.scalar
  have hS : 0 < pd1.scalar := by rw [hsc]; positivity
  have hlb : a.lot = lot ∧ a.bid = bid := by
    rcases h with ⟨_, _, _, rfl, _⟩ | ⟨_, c, _, nd, _, _, _, _, _, _, _, _, _, _, rfl, _⟩ <;> exact ⟨rfl, rfl⟩
  obtain ⟨e1, e2⟩ := hlb
  obtain ⟨l1, l2⟩ := liqAmounts_entries hS cfg.nodup hlot
  obtain ⟨b1, b2⟩ := liqAmounts_entries hS cfg.nodup hbid
  have hSd : (0 : Int) < 10 ^ dec := by positivity
  have nz : (∀ x v, lot.get x = some v → v ≠ 0) ∧ (∀ x v, bid.get x = some v → v ≠ 0) := by
    rcases h with ⟨rfl, _, _⟩ | ⟨_, c, hrm, _⟩
    · have hwd := hfull rfl
      obtain ⟨hpc1, cf, lf, ratio, half, x', sh, _, _, _, _, _, _, hsh, hshare⟩ := hls
      have p1 : 0 < pct := by obtain ⟨q1, q2⟩ := hpc1; push_cast at q2; omega
      have p2 : 0 < share := by
        have : 0 < sh := by
          by_contra hlt
          have e3 := hsh.2
          have e4 : sh * pd.collateralRaw ≤ 0 := mul_nonpos_of_nonpos_of_nonneg (by omega) (by omega)
          have e5 : 0 < wd * 10 ^ dec := mul_pos (by omega) hSd
          omega
        rw [hshare]; omega
      have pos : ∀ {b s v : Int}, IsCeil v (b * s) (10 ^ dec) → 0 < b → 0 < s → v ≠ 0 := by
        rintro b s v hc hb hs rfl
        have := hc.2
        have := mul_pos hb hs
        omega
      refine ⟨fun x v hv => ?_, fun x v hv => ?_⟩
      · obtain ⟨i, y, hi, hy, _⟩ := l2 x v hv
        change (getPositions (w.pools p) u).collateral.get i = some y at hy
        obtain ⟨pos', g1, g2⟩ := getPositions_get (k := .coll) hy
        have b0 := ((hr.pinv hp).bals u pos' .coll i y g1 g2).1
        have := (hamt i x hi).1
        rw [e1] at this
        simp only [SMap.bal, hv, hy, Option.getD_some] at this
        exact pos this b0 p2
      · obtain ⟨i, y, hi, hy, _⟩ := b2 x v hv
        change (getPositions (w.pools p) u).liabilities.get i = some y at hy
        obtain ⟨pos', g1, g2⟩ := getPositions_get (k := .liab) hy
        have b0 := ((hr.pinv hp).bals u pos' .liab i y g1 g2).1
        have := (hamt i x hi).2
        rw [e2] at this
        simp only [SMap.bal, hv, hy, Option.getD_some] at this
        exact pos this b0 p1
    · exact rm_nonzero hrm
  have hv : Values w (w.pools p) (getPositions (w.pools p) u) pd.collateralBase pd.collateralRaw pd.liabilityBase pd.liabilityRaw :=
    ⟨va.coll, va.collRaw, va.liab, va.liabRaw⟩
  obtain ⟨o1, o2, o3, o4⟩ := values_order hv hpr (hr.ratesPos hp) cfg (hr.bal_nonneg hp u .coll) (hr.bal_nonneg hp u .liab)
  obtain ⟨_, _, p0, _, _, s0, _⟩ := liqShare_range (one_le_pow₀ (by decide)) o2 o1 o4 o3 hcr.range.2 hls
  have nn : ∀ i x, (w.pools p).resList[i]? = some x → 0 ≤ a.lot.bal x ∧ 0 ≤ a.bid.bal x := fun i x hi =>
    ⟨IsCeil.nonneg (hamt i x hi).1 hSd (mul_nonneg (hr.bal_nonneg hp u .coll i) s0), IsCeil.nonneg (hamt i x hi).2 hSd (mul_nonneg (hr.bal_nonneg hp u .liab i) p0)⟩
  rw [← e1] at l1 l2
  rw [← e2] at b1 b2
  rw [← e1, ← e2] at nz
  have pl : Positive a.lot := fun x v hx => by
    obtain ⟨i, y, hi, _, _⟩ := l2 x v hx
    have h1 := (nn i x hi).1
    have h2 := nz.1 x v hx
    simp only [SMap.bal, hx, Option.getD_some] at h1
    omega
  have pb : Positive a.bid := fun x v hx => by
    obtain ⟨i, y, hi, _, _⟩ := b2 x v hx
    have h1 := (nn i x hi).2
    have h2 := nz.2 x v hx
    simp only [SMap.bal, hx, Option.getD_some] at h1
    omega
  refine ⟨pl, pb, fun i x hi => ⟨fun hb => ?_, fun hb => ?_⟩⟩
  · cases hg : (getPositions (w.pools p) u).collateral.get i with
    | none => simp [SMap.bal, hg] at hb
    | some y =>
      obtain ⟨b, v, hb', hv', _⟩ := l1 i y hg
      rw [hi] at hb'; cases hb'
      have := pl x v hv'
      simp only [SMap.bal, hv', Option.getD_some]
      exact this
  · cases hg : (getPositions (w.pools p) u).liabilities.get i with
    | none => simp [SMap.bal, hg] at hb
    | some y =>
      obtain ⟨b, v, hb', hv', _⟩ := b1 i y hg
      rw [hi] at hb'; cases hb'
      have := pb x v hv'
      simp only [SMap.bal, hv', Option.getD_some]
      exact this

/-- **C72** A liquidation auction that is created has terms and nothing else changes (but the accrual of emissions). -/
theorem C72_only_if {w' : World} (hr : Reachable w) (hpr : PricesOk w (w.pools p)) (hs : step w (.pool p auth (.newLiquidation u n)) = .ok w') :
    ∃ a, LiquidationTerms w p u n a ∧ LiquidationOutcome w w' p u a := by
  obtain ⟨hup, hub, a', ha', hcr⟩ := liquidation_created hr hs hpr
  simp only [step, bind_ok, require_ok, call, createLiquidation, PoolState.getInst, unwrap_ok, pure_ok, Prod.exists] at hs
  obtain ⟨_, hp, _, _, i, hi, _, hne, a, ps, hc, rfl⟩ := hs
  have : a' = a := by
    rw [pools_setPool, setAuction_same] at ha'
    exact (Option.some.inj ha').symm
  subst this
  obtain ⟨pp, pb, po⟩ := liq_positive hr hp hpr hc
  have cfg := hr.base.cfg p
  refine ⟨a', ⟨⟨hup, i, hi, hub i hi⟩, hcr.fresh, hcr.range, hcr.block, ?_, po, ⟨pp, pb⟩, ?_⟩, ?_⟩
  · obtain ⟨pd, dec, pct, wd, share, va, hdec, hle, h0, hCr0, hls, hamt, hnone, hfull, hpart⟩ := hcr.values
    refine ⟨_, _, _, _, dec, pct, wd, share, ⟨va.coll, va.collRaw, va.liab, va.liabRaw⟩, hle, hdec, hls, hamt, hfull, fun hlt => ?_⟩
    obtain ⟨pos', pd', h1, h2, h3, h4, h5, h6, h7⟩ := hpart hlt
    refine ⟨pos', _, _, h1, h2.coll, h2.liab, ?_⟩
    obtain ⟨k, k1, k2, k3⟩ := isHfOver_false h5 h4 h6
    obtain ⟨j, ⟨j1, j2⟩ | j1⟩ := isHfUnder_false h5 h3 h4 h7
    · exact (band_iff j1 k1).2 ⟨k3, j2, k2⟩
    · omega
  · obtain ⟨pd, dec, pct, wd, share, va, hdec, hle, h0, hCr0, hls, hamt, hnone, _⟩ := hcr.values
    intro x hx
    simp [SMap.bal, hnone x hx]
  · have key : SameConfig (w.pools p) ps ∧ ps.positions = (w.pools p).positions ∧ ps.auctions = (w.pools p).auctions := by
      simp only [createUserLiq, bind_ok, require_ok, Prod.exists, pure_ok, ite_ok, Prod.mk.injEq] at hc
      obtain ⟨_, _, _, _, blk, _, cache, _, pd, cache1, hpd, _, _, pct, wd, sh, _, lot, _, bid, _,
        ⟨_, _, _, rfl, rfl⟩ | ⟨_, c, hrm, nd, _, _, _, _, _, _, _, _, _, _, rfl, rfl⟩⟩ := hc
      · exact ⟨.refl _, rfl, rfl⟩
      · obtain ⟨r1, r2, r3, _⟩ := rmPositions_same hrm
        exact ⟨r1, r2, r3⟩
    obtain ⟨sc, e1, e2⟩ := key
    refine ⟨ha', fun t x htx => ?_, ?_, ?_, ?_, ?_, _, rfl⟩ <;> rw [pools_setPool]
    · rw [← e2]
      unfold setAuction
      simp only [upd_apply]
      split
      · rename_i ht
        by_cases hx : x = u
        · exact absurd (by rw [ht, hx]) htx
        · rw [upd_ne hx, ht]
      · rfl
    · exact e1
    · exact ⟨sc.resData, sc.resConfig, sc.resInit, sc.resList⟩
    · exact sc.inst
    · exact ⟨sc.emisConfig, sc.poolEmis, sc.claimed, sc.received⟩

/-- **C72** The terms determine the auction. -/
theorem C72_determined {a a' : AuctionData} (hr : Reachable w) (hp : w.poolAddr p = true) (hpr : PricesOk w (w.pools p))
    (h : LiquidationTerms w p u n a) (h' : LiquidationTerms w p u n a') : a = a' := by
  obtain ⟨C, Cr, L, Lr, dec, pct, wd, share, hv, hCL, hdec, hls, hamt, _⟩ := h.values
  obtain ⟨C', Cr', L', Lr', dec', pct', wd', share', hv', hCL', hdec', hls', hamt', _⟩ := h'.values
  obtain ⟨rfl, rfl, rfl, rfl⟩ := values_unique hv hv'
  have : dec' = dec := by
    obtain ⟨i, hi, e⟩ := hdec
    obtain ⟨i', hi', e'⟩ := hdec'
    rw [hi] at hi'; cases hi'
    rw [← e, ← e']
  subst this
  obtain ⟨o1, o2, o3, o4⟩ := values_order hv hpr (hr.ratesPos hp) (hr.base.cfg p) (hr.bal_nonneg hp u .coll) (hr.bal_nonneg hp u .liab)
  have hS : (0 : Int) < 10 ^ dec' := by positivity
  obtain ⟨rfl, rfl⟩ := liqShare_unique (one_le_pow₀ (by decide)) o2 o1 o4 o3 h.range.2 hls hls'
  have ext : ∀ {m m' : SMap Int}, Positive m → Positive m' → (∀ x, m.bal x = m'.bal x) → m = m' := by
    intro m m' q q' hb
    refine SMap.ext_get fun x => ?_
    have := hb x
    cases h1 : m.get x <;> cases h2 : m'.get x <;> simp only [SMap.bal, h1, h2, Option.getD_some, Option.getD_none] at this
    · rfl
    · have := q' x _ h2; omega
    · have := q x _ h1; omega
    · rw [this]
  have key : ∀ x, a.lot.bal x = a'.lot.bal x ∧ a.bid.bal x = a'.bid.bal x := by
    intro x
    by_cases hx : x ∈ (w.pools p).resList
    · obtain ⟨i, hi⟩ := List.mem_iff_getElem?.1 hx
      exact ⟨ceil_unique (hamt i x hi).1 (hamt' i x hi).1 hS, ceil_unique (hamt i x hi).2 (hamt' i x hi).2 hS⟩
    · rw [(h.only x hx).1, (h.only x hx).2, (h'.only x hx).1, (h'.only x hx).2]
      exact ⟨rfl, rfl⟩
  obtain ⟨bid, lot, blk⟩ := a
  obtain ⟨bid', lot', blk'⟩ := a'
  have e1 := ext h.positive.1 h'.positive.1 fun x => (key x).1
  have e2 := ext h.positive.2 h'.positive.2 fun x => (key x).2
  have e3 := h.block.trans h'.block.symm
  simp only at e1 e2 e3
  rw [e1, e2, e3]

/-- **C72** A liquidation auction with terms can be created by anybody, unless a number leaves the range of its type. -/
theorem C72_accepted {a : AuctionData} (hr : Reachable w) (hp : w.poolAddr p = true) (hauth : ∀ x ∈ auth, ¬ w.isProtocol x)
    (hpr : PricesOk w (w.pools p)) (h : LiquidationTerms w p u n a) :
    (∃ w', step w (.pool p auth (.newLiquidation u n)) = .ok w' ∧ LiquidationOutcome w w' p u a) ∨
    step w (.pool p auth (.newLiquidation u n)) = .error .overflow := by
  cases hs : step w (.pool p auth (.newLiquidation u n)) with
  | ok w' =>
    obtain ⟨a', h', ho⟩ := C72_only_if hr hpr hs
    rw [← C72_determined hr hp hpr h h'] at ho
    exact .inl ⟨w', rfl, ho⟩
  | error e =>
    right
    have key : NoErr (Unexpected False) (step w (.pool p auth (.newLiquidation u n))) := by
      have hov : Unexpected False .overflow = false := unexpected_overflow
      have ov : ∀ {P : Prop}, Unexpected False .overflow = true → P := fun h => by rw [hov] at h; cases h
      have cfg := hr.base.cfg p
      have hrt := hr.ratesPos hp
      have hb := hr.bal_nonneg hp u .coll
      have hd := hr.bal_nonneg hp u .liab
      obtain ⟨C, Cr, L, Lr, dec, pct, wd, share, hv, hCL, hdec, hls, hamt, hfull, hpart⟩ := h.values
      obtain ⟨o1, o2, o3, o4⟩ := values_order hv hpr hrt cfg hb hd
      obtain ⟨c0, l0, p0, p1, w0, s0, s1⟩ := liqShare_range (one_le_pow₀ (by decide)) o2 o1 o4 o3 h.range.2 hls
      obtain ⟨hup, j, hj, hub⟩ := h.account
      have hnone := h.fresh
      have hrange := h.range
      unfold step call createLiquidation PoolState.getInst createUserLiq
      refine NoErr.bind (NoErr.req hp) fun _ _ => NoErr.bind (NoErr.req hauth) fun _ _ => ?_
      refine NoErr.bind (NoErr.unwrap hj) fun j' hj' => ?_
      rw [unwrap_ok, hj] at hj'; cases hj'
      refine NoErr.bind (NoErr.req (by rw [not_or]; exact ⟨hup, hub⟩)) fun _ _ => ?_
      refine NoErr.bind ?_ fun _ _ => NoErr.pure
      dsimp only
      refine NoErr.bind (NoErr.req (by rw [hnone]; rfl)) fun _ _ => NoErr.bind (NoErr.req (by omega)) fun _ _ => ?_
      refine NoErr.bind (NoErr.chkU32 ov) fun blk _ => ?_
      refine NoErr.bind ?_ fun cache hc => ?_
      · unfold Cache.load PoolState.getInst
        exact NoErr.bind (NoErr.unwrap hj) fun _ _ => NoErr.pure
      obtain ⟨ok0, hr0, _, _⟩ := load_ok (now := w.time) hc
      have cur0 : CacheCur (w.pools p) (w.pools p) w.time cache := by
        have := CacheCur.of ok0 []
        rwa [overlay_loaded hr0] at this
      refine NoErr.bind (calcPositionData_live cur0 cfg hpr hrt hb hd hv ov) fun x hx => ?_
      obtain ⟨pd, cache1⟩ := x
      obtain ⟨cur1, va⟩ := calcPositionData_ok cur0 hb hd hx
      obtain ⟨rfl, rfl, rfl, rfl⟩ := values_unique hv ⟨va.coll, va.collRaw, va.liab, va.liabRaw⟩
      obtain ⟨dec', hdec', hsc⟩ := va.scalar
      have : dec' = dec := by
        obtain ⟨i, hi, e⟩ := hdec
        obtain ⟨i', hi', e'⟩ := hdec'
        rw [hi] at hi'; cases hi'
        rw [← e, ← e']
      subst this
      have hS1 : 1 ≤ pd.scalar := by rw [hsc]; exact one_le_pow₀ (by decide)
      dsimp only
      refine NoErr.bind (NoErr.req (by omega)) fun _ _ => NoErr.bind (liqQuote_any hov hS1 c0 l0 o4) fun y hy => ?_
      obtain ⟨pct', wd', share'⟩ := y
      obtain ⟨hls', _⟩ := liqQuote_ok hsc o1 (by omega) (by omega) o3 hy
      obtain ⟨rfl, rfl, rfl⟩ := liqShare_unique' (one_le_pow₀ (by decide)) o2 o1 o4 o3 h.range.2 hls hls'
      dsimp only [User.load]
      have items : ∀ (k : Kind) kv, kv ∈ (k.map (getPositions (w.pools p) u)).toList →
          (∃ a, (w.pools p).resList[kv.1]? = some a) ∧ 0 ≤ kv.2 := by
        rintro k ⟨i, v⟩ hkv
        rw [SMap.mem_toList] at hkv
        obtain ⟨pos, g1, g2⟩ := getPositions_get hkv
        obtain ⟨b0, bl⟩ := (hr.pinv hp).bals u pos k i v g1 g2
        exact ⟨⟨_, List.getElem?_eq_getElem bl⟩, b0.le⟩
      refine NoErr.bind (liqAmounts_live hS1 s0 _ _ fun kv hkv => ?_) fun lot hlot => ?_
      · obtain ⟨a1, a2⟩ := items .coll kv hkv
        exact ⟨a1, a2, ov⟩
      refine NoErr.bind (liqAmounts_live hS1 p0 _ _ fun kv hkv => ?_) fun bid hbid => ?_
      · obtain ⟨a1, a2⟩ := items .liab kv hkv
        exact ⟨a1, a2, ov⟩
      split
      · rename_i h100
        have := hfull h100
        exact NoErr.bind (NoErr.req (by omega)) fun _ _ => NoErr.pure
      · rename_i h100
        obtain ⟨pos', C', L', hleft, hC', hL', hband⟩ := hpart (by omega)
        obtain ⟨l1, l2⟩ := liqAmounts_entries (by omega) cfg.nodup hlot
        obtain ⟨b1, b2⟩ := liqAmounts_entries (by omega) cfg.nodup hbid
        obtain ⟨l3, l4, _⟩ := liqAmounts_bal (by omega) cfg.nodup hlot
        obtain ⟨b3, b4, _⟩ := liqAmounts_bal (by omega) cfg.nodup hbid
        have hSd : (0 : Int) < 10 ^ dec' := by positivity
        have el : ∀ i x, (w.pools p).resList[i]? = some x → lot.bal x = a.lot.bal x := fun i x hi => by
          have := l3 i x hi
          rw [hsc] at this
          exact ceil_unique this (hamt i x hi).1 hSd
        have eb : ∀ i x, (w.pools p).resList[i]? = some x → bid.bal x = a.bid.bal x := fun i x hi => by
          have := b3 i x hi
          rw [hsc] at this
          exact ceil_unique this (hamt i x hi).2 hSd
        have gl : ∀ x v, lot.get x = some v → 0 < v ∧ ∃ cf, (w.pools p).resConfig x = some cf ∧ v ≤ (getPositions (w.pools p) u).collateral.bal cf.index := by
          intro x v hv'
          obtain ⟨i, y, hi, hy, _⟩ := l2 x v hv'
          obtain ⟨pos, g1, g2⟩ := getPositions_get (k := .coll) hy
          have b0 := ((hr.pinv hp).bals u pos .coll i y g1 g2).1
          have hyb : (getPositions (w.pools p) u).collateral.bal i = y := by simp [SMap.bal, hy]
          have hvb : lot.bal x = v := by simp [SMap.bal, hv']
          have h1 := (h.offered i x hi).1 (by show 0 < (getPositions (w.pools p) u).collateral.bal i; omega)
          rw [← el i x hi, hvb] at h1
          obtain ⟨cf, _, hcf, _⟩ := cfg.list x (List.mem_of_getElem? hi)
          have hidx : cf.index = i := by
            have := cfg.idx x cf hcf
            exact (List.getElem?_inj (by have := (List.getElem?_eq_some_iff.1 this).1; exact this) cfg.nodup).1 (this.trans hi.symm)
          refine ⟨h1, cf, hcf, ?_⟩
          rw [hidx, ← hvb]
          have h2 := l3 i x hi
          rw [hsc] at h2
          exact Pool.ceil_le h2 hSd (by rw [hyb]; omega) s1
        have gb : ∀ x v, bid.get x = some v → 0 < v ∧ ∃ cf, (w.pools p).resConfig x = some cf ∧ v ≤ (getPositions (w.pools p) u).liabilities.bal cf.index := by
          intro x v hv'
          obtain ⟨i, y, hi, hy, _⟩ := b2 x v hv'
          obtain ⟨pos, g1, g2⟩ := getPositions_get (k := .liab) hy
          have b0 := ((hr.pinv hp).bals u pos .liab i y g1 g2).1
          have hyb : (getPositions (w.pools p) u).liabilities.bal i = y := by simp [SMap.bal, hy]
          have hvb : bid.bal x = v := by simp [SMap.bal, hv']
          have h1 := (h.offered i x hi).2 (by show 0 < (getPositions (w.pools p) u).liabilities.bal i; omega)
          rw [← eb i x hi, hvb] at h1
          obtain ⟨cf, _, hcf, _⟩ := cfg.list x (List.mem_of_getElem? hi)
          have hidx : cf.index = i := by
            have := cfg.idx x cf hcf
            exact (List.getElem?_inj (by have := (List.getElem?_eq_some_iff.1 this).1; exact this) cfg.nodup).1 (this.trans hi.symm)
          refine ⟨h1, cf, hcf, ?_⟩
          rw [hidx, ← hvb]
          have h2 := b3 i x hi
          rw [hsc] at h2
          exact Pool.ceil_le h2 hSd (by rw [hyb]; omega) p1
        have hvo : VOk w.time ((UCtx.mk (w.pools p) cache (User.load (w.pools p) u)).vs [] (fun a => w.balance a p) (fun _ => 0) fun _ => 0) := by
          have t1 := (VOk.of hr hp).micro (PMicro.touch (now := w.time) (U := fun _ => True) (.of w p) u trivial)
          have e0 : ({ VS.of w p with ps := setPositions (w.pools p) u (getPositions (w.pools p) u) } : VS)
              = (UCtx.mk (w.pools p) cache (User.load (w.pools p) u)).vs [] (fun a => w.balance a p) (fun _ => 0) fun _ => 0 := by
            unfold VS.of UCtx.vs
            simp only [overlay_load hr0]
            simp [setPositions, User.load]
          rw [← e0]; exact t1
        have hlive := rm_live (us := []) hov ok0 hvo (fun x v hx => (gl x v hx).1) (fun x v hx => (gb x v hx).1) (fun x v hx => (gl x v hx).2)
          fun x v hx => (gb x v hx).2
        have hext := calcPositionData_cache ok0.res hx
        have hsim : Sim w.time ⟨w.pools p, cache1, User.load (w.pools p) u⟩ ⟨w.pools p, cache, User.load (w.pools p) u⟩ :=
          ⟨rfl, rfl, hext.config, hext.old, fun b r hb => by
            rcases (hext.new b r hb).2 with h1 | ⟨h1, h2⟩
            · exact .inl h1
            · exact .inr ⟨h1, by rw [hext.config]; exact h2⟩⟩
        refine NoErr.bind (hsim.rm ok0 hlive) fun c hcx => ?_
        obtain ⟨mv, hnn⟩ := rmPositions_moved cfg cur1 hcx
        have hnn' := hnn (hr.bal_nonneg hp u)
        have hpos : ∀ i, i < (w.pools p).resList.length → c.user.pos.collateral.bal i = pos'.collateral.bal i ∧ c.user.pos.liabilities.bal i = pos'.liabilities.bal i := by
          intro i hi
          have hx : (w.pools p).resList[i]? = some (w.pools p).resList[i] := List.getElem?_eq_getElem hi
          have m1 := mv.bal .coll i
          have m2 := mv.bal .liab i
          simp only [listed, hx, Kind.map] at m1 m2
          obtain ⟨q1, q2⟩ := (hleft i).1 _ hx
          rw [el i _ hx] at m1
          rw [eb i _ hx] at m2
          refine ⟨m1.trans ?_, m2.trans ?_⟩
          · rw [q1]; rfl
          · rw [q2]; rfl
        have hC2 : CollateralValue w (w.pools p) c.user.pos C' := by
          obtain ⟨f, hf, e⟩ := hC'
          exact ⟨f, fun i hi => by rw [(hpos i hi).1]; exact hf i hi, e⟩
        have hL2 : LiabilityValue w (w.pools p) c.user.pos L' := by
          obtain ⟨f, hf, e⟩ := hL'
          exact ⟨f, fun i hi => by rw [(hpos i hi).2]; exact hf i hi, e⟩
        obtain ⟨Cr', Lr', hv2⟩ := values_of hC2 hL2
        refine NoErr.bind (calcPositionData_live mv.cur cfg hpr hrt (hnn' .coll) (hnn' .liab) hv2 ov) fun y hy => ?_
        obtain ⟨nd, cache2⟩ := y
        obtain ⟨_, va2⟩ := calcPositionData_ok mv.cur (hnn' .coll) (hnn' .liab) hy
        obtain ⟨rfl, _, rfl, _⟩ := values_unique hv2 ⟨va2.coll, va2.collRaw, va2.liab, va2.liabRaw⟩
        obtain ⟨dec2, hdec2, hsc2⟩ := va2.scalar
        have : dec2 = dec' := by
          obtain ⟨i, hi, e⟩ := hdec
          obtain ⟨i', hi', e'⟩ := hdec2
          rw [hi] at hi'; cases hi'
          rw [← e, ← e']
        subst this
        obtain ⟨⟨v1, v2⟩, v3, v4⟩ := hf_live hov hsc2 hband
        dsimp only
        refine NoErr.bind v1 fun b hb' => NoErr.bind (NoErr.req (by rw [v2 b hb']; decide)) fun _ _ =>
          NoErr.bind v3 fun b' hb'' => NoErr.bind (NoErr.req (by rw [v4 b' hb'']; decide)) fun _ _ => NoErr.pure
    rcases of_unexpected key hs with h | ⟨_, h⟩
    · rw [h]
    · exact h.elim

/-- The hypotheses are met: a liquidation of 60 percent of bob's debt has terms, after XLM has lost a fifth. -/
example : ∃ w w' a, Reachable w ∧ w.poolAddr poolA = true ∧ PricesOk w (w.pools poolA) ∧ LiquidationTerms w poolA bob 60 a ∧
    step w (.pool poolA [] (.newLiquidation bob 60)) = .ok w' ∧ a.bid.bal usdcA = 36000000000 := by
  obtain ⟨w, w', _, hr, hs, h⟩ := Demo.reach_step (ops := setup ++ trade ++ [prices 1713139200 10000000 800000])
    (op := .pool poolA [] (.newLiquidation bob 60)) (f := fun w w' => w.poolAddr poolA && pricesOk w (w.pools poolA) &&
      optAnd ((w'.pools poolA).auctions 0 bob) fun a => decide (a.bid.bal usdcA = 36000000000)) (by decide +kernel)
  simp only [Bool.and_eq_true] at h
  obtain ⟨⟨h1, h2⟩, h3⟩ := h
  obtain ⟨a', ha', h3⟩ := optAnd_iff.1 h3
  obtain ⟨a, ht, ho⟩ := C72_only_if hr (pricesOk_iff h2) hs
  have : a = a' := by
    have := ho.created
    rw [ha'] at this
    exact (Option.some.inj this).symm
  subst this
  exact ⟨w, w', a, hr, h1, pricesOk_iff h2, ht, hs, of_decide_eq_true h3⟩

end Props
end Blend
