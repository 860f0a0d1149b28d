import Verif.Lemmas.LiveBadDebt
import Verif.Lemmas.NewAuction
/-
  Which errors the creation of bad debt and interest auctions can run into (C61).
-/

namespace Blend
namespace Pool
open Spec

variable {E : Err → Bool} {w : World} {p : Address}

/-- loading a reserve for a look at it -/
theorem load_cur (hr : Reachable w) (hp : w.poolAddr p = true) (hov : E .overflow = false) {cache : Cache} {a : Address} {st : Bool}
    (hc : CacheCur (w.pools p) (w.pools p) w.time cache) (ha : a ∈ (w.pools p).resList) : NoErr E (cache.loadReserve (w.pools p) w.time a st) := by
  have ov : ∀ {P : Prop}, E .overflow = true → P := fun h => by rw [hov] at h; cases h
  have cfg := hr.base.cfg p
  obtain ⟨c, d, hcf, hd⟩ := cfg.list a ha
  obtain ⟨i, hi, hic⟩ := hc.config
  have hac : NoErr E (accrue c i.config.bstopRate w.time d) :=
    accrue_live (cfg.valid a c hcf) ((hr.pinv hp).dataOk cfg hd) ((hr.pinv hp).rates a d hd).2.2.2.2 (cfg.rate i hi) ov
  unfold Cache.loadReserve
  dsimp only
  have key : ∀ x : Cache, (if st = true ∧ a ∉ cache.toStore then { cache with toStore := cache.toStore ++ [a] } else cache) = x →
      x.reserves = cache.reserves ∧ x.config = cache.config := by
    rintro x rfl; split <;> exact ⟨rfl, rfl⟩
  obtain ⟨k1, k2⟩ := key _ rfl
  rw [k1, k2]
  cases hg : cache.reserves.get a with
  | some r => exact NoErr.pure
  | none =>
    refine NoErr.bind ?_ fun _ _ => NoErr.pure
    unfold Reserve.load
    refine NoErr.bind (NoErr.unwrap hcf) fun c' hc' => ?_
    rw [unwrap_ok, hcf] at hc'; cases hc'
    refine NoErr.bind (NoErr.unwrap hd) fun d' hd' => ?_
    rw [unwrap_ok, hd] at hd'; cases hd'
    refine NoErr.bind ?_ fun _ _ => NoErr.bind ?_ fun _ _ => NoErr.pure
    · unfold pow10
      exact NoErr.chk ov
    · rw [← hic]; exact hac

theorem price_cur (hov : E .overflow = false) {cache : Cache} {a : Address} {x : Int}
    (hc : CacheCur (w.pools p) (w.pools p) w.time cache) (hx : FreshPrice w (w.pools p) a x) : NoErr E (loadPrice w cache.config a) := by
  obtain ⟨i, ts, hi, h1, h2⟩ := hx
  obtain ⟨i', hi', hic⟩ := hc.config
  rw [hi] at hi'; cases hi'
  rw [← hic]
  exact loadPrice_live h1 h2 fun h => by rw [hov] at h; cases h

theorem _root_.Blend.Spec.DebtItem.unique {ps : PoolState} {i : Nat} {k v v' : Int} (h : DebtItem w ps i k v) (h' : DebtItem w ps i k v') : v = v' := by
  have zero : ∀ v, DebtItem w ps i 0 v → v = 0 := by
    rintro v (⟨_, h⟩ | ⟨a, c, d, x, n, _, _, _, _, hn, hv⟩)
    · exact h
    · rw [Int.zero_mul] at hn
      have e : n = 0 := by unfold IsCeil ONE9 at hn; omega
      subst e
      rw [Int.mul_zero] at hv
      exact hv.unique (by positivity) (by unfold IsFloor; constructor <;> have : (0 : Int) < 10 ^ c.decimals := by positivity
                                          all_goals omega)
  rcases h with ⟨rfl, rfl⟩ | ⟨a, c, d, x, n, ha, hc, hd, hx, hn, hv⟩
  · exact (zero _ h').symm
  · rcases h' with ⟨rfl, rfl⟩ | ⟨a', c', d', x', n', ha', hc', hd', hx', hn', hv'⟩
    · exact zero _ (.inr ⟨a, c, d, x, n, ha, hc, hd, hx, hn, hv⟩)
    · rw [ha] at ha'; cases ha'
      rw [hc] at hc'; cases hc'
      obtain rfl := Current.unique hd hd'
      obtain ⟨i, ts, hi, hp, _⟩ := hx
      obtain ⟨i', ts', hi', hp', _⟩ := hx'
      rw [hi] at hi'; cases hi'
      rw [hp] at hp'; cases hp'
      obtain rfl := ceil_unique hn hn' (by decide)
      exact hv.unique (by positivity) hv'

theorem badDebtData_live (hr : Reachable w) (hp : w.poolAddr p = true) (hov : E .overflow = false) :
    ∀ (l : List (Nat × Int)) (value : Int) (bid : SMap Int) (cache : Cache),
    CacheCur (w.pools p) (w.pools p) w.time cache → (∀ kv ∈ l, 0 < kv.2 ∧ kv.1 < (w.pools p).resList.length ∧ ∃ v, DebtItem w (w.pools p) kv.1 kv.2 v) →
    NoErr E (badDebtLoop w (w.pools p) l (value, bid, cache)) := by
  have ov : ∀ {P : Prop}, E .overflow = true → P := fun h => by rw [hov] at h; cases h
  intro l
  induction l with
  | nil => intro _ _ _ _ _; exact NoErr.pure
  | cons kv l ih =>
    obtain ⟨i, x⟩ := kv
    intro value bid cache hc hl
    obtain ⟨hx, hlt, v, hv⟩ := hl (i, x) (by simp)
    obtain ⟨a, hi⟩ : ∃ a, (w.pools p).resList[i]? = some a := ⟨_, List.getElem?_eq_getElem hlt⟩
    simp only [badDebtLoop]
    refine NoErr.bind (NoErr.unwrap hi) fun a' ha' => ?_
    rw [unwrap_ok, hi] at ha'; cases ha'
    rw [if_pos hx]
    refine NoErr.bind (load_cur hr hp hov hc (List.mem_of_getElem? hi)) fun rc hrc => ?_
    obtain ⟨r, c1⟩ := rc
    obtain ⟨hm, _, _, hc1⟩ := hc.load hrc
    obtain ⟨c, _, _, hsc, _⟩ := hm.cfg
    have h10 : 1 ≤ r.scalar := by rw [hsc]; exact one_le_pow₀ (by decide)
    rcases hv with ⟨h0, _⟩ | ⟨b, cb, d, y, n, hb, _, _, hy, _, _⟩
    · simp only at h0 hx; omega
    · simp only at hb
      rw [hi] at hb; cases hb
      refine NoErr.bind (price_cur hov hc1 hy) fun _ _ => NoErr.bind ?_ fun _ _ => NoErr.bind ?_ fun _ _ => NoErr.bind (NoErr.chk ov) fun _ _ => ?_
      · unfold ReserveData.toAssetFromD fixedMulCeil
        exact NoErr.mulDivCeil (by decide) ov
      · unfold fixedMulFloor
        exact NoErr.mulDivFloor h10 ov
      · exact ih _ _ _ hc1 fun kv hkv => hl kv (by simp [hkv])

theorem token_live {i : PoolInst} {bi : BackstopInst} (hi : (w.pools p).inst = some i) (hb : i.backstop = w.backstopAddr) (hbi : w.backstop.inst = some bi) :
    NoErr E (backstopToken w p) := by
  unfold backstopToken PoolState.getInst Backstop.inst
  refine NoErr.bind (NoErr.unwrap hi) fun i' hi' => ?_
  rw [unwrap_ok, hi] at hi'; cases hi'
  exact NoErr.bind (NoErr.req hb) fun _ _ => NoErr.bind (NoErr.unwrap hbi) fun _ _ => NoErr.pure

theorem poolData_live (hov : E .overflow = false) {i : PoolInst} (hi : (w.pools p).inst = some i) (hb : i.backstop = w.backstopAddr)
    {z : Int × Int} (hz : w.backstop.lpVal = some z) : NoErr E (backstopData w p) := by
  have ov : ∀ {P : Prop}, E .overflow = true → P := fun h => by rw [hov] at h; cases h
  unfold backstopData PoolState.getInst Backstop.loadPoolData fixedDivCeil fixedMulFloor
  refine NoErr.bind (NoErr.unwrap hi) fun i' hi' => ?_
  rw [unwrap_ok, hi] at hi'; cases hi'
  refine NoErr.bind (NoErr.req hb) fun _ _ => ?_
  dsimp only
  have rest : ∀ q : Int, NoErr E (do
      let x ← unwrap w.backstop.lpVal
      let blnd ← mulDivFloor (w.backstop.getPoolBal p).tokens x.1 SCALAR_7
      let usdc ← mulDivFloor (w.backstop.getPoolBal p).tokens x.2 SCALAR_7
      Pure.pure (⟨(w.backstop.getPoolBal p).tokens, q, blnd, usdc⟩ : BackstopData)) := fun q =>
    NoErr.bind (NoErr.unwrap hz) fun _ _ => NoErr.bind (NoErr.mulDivFloor (by decide) ov) fun _ _ =>
      NoErr.bind (NoErr.mulDivFloor (by decide) ov) fun _ _ => NoErr.pure
  split
  · rename_i h
    exact NoErr.bind (NoErr.mulDivCeil (by omega) ov) fun q _ => rest q
  · exact NoErr.bind NoErr.pure fun q _ => rest q

theorem toBase_live (hov : E .overflow = false) {d : BackstopData} {S : Int} (h : 1 ≤ d.tokens) : NoErr E (backstopTokenToBase d S) := by
  have ov : ∀ {P : Prop}, E .overflow = true → P := fun h => by rw [hov] at h; cases h
  unfold backstopTokenToBase fixedMulFloor fixedDivFloor
  exact NoErr.bind (NoErr.mulDivFloor (by decide) ov) fun _ _ => NoErr.bind (NoErr.chk ov) fun _ _ => NoErr.mulDivFloor h ov

theorem _root_.Blend.Spec.BackstopTokenValue.unique {S v v' : Int} (h : BackstopTokenValue w p S v) (h' : BackstopTokenValue w p S v') : v = v' := by
  obtain ⟨vb, vu, u, x, h1, h2, h3, h4, h5⟩ := h
  obtain ⟨vb', vu', u', x', h1', h2', h3', h4', h5'⟩ := h'
  rw [h1] at h1'; cases h1'
  obtain rfl := floor_unique h3 h3' (by decide)
  obtain rfl := floor_unique h4 h4' (by decide)
  exact floor_unique h5 h5' h2

theorem _root_.Blend.Spec.Worth140.unique {value v n n' : Int} (h : Worth140 value v n) (h' : Worth140 value v n') : n = n' := by
  obtain ⟨h0, x, h1, h2⟩ := h
  obtain ⟨_, x', h1', h2'⟩ := h'
  obtain rfl := floor_unique h1 h1' (by decide)
  exact floor_unique h2 h2' h0

theorem backstop_bals (hr : Reachable w) (hp : w.poolAddr p = true) (b : Address) :
    ∀ j z, (j, z) ∈ (getPositions (w.pools p) b).liabilities.toList → 0 < z ∧ j < (w.pools p).resList.length := by
  intro j z hj
  unfold getPositions at hj
  cases hg : (w.pools p).positions.get b with
  | none => rw [hg] at hj; cases hj
  | some pos =>
    rw [hg] at hj
    exact (hr.pinv hp).bals b pos .liab j z hg (SMap.get_some_iff.2 hj)

/-- a bad debt auction whose terms exist can be created -/
theorem newBadDebt_live (hr : Reachable w) (hp : w.poolAddr p = true) (hov : E .overflow = false) {i : PoolInst} {bi : BackstopInst} {a : AuctionData}
    (hi : (w.pools p).inst = some i) (hb : i.backstop = w.backstopAddr) (hbi : w.backstop.inst = some bi)
    (hno : (w.pools p).auctions 1 i.backstop = none) (ha : BadDebtTerms w p i.backstop bi.backstopToken a) :
    NoErr E (createBadDebt w p) := by
  have ov : ∀ {P : Prop}, E .overflow = true → P := fun h => by rw [hov] at h; cases h
  obtain ⟨f, n, v, m, hf, htot, hn, hv, hm, _⟩ := ha.lot
  have hnd := (hr.base.cfg p).nodup
  unfold createBadDebt PoolState.getInst
  refine NoErr.bind (NoErr.unwrap hi) fun i' hi' => ?_
  rw [unwrap_ok, hi] at hi'; cases hi'
  refine NoErr.bind ?_ fun _ _ => NoErr.pure
  unfold createBadDebtData
  refine NoErr.bind (NoErr.req (by rw [hno]; rfl)) fun _ _ => NoErr.bind (NoErr.chkU32 ov) fun _ _ => ?_
  refine NoErr.bind (by unfold Cache.load PoolState.getInst; exact NoErr.bind (NoErr.unwrap hi) fun _ _ => NoErr.pure) fun cache hcl => ?_
  have hc : CacheCur (w.pools p) (w.pools p) w.time cache := cacheCur_load hcl
  refine NoErr.bind (by unfold oracleScalar pow10; exact NoErr.chk ov) fun S hS => ?_
  simp only [oracleScalar, pow10, chk_ok] at hS
  obtain ⟨_, rfl⟩ := hS
  obtain ⟨i'', hi'', hic⟩ := hc.config
  rw [hi] at hi''; cases hi''
  have hS : (10 : Int) ^ (w.oracle cache.config.oracle).decimals = 10 ^ n := by
    obtain ⟨j, hj, hjn⟩ := hn
    rw [hi] at hj; cases hj
    rw [← hic, hjn]
  rw [hS]
  have hbals := backstop_bals hr hp i.backstop
  refine NoErr.bind (badDebtData_live hr hp hov _ _ _ _ hc fun kv hkv => ?_) fun x hx => ?_
  · obtain ⟨h1, h2⟩ := hbals kv.1 kv.2 hkv
    refine ⟨h1, h2, f kv.1, ?_⟩
    have := hf kv.1 h2
    unfold accountOf SMap.bal at this
    simp only [SMap.mem_toList.1 hkv, Option.getD_some] at this
    exact this
  · obtain ⟨value, bid, cache'⟩ := x
    obtain ⟨g, e1, e2, e3, e4⟩ := badDebtLoop_ok hnd _ _ _ _ _ _ _ (getPositions (w.pools p) i.backstop).liabilities.sorted
      (fun kv hk => (hbals kv.1 kv.2 hk).1) hc hx
    have hval : value = total (w.pools p) f := by
      rw [e1, Int.zero_add, total, sum_keys_range (getPositions (w.pools p) i.backstop).liabilities.sorted (fun kv hk => (hbals kv.1 kv.2 hk).2) fun j _ => e2 j]
      refine congrArg List.sum (List.map_congr_left fun j hj => ?_)
      rw [List.mem_range] at hj
      have h1 := hf j hj
      unfold accountOf SMap.bal at h1
      simp only at h1
      cases hg : (getPositions (w.pools p) i.backstop).liabilities.get j with
      | some z =>
        rw [hg] at h1
        exact (e3 j z (SMap.get_some_iff.1 hg)).1.unique h1
      | none =>
        rw [hg] at h1
        have h2 : g j = 0 := e2 j fun z hz => by rw [← SMap.get_some_iff, hg] at hz; cases hz
        exact DebtItem.unique (.inl ⟨rfl, h2⟩) h1
    have hne : bid.isEmpty ≠ true := by
      intro he
      have hall : ∀ x ∈ (getPositions (w.pools p) i.backstop).liabilities.toList, False := fun x hx => by
        obtain ⟨_, a, _, h⟩ := e3 x.1 x.2 hx
        unfold SMap.isEmpty at he
        rw [List.isEmpty_iff] at he
        have := SMap.mem_toList.2 h
        rw [he] at this; cases this
      have : (getPositions (w.pools p) i.backstop).liabilities.toList = [] := List.eq_nil_iff_forall_not_mem.2 fun x hx => hall x hx
      rw [this] at e1
      simp at e1
      omega
    dsimp only
    refine NoErr.bind (NoErr.req (by rw [hval]; simp [hne, htot])) fun _ _ => NoErr.bind (token_live hi hb hbi) fun _ _ => ?_
    have ⟨vb, vu, _, _, hlp, htk, _⟩ := hv
    refine NoErr.bind (poolData_live hov hi hb hlp) fun d hd => ?_
    simp only [backstopData, bind_ok, require_ok] at hd
    obtain ⟨_, _, _, _, hd⟩ := hd
    have htok : d.tokens = (w.backstop.getPoolBal p).tokens := by
      simp only [Backstop.loadPoolData, bind_ok, pure_ok, Prod.exists, ite_ok, unwrap_ok] at hd
      rcases hd with ⟨_, _, _, vb, vu, h1, b, hb, u, hu, rfl⟩ | ⟨_, _, _, vb, vu, h1, b, hb, u, hu, rfl⟩ <;> rfl
    refine NoErr.bind (toBase_live hov (by omega)) fun y hy => ?_
    obtain ⟨_, htv, _⟩ := tokenValue_ok hr (by positivity) hd hy
    obtain rfl := htv.unique hv
    unfold fixedMulFloor fixedDivFloor
    exact NoErr.bind (NoErr.mulDivFloor (by decide) ov) fun _ _ => NoErr.bind (NoErr.mulDivFloor (by have := hm.1; omega) ov) fun _ _ => NoErr.pure

theorem interestData_live (hr : Reachable w) (hp : w.poolAddr p = true) (hov : E .overflow = false) :
    ∀ (l : List Address) (value : Int) (lot : SMap Int) (cache : Cache), CacheCur (w.pools p) (w.pools p) w.time cache → cache.reserves = .empty →
    (∀ x ∈ l, x ∈ (w.pools p).resList ∧ ∃ v, InterestItem w (w.pools p) x (creditOf (w.pools p) w.time x) v) →
    NoErr E (interestLoop w (w.pools p) l (value, lot, cache)) := by
  have ov : ∀ {P : Prop}, E .overflow = true → P := fun h => by rw [hov] at h; cases h
  intro l
  induction l with
  | nil => intro _ _ _ _ _ _; exact NoErr.pure
  | cons a l ih =>
    intro value lot cache hc he hl
    obtain ⟨ha, v, hv⟩ := hl a (by simp)
    simp only [interestLoop]
    refine NoErr.bind (load_cur hr hp hov hc ha) fun rc hrc => ?_
    obtain ⟨r, c1⟩ := rc
    obtain ⟨hm, _, _, hc1⟩ := hc.load hrc
    obtain ⟨ecr, er⟩ := hc.credit hrc
    have ecr : r.data.backstopCredit = creditOf (w.pools p) w.time a := by
      rw [ecr, credAt, he]; rfl
    rw [he] at er
    obtain ⟨c, _, _, hsc, _⟩ := hm.cfg
    have h10 : 1 ≤ r.scalar := by rw [hsc]; exact one_le_pow₀ (by decide)
    have hrest : ∀ value lot, NoErr E (interestLoop w (w.pools p) l (value, lot, c1)) := fun value lot =>
      ih value lot c1 hc1 er fun x hx => hl x (by simp [hx])
    dsimp only
    rw [ecr]
    split
    · rename_i hpos
      rcases hv with ⟨h0, _⟩ | ⟨c', x, _, _, hx, _⟩
      · omega
      · refine NoErr.bind (price_cur hov hc1 hx) fun _ _ => NoErr.bind ?_ fun _ _ => NoErr.bind (NoErr.chk ov) fun _ _ => hrest _ _
        unfold fixedMulFloor
        exact NoErr.mulDivFloor h10 ov
    · exact hrest _ _

/-- an interest auction whose terms exist can be created -/
theorem newInterest_live (hr : Reachable w) (hp : w.poolAddr p = true) (hov : E .overflow = false) {i : PoolInst} {bi : BackstopInst} {l : List Address}
    {a : AuctionData} (hi : (w.pools p).inst = some i) (hb : i.backstop = w.backstopAddr) (hbi : w.backstop.inst = some bi)
    (hno : (w.pools p).auctions 2 i.backstop = none) (hl : ∀ x ∈ l, x ∈ (w.pools p).resList)
    (ha : InterestTerms w p bi.backstopToken l a) : NoErr E (createInterest w p l) := by
  have ov : ∀ {P : Prop}, E .overflow = true → P := fun h => by rw [hov] at h; cases h
  obtain ⟨f, n, v, hf, hn, hmin, hv, hm⟩ := ha.bid
  unfold createInterest PoolState.getInst
  refine NoErr.bind (NoErr.unwrap hi) fun i' hi' => ?_
  rw [unwrap_ok, hi] at hi'; cases hi'
  refine NoErr.bind ?_ fun _ _ => NoErr.pure
  unfold createInterestData
  refine NoErr.bind (NoErr.req (by rw [hno]; rfl)) fun _ _ => ?_
  refine NoErr.bind (by unfold Cache.load PoolState.getInst; exact NoErr.bind (NoErr.unwrap hi) fun _ _ => NoErr.pure) fun cache hcl => ?_
  have hc : CacheCur (w.pools p) (w.pools p) w.time cache := cacheCur_load hcl
  obtain ⟨_, he, _, _⟩ := load_ok (now := w.time) hcl
  refine NoErr.bind (by unfold oracleScalar pow10; exact NoErr.chk ov) fun S hS => NoErr.bind (NoErr.chkU32 ov) fun _ _ => ?_
  simp only [oracleScalar, pow10, chk_ok] at hS
  obtain ⟨_, rfl⟩ := hS
  obtain ⟨i'', hi'', hic⟩ := hc.config
  rw [hi] at hi''; cases hi''
  have hS : (10 : Int) ^ (w.oracle cache.config.oracle).decimals = 10 ^ n := by
    obtain ⟨j, hj, hjn⟩ := hn
    rw [hi] at hj; cases hj
    rw [← hic, hjn]
  rw [hS]
  refine NoErr.bind (interestData_live hr hp hov l _ _ _ hc he fun x hx => ⟨hl x hx, f x, hf x hx⟩) fun z hz => ?_
  obtain ⟨value, lot, cache'⟩ := z
  obtain ⟨g, e1, e2, e3⟩ := interestLoop_ok (fun a => creditOf (w.pools p) w.time a) (fun _ => rfl) l _ _ _ _ _ _ hc he hz
  have hval : value = (l.map f).sum := by
    rw [e1, Int.zero_add]
    exact congrArg List.sum (List.map_congr_left fun x hx => (e2 x hx).unique (hf x hx))
  have h10 : (0 : Int) < 10 ^ n := by positivity
  have hne : lot.isEmpty ≠ true := by
    intro hem
    unfold SMap.isEmpty at hem
    rw [List.isEmpty_iff] at hem
    have hz : ∀ x ∈ l, g x = 0 := by
      intro x hx
      rcases e2 x hx with ⟨_, h⟩ | ⟨_, _, hk, _⟩
      · exact h
      · have := e3 x
        rw [if_pos ⟨hx, hk⟩] at this
        have := SMap.mem_toList.2 this
        rw [hem] at this; cases this
    have : (l.map g).sum = 0 := List.sum_eq_zero fun y hy => by
      obtain ⟨x, hx, rfl⟩ := List.mem_map.1 hy
      exact hz x hx
    omega
  dsimp only
  refine NoErr.bind (NoErr.chk ov) fun lim hlim => NoErr.bind (NoErr.req ?_) fun _ _ => NoErr.bind (NoErr.req ?_) fun _ _ => ?_
  · rw [chk_ok] at hlim
    omega
  · simp [hne]
    omega
  have ⟨vb, vu, _, _, hlp, htk, _⟩ := hv
  refine NoErr.bind (poolData_live hov hi hb hlp) fun d hd => ?_
  simp only [backstopData, bind_ok, require_ok] at hd
  obtain ⟨_, _, _, _, hd⟩ := hd
  have htok : d.tokens = (w.backstop.getPoolBal p).tokens := by
    simp only [Backstop.loadPoolData, bind_ok, pure_ok, Prod.exists, ite_ok, unwrap_ok] at hd
    rcases hd with ⟨_, _, _, vb, vu, h1, b, hb, u, hu, rfl⟩ | ⟨_, _, _, vb, vu, h1, b, hb, u, hu, rfl⟩ <;> rfl
  refine NoErr.bind (toBase_live hov (by omega)) fun y hy => ?_
  obtain ⟨_, htv, _⟩ := tokenValue_ok hr (by positivity) hd hy
  obtain rfl := htv.unique hv
  unfold fixedMulFloor fixedDivFloor
  exact NoErr.bind (NoErr.mulDivFloor (by decide) ov) fun _ _ => NoErr.bind (NoErr.mulDivFloor (by have := hm.1; omega) ov) fun _ _ =>
    NoErr.bind (token_live hi hb hbi) fun _ _ => NoErr.pure

/-- an interest auction is only made of reserves -/
theorem interestLoop_listed (hr : Reachable w) : ∀ (l : List Address) (x y : Int × SMap Int × Cache),
    CacheCur (w.pools p) (w.pools p) w.time x.2.2 → interestLoop w (w.pools p) l x = .ok y → ∀ a ∈ l, a ∈ (w.pools p).resList := by
  intro l
  induction l with
  | nil => intro _ _ _ _ a ha; cases ha
  | cons b l ih =>
    intro x y hc h a ha
    obtain ⟨value, lot, cache⟩ := x
    simp only [interestLoop, bind_ok, Prod.exists, ite_ok] at h
    obtain ⟨r, c1, hl, h⟩ := h
    obtain ⟨hm, _, _, hc1⟩ := hc.load hl
    rcases List.mem_cons.1 ha with rfl | ha
    · obtain ⟨c, hcc, _⟩ := hm.cfg
      exact List.mem_of_getElem? ((hr.base.cfg p).idx a c hcc)
    · rcases h with ⟨_, _, _, _, _, _, _, h⟩ | ⟨_, h⟩
      · exact ih _ _ hc1 h a ha
      · exact ih _ _ hc1 h a ha

end Pool
end Blend
