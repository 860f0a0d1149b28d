import Verif.Lemmas.Micro
/-
  The six share operations and their loops as small steps.
-/

namespace Blend
namespace Pool

/-- The common shape of the six share operations. `add` is the direction. -/
def ShareRes (k : Kind) (add : Bool) (ps : PoolState) (now : Nat) (u : User) (r : Reserve) (amt : Int)
    (ps' : PoolState) (u' : User) (r' : Reserve) : Prop :=
  amt ≠ 0 ∧
  (∃ x, updateEmissions ps now (k.id r.index) (k.supply r.data) r.scalar u.addr
    (k.emisBal u.pos r.index) false = .ok (x, ps')) ∧
  u'.addr = u.addr ∧
  r' = { r with data := k.addSupply r.data (if add then amt else -amt) } ∧
  (if add then
      u'.pos = k.put u.pos ((k.map u.pos).set r.index ((k.map u.pos).bal r.index + amt))
   else 0 ≤ (k.map u.pos).bal r.index - amt ∧
      u'.pos = k.put u.pos (setBal (k.map u.pos) r.index ((k.map u.pos).bal r.index - amt)))

/-- `f` is one of the six operations -/
def IsShareOp (f : ShareOp) (k : Kind) (add : Bool) : Prop :=
  ∀ {ps now u r amt ps' u' r'}, f ps now u r amt = .ok (ps', u', r') →
    ShareRes k add ps now u r amt ps' u' r'

theorem isAddLiab : IsShareOp addLiabilities .liab true := by
  intro ps now u r amt ps' u' r' h
  unfold addLiabilities updateDEmis at h
  simp only [bind_ok, require_ok, Prod.exists, chk_ok, pure_ok, Prod.mk.injEq] at h
  obtain ⟨_, h0, ps1, ⟨x, ps2, he, rfl⟩, nb, ⟨_, rfl⟩, ns, ⟨_, rfl⟩, rfl, rfl, rfl⟩ := h
  exact ⟨h0, ⟨x, he⟩, rfl, rfl, rfl⟩

theorem isRemoveLiab : IsShareOp removeLiabilities .liab false := by
  intro ps now u r amt ps' u' r' h
  unfold removeLiabilities updateDEmis at h
  simp only [bind_ok, require_ok, Prod.exists, chk_ok, pure_ok, Prod.mk.injEq, requireNonneg] at h
  obtain ⟨_, h0, ps1, ⟨x, ps2, he, rfl⟩, nb, ⟨_, rfl⟩, _, hn, ns, ⟨_, rfl⟩, rfl, rfl, rfl⟩ := h
  refine ⟨h0, ⟨x, he⟩, rfl, by simp [Kind.addSupply, sub_eq_add_neg], ?_⟩
  simp only [Bool.false_eq_true, if_false]
  exact ⟨by simpa [Kind.map] using hn, rfl⟩

theorem isAddColl : IsShareOp addCollateral .coll true := by
  intro ps now u r amt ps' u' r' h
  unfold addCollateral updateBEmis User.totalSupply at h
  simp only [bind_ok, require_ok, Prod.exists, chk_ok, pure_ok, Prod.mk.injEq] at h
  obtain ⟨_, h0, _, ⟨_, rfl⟩, ps1, ⟨x, ps2, he, rfl⟩, nb, ⟨_, rfl⟩, ns, ⟨_, rfl⟩, rfl, rfl, rfl⟩ := h
  exact ⟨h0, ⟨x, he⟩, rfl, rfl, rfl⟩

theorem isRemoveColl : IsShareOp removeCollateral .coll false := by
  intro ps now u r amt ps' u' r' h
  unfold removeCollateral updateBEmis User.totalSupply at h
  simp only [bind_ok, require_ok, Prod.exists, chk_ok, pure_ok, Prod.mk.injEq, requireNonneg] at h
  obtain ⟨_, h0, _, ⟨_, rfl⟩, ps1, ⟨x, ps2, he, rfl⟩, nb, ⟨_, rfl⟩, _, hn, ns, ⟨_, rfl⟩, rfl, rfl, rfl⟩ := h
  refine ⟨h0, ⟨x, he⟩, rfl, by simp [Kind.addSupply, sub_eq_add_neg], ?_⟩
  simp only [Bool.false_eq_true, if_false]
  exact ⟨by simpa [Kind.map] using hn, rfl⟩

theorem isAddSupp : IsShareOp addSupply .supp true := by
  intro ps now u r amt ps' u' r' h
  unfold addSupply updateBEmis User.totalSupply at h
  simp only [bind_ok, require_ok, Prod.exists, chk_ok, pure_ok, Prod.mk.injEq] at h
  obtain ⟨_, h0, _, ⟨_, rfl⟩, ps1, ⟨x, ps2, he, rfl⟩, nb, ⟨_, rfl⟩, ns, ⟨_, rfl⟩, rfl, rfl, rfl⟩ := h
  exact ⟨h0, ⟨x, he⟩, rfl, rfl, rfl⟩

theorem isRemoveSupp : IsShareOp removeSupply .supp false := by
  intro ps now u r amt ps' u' r' h
  unfold removeSupply updateBEmis User.totalSupply at h
  simp only [bind_ok, require_ok, Prod.exists, chk_ok, pure_ok, Prod.mk.injEq, requireNonneg] at h
  obtain ⟨_, h0, _, ⟨_, rfl⟩, ps1, ⟨x, ps2, he, rfl⟩, nb, ⟨_, rfl⟩, _, hn, ns, ⟨_, rfl⟩, rfl, rfl, rfl⟩ := h
  refine ⟨h0, ⟨x, he⟩, rfl, by simp [Kind.addSupply, sub_eq_add_neg], ?_⟩
  simp only [Bool.false_eq_true, if_false]
  exact ⟨by simpa [Kind.map] using hn, rfl⟩

/-! ### the cache -/

theorem load_match {ps : PoolState} {rate now : Nat} {a : Address} {r : Reserve}
    (h : Reserve.load ps rate now a = .ok r) :
    ResMatch ps now a r ∧ ∃ c d, ps.resConfig a = some c ∧ ps.resData a = some d ∧
      accrue c rate now d = .ok r.data := by
  unfold Reserve.load at h
  simp only [bind_ok, unwrap_ok, pure_ok, pow10_ok] at h
  obtain ⟨c, hc, d, hd, sc, ⟨_, rfl⟩, d', hd', rfl⟩ := h
  exact ⟨⟨rfl, accrue_time hd', c, hc, rfl, rfl, rfl, rfl, rfl⟩, c, d, hc, hd, hd'⟩

/-- what loading a reserve (to be stored) gives -/
structure Loaded (ps : PoolState) (now : Nat) (cache : Cache) (a : Address) (r : Reserve)
    (cache' : Cache) : Prop where
  rm : ResMatch ps now a r
  reserves : cache'.reserves = cache.reserves
  config : cache'.config = cache.config
  toStore : ∀ b, b ∈ cache'.toStore ↔ b ∈ cache.toStore ∨ b = a
  /-- the data is the accrued version of the (virtual) data -/
  data : ∃ c d i, ps.resConfig a = some c ∧ overlayData ps cache a = some d ∧ ps.inst = some i ∧
    i.config = cache.config ∧ accrue c i.config.bstopRate now d = .ok r.data

theorem loadReserve_true {ps : PoolState} {now : Nat} {cache cache' : Cache} {a : Address}
    {r : Reserve} (ok : CacheOk ps now cache)
    (h : cache.loadReserve ps now a true = .ok (r, cache')) : Loaded ps now cache a r cache' := by
  obtain ⟨i, hi, hic⟩ := ok.config
  unfold Cache.loadReserve at h
  have hst : ∀ c'' : Cache, (if true = true ∧ a ∉ cache.toStore then
      { cache with toStore := cache.toStore ++ [a] } else cache) = c'' →
      c''.reserves = cache.reserves ∧ c''.config = cache.config ∧
      ∀ b, b ∈ c''.toStore ↔ b ∈ cache.toStore ∨ b = a := by
    intro c'' hc
    split at hc <;> subst hc
    · exact ⟨rfl, rfl, fun b => by simp⟩
    · rename_i hn
      simp at hn
      exact ⟨rfl, rfl, fun b => ⟨.inl, fun hb => hb.elim id fun e => e ▸ hn⟩⟩
  obtain ⟨h1, h2, h3⟩ := hst _ rfl
  generalize (if true = true ∧ a ∉ cache.toStore then
      { cache with toStore := cache.toStore ++ [a] } else cache) = c'' at h h1 h2 h3
  simp only at h
  rw [h1, h2] at h
  cases hr : cache.reserves.get a with
  | some r0 =>
    simp only [hr, pure_ok, Prod.mk.injEq] at h
    obtain ⟨rfl, rfl⟩ := h
    have hm := ok.res a r0 hr
    obtain ⟨c, hc, hcc⟩ := hm.cfg
    exact ⟨hm, h1, h2, h3, c, r0.data, i, hc, by simp [overlayData, hr], hi, hic, accrue_idem hm.time⟩
  | none =>
    simp only [hr, bind_ok, pure_ok, Prod.mk.injEq] at h
    obtain ⟨r0, hl, rfl, rfl⟩ := h
    obtain ⟨hm, c, d, hc, hd, ha⟩ := load_match hl
    rw [← hic] at ha
    exact ⟨hm, h1, h2, h3, c, d, i, hc, by simp [overlayData, hr, hd], hi, hic, ha⟩

theorem CacheOk.put {ps : PoolState} {now : Nat} {cache cache' : Cache} {a : Address} {r r' : Reserve}
    (ok : CacheOk ps now cache) (h : Loaded ps now cache a r cache') (hm : ResMatch ps now a r') :
    CacheOk ps now (cache'.put r') := by
  refine ⟨fun b rb hb => ?_, fun b => ?_, ?_⟩
  · simp only [Cache.put, SMap.get_set, hm.asset, h.reserves] at hb
    split at hb
    · rename_i hba; subst hba
      simp at hb; subst hb; exact hm
    · exact ok.res b rb hb
  · simp only [Cache.put, SMap.get_set, hm.asset, h.reserves, h.toStore b, ok.store b]
    split <;> simp_all
  · simp only [Cache.put, h.config]; exact ok.config

theorem overlayData_put {ps : PoolState} {cache cache' : Cache} {r : Reserve}
    (h : cache'.reserves = cache.reserves) (b : Address) :
    overlayData ps (cache'.put r) b = if b = r.asset then some r.data else overlayData ps cache b := by
  unfold overlayData Cache.put
  by_cases hb : b = r.asset <;> simp [SMap.get_set, h, hb]

/-- putting the freshly loaded reserve in the cache is an accrual of the virtual storage -/
theorem micro_load {ps : PoolState} {now : Nat} {U : Address → Prop} {cache cache' : Cache}
    {a : Address} {r : Reserve} {us : List User} {vb pb pd : Address → Int}
    (h : Loaded ps now cache a r cache') :
    PMicro now U ⟨overlay ps cache us, vb, pb, pd⟩ ⟨overlay ps (cache'.put r) us, vb, pb, pd⟩ := by
  obtain ⟨c, d, i, hc, hd, hi, _, ha⟩ := h.data
  have := PMicro.accrue (now := now) (U := U) ⟨overlay ps cache us, vb, pb, pd⟩ a c d r.data i hc hd hi ha
  have e : overlay ps (cache'.put r) us =
      { overlay ps cache us with resData := upd (overlay ps cache us).resData a (some r.data) } := by
    unfold overlay
    congr 1
    funext b
    rw [overlayData_put h.reserves]
    simp only [h.rm.asset, upd_apply]
  rw [e]; exact this

/-- positions after overlaying: the last user in the list wins -/
theorem overlay_positions_append (ps : PoolState) (cache : Cache) (us : List User) (u : User) :
    (overlay ps cache (us ++ [u])).positions = (overlay ps cache us).positions.set u.addr u.pos := by
  simp [overlay, List.foldl_append]

theorem getPositions_overlay_last (ps : PoolState) (cache : Cache) (us : List User) (u : User) :
    getPositions (overlay ps cache (us ++ [u])) u.addr = u.pos := by
  unfold getPositions
  rw [overlay_positions_append, SMap.get_set]; simp

theorem addSupply_lastTime (k : Kind) (d : ReserveData) (x : Int) :
    (k.addSupply d x).lastTime = d.lastTime := by cases k <;> rfl

/-- One share operation on a loaded reserve is a load and one small step of the virtual storage. -/
theorem micro_share {ps ps' : PoolState} {now : Nat} {U : Address → Prop} {cache cache' : Cache}
    {a : Address} {r r' : Reserve} {us : List User} {u u' : User} {k : Kind} {add : Bool} {amt : Int}
    {vb pb pd vb' pb' pd' : Address → Int}
    (ok : CacheOk ps now cache) (h : Loaded ps now cache a r cache') (hU : U u.addr)
    (hs : ShareRes k add ps now u r amt ps' u' r')
    (hamt : PosOk (overlay ps (cache'.put r) (us ++ [u])) → add = true → 0 ≤ amt)
    (hcp : Coupled k a r.data (if add then amt else -amt)
      ⟨overlay ps (cache'.put r) (us ++ [u]), vb, pb, pd⟩ vb' pb' pd') :
    PMicros now U ⟨overlay ps cache (us ++ [u]), vb, pb, pd⟩
      ⟨overlay ps' (cache'.put r') (us ++ [u']), vb', pb', pd'⟩ ∧
    CacheOk ps' now (cache'.put r') ∧ SameConfig ps ps' ∧ ps'.positions = ps.positions ∧
    ps'.auctions = ps.auctions ∧ u'.addr = u.addr := by
  obtain ⟨hne, ⟨x, he⟩, hua, rfl, hpos⟩ := hs
  obtain ⟨c, hc, hci, hcs, hrest⟩ := h.rm.cfg
  obtain ⟨ed, ue, hps', hfr⟩ := updateEmissions_frame he
  have hsame : SameConfig ps ps' := by subst hps'; exact ⟨rfl, rfl, rfl, rfl, rfl, rfl, rfl, rfl, rfl⟩
  have hm' : ResMatch ps now a { r with data := k.addSupply r.data (if add then amt else -amt) } :=
    ⟨h.rm.asset, by rw [addSupply_lastTime]; exact h.rm.time, c, hc, hci, hcs, hrest⟩
  refine ⟨?_, (ok.put h hm').same hsame, hsame, by subst hps'; rfl, by subst hps'; rfl, hua⟩
  refine (PMicros.one (micro_load h)).trans (.one ?_)
  have hV : (overlay ps (cache'.put r) (us ++ [u])).resData a = some r.data := by
    show overlayData ps (cache'.put r) a = _
    rw [overlayData_put h.reserves, h.rm.asset]; simp
  have hgp := getPositions_overlay_last ps (cache'.put r) us u
  rw [hci, hcs] at he
  rw [hci] at hpos
  have hem := hfr (overlay ps (cache'.put r) (us ++ [u])).resData
    (overlay ps (cache'.put r) (us ++ [u])).positions
  rw [hci, hcs] at hem
  have step := PMicro.share (now := now) (U := U)
    ⟨overlay ps (cache'.put r) (us ++ [u]), vb, pb, pd⟩
    { ps with resData := (overlay ps (cache'.put r) (us ++ [u])).resData
              positions := (overlay ps (cache'.put r) (us ++ [u])).positions
              emisData := ed, userEmis := ue }
    k a u.addr c r.data (if add then amt else -amt) x (k.map u'.pos) vb' pb' pd' hU hc hV h.rm.time
    (by rw [hgp]; exact hem)
    (by
      rw [hgp]
      intro hp
      cases add with
      | true =>
        simp only [if_true] at hpos ⊢
        have h0 : 0 ≤ (k.map u.pos).bal c.index := by
          cases hb : (k.map u.pos).get c.index with
          | none => simp [SMap.bal, hb]
          | some v =>
            have := hp.bals u.addr u.pos k c.index v
              (by rw [overlay_positions_append, SMap.get_set]; simp) hb
            simp [SMap.bal, hb]; omega
        have h1 := hamt hp rfl
        left
        refine ⟨by omega, ?_⟩
        rw [hpos]; cases k <;> rfl
      | false =>
        simp only [Bool.false_eq_true, if_false] at hpos ⊢
        right
        refine ⟨by have := hpos.1; omega, ?_⟩
        rw [hpos.2]; cases k <;> rfl)
    hcp
  have e : overlay ps' (cache'.put { r with data := k.addSupply r.data (if add then amt else -amt) })
      (us ++ [u']) = { ps with
        emisData := ed, userEmis := ue
        positions := (overlay ps (cache'.put r) (us ++ [u])).positions.set u.addr
          (k.put (getPositions (overlay ps (cache'.put r) (us ++ [u])) u.addr) (k.map u'.pos))
        resData := upd (overlay ps (cache'.put r) (us ++ [u])).resData a
          (some (k.addSupply r.data (if add then amt else -amt))) } := by
    subst hps'
    rw [hgp]
    have hput : k.put u.pos (k.map u'.pos) = u'.pos := by
      cases add with
      | true => simp only [if_true] at hpos; rw [hpos]; cases k <;> rfl
      | false =>
        simp only [Bool.false_eq_true, if_false] at hpos; rw [hpos.2]; cases k <;> rfl
    rw [hput]
    unfold overlay
    simp only [List.foldl_append, List.foldl_cons, List.foldl_nil, SMap.set_set, hua]
    congr 1
    funext b
    rw [overlayData_put h.reserves, upd_apply]
    show (if b = r.asset then _ else overlayData ps cache b) = _
    rw [h.rm.asset]
    split
    · rfl
    · rename_i hb
      rw [overlayData_put h.reserves, h.rm.asset, if_neg hb]
  rw [e]
  exact step

end Pool
end Blend
