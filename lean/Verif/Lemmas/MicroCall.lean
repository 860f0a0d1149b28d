import Verif.Lemmas.MicroSubmit
import Verif.Model.System
/-
  Every pool entry point as small steps.
-/

namespace Blend
namespace Pool
open Spec

/-- The configuration part of a pool's storage is well formed. -/
structure CfgOk (ps : PoolState) : Prop where
  nodup : ps.resList.Nodup
  len : ps.resList.length ≤ 32
  idx : ∀ a c, ps.resConfig a = some c → ps.resList[c.index]? = some a
  list : ∀ a, a ∈ ps.resList → ∃ c d, ps.resConfig a = some c ∧ ps.resData a = some d
  data : ∀ a d, ps.resData a = some d → ∃ c, ps.resConfig a = some c
  valid : ∀ a c, ps.resConfig a = some c → ValidConfig c
  queued : ∀ a q, ps.resInit a = some q → ValidConfig q.newConfig
  rate : ∀ i, ps.inst = some i → i.config.bstopRate < 10000000

theorem CfgOk.index_list {ps : PoolState} (h : CfgOk ps) {a : Address} {i : Nat}
    (hi : ps.resList[i]? = some a) {c : ReserveConfig} (hc : ps.resConfig a = some c) : c.index = i := by
  have h1 := h.idx a c hc
  rw [List.getElem?_eq_some_iff] at h1 hi
  obtain ⟨l1, e1⟩ := h1
  obtain ⟨l2, e2⟩ := hi
  exact (List.getElem_inj h.nodup).1 (e1.trans e2.symm)

theorem CfgOk.index_inj {ps : PoolState} (h : CfgOk ps) {a b : Address} {c d : ReserveConfig}
    (ha : ps.resConfig a = some c) (hb : ps.resConfig b = some d) (e : c.index = d.index) : a = b := by
  have h1 := h.idx a c ha
  have h2 := h.idx b d hb
  rw [e] at h1
  rw [h1] at h2
  exact Option.some.inj h2

/-! ### bad debt -/

theorem loaded_of_put {ps : PoolState} {now : Nat} {c : Cache} {a : Address} {r : Reserve}
    (ok : CacheOk ps now (c.put r)) (ha : r.asset = a) : Loaded ps now (c.put r) a r (c.put r) := by
  have hr : (c.put r).reserves.get a = some r := by simp [Cache.put, ha]
  refine loadReserve_true ok ?_
  unfold Cache.loadReserve
  have hm : a ∈ (c.put r).toStore := (ok.store a).2 (by simp [hr])
  simp only [hm, not_true_eq_false, and_false, if_false, hr]
  rfl

theorem put_put (c : Cache) {r r' : Reserve} (h : r'.asset = r.asset) : (c.put r).put r' = c.put r' := by
  unfold Cache.put; simp [h, SMap.set_set]

theorem badDebt_loop {now : Nat} {U : Address → Prop} {vb : Address → Int} :
    ∀ (l : List (Nat × Int)) (ps ps' : PoolState) (cache cache' : Cache) (bs bs' u u' : User),
    CfgOk ps → CacheOk ps now cache → U bs.addr → U u.addr → u.addr ≠ bs.addr →
    l.Pairwise (fun a b => a.1 < b.1) →
    (∀ kv ∈ l, u.pos.liabilities.get kv.1 = some kv.2) →
    badDebtTransferLoop now l (ps, cache, bs, u) = .ok (ps', cache', bs', u') →
    PMicros now U ⟨overlay ps cache ([u] ++ [bs]), vb, fun _ => 0, fun _ => 0⟩
      ⟨overlay ps' cache' ([u'] ++ [bs']), vb, fun _ => 0, fun _ => 0⟩ ∧
    CacheOk ps' now cache' ∧ u'.addr = u.addr ∧ bs'.addr = bs.addr := by
  intro l
  induction l with
  | nil =>
    intro ps ps' cache cache' bs bs' u u' _ ok _ _ _ _ _ h
    simp only [badDebtTransferLoop, pure_ok, Prod.mk.injEq] at h
    obtain ⟨rfl, rfl, rfl, rfl⟩ := h
    exact ⟨.refl _, ok, rfl, rfl⟩
  | cons kv t ih =>
    intro ps ps' cache cache' bs bs' u u' cfg ok hUb hUu hne hs hl h
    obtain ⟨i, bal⟩ := kv
    simp only [badDebtTransferLoop, bind_ok, Prod.exists, unwrap_ok] at h
    obtain ⟨a, hi, r, c1, hload, ps1, bs1, r1, hadd, ps2, u1, r2, hrm, h⟩ := h
    have hld := loadReserve_true ok hload
    have s1 := isAddLiab hadd
    have s2 := isRemoveLiab hrm
    have hub : u.pos.liabilities.get i = some bal := hl (i, bal) (by simp)
    obtain ⟨cf, hcf, hci, hcs⟩ := hld.rm.cfg
    have hidx : r.index = i := hci.trans (cfg.index_list hi hcf)
    have cp1 : Coupled .liab a r.data (if true then bal else -bal)
        ⟨overlay ps (c1.put r) ([u] ++ [bs]), vb, fun _ => 0, fun _ => 0⟩ vb (fun _ => 0)
        (upd (fun _ => 0) a (0 - bal)) := .transitD rfl
    obtain ⟨m1, ok1, sc1, pos1, au1, ad1⟩ := micro_share (us := [u]) ok hld hUb s1 (fun hp _ => by
      have := hp.bals u.addr u.pos .liab i bal (by
        rw [overlay_positions_append, SMap.get_set_ne hne]
        simp [overlay]) hub
      omega) cp1
    have ha1 : r1.asset = a := by obtain ⟨_, _, _, rfl, _⟩ := s1; exact hld.rm.asset
    have hld1 := loaded_of_put ok1 ha1
    have cp2 : Coupled .liab a r1.data (if false then bal else -bal)
        ⟨overlay ps1 ((c1.put r1).put r1) ([bs1] ++ [u]), vb, fun _ => 0, upd (fun _ => 0) a (0 - bal)⟩
        vb (fun _ => 0)
        (upd (upd (fun _ => 0) a (0 - bal)) a (upd (fun _ => 0) a (0 - bal) a - -bal)) := .transitD rfl
    obtain ⟨m2, ok2, sc2, pos2, au2, ad2⟩ := micro_share (us := [bs1]) ok1 hld1 hUu s2 (by simp) cp2
    have ha2 : r2.asset = r1.asset := by obtain ⟨_, _, _, rfl, _⟩ := s2; rfl
    have hri : r1.index = i := by obtain ⟨_, _, _, rfl, _⟩ := s1; exact hidx
    rw [put_put _ ha2] at m2 ok2
    have cfg2 : CfgOk ps2 := by
      have sc := sc1.trans sc2
      exact ⟨sc.resList ▸ cfg.nodup, sc.resList ▸ cfg.len, by rw [sc.resConfig, sc.resList]; exact cfg.idx,
        by rw [sc.resConfig, sc.resList, sc.resData]; exact cfg.list,
        by rw [sc.resConfig, sc.resData]; exact cfg.data, by rw [sc.resConfig]; exact cfg.valid,
        by rw [sc.resInit]; exact cfg.queued, by rw [sc.inst]; exact cfg.rate⟩
    rw [List.pairwise_cons] at hs
    obtain ⟨i1, i2, i3, i4⟩ := ih ps2 ps' _ cache' bs1 bs' u1 u' cfg2 ok2 (ad1 ▸ hUb) (ad2 ▸ hUu)
      (by rw [ad1, ad2]; exact hne) hs.2 (by
        intro kv hkv
        obtain ⟨_, _, _, _, hpos⟩ := s2
        simp only [Bool.false_eq_true, if_false] at hpos
        rw [hpos.2, hri]
        have hlt := hs.1 kv hkv
        have hne' : kv.1 ≠ i := by simp only at hlt; omega
        have : (Kind.liab.map u.pos).get kv.1 = some kv.2 := hl kv (by simp [hkv])
        simp only [Kind.put, setBal]
        split
        · rw [SMap.get_del, if_neg hne']; exact this
        · rw [SMap.get_set_ne hne']; exact this) h
    refine ⟨?_, i2, i3.trans ad2, i4.trans ad1⟩
    have hsw : u.addr ≠ bs1.addr := by rw [ad1]; exact hne
    rw [overlay_swap _ _ u bs1 hsw] at m1
    rw [overlay_swap _ _ bs1 u1 (by rw [ad2]; exact Ne.symm hsw)] at m2
    have z : upd (upd (fun _ => (0 : Int)) a (0 - bal)) a (upd (fun _ => 0) a (0 - bal) a - -bal) =
        fun _ => 0 := by
      funext b; simp only [upd_apply, if_true]; split <;> omega
    rw [z] at m2
    exact (m1.trans m2).trans i1

theorem badDebt_micros {w w' : World} {p user : Address} (cfg : CfgOk (w.pools p))
    (h : transferBadDebt w p user = .ok w') :
    PMicros w.time (fun x => x = user ∨ ∃ i, (w.pools p).inst = some i ∧ x = i.backstop)
      (.of w p) (.of w' p) := by
  unfold transferBadDebt PoolState.getInst at h
  simp only [bind_ok, unwrap_ok, require_ok, Prod.exists, pure_ok] at h
  obtain ⟨i, hi, _, hne, _, hc, cache, hcl, ps1, cache', bs', u', hl, ps2, hst, rfl⟩ := h
  obtain ⟨ok0, hr0, _, _⟩ := load_ok (now := w.time) hcl
  set U : Address → Prop := fun x => x = user ∨ ∃ i, (w.pools p).inst = some i ∧ x = i.backstop with hU
  have hUu : U user := .inl rfl
  have hUb : U i.backstop := .inr ⟨i, hi, rfl⟩
  obtain ⟨m, ok1, e1, e2⟩ := badDebt_loop (U := U) (vb := fun a => w.balance a p) _ _ _ _ _
    (User.load (w.pools p) i.backstop) _ (User.load (w.pools p) user) _ cfg ok0 hUb hUu hne
    (User.load (w.pools p) user).pos.liabilities.sorted
    (fun kv hkv => SMap.mem_toList.1 hkv) hl
  have t1 := PMicro.touch (now := w.time) (U := U) (.of w p) user hUu
  have e0 : ({ VS.of w p with ps := setPositions (w.pools p) user (getPositions (w.pools p) user) } : VS)
      = ⟨overlay (w.pools p) cache [User.load (w.pools p) user], fun a => w.balance a p, fun _ => 0, fun _ => 0⟩ := by
    unfold VS.of
    simp only [overlay_load hr0]
    simp [setPositions, User.load]
  have t1' : PMicro w.time U (.of w p) ⟨overlay (w.pools p) cache [User.load (w.pools p) user],
      fun a => w.balance a p, fun _ => 0, fun _ => 0⟩ := by rw [← e0]; exact t1
  have t2 := micro_touch (ps := w.pools p) (now := w.time) (U := U) (cache := cache)
    (u := User.load (w.pools p) user) (a := i.backstop) (vb := fun a => w.balance a p)
    (pb := fun _ => 0) (pd := fun _ => 0) (Ne.symm hne) hUb
  refine (((PMicros.one t1').trans (.one t2)).trans m).trans ?_
  have hov := store_overlay (u := bs') ok1 (.refl ok1.res) hst
  have : (VS.of (w.setPool p (u'.store (bs'.store ps2))) p) =
      ⟨overlay ps1 cache' ([u'] ++ [bs']), fun a => w.balance a p, fun _ => 0, fun _ => 0⟩ := by
    unfold VS.of
    simp only [pools_setPool, balance_setPool, hov]
    rw [overlay_swap _ _ u' bs' (by rw [e1, e2]; exact hne)]
    rfl
  rw [this]
  exact .refl _

/-! ### claims and gulps -/

theorem updateEmissions_other {ps ps' : PoolState} {now id : Nat} {supply scalar : Int} {u : Address}
    {bal x : Int} {claim : Bool}
    (h : updateEmissions ps now id supply scalar u bal claim = .ok (x, ps')) :
    SameConfig ps ps' ∧ ps'.positions = ps.positions ∧ ps'.auctions = ps.auctions ∧
    ps'.claimed = ps.claimed ∧ ps'.received = ps.received ∧ ps'.writtenOff = ps.writtenOff ∧
    ps'.poolEmis = ps.poolEmis := by
  obtain ⟨ed, ue, rfl, _⟩ := updateEmissions_frame h
  exact ⟨⟨rfl, rfl, rfl, rfl, rfl, rfl, rfl, rfl, rfl⟩, rfl, rfl, rfl, rfl, rfl, rfl⟩

theorem claim_loop {now : Nat} {U : Address → Prop} {vb pb pd : Address → Int} {sender : Address}
    (hU : U sender) :
    ∀ (l : List Nat) (n n' : Int) (ps ps' : PoolState),
    claimLoop now sender (getPositions ps sender) l (n, ps) = .ok (n', ps') →
    PMicros now U ⟨ps, vb, pb, pd⟩ ⟨ps', vb, pb, pd⟩ ∧ SameCfg ps ps' := by
  intro l
  induction l with
  | nil =>
    intro n n' ps ps' h
    simp only [claimLoop, pure_ok, Prod.mk.injEq] at h
    obtain ⟨rfl, rfl⟩ := h
    exact ⟨.refl _, .refl _⟩
  | cons id l ih =>
    intro n n' ps ps' h
    simp only [claimLoop] at h
    cases ha : ps.resList[id / 2]? with
    | none => simp [ha] at h
    | some a =>
      simp only [ha, bind_ok, unwrap_ok, Prod.exists, chk_ok, pow10_ok] at h
      obtain ⟨c, hc, d, hd, h⟩ := h
      have key : ∃ bal, (bal = if id % 2 = 0 then (getPositions ps sender).liabilities.bal (id / 2) else
          (getPositions ps sender).collateral.bal (id / 2) + (getPositions ps sender).supply.bal (id / 2)) ∧
          ∃ amt ps1, updateEmissions ps now id (if id % 2 = 0 then d.dSupply else d.bSupply)
            (10 ^ c.decimals) sender bal true = .ok (amt, ps1) ∧
          claimLoop now sender (getPositions ps sender) l
            (n + amt, { ps1 with claimed := upd ps1.claimed id (ps1.claimed id + amt) }) = .ok (n', ps') := by
        simp only [ite_ok, bind_ok, chk_ok, pure_ok, Prod.exists, pow10_ok] at h
        rcases h with ⟨h0, b, rfl, sc, ⟨_, rfl⟩, amt, ps1, hu, t, ⟨_, rfl⟩, h⟩ |
          ⟨h0, b, ⟨_, rfl⟩, sc, ⟨_, rfl⟩, amt, ps1, hu, t, ⟨_, rfl⟩, h⟩
        · exact ⟨_, by simp [h0], amt, ps1, hu, h⟩
        · exact ⟨_, by simp [h0], amt, ps1, hu, h⟩
      obtain ⟨bal, hbal, amt, ps1, hu, hrest⟩ := key
      obtain ⟨o1, o2, o3, o4, _⟩ := updateEmissions_other hu
      have hg : getPositions ps sender =
          getPositions { ps1 with claimed := upd ps1.claimed id (ps1.claimed id + amt) } sender := by
        unfold getPositions; simp only [o2]
      rw [hg] at hrest
      obtain ⟨i1, i2⟩ := ih _ _ _ _ hrest
      have hsc : SameCfg ps1 { ps1 with claimed := upd ps1.claimed id (ps1.claimed id + amt) } :=
        ⟨rfl, rfl, rfl, rfl, rfl, rfl, rfl⟩
      refine ⟨(PMicros.one ?_).trans i1, (o1.cfg.trans hsc).trans i2⟩
      by_cases h0 : id % 2 = 0
      · have hid : Kind.liab.id (id / 2) = id := by simp [Kind.id]; omega
        have := PMicro.emis (now := now) (U := U) ⟨ps, vb, pb, pd⟩ ps1 .liab a sender c d (id / 2) true amt
          hU hc hd (.inl ha) (by
            rw [hid]; simp only [h0, if_true] at hu hbal
            rw [hbal] at hu
            exact hu)
        rw [hid] at this
        exact this
      · have hid : Kind.coll.id (id / 2) = id := by simp [Kind.id]; omega
        have := PMicro.emis (now := now) (U := U) ⟨ps, vb, pb, pd⟩ ps1 .coll a sender c d (id / 2) true amt
          hU hc hd (.inl ha) (by
            rw [hid]; simp only [h0, if_false] at hu hbal
            rw [hbal] at hu
            exact hu)
        rw [hid] at this
        exact this

theorem claim_micros {w w' : World} {p sender dst : Address} {ids : List Nat} {n : Int}
    (hal : ∀ t s, (w.tok t).allow p s = (0, 0))
    (h : executeClaim w p sender ids dst = .ok (n, w')) :
    PMicros w.time (fun x => x = sender) (.of w p) (.of w' p) := by
  unfold executeClaim PoolState.getInst at h
  simp only [bind_ok, Prod.exists, ite_ok, unwrap_ok, pure_ok, Prod.mk.injEq] at h
  obtain ⟨n1, ps1, hl, h⟩ := h
  obtain ⟨m, sc⟩ := claim_loop (U := fun x => x = sender) (vb := fun a => w.balance a p)
    (pb := fun _ => 0) (pd := fun _ => 0) rfl _ _ _ _ _ hl
  rcases h with ⟨hpos, i, hi, w2, ht, _, rfl⟩ | ⟨_, _, rfl⟩
  · have r := transferFrom_res ht
    refine m.trans ?_
    have hp2 : w2.pools p = ps1 := by rw [r.frame]; simp
    have hb : i.backstop ≠ p := by
      intro hb
      have h0 : (w.setPool p ps1).allowance i.blnd i.backstop p = 0 := by
        simp [World.allowance, World.setPool, hb, hal]
      have := r.allowed
      omega
    have := PMicro.gain (now := w.time) (U := fun x => x = sender)
      ⟨ps1, fun a => w.balance a p, fun _ => 0, fun _ => 0⟩ (fun a => w2.balance a p) (by
        intro a
        show w.balance a p ≤ w2.balance a p
        rw [r.bal, balance_setPool]
        unfold moved
        have := r.nonneg
        simp only [Ne.symm hb, and_false, if_false]
        split <;> omega)
    unfold VS.of
    rw [hp2]
    exact .one this
  · have : VS.of (w.setPool p ps1) p = ⟨ps1, fun a => w.balance a p, fun _ => 0, fun _ => 0⟩ := by
      unfold VS.of; simp [balance_setPool]
    rw [this]; exact m

/-- what the pool's own gulp does to the backstop and the BLND allowance -/
theorem gulpPoolAuth_frame {w w1 : World} {auth : List Address} {pool : Address} {n : Int}
    (h : Backstop.gulpPoolEmissionsAuth w auth pool = .ok (n, w1)) :
    pool ∈ auth ∧ n = w.backstop.poolEmis pool ∧ n ≠ 0 ∧ ∃ i, w.backstop.inst = some i ∧
    w1 = (w.setAllowance i.blnd w.backstopAddr pool (w.allowance i.blnd w.backstopAddr pool + n)
        (w.seq + Backstop.LEDGER_BUMP_USER)).setBackstop
      { w.backstop with poolEmis := upd w.backstop.poolEmis pool 0 } := by
  unfold Backstop.gulpPoolEmissionsAuth Backstop.gulpPoolEmissions Backstop.inst at h
  simp only [bind_ok, requireAuth_ok, require_ok, unwrap_ok, chk_ok, pure_ok, Prod.mk.injEq] at h
  obtain ⟨_, ha, _, hn, i, hi, _, ⟨_, rfl⟩, w2, hap, rfl, rfl⟩ := h
  obtain ⟨_, rfl⟩ := approve_res hap
  exact ⟨ha, rfl, hn, i, hi, rfl⟩

theorem gulp_loop {now : Nat} {U : Address → Prop} {vb pb pd : Address → Int} {n : Int} (hn : 0 ≤ n) :
    ∀ (l : List (Nat × Nat)) (ps ps' : PoolState),
    l.foldlM (fun ps kv => do
      let asset ← unwrap (ps.resList[kv.1 / 2]?)
      let n ← fixedMulFloor (kv.2 : Int) n SCALAR_7
      updateReserveEmisConfig ps now asset kv.1 n) ps = .ok ps' →
    PMicros now U ⟨ps, vb, pb, pd⟩ ⟨ps', vb, pb, pd⟩ := by
  intro l
  induction l with
  | nil => intro ps ps' h; rw [foldlM_nil] at h; subst h; exact .refl _
  | cons kv l ih =>
    intro ps ps' h
    rw [foldlM_cons] at h
    obtain ⟨ps1, h1, h2⟩ := h
    simp only [bind_ok, unwrap_ok] at h1
    obtain ⟨a, ha, x, hx, hu⟩ := h1
    have hx0 : 0 ≤ x := mulDivFloor_nonneg hx S7_pos (Int.mul_nonneg (by omega) hn)
    exact (PMicros.one (PMicro.gulp (now := now) (U := U) ⟨ps, vb, pb, pd⟩ ps1 a kv.1 x ha hx0 hu)).trans
      (ih _ _ h2)

theorem gulp_micros {w w' : World} {p : Address} {n : Int} {U : Address → Prop}
    (h : gulpEmissions w p = .ok (n, w')) : PMicros w.time U (.of w p) (.of w' p) := by
  unfold gulpEmissions doGulp PoolState.getInst at h
  simp only [bind_ok, unwrap_ok, require_ok, Prod.exists, pure_ok, Prod.mk.injEq] at h
  obtain ⟨i, hi, _, _, n1, w1, hg, ps, ⟨_, hn, hl⟩, rfl, rfl⟩ := h
  obtain ⟨_, _, _, bi, _, rfl⟩ := gulpPoolAuth_frame hg
  have hn0 : (0 : Int) ≤ n1 := by
    have : SCALAR_7 ≤ n1 := by omega
    have h7 := S7_pos
    omega
  have := gulp_loop (U := U) (vb := fun a => w.balance a p) (pb := fun _ => 0) (pd := fun _ => 0) hn0 _ _ _ hl
  have e : VS.of (World.setPool (World.setBackstop
      (w.setAllowance bi.blnd w.backstopAddr p (w.allowance bi.blnd w.backstopAddr p + n1)
        (w.seq + Backstop.LEDGER_BUMP_USER))
      { w.backstop with poolEmis := upd w.backstop.poolEmis p 0 }) p ps) p =
      ⟨ps, fun a => w.balance a p, fun _ => 0, fun _ => 0⟩ := by
    unfold VS.of
    rw [pools_setPool]
    congr 1
    funext a
    exact (setAllowance_res w bi.blnd w.backstopAddr p _ _).2.1 a p
  rw [e]
  exact this

end Pool
end Blend
