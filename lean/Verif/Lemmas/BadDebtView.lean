import Verif.Lemmas.Liquidation
import Verif.Lemmas.AuctionStep
/-
  What the transfer of bad debt does, seen from outside (C21).
-/

namespace Blend
namespace Pool
open Spec

/-- the data of every reserve is the same up to accrued interest -/
def AccruedTo (V : PoolState) (now : Nat) (D : Address → Option ReserveData) : Prop :=
  ∀ a, D a = V.resData a ∨ ∃ d, D a = some d ∧ Current V now a d

theorem badDebt_view {now : Nat} {V : PoolState} :
    ∀ (l : List (Nat × Int)) (ps ps' : PoolState) (cache cache' : Cache) (bs bs' u u' : User),
    CfgOk ps → CacheOk ps now cache → V.inst = ps.inst → V.resConfig = ps.resConfig → AccruedTo V now (overlayData ps cache) →
    badDebtTransferLoop now l (ps, cache, bs, u) = .ok (ps', cache', bs', u') →
    CacheOk ps' now cache' ∧ AccruedTo V now (overlayData ps' cache') ∧
    SameConfig ps ps' ∧ ps'.positions = ps.positions ∧ ps'.auctions = ps.auctions ∧ u'.addr = u.addr ∧ bs'.addr = bs.addr ∧
    bs'.pos.supply = bs.pos.supply ∧ bs'.pos.collateral = bs.pos.collateral ∧
    u'.pos.supply = u.pos.supply ∧ u'.pos.collateral = u.pos.collateral ∧
    (∀ k, bs'.pos.liabilities.bal k = bs.pos.liabilities.bal k + lsum l k) ∧
    ∀ k, u'.pos.liabilities.bal k = u.pos.liabilities.bal k - lsum l k := by
  intro l
  induction l with
  | nil =>
    intro ps ps' cache cache' bs bs' u u' _ ok _ _ acc h
    simp only [badDebtTransferLoop, pure_ok, Prod.mk.injEq] at h
    obtain ⟨rfl, rfl, rfl, rfl⟩ := h
    exact ⟨ok, acc, .refl _, rfl, rfl, rfl, rfl, rfl, rfl, rfl, rfl, by simp, by simp⟩
  | cons kv t ih =>
    intro ps ps' cache cache' bs bs' u u' cfg ok hVi hVc acc h
    obtain ⟨i, bal⟩ := kv
    simp only [badDebtTransferLoop, bind_ok, Prod.exists, unwrap_ok] at h
    obtain ⟨a, hi, r, c1, hload, ps1, bs1, r1, hadd, ps2, u1, r2, hrm, h⟩ := h
    have hld := loadReserve_true ok hload
    obtain ⟨_, ⟨x1, e1⟩, ad1, hr1, pos1⟩ := isAddLiab hadd
    obtain ⟨_, ⟨x2, e2⟩, ad2, hr2, pos2⟩ := isRemoveLiab hrm
    obtain ⟨sc1, sp1, sa1, -⟩ := updateEmissions_other e1
    obtain ⟨sc2, sp2, sa2, -⟩ := updateEmissions_other e2
    have sc := sc1.trans sc2
    obtain ⟨cf, hcf, hci, hcs⟩ := hld.rm.cfg
    have hidx : r.index = i := hci.trans (cfg.index_list hi hcf)
    have hr2' : r2 = r := by
      subst hr1 hr2
      simp only [Kind.addSupply, if_true, Bool.false_eq_true, if_false, add_neg_cancel_right]
    subst hr2'
    have hridx : r1.index = i := by subst hr1; exact hidx
    have ok2 : CacheOk ps2 now (c1.put r2) := (ok.put hld hld.rm).same sc
    have cfg2 : CfgOk ps2 :=
      ⟨sc.resList ▸ cfg.nodup, sc.resList ▸ cfg.len, by rw [sc.resConfig, sc.resList]; exact cfg.idx,
        by rw [sc.resConfig, sc.resList, sc.resData]; exact cfg.list,
        by rw [sc.resConfig, sc.resData]; exact cfg.data, by rw [sc.resConfig]; exact cfg.valid,
        by rw [sc.resInit]; exact cfg.queued, by rw [sc.inst]; exact cfg.rate⟩
    have acc2 : AccruedTo V now (overlayData ps2 (c1.put r2)) := by
      intro b
      have e : overlayData ps2 (c1.put r2) b = if b = r2.asset then some r2.data else overlayData ps cache b := by
        rw [← overlayData_put (ps := ps) hld.reserves b]
        simp only [overlayData, sc.resData]
      rw [e]
      split
      · rename_i hb
        rw [hld.rm.asset] at hb
        subst hb
        obtain ⟨c, d, j, hc, hd, hj, hjc, ha⟩ := hld.data
        rcases acc b with h1 | ⟨d1, h1, h2⟩
        · exact .inr ⟨_, rfl, c, d, j, by rw [hVc]; exact hc, by rw [← h1]; exact hd, by rw [hVi]; exact hj, ha⟩
        · rw [hd] at h1
          cases h1
          refine .inr ⟨_, rfl, ?_⟩
          obtain ⟨c', d0, j', hc', hd0, hj', ha'⟩ := h2
          have ht : d.lastTime = now := accrue_time ha'
          rw [accrue_idem ht] at ha
          cases ha
          exact ⟨c', d0, j', hc', hd0, hj', ha'⟩
      · exact acc b
    obtain ⟨i1, i2, i3, i4, i5, i6, i7, i8, i9, i10, i11, i12, i13⟩ := ih ps2 ps' _ cache' bs1 bs' u1 u' cfg2 ok2
      (by rw [sc.inst]; exact hVi) (by rw [sc.resConfig]; exact hVc) acc2 h
    simp only [if_true] at pos1
    simp only [Bool.false_eq_true, if_false] at pos2
    have pos2' := pos2.2
    refine ⟨i1, i2, sc.trans i3, i4.trans (sp2.trans sp1), i5.trans (sa2.trans sa1), i6.trans ad2, i7.trans ad1,
      i8.trans (by rw [pos1]; rfl), i9.trans (by rw [pos1]; rfl), i10.trans (by rw [pos2']; rfl), i11.trans (by rw [pos2']; rfl),
      fun k => ?_, fun k => ?_⟩
    · rw [i12 k, pos1, lsum_cons]
      simp only [Kind.put, Kind.map, SMap.bal_set, hidx]
      by_cases hk : k = i
      · subst hk; simp; omega
      · have : ¬ i = k := fun e => hk e.symm
        simp [hk, this]
    · rw [i13 k, pos2', lsum_cons]
      simp only [Kind.put, Kind.map, bal_setBal, hridx]
      by_cases hk : k = i
      · subst hk; simp; omega
      · have : ¬ i = k := fun e => hk e.symm
        simp [hk, this]

structure BadDebtMoved (w : World) (p u : Address) (w' : World) : Prop where
  inst : ∃ i, (w.pools p).inst = some i ∧ u ≠ i.backstop ∧
    (∀ k, (accountOf (w'.pools p) i.backstop).debt k = (accountOf (w.pools p) i.backstop).debt k + (accountOf (w.pools p) u).debt k) ∧
    ∀ x, x ≠ u → x ≠ i.backstop → ∀ k, (accountOf (w'.pools p) x).debt k = (accountOf (w.pools p) x).debt k
  collateral : ∀ k, (accountOf (w.pools p) u).collateral k = 0
  debt : ∃ k, 0 < (accountOf (w.pools p) u).debt k
  debt' : ∀ k, (accountOf (w'.pools p) u).debt k = 0
  other : ∀ x k, (accountOf (w'.pools p) x).supplied k = (accountOf (w.pools p) x).supplied k ∧
    (accountOf (w'.pools p) x).collateral k = (accountOf (w.pools p) x).collateral k
  data : AccruedTo (w.pools p) w.time (w'.pools p).resData
  auctions : (w'.pools p).auctions = (w.pools p).auctions
  balance : ∀ t x, w'.balance t x = w.balance t x

theorem badDebt_moved {w w' : World} (cfg : CfgOk (w.pools p)) (hinv : PInv w.time (.of w p))
    (h : transferBadDebt w p u = .ok w') : BadDebtMoved w p u w' := by
  unfold transferBadDebt PoolState.getInst at h
  simp only [bind_ok, unwrap_ok, require_ok, Prod.exists, pure_ok] at h
  obtain ⟨i, hi, _, hne, _, hc, cache, hcl, ps1, cache', bs', u', hl, ps2, hst, rfl⟩ := h
  obtain ⟨ok0, hr0, _, _⟩ := load_ok (now := w.time) hcl
  push Not at hc
  obtain ⟨hcoll, hdebt⟩ := hc
  have acc0 : AccruedTo (w.pools p) w.time (overlayData (w.pools p) cache) := fun a => .inl (by simp [overlayData, hr0])
  obtain ⟨ok1, acc1, sc, hpos, hauc, au, ab, b1, b2, u1, u2, bl, ul⟩ :=
    badDebt_view _ _ _ _ _ _ _ _ _ cfg ok0 rfl rfl acc0 hl
  have hov := store_overlay (u := bs') ok1 (.refl ok1.res) hst
  have hps : (w.setPool p (u'.store (bs'.store ps2))).pools p = u'.store (overlay ps1 cache' [bs']) := by
    rw [pools_setPool, hov]
  have hgu : getPositions (u'.store (overlay ps1 cache' [bs'])) u = u'.pos := by
    simp [getPositions, User.store, setPositions, au, User.load]
  have hgb : getPositions (u'.store (overlay ps1 cache' [bs'])) i.backstop = bs'.pos := by
    have h1 : i.backstop ≠ u := fun e => hne e.symm
    simp [getPositions, User.store, setPositions, au, ab, User.load, overlay, SMap.get_set, h1]
  have hgx : ∀ x, x ≠ u → x ≠ i.backstop → getPositions (u'.store (overlay ps1 cache' [bs'])) x = getPositions (w.pools p) x := by
    intro x h1 h2
    simp [getPositions, User.store, setPositions, au, ab, User.load, overlay, SMap.get_set, h1, h2, hpos]
  have hls : ∀ k, lsum (User.load (w.pools p) u).pos.liabilities.toList k = (getPositions (w.pools p) u).liabilities.bal k :=
    fun k => lsum_toList _ k
  have hul : ∀ k, u'.pos.liabilities.bal k = 0 := fun k => by
    rw [ul, hls]; simp [User.load]
  refine ⟨⟨i, hi, hne, fun k => ?_, fun x h1 h2 k => ?_⟩, fun k => ?_, ?_, fun k => ?_, fun x k => ?_, ?_, ?_, fun t x => rfl⟩
  · rw [hps]
    simp only [accountOf, hgb, bl, hls]
    simp [User.load]
  · rw [hps]
    simp only [accountOf, hgx x h1 h2]
  · have : (getPositions (w.pools p) u).collateral.isEmpty = true := by
      cases e : (getPositions (w.pools p) u).collateral.isEmpty
      · exact absurd e hcoll
      · rfl
    show (getPositions (w.pools p) u).collateral.bal k = 0
    simp [SMap.bal, SMap.get_of_isEmpty this]
  · obtain ⟨k, v, hkv⟩ : ∃ k v, (getPositions (w.pools p) u).liabilities.get k = some v := by
      cases e : (getPositions (w.pools p) u).liabilities.toList with
      | nil => exact absurd (SMap.isEmpty_iff.2 e) hdebt
      | cons kv l => exact ⟨kv.1, kv.2, SMap.mem_toList.1 (by rw [e]; simp)⟩
    obtain ⟨pos, h1, h2⟩ := getPositions_get (k := .liab) (u := u) (ps := w.pools p) hkv
    have := (hinv.bals u pos .liab k v h1 h2).1
    refine ⟨k, ?_⟩
    show 0 < (getPositions (w.pools p) u).liabilities.bal k
    simp only [SMap.bal, hkv, Option.getD_some]
    exact this
  · rw [hps]
    simp only [accountOf, hgu, hul]
  · rw [hps]
    by_cases hx : x = u
    · subst hx
      simp only [accountOf, hgu, u1, u2]
      exact ⟨rfl, rfl⟩
    · by_cases hb : x = i.backstop
      · subst hb
        simp only [accountOf, hgb, b1, b2]
        exact ⟨rfl, rfl⟩
      · simp only [accountOf, hgx x hx hb, and_self]
  · rw [hps]
    exact acc1
  · rw [hps]
    exact hauc

end Pool
end Blend
