import Verif.Lemmas.LiveCtx
/-
  Which errors the transfer of bad debt can run into (C60).
-/

namespace Blend
namespace Pool
open Spec

variable {E : Err → Bool} {now : Nat}

theorem badDebtLoop_live (hov : E .overflow = false) {vb : Address → Int} :
    ∀ (l : List (Nat × Int)) (ps : PoolState) (cache : Cache) (bs u : User),
    CacheOk ps now cache → VOk now ⟨overlay ps cache ([u] ++ [bs]), vb, fun _ => 0, fun _ => 0⟩ → u.addr ≠ bs.addr →
    l.Pairwise (fun a b => a.1 < b.1) → (∀ kv ∈ l, u.pos.liabilities.get kv.1 = some kv.2) →
    NoErr E (badDebtTransferLoop now l (ps, cache, bs, u)) ∧
    ∀ r, badDebtTransferLoop now l (ps, cache, bs, u) = .ok r → CacheOk r.1 now r.2.1 := by
  intro l
  induction l with
  | nil =>
    intro ps cache bs u ok _ _ _ _
    refine ⟨NoErr.pure, fun r h => ?_⟩
    simp only [badDebtTransferLoop, pure_ok] at h
    subst h
    exact ok
  | cons kv t ih =>
    intro ps cache bs u ok v hne hs hl
    obtain ⟨i, bal⟩ := kv
    have hub : u.pos.liabilities.get i = some bal := hl (i, bal) (by simp)
    have hb := v.einv.inv.bals u.addr u.pos .liab i bal (by
      rw [overlay_positions_append, SMap.get_set_ne hne]
      simp [overlay]) hub
    have hlt : i < ps.resList.length := hb.2
    obtain ⟨a, hi⟩ : ∃ a, ps.resList[i]? = some a := ⟨_, List.getElem?_eq_getElem hlt⟩
    obtain ⟨cf, d, hcf, hd⟩ := v.cfg.list a (List.mem_of_getElem? hi)
    have hcf : ps.resConfig a = some cf := hcf
    have hci : cf.index = i := v.cfg.index_list hi hcf
    rw [List.pairwise_cons] at hs
    -- what a successful step leads to
    have next : ∀ {r : Reserve} {c1 : Cache} {ps1 : PoolState} {bs1 : User} {r1 : Reserve}, cache.loadReserve ps now a true = .ok (r, c1) →
        addLiabilities ps now bs r bal = .ok (ps1, bs1, r1) →
        Loaded ps1 now (c1.put r1) a r1 (c1.put r1) ∧ r1.index = i ∧
        VOk now (UCtx.vs ⟨ps1, c1.put r1, u⟩ [bs1] vb (fun _ => 0) (upd (fun _ => 0) a (0 - bal))) ∧
        ∀ {ps2 : PoolState} {u1 : User} {r2 : Reserve}, removeLiabilities ps1 now u r1 bal = .ok (ps2, u1, r2) →
          CacheOk ps2 now (c1.put r2) ∧ VOk now ⟨overlay ps2 (c1.put r2) ([u1] ++ [bs1]), vb, fun _ => 0, fun _ => 0⟩ ∧ u1.addr ≠ bs1.addr ∧
          ∀ kv ∈ t, u1.pos.liabilities.get kv.1 = some kv.2 := by
      intro r c1 ps1 bs1 r1 hload hadd
      have hld := loadReserve_true ok hload
      have s1 := isAddLiab hadd
      obtain ⟨cf', hcf', hci', hcs⟩ := hld.rm.cfg
      rw [hcf] at hcf'; cases hcf'
      have hidx : r.index = i := hci'.trans hci
      have cp1 : Coupled .liab a r.data (if true then bal else -bal)
          ⟨overlay ps (c1.put r) ([u] ++ [bs]), vb, fun _ => 0, fun _ => 0⟩ vb (fun _ => 0)
          (upd (fun _ => 0) a (0 - bal)) := .transitD rfl
      obtain ⟨m1, ok1, sc1, pos1, au1, ad1⟩ := micro_share (U := fun _ => True) (us := [u]) ok hld trivial s1 (fun _ _ => hb.1.le) cp1
      have ha1 : r1.asset = a := by obtain ⟨_, _, _, rfl, _⟩ := s1; exact hld.rm.asset
      have hld1 := loaded_of_put ok1 ha1
      have hri : r1.index = i := by obtain ⟨_, _, _, rfl, _⟩ := s1; exact hidx
      have v1 := v.micros m1
      have hsw : u.addr ≠ bs1.addr := by rw [ad1]; exact hne
      rw [overlay_swap _ _ u bs1 hsw] at v1
      refine ⟨hld1, hri, v1, fun {ps2 u1 r2} hrm => ?_⟩
      have s2 := isRemoveLiab hrm
      have cp2 : Coupled .liab a r1.data (if false then bal else -bal)
          ⟨overlay ps1 ((c1.put r1).put r1) ([bs1] ++ [u]), vb, fun _ => 0, upd (fun _ => 0) a (0 - bal)⟩
          vb (fun _ => 0)
          (upd (upd (fun _ => 0) a (0 - bal)) a (upd (fun _ => 0) a (0 - bal) a - -bal)) := .transitD rfl
      obtain ⟨m2, ok2, sc2, pos2, au2, ad2⟩ := micro_share (U := fun _ => True) (us := [bs1]) ok1 hld1 trivial s2 (by simp) cp2
      have ha2 : r2.asset = r1.asset := by obtain ⟨_, _, _, rfl, _⟩ := s2; rfl
      rw [put_put _ ha2] at m2 ok2
      have v2 := v1.micros m2
      have hne2 : u1.addr ≠ bs1.addr := by rw [ad2]; exact hsw
      rw [overlay_swap _ _ bs1 u1 (Ne.symm hne2)] at v2
      have z : upd (upd (fun _ => (0 : Int)) a (0 - bal)) a (upd (fun _ => 0) a (0 - bal) a - -bal) =
          fun _ => 0 := by
        funext b; simp only [upd_apply, if_true]; split <;> omega
      rw [z] at v2
      refine ⟨ok2, v2, hne2, fun kv hkv => ?_⟩
      obtain ⟨_, _, _, _, hpos⟩ := s2
      simp only [Bool.false_eq_true, if_false] at hpos
      rw [hpos.2, hri]
      have hlt := hs.1 kv hkv
      have hne' : kv.1 ≠ i := by simp only at hlt; omega
      have : (Kind.liab.map u.pos).get kv.1 = some kv.2 := hl kv (by simp [hkv])
      simp only [Kind.put, setBal]
      split
      · rw [SMap.get_del, if_neg hne']; exact this
      · rw [SMap.get_set_ne hne']; exact this
    constructor
    · simp only [badDebtTransferLoop]
      refine NoErr.bind (NoErr.unwrap hi) fun a' ha' => ?_
      rw [unwrap_ok, hi] at ha'; cases ha'
      refine NoErr.bind (load_ctx hov ok v hcf hd) fun rc hrc => ?_
      obtain ⟨r, c1⟩ := rc
      have hld := loadReserve_true ok hrc
      refine NoErr.bind (liveAddLiab hov (by have := hb.1; omega) (by simp) (emis_ctx (c := ⟨ps, cache, bs⟩) (us := [u]) hov v hld .liab)) fun x hx => ?_
      obtain ⟨ps1, bs1, r1⟩ := x
      obtain ⟨hld1, hri, v1, hnext⟩ := next hrc hx
      refine NoErr.bind (liveRemoveLiab hov (by have := hb.1; omega) (fun _ => ?_) (emis_ctx (c := ⟨ps1, c1.put r1, u⟩) (us := [bs1]) hov v1 hld1 .liab)) fun y hy => ?_
      · rw [hri]
        simp only [Kind.map, SMap.bal, hub, Option.getD_some, le_refl]
      · obtain ⟨ps2, u1, r2⟩ := y
        obtain ⟨ok2, v2, hne2, hl2⟩ := hnext hy
        exact (ih ps2 _ bs1 u1 ok2 v2 hne2 hs.2 hl2).1
    · intro r h
      simp only [badDebtTransferLoop, bind_ok, Prod.exists, unwrap_ok] at h
      obtain ⟨a', ha', r0, c1, hload, ps1, bs1, r1, hadd, ps2, u1, r2, hrm, h⟩ := h
      rw [hi] at ha'; cases ha'
      obtain ⟨_, _, _, hnext⟩ := next hload hadd
      obtain ⟨ok2, v2, hne2, hl2⟩ := hnext hrm
      exact (ih ps2 _ bs1 u1 ok2 v2 hne2 hs.2 hl2).2 r h

theorem badDebt_live {w : World} {p u : Address} {i : PoolInst} (hr : Reachable w) (hp : w.poolAddr p = true) (hov : E .overflow = false)
    (hi : (w.pools p).inst = some i) (hu : u ≠ i.backstop) (hc : ∀ k, (accountOf (w.pools p) u).collateral k = 0)
    (hd : ∃ k, 0 < (accountOf (w.pools p) u).debt k) : NoErr E (transferBadDebt w p u) := by
  unfold transferBadDebt PoolState.getInst
  refine NoErr.bind (NoErr.unwrap hi) fun i' hi' => ?_
  rw [unwrap_ok, hi] at hi'; cases hi'
  refine NoErr.bind (NoErr.req hu) fun _ _ => ?_
  have hcoll : (User.load (w.pools p) u).pos.collateral.isEmpty = true := by
    by_contra hn
    obtain ⟨kv, hkv⟩ : ∃ kv, kv ∈ (User.load (w.pools p) u).pos.collateral.toList := by
      unfold SMap.isEmpty at hn
      rw [List.isEmpty_iff] at hn
      exact List.exists_mem_of_ne_nil _ hn
    have hg : (User.load (w.pools p) u).pos.collateral.get kv.1 = some kv.2 := SMap.mem_toList.1 hkv
    obtain ⟨pos, h1, h2⟩ := getPositions_get (k := .coll) hg
    have := (hr.pinv hp).bals u pos .coll kv.1 kv.2 h1 h2
    have h0 := hc kv.1
    unfold accountOf SMap.bal at h0
    simp only at h0
    unfold User.load at hg
    rw [hg] at h0
    simp only [Option.getD_some] at h0
    omega
  have hliab : (User.load (w.pools p) u).pos.liabilities.isEmpty ≠ true := by
    intro he
    unfold SMap.isEmpty at he
    rw [List.isEmpty_iff] at he
    obtain ⟨k, hk⟩ := hd
    unfold accountOf SMap.bal at hk
    simp only at hk
    cases hg : (getPositions (w.pools p) u).liabilities.get k with
    | none => rw [hg] at hk; simp at hk
    | some x =>
      have := SMap.mem_toList.2 hg
      unfold User.load at he
      rw [he] at this
      cases this
  refine NoErr.bind (NoErr.req (by rw [hcoll]; simp [hliab])) fun _ _ => ?_
  refine NoErr.bind (by unfold Cache.load PoolState.getInst; exact NoErr.bind (NoErr.unwrap hi) fun _ _ => NoErr.pure) fun cache hcl => ?_
  obtain ⟨ok0, hr0, _, _⟩ := load_ok (now := w.time) hcl
  have v0 : VOk w.time ⟨overlay (w.pools p) cache ([User.load (w.pools p) u] ++ [User.load (w.pools p) i.backstop]), fun a => w.balance a p, fun _ => 0, fun _ => 0⟩ := by
    have t1 := (VOk.of hr hp).micro (PMicro.touch (now := w.time) (U := fun _ => True) (.of w p) u trivial)
    have e0 : ({ VS.of w p with ps := setPositions (w.pools p) u (getPositions (w.pools p) u) } : VS)
        = ⟨overlay (w.pools p) cache [User.load (w.pools p) u], fun a => w.balance a p, fun _ => 0, fun _ => 0⟩ := by
      unfold VS.of
      simp only [overlay_load hr0]
      simp [setPositions, User.load]
    have t1 : VOk w.time ⟨overlay (w.pools p) cache [User.load (w.pools p) u], fun a => w.balance a p, fun _ => 0, fun _ => 0⟩ := by
      rw [← e0]; exact t1
    exact t1.micro (micro_touch (U := fun _ => True) (Ne.symm hu) trivial)
  obtain ⟨k1, k2⟩ := badDebtLoop_live hov _ (w.pools p) cache (User.load (w.pools p) i.backstop) (User.load (w.pools p) u) ok0 v0 hu
    (User.load (w.pools p) u).pos.liabilities.sorted (fun kv hkv => SMap.mem_toList.1 hkv)
  refine NoErr.bind k1 fun r hr1 => ?_
  obtain ⟨ps1, cache', bs', u'⟩ := r
  refine NoErr.bind (storeAll_live (fun a ha => ?_) ps1) fun _ _ => NoErr.pure
  have := ((k2 _ hr1).store a).1 ha
  exact Option.isSome_iff_exists.1 this

end Pool
end Blend
