import Verif.Lemmas.MicroReq
import Verif.Lemmas.BackstopOps
/-
  Auction fills as small steps.
-/

namespace Blend
namespace Pool

/-- all amounts of the map are positive -/
def AllPos (m : SMap Int) : Prop := ∀ k v, m.get k = some v → 0 < v

theorem AllPos.empty : AllPos .empty := by intro k v h; simp at h

theorem AllPos.set {m : SMap Int} {k : Nat} {v : Int} (h : AllPos m) (hv : 0 < v) :
    AllPos (m.set k v) := by
  intro j x hx
  rw [SMap.get_set] at hx
  split at hx
  · cases hx; exact hv
  · exact h j x hx

theorem AllPos.list {m : SMap Int} (h : AllPos m) : ∀ kv ∈ m.toList, 0 ≤ kv.2 := by
  intro kv hkv
  have := h kv.1 kv.2 (SMap.mem_toList.1 hkv)
  omega

theorem scaleBid_pos {pct m : Int} :
    ∀ (l : List (Nat × Int)) (s s' : SMap Int × SMap Int), scaleBid pct m l s = .ok s' →
    AllPos s.1 → AllPos s.2 → AllPos s'.1 ∧ AllPos s'.2 := by
  intro l
  induction l with
  | nil =>
    intro s s' h h1 h2
    simp only [scaleBid, pure_ok] at h; subst h; exact ⟨h1, h2⟩
  | cons kv t ih =>
    intro s s' h h1 h2
    obtain ⟨a, x⟩ := kv
    obtain ⟨rem, fill⟩ := s
    simp only [scaleBid, bind_ok] at h
    obtain ⟨base, _, left, _, sc, _, h⟩ := h
    refine ih _ _ h ?_ ?_
    · dsimp only; split
      · exact h1.set ‹_›
      · exact h1
    · dsimp only; split
      · exact h2.set ‹_›
      · exact h2

theorem scaleLot_pos {pct m : Int} :
    ∀ (l : List (Nat × Int)) (s s' : SMap Int × SMap Int), scaleLot pct m l s = .ok s' →
    AllPos s.1 → AllPos s.2 → AllPos s'.1 ∧ AllPos s'.2 := by
  intro l
  induction l with
  | nil =>
    intro s s' h h1 h2
    simp only [scaleLot, pure_ok] at h; subst h; exact ⟨h1, h2⟩
  | cons kv t ih =>
    intro s s' h h1 h2
    obtain ⟨a, x⟩ := kv
    obtain ⟨rem, fill⟩ := s
    simp only [scaleLot, bind_ok] at h
    obtain ⟨base, _, left, _, sc, _, h⟩ := h
    refine ih _ _ h ?_ ?_
    · dsimp only; split
      · exact h1.set ‹_›
      · exact h1
    · dsimp only; split
      · exact h2.set ‹_›
      · exact h2

theorem scaleAuction_pos {seq percent : Nat} {a f : AuctionData} {r : Option AuctionData}
    (h : scaleAuction seq a percent = .ok (f, r)) :
    AllPos f.bid ∧ AllPos f.lot ∧ (∀ x ∈ r, AllPos x.bid ∧ AllPos x.lot) ∧ 1 ≤ percent ∧
    percent ≤ 100 ∧ a.block ≤ seq := by
  unfold scaleAuction at h
  simp only [bind_ok, require_ok, subU_ok, Prod.exists, ite_ok, pure_ok, Prod.mk.injEq] at h
  obtain ⟨_, hp, dif, ⟨hb, _⟩, rb, fb, h1, rl, fl, h2, h⟩ := h
  obtain ⟨a1, a2⟩ := scaleBid_pos _ _ _ h1 .empty .empty
  obtain ⟨b1, b2⟩ := scaleLot_pos _ _ _ h2 .empty .empty
  rcases h with ⟨_, rfl, rfl⟩ | ⟨_, rfl, rfl⟩
  · exact ⟨a2, b2, by simp, by omega, by omega, hb⟩
  · exact ⟨a2, b2, by simp; exact ⟨a1, b1⟩, by omega, by omega, hb⟩

/-! ### juggling users in flight -/

theorem overlay_swap (ps : PoolState) (cache : Cache) (u v : User) (h : u.addr ≠ v.addr) :
    overlay ps cache ([u] ++ [v]) = overlay ps cache ([v] ++ [u]) := by
  unfold overlay
  simp only [List.cons_append, List.nil_append, List.foldl_cons, List.foldl_nil]
  rw [SMap.set_comm h]

theorem overlay_store (ps : PoolState) (cache : Cache) (u : User) (us : List User) :
    overlay (u.store ps) cache us = overlay ps cache ([u] ++ us) := by
  rfl

theorem getPositions_overlay_ne (ps : PoolState) (cache : Cache) (u : User) (a : Address)
    (h : a ≠ u.addr) : getPositions (overlay ps cache [u]) a = getPositions ps a := by
  unfold getPositions overlay
  simp [SMap.get_set_ne h]

/-- loading another user is a `touch` -/
theorem micro_touch {ps : PoolState} {now : Nat} {U : Address → Prop} {cache : Cache} {u : User}
    {a : Address} {vb pb pd : Address → Int} (h : a ≠ u.addr) (hU : U a) :
    PMicro now U ⟨overlay ps cache [u], vb, pb, pd⟩
      ⟨overlay ps cache ([u] ++ [User.load ps a]), vb, pb, pd⟩ := by
  have := PMicro.touch (now := now) (U := U) ⟨overlay ps cache [u], vb, pb, pd⟩ a hU
  rw [getPositions_overlay_ne ps cache u a h] at this
  exact this

/-- what a fill does to the flight, seen from the small steps -/
structure FillStep (U : Address → Prop) (p : Address) (fl fl' : Flight) : Prop where
  micros : ∀ (act : Address → Int), PMicros fl.w.time U
    ⟨overlay (fl.w.pools p) fl.cache [fl.user], fun a => fl.w.balance a p + act a, fun _ => 0, fun _ => 0⟩
    ⟨overlay (fl'.w.pools p) fl'.cache [fl'.user], fun a => fl'.w.balance a p + act a,
      fun _ => 0, fun _ => 0⟩
  cacheOk : CacheOk (fl'.w.pools p) fl.w.time fl'.cache
  same : SameConfig (fl.w.pools p) (fl'.w.pools p)
  addr : fl'.user.addr = fl.user.addr
  time : fl'.w.time = fl.w.time
  backstop : fl'.w.backstopAddr = fl.w.backstopAddr

theorem store_same (u : User) (ps : PoolState) : SameConfig ps (u.store ps) :=
  ⟨rfl, rfl, rfl, rfl, rfl, rfl, rfl, rfl, rfl⟩

/-- moving shares from one user to another -/
theorem ctx_move {now : Nat} {U : Address → Prop} {ps : PoolState} {cache : Cache} {f l : User}
    {c1 c2 : UCtx} {coll liab : SMap Int} {vb : Address → Int}
    (ok : CacheOk ps now cache) (hUf : U f.addr) (hUl : U l.addr) (hne : f.addr ≠ l.addr)
    (hc : AllPos coll) (hl : AllPos liab)
    (h1 : rmPositions now ⟨ps, cache, l⟩ coll liab = .ok c1)
    (h2 : addPositions now ⟨c1.ps, c1.cache, f⟩ coll liab = .ok c2) :
    PMicros now U ⟨overlay ps cache ([f] ++ [l]), vb, fun _ => 0, fun _ => 0⟩
      ⟨overlay c2.ps c2.cache ([c1.user] ++ [c2.user]), vb, fun _ => 0, fun _ => 0⟩ ∧
    CacheOk c2.ps now c2.cache ∧ SameConfig ps c2.ps ∧ c2.user.addr = f.addr ∧
    c1.user.addr = l.addr := by
  have s1 := ctx_rmPositions (us := [f]) (vb := vb) (pb := fun _ => 0) (pd := fun _ => 0) ok hUl h1
  have s2 := ctx_addPositions (us := [c1.user]) (vb := vb)
    (pb := fun b => 0 + lsum coll.toList b) (pd := fun b => 0 + lsum liab.toList b)
    (c := ⟨c1.ps, c1.cache, f⟩) s1.cacheOk hUf hc.list hl.list h2
  have a1 : c1.user.addr = l.addr := s1.addr
  refine ⟨?_, s2.cacheOk, s1.same.trans s2.same, s2.addr, a1⟩
  have m1 := s1.micros
  have m2 := s2.micros
  simp only [UCtx.vs] at m1 m2
  rw [overlay_swap _ _ f c1.user (by rw [a1]; exact hne)] at m1
  have := m1.trans m2
  simpa using this

theorem fill_userLiq {U : Address → Prop} {p : Address} {fl fl' : Flight} {a : AuctionData}
    {user : Address} (ok : CacheOk (fl.w.pools p) fl.w.time fl.cache) (hUf : U fl.user.addr)
    (hUl : U user) (hne : user ≠ fl.user.addr) (hb : AllPos a.bid) (hl : AllPos a.lot)
    (h : fillUserLiq fl p a user = .ok fl') : FillStep U p fl fl' := by
  unfold fillUserLiq at h
  simp only [bind_ok, pure_ok] at h
  obtain ⟨c1, h1, c2, h2, rfl⟩ := h
  have key : ∀ vb, _ := fun vb =>
    ctx_move (vb := vb) (U := U) (l := User.load (fl.w.pools p) user) ok hUf hUl (Ne.symm hne) hl hb h1 h2
  refine ⟨fun act => ?_, ?_, ?_, (key fun _ => 0).2.2.2.1, rfl, rfl⟩
  · have m0 := micro_touch (ps := fl.w.pools p) (now := fl.w.time) (cache := fl.cache)
      (vb := fun a => fl.w.balance a p + act a) (pb := fun _ => 0) (pd := fun _ => 0) hne hUl
    have m1 := (key (fun a => fl.w.balance a p + act a)).1
    have m := (PMicros.one m0).trans m1
    simp only [pools_setPool, balance_setPool, overlay_store]
    exact m
  · simp only [pools_setPool]
    exact (key fun _ => 0).2.1.same (store_same _ _)
  · simp only [pools_setPool]
    exact (key fun _ => 0).2.2.1.trans (store_same _ _)

theorem lsum_toList (m : SMap Int) (a : Address) : lsum m.toList a = m.bal a := by
  obtain ⟨l, hs⟩ := m
  show lsum l a = (SMap.getL l a).getD 0
  induction l with
  | nil => rfl
  | cons kv t ih =>
    rw [List.pairwise_cons] at hs
    rw [lsum_cons, ih hs.2]
    obtain ⟨k, v⟩ := kv
    simp only [SMap.getL]
    by_cases hk : k = a
    · subst hk
      have : SMap.getL t k = none := SMap.getL_none_of_lt (fun b hb => hs.1 b hb)
      simp [this]
    · simp [hk, Ne.symm hk]

theorem collect_ok (resList : List Address) :
    ∀ (l : List (Nat × Int)) (m m' : SMap Int), collectLiabilities resList l m = .ok m' →
    (∀ kv ∈ l, 0 < kv.2) → AllPos m → AllPos m' := by
  intro l
  induction l with
  | nil => intro m m' h _ hm; simp only [collectLiabilities, pure_ok] at h; subst h; exact hm
  | cons kv t ih =>
    intro m m' h hl hm
    obtain ⟨i, b⟩ := kv
    simp only [collectLiabilities, bind_ok] at h
    obtain ⟨asset, _, h⟩ := h
    exact ih _ _ h (fun kv hkv => hl kv (by simp [hkv])) (hm.set (hl (i, b) (by simp)))

theorem draw_pools {w w' : World} {auth : List Address} {pool dst : Address} {amt : Int}
    (h : Backstop.draw w auth pool amt dst = .ok w') :
    w'.pools = w.pools ∧ w'.time = w.time ∧ w'.backstopAddr = w.backstopAddr ∧
    ∀ t x, x ≠ w.backstopAddr → x ≠ dst → w'.balance t x = w.balance t x := by
  unfold Backstop.draw at h
  simp only [bind_ok] at h
  obtain ⟨_, _, h⟩ := h
  obtain ⟨_, _, i, _, hr⟩ := Backstop.executeDraw_res h
  refine ⟨by rw [hr.frame]; rfl, by rw [hr.frame]; rfl, by rw [hr.frame]; rfl, fun t x h1 h2 => ?_⟩
  rw [hr.bal]
  simp [moved, h1, h2]
  rfl

theorem fill_badDebt {U : Address → Prop} {p : Address} {fl fl' : Flight} {a : AuctionData}
    (ok : CacheOk (fl.w.pools p) fl.w.time fl.cache) (hUf : U fl.user.addr)
    (hUb : ∀ i, (fl.w.pools p).inst = some i → U i.backstop)
    (hpb : p ≠ fl.w.backstopAddr) (hpf : p ≠ fl.user.addr)
    (hb : AllPos a.bid)
    (h : fillBadDebt fl p a = .ok fl') : FillStep U p fl fl' := by
  unfold fillBadDebt PoolState.getInst at h
  simp only [bind_ok, pure_ok, require_ok, unwrap_ok, ite_ok] at h
  obtain ⟨i, hi, _, hne, c1, h1, c2, h2, tok, ht, lot, hlot, w2, hdraw, h⟩ := h
  have hUl := hUb i hi
  have key : ∀ vb, _ := fun vb =>
    ctx_move (vb := vb) (U := U) (l := User.load (fl.w.pools p) i.backstop) ok hUf hUl hne
      AllPos.empty hb h1 h2
  obtain ⟨-, k2, k3, k4, k5⟩ := key fun _ => 0
  obtain ⟨d1, d2, d3, d4⟩ := draw_pools hdraw
  have hp2 : w2.pools p = c2.ps := by rw [d1]; simp
  have hbal : ∀ t, w2.balance t p = fl.w.balance t p := fun t => by
    rw [d4 t p hpb hpf]; rfl
  have m0 : ∀ act : Address → Int, PMicros fl.w.time U
      ⟨overlay (fl.w.pools p) fl.cache [fl.user], fun a => fl.w.balance a p + act a, fun _ => 0, fun _ => 0⟩
      ⟨overlay c2.ps c2.cache ([c1.user] ++ [c2.user]), fun a => fl.w.balance a p + act a,
        fun _ => 0, fun _ => 0⟩ := fun act =>
    (PMicros.one (micro_touch (Ne.symm hne) hUl)).trans (key _).1
  have fin : FillStep U p fl ⟨w2.setPool p (c1.user.store (w2.pools p)), c2.cache, c2.user⟩ := by
    refine ⟨fun act => ?_, ?_, ?_, k4, d2, d3⟩
    · simp only [pools_setPool, balance_setPool, overlay_store, hp2, hbal]
      exact m0 act
    · simp only [pools_setPool, hp2]
      exact k2.same (store_same _ _)
    · simp only [pools_setPool, hp2]
      exact k3.trans (store_same _ _)
  rcases h with ⟨_, rfl⟩ | ⟨_, d, _, ⟨_, rm, hrm, c3, h3, rfl⟩ | ⟨_, rfl⟩⟩
  · exact fin
  · rw [hp2] at h3
    have hU3 : U c1.user.addr := by rw [k5]; exact hUl
    have hsw : c1.user.addr ≠ c2.user.addr := by rw [k4, k5]; exact Ne.symm hne
    have s3 : ∀ vb, _ := fun vb => ctx_rmPositions (us := [c2.user]) (vb := vb) (pb := fun _ => 0)
      (pd := fun _ => 0) (U := U) (c := ⟨c2.ps, c2.cache, c1.user⟩) k2 hU3 h3
    have t3 := s3 fun _ => 0
    have hc3 : ∀ b x, rm.get b = some x → (c3.cache.reserves.get b).isSome := by
      intro b x hbx
      have h3' := h3
      unfold rmPositions at h3'
      simp only [bind_ok, SMap.empty, foldlM_nil] at h3'
      obtain ⟨c, hcc, h3'⟩ := h3'
      subst hcc
      exact (fold_cached isRemoveLiab rm.toList ⟨c2.ps, c2.cache, c1.user⟩ _ k2 (by simp) h3').2 (b, x)
        (SMap.mem_toList.2 hbx)
    have hs3 : c3.user.addr ≠ c2.user.addr := by
      have : c3.user.addr = c1.user.addr := t3.addr
      rw [this]; exact hsw
    have same3 : SameConfig (c3.user.store c3.ps) (recordWriteOff (c3.user.store c3.ps) c3.cache rm) :=
      ⟨rfl, rfl, rfl, rfl, rfl, rfl, rfl, rfl, rfl⟩
    refine ⟨fun act => ?_, ?_, ?_, k4, d2, d3⟩
    · simp only [pools_setPool, balance_setPool, hbal]
      refine (m0 act).trans ?_
      have m3 := (s3 fun a => fl.w.balance a p + act a).micros
      simp only [UCtx.vs] at m3
      rw [overlay_swap _ _ c1.user c2.user hsw]
      refine m3.trans (.one ?_)
      rw [overlay_swap _ _ c2.user c3.user (Ne.symm hs3)]
      have wo := PMicro.writeOff (now := fl.w.time) (U := U)
        ⟨overlay c3.ps c3.cache ([c3.user] ++ [c2.user]), fun a => fl.w.balance a p + act a,
          fun b => 0 + lsum SMap.empty.toList b, fun b => 0 + lsum rm.toList b⟩
        (recordWriteOff (c3.user.store c3.ps) c3.cache rm).writtenOff (by
          intro b
          simp only [lsum_toList, zero_add]
          cases hbx : rm.get b with
          | none =>
            left
            refine ⟨by simp [SMap.bal, hbx], ?_⟩
            simp only [recordWriteOff, hbx]
            simp; rfl
          | some x =>
            right
            have hs := hc3 b x hbx
            rw [Option.isSome_iff_exists] at hs
            obtain ⟨r, hr⟩ := hs
            refine ⟨r.data, ?_, ?_⟩
            · show overlayData c3.ps c3.cache b = _
              simp [overlayData, hr]
            · simp only [recordWriteOff, hbx, hr, ceil9, SMap.bal]
              rfl)
      have z : (fun b => 0 + lsum (SMap.empty : SMap Int).toList b) = fun _ => 0 := by
        funext b; simp [SMap.empty]
      rw [z] at wo ⊢
      exact wo
    · simp only [pools_setPool]
      exact (t3.cacheOk.same (store_same _ _)).same same3
    · simp only [pools_setPool]
      exact ((k3.trans t3.same).trans (store_same _ _)).trans same3
  · exact fin

theorem donate_pools {w w' : World} {auth : List Address} {sender pool : Address} {amt : Int}
    (h : Backstop.donate w auth sender pool amt = .ok w') :
    sender ∈ auth ∧ w'.pools = w.pools ∧ w'.time = w.time ∧ w'.backstopAddr = w.backstopAddr ∧
    ∀ t x, x ≠ w.backstopAddr → x ≠ sender → w'.balance t x = w.balance t x := by
  unfold Backstop.donate at h
  simp only [bind_ok, requireAuth_ok] at h
  obtain ⟨_, ha, _, _, h⟩ := h
  obtain ⟨_, _, _, i, w1, _, hr, rfl⟩ := Backstop.executeDonate_res h
  refine ⟨ha, by rw [hr.frame]; rfl, by rw [hr.frame]; rfl, by rw [hr.frame]; rfl, fun t x h1 h2 => ?_⟩
  show w1.balance t x = _
  rw [hr.bal]
  simp [moved, h1, h2]

theorem fill_interestLoop {U : Address → Prop} {p filler : Address} (hpf : p ≠ filler) {us : List User} :
    ∀ (l : List (Nat × Int)) (w w' : World) (cache cache' : Cache),
    CacheOk (w.pools p) w.time cache →
    fillInterestLoop p filler l (w, cache) = .ok (w', cache') →
    (∀ act : Address → Int, PMicros w.time U
      ⟨overlay (w.pools p) cache us, fun a => w.balance a p + act a, fun _ => 0, fun _ => 0⟩
      ⟨overlay (w'.pools p) cache' us, fun a => w'.balance a p + act a, fun _ => 0, fun _ => 0⟩) ∧
    CacheOk (w'.pools p) w.time cache' ∧ w'.pools = w.pools ∧ w'.time = w.time ∧
    w'.backstopAddr = w.backstopAddr := by
  intro l
  induction l with
  | nil =>
    intro w w' cache cache' ok h
    simp only [fillInterestLoop, pure_ok, Prod.mk.injEq] at h
    obtain ⟨rfl, rfl⟩ := h
    exact ⟨fun _ => .refl _, ok, rfl, rfl, rfl⟩
  | cons kv t ih =>
    intro w w' cache cache' ok h
    obtain ⟨a, x⟩ := kv
    simp only [fillInterestLoop, bind_ok, Prod.exists, chk_ok] at h
    obtain ⟨r, c1, hl, cr, ⟨_, rfl⟩, w1, ht, h⟩ := h
    have hld := loadReserve_true ok hl
    have hr := transfer_res ht
    have hp1 : w1.pools = w.pools := by rw [hr.frame]
    have ht1 : w1.time = w.time := by rw [hr.frame]
    have hb1 : w1.backstopAddr = w.backstopAddr := by rw [hr.frame]
    have hm' : ResMatch (w.pools p) w.time a
        { r with data := { r.data with backstopCredit := r.data.backstopCredit - x } } :=
      ⟨hld.rm.asset, hld.rm.time, hld.rm.cfg⟩
    have ok1 := ok.put hld hm'
    rw [← hp1, ← ht1] at ok1
    obtain ⟨i1, i2, i3, i4, i5⟩ := ih _ _ _ _ ok1 h
    rw [ht1] at i1 i2
    refine ⟨fun act => ?_, i2, i3.trans hp1, i4.trans ht1, i5.trans hb1⟩
    refine ((PMicros.one (micro_load hld)).trans (.one ?_)).trans (i1 act)
    have hV : (overlay (w.pools p) (c1.put r) us).resData a = some r.data := by
      show overlayData _ (c1.put r) a = _
      rw [overlayData_put hld.reserves, hld.rm.asset]; simp
    have st := PMicro.credit (now := w.time) (U := U)
      ⟨overlay (w.pools p) (c1.put r) us, fun a => w.balance a p + act a, fun _ => 0, fun _ => 0⟩
      a r.data x hV hld.rm.time
    have e1 : overlay (w1.pools p)
        (c1.put { r with data := { r.data with backstopCredit := r.data.backstopCredit - x } }) us =
        { overlay (w.pools p) (c1.put r) us with
          resData := upd (overlay (w.pools p) (c1.put r) us).resData a
            (some { r.data with backstopCredit := r.data.backstopCredit - x }) } := by
      rw [hp1]
      unfold overlay
      congr 1
      funext b
      rw [overlayData_put hld.reserves, upd_apply]
      show (if b = r.asset then _ else overlayData _ cache b) = _
      rw [hld.rm.asset]
      split
      · rfl
      · rename_i hb
        show _ = overlayData _ (c1.put r) b
        rw [overlayData_put hld.reserves, hld.rm.asset, if_neg hb]
    have e2 : (fun b => w1.balance b p + act b) =
        upd (fun b => w.balance b p + act b) a (w.balance a p + act a - x) := by
      funext b
      rw [hr.bal, upd_apply]
      unfold moved
      by_cases hb : b = a
      · subst hb; simp [hpf]; omega
      · simp [hb]
    rw [e1, e2]
    exact st

theorem fill_interest {U : Address → Prop} {p : Address} {fl fl' : Flight} {a : AuctionData}
    {auth : List Address} (ok : CacheOk (fl.w.pools p) fl.w.time fl.cache)
    (hpb : p ≠ fl.w.backstopAddr) (hpf : p ≠ fl.user.addr)
    (h : fillInterest fl p auth a = .ok fl') : FillStep U p fl fl' := by
  unfold fillInterest PoolState.getInst at h
  simp only [bind_ok, pure_ok, require_ok, unwrap_ok, Prod.exists] at h
  obtain ⟨i, hi, _, hne, tok, ht, bid, hbid, w1, hd, w2, cache, hl, rfl⟩ := h
  obtain ⟨_, d1, d2, d3, d4⟩ := donate_pools hd
  have ok1 := ok
  rw [← d1, ← d2] at ok1
  obtain ⟨i1, i2, i3, i4, i5⟩ := fill_interestLoop (U := U) (us := [fl.user]) hpf _ _ _ _ _ ok1 hl
  rw [d2] at i1 i2
  refine ⟨fun act => ?_, i2, ?_, rfl, i4.trans d2, i5.trans d3⟩
  · have := i1 act
    rw [d1] at this
    have e : (fun a => w1.balance a p + act a) = fun a => fl.w.balance a p + act a := by
      funext b; rw [d4 b p hpb hpf]
    rw [e] at this
    exact this
  · rw [i3, d1]; exact .refl _

/-- the parts of a successful fill -/
theorem fill_ok {fl fl' : Flight} {p : Address} {auth : List Address} {t : Nat} {user : Address}
    {percent : Nat} (h : fill fl p auth t user percent = .ok fl') :
    user ≠ fl.user.addr ∧ ∃ a f rem fl1, (fl.w.pools p).auctions t user = some a ∧
      scaleAuction fl.w.seq a percent = .ok (f, rem) ∧
      ((t = 0 ∧ fillUserLiq fl p f user = .ok fl1) ∨ (t = 1 ∧ fillBadDebt fl p f = .ok fl1) ∨
       (t ≠ 0 ∧ t ≠ 1 ∧ fillInterest fl p auth f = .ok fl1)) ∧
      fl' = { fl1 with w := fl1.w.setPool p (setAuction (fl1.w.pools p) t user rem) } := by
  unfold fill at h
  simp only [bind_ok, require_ok, unwrap_ok, Prod.exists, pure_ok, ite_ok] at h
  obtain ⟨_, hne, a, ha, f, rem, hs, h⟩ := h
  rcases h with ⟨h0, fl1, hf, rfl⟩ | ⟨h0, ⟨h1, fl1, hf, rfl⟩ | ⟨h1, fl1, hf, rfl⟩⟩
  · exact ⟨hne, a, f, rem, fl1, ha, hs, .inl ⟨h0, hf⟩, rfl⟩
  · exact ⟨hne, a, f, rem, fl1, ha, hs, .inr (.inl ⟨h1, hf⟩), rfl⟩
  · exact ⟨hne, a, f, rem, fl1, ha, hs, .inr (.inr ⟨h0, h1, hf⟩), rfl⟩

theorem fill_step {U : Address → Prop} {p : Address} {fl fl' : Flight} {auth : List Address} {t : Nat}
    {user : Address} {percent : Nat} (ok : CacheOk (fl.w.pools p) fl.w.time fl.cache)
    (hUf : U fl.user.addr) (hUl : t = 0 → U user)
    (hUb : t = 1 → ∀ i, (fl.w.pools p).inst = some i → U i.backstop)
    (hpb : p ≠ fl.w.backstopAddr) (hpf : p ≠ fl.user.addr)
    (h : fill fl p auth t user percent = .ok fl') : FillStep U p fl fl' := by
  obtain ⟨hne, a, f, rem, fl1, ha, hs, hf, rfl⟩ := fill_ok h
  obtain ⟨p1, p2, p3, _⟩ := scaleAuction_pos hs
  have key : FillStep U p fl fl1 := by
    rcases hf with ⟨h0, hf⟩ | ⟨h0, hf⟩ | ⟨_, _, hf⟩
    · exact fill_userLiq ok hUf (hUl h0) hne p1 p2 hf
    · exact fill_badDebt ok hUf (hUb h0) hpb hpf p1 hf
    · exact fill_interest ok hpb hpf hf
  have hsa : SameConfig (fl1.w.pools p) (setAuction (fl1.w.pools p) t user rem) :=
    ⟨rfl, rfl, rfl, rfl, rfl, rfl, rfl, rfl, rfl⟩
  refine ⟨fun act => ?_, ?_, ?_, key.addr, key.time, key.backstop⟩
  · simp only [pools_setPool, balance_setPool]
    exact (key.micros act).trans (.one (PMicro.auction (now := fl.w.time) (U := U)
      ⟨overlay (fl1.w.pools p) fl1.cache [fl1.user], fun a => fl1.w.balance a p + act a,
        fun _ => 0, fun _ => 0⟩ t user rem))
  · simp only [pools_setPool]; exact key.cacheOk.same hsa
  · simp only [pools_setPool]; exact key.same.trans hsa

end Pool
end Blend
