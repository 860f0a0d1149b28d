import Verif.Lemmas.FullPlan
/-
  Which errors the fill of an auction can run into (C62).
-/

namespace Blend
namespace Pool
open Spec

variable {E : Err → Bool} {w : World} {p sender : Address}

theorem scaleBid_live (hov : E .overflow = false) {pct m : Int} : ∀ (l : List (Nat × Int)) (x : SMap Int × SMap Int), NoErr E (scaleBid pct m l x) := by
  have ov : ∀ {P : Prop}, E .overflow = true → P := fun h => by rw [hov] at h; cases h
  intro l
  induction l with
  | nil => intro x; exact NoErr.pure
  | cons kv l ih =>
    intro x
    obtain ⟨a, n⟩ := kv
    obtain ⟨x1, x2⟩ := x
    unfold scaleBid fixedMulCeil
    exact NoErr.bind (NoErr.mulDivCeil (by decide) ov) fun _ _ => NoErr.bind (NoErr.chk ov) fun _ _ =>
      NoErr.bind (NoErr.mulDivCeil (by decide) ov) fun _ _ => ih _

theorem scaleLot_live (hov : E .overflow = false) {pct m : Int} : ∀ (l : List (Nat × Int)) (x : SMap Int × SMap Int), NoErr E (scaleLot pct m l x) := by
  have ov : ∀ {P : Prop}, E .overflow = true → P := fun h => by rw [hov] at h; cases h
  intro l
  induction l with
  | nil => intro x; exact NoErr.pure
  | cons kv l ih =>
    intro x
    obtain ⟨a, n⟩ := kv
    obtain ⟨x1, x2⟩ := x
    unfold scaleLot fixedMulFloor
    exact NoErr.bind (NoErr.mulDivFloor (by decide) ov) fun _ _ => NoErr.bind (NoErr.chk ov) fun _ _ =>
      NoErr.bind (NoErr.mulDivFloor (by decide) ov) fun _ _ => ih _

theorem scale_live (hov : E .overflow = false) {seq percent : Nat} {a : AuctionData} (hb : a.block ≤ seq) (h1 : 1 ≤ percent) (h2 : percent ≤ 100) :
    NoErr E (scaleAuction seq a percent) := by
  unfold scaleAuction
  refine NoErr.bind (NoErr.req (by omega)) fun _ _ => NoErr.bind (NoErr.subU hb) fun _ _ => ?_
  refine NoErr.bind (scaleBid_live hov _ _) fun _ _ => ?_
  dsimp only
  refine NoErr.bind (scaleLot_live hov _ _) fun _ _ => ?_
  split <;> exact NoErr.pure

/-- the amount listed for a reserve -/
theorem amountAt_get {V : PoolState} (cfg : CfgOk V) {m : SMap Int} {a : Address} {v : Int} {c : ReserveConfig} (hm : m.get a = some v)
    (hc : V.resConfig a = some c) : amountAt V m c.index = v := by
  unfold amountAt
  rw [cfg.idx a c hc]
  simp [SMap.bal, hm]

/-- shares listed by an auction move from one account to the account in flight -/
theorem move_live (hov : E .overflow = false) {s : SubmitState} (f : FlightOk w p sender s) (v : VOk w.time (s.vs p)) (cfg : CfgOk (w.pools p))
    {u : Address} (hu : u ≠ sender) {coll liab : SMap Int} (hc : AllPos coll) (hl : AllPos liab)
    (hle : ∀ i, amountAt (w.pools p) coll i ≤ ((s.books w p).acct u).collateral i ∧ amountAt (w.pools p) liab i ≤ ((s.books w p).acct u).debt i)
    (hcr : Listed (w.pools p) coll) (hlr : Listed (w.pools p) liab) :
    NoErr E (rmPositions s.fl.w.time ⟨s.fl.w.pools p, s.fl.cache, User.load (s.fl.w.pools p) u⟩ coll liab) ∧
    ∀ c1, rmPositions s.fl.w.time ⟨s.fl.w.pools p, s.fl.cache, User.load (s.fl.w.pools p) u⟩ coll liab = .ok c1 →
      NoErr E (addPositions s.fl.w.time ⟨c1.ps, c1.cache, s.fl.user⟩ coll liab) ∧
      ∀ c2, addPositions s.fl.w.time ⟨c1.ps, c1.cache, s.fl.user⟩ coll liab = .ok c2 →
        CacheOk c2.ps w.time c2.cache ∧ SameConfig (s.fl.w.pools p) c2.ps ∧ c1.user.addr = u ∧ c2.user.addr = sender ∧
        VOk w.time ⟨overlay c2.ps c2.cache ([c2.user] ++ [c1.user]), (s.vs p).vb, fun _ => 0, fun _ => 0⟩ := by
  have hua := f.addr
  have hne : u ≠ s.fl.user.addr := by rw [hua]; exact hu
  rw [f.time]
  have hbu : (s.books w p).acct u = accountOf (s.fl.w.pools p) u := by
    simp only [SubmitState.books]; rw [if_neg hne]
  have v1 : VOk w.time ⟨overlay (s.fl.w.pools p) s.fl.cache ([s.fl.user] ++ [User.load (s.fl.w.pools p) u]), (s.vs p).vb, fun _ => 0, fun _ => 0⟩ :=
    v.micro (micro_touch (U := fun _ => True) hne trivial)
  have rc : ∀ a, (s.fl.w.pools p).resConfig a = (w.pools p).resConfig a := fun a => by rw [f.same.resConfig]
  have hrm : NoErr E (rmPositions w.time ⟨s.fl.w.pools p, s.fl.cache, User.load (s.fl.w.pools p) u⟩ coll liab) := by
    refine rm_live (us := [s.fl.user]) hov f.cacheOk v1 hc hl (fun a x hx => ?_) fun a x hx => ?_
    · obtain ⟨cf, hcf⟩ := hcr a x hx
      refine ⟨cf, by rw [rc]; exact hcf, ?_⟩
      have := (hle cf.index).1
      rw [amountAt_get cfg hx hcf, hbu] at this
      exact this
    · obtain ⟨cf, hcf⟩ := hlr a x hx
      refine ⟨cf, by rw [rc]; exact hcf, ?_⟩
      have := (hle cf.index).2
      rw [amountAt_get cfg hx hcf, hbu] at this
      exact this
  refine ⟨hrm, fun c1 h1 => ?_⟩
  have s1 := ctx_rmPositions (U := fun _ => True) (us := [s.fl.user]) (vb := (s.vs p).vb) (pb := fun _ => 0) (pd := fun _ => 0) f.cacheOk trivial h1
  have a1 : c1.user.addr = u := s1.addr
  have v2 := v1.micros s1.micros
  rw [show UCtx.vs c1 [s.fl.user] (s.vs p).vb (fun b => 0 + lsum coll.toList b) (fun b => 0 + lsum liab.toList b) =
    ⟨overlay c1.ps c1.cache ([s.fl.user] ++ [c1.user]), (s.vs p).vb, fun b => 0 + lsum coll.toList b, fun b => 0 + lsum liab.toList b⟩ from rfl,
    overlay_swap _ _ s.fl.user c1.user (by rw [a1]; exact Ne.symm hne)] at v2
  have rc1 : ∀ a, c1.ps.resConfig a = (w.pools p).resConfig a := fun a => by rw [s1.same.resConfig]; exact rc a
  refine ⟨add_live (us := [c1.user]) hov (c := ⟨c1.ps, c1.cache, s.fl.user⟩) s1.cacheOk v2 hc hl (fun a x hx => ?_) (fun a x hx => ?_), fun c2 h2 => ?_⟩
  · obtain ⟨cf, hcf⟩ := hcr a x hx
    exact ⟨cf, by rw [rc1]; exact hcf⟩
  · obtain ⟨cf, hcf⟩ := hlr a x hx
    exact ⟨cf, by rw [rc1]; exact hcf⟩
  · obtain ⟨k1, k2, k3, k4, k5⟩ := ctx_move (U := fun _ => True) (vb := (s.vs p).vb) (f := s.fl.user) (l := User.load (s.fl.w.pools p) u) f.cacheOk trivial trivial
      (Ne.symm hne) hc hl h1 h2
    refine ⟨k2, k3, a1, k4.trans hua, ?_⟩
    have := v1.micros k1
    rw [overlay_swap _ _ c1.user c2.user (by rw [a1, k4]; exact hne)] at this
    exact this

/-- filling a liquidation -/
theorem liq_live (hov : E .overflow = false) {s : SubmitState} (f : FlightOk w p sender s) (v : VOk w.time (s.vs p)) (cfg : CfgOk (w.pools p))
    {u : Address} (hu : u ≠ sender) {a : AuctionData} (hb : AllPos a.bid) (hl : AllPos a.lot)
    (hle : ∀ i, amountAt (w.pools p) a.lot i ≤ ((s.books w p).acct u).collateral i ∧ amountAt (w.pools p) a.bid i ≤ ((s.books w p).acct u).debt i)
    (hcr : Listed (w.pools p) a.lot) (hlr : Listed (w.pools p) a.bid) : NoErr E (fillUserLiq s.fl p a u) := by
  obtain ⟨k1, k2⟩ := move_live hov f v cfg hu hl hb hle hcr hlr
  unfold fillUserLiq
  exact NoErr.bind k1 fun c1 h1 => NoErr.bind (k2 c1 h1).1 fun c2 h2 => NoErr.pure

/-- collecting the liabilities of an account -/
theorem collect_live {resList : List Address} : ∀ (l : List (Nat × Int)) (m : SMap Int), (∀ kv ∈ l, kv.1 < resList.length) →
    NoErr E (collectLiabilities resList l m) := by
  intro l
  induction l with
  | nil => intro m _; exact NoErr.pure
  | cons kv l ih =>
    intro m h
    obtain ⟨i, x⟩ := kv
    unfold collectLiabilities
    exact NoErr.bind (NoErr.unwrap (List.getElem?_eq_getElem (h (i, x) (by simp)))) fun _ _ => ih _ fun kv hkv => h kv (by simp [hkv])

theorem draw_live (hov : E .overflow = false) {v : World} {dst : Address} {n : Int} {bi : BackstopInst} (hbi : v.backstop.inst = some bi) (hn : 0 ≤ n)
    (hle : n ≤ (v.backstop.getPoolBal p).tokens) (hs : 0 ≤ (v.backstop.getPoolBal p).shares) (hq : 0 ≤ (v.backstop.getPoolBal p).q4w)
    (hw : n ≤ v.balance bi.backstopToken v.backstopAddr) (hd : dst ≠ v.backstopAddr) : NoErr E (Backstop.draw v [p] p n dst) := by
  have ov : ∀ {P : Prop}, E .overflow = true → P := fun h => by rw [hov] at h; cases h
  unfold Backstop.draw Backstop.executeDraw Backstop.requireNonneg Backstop.pbWithdraw Backstop.inst
  refine NoErr.bind (NoErr.req (by simp)) fun _ _ => NoErr.bind (NoErr.req (by omega)) fun _ _ => ?_
  dsimp only
  refine NoErr.bind (NoErr.bind (NoErr.req (by omega)) fun _ _ => NoErr.bind (NoErr.chk ov) fun _ _ => NoErr.bind (NoErr.chk ov) fun _ _ =>
    NoErr.bind (NoErr.chk ov) fun _ _ => NoErr.pure) fun pb _ => ?_
  refine NoErr.bind (NoErr.unwrap hbi) fun bi' hbi' => ?_
  have hbi' : v.backstop.inst = some bi' := by rw [unwrap_ok] at hbi'; exact hbi'
  rw [hbi] at hbi'; cases hbi'
  exact transfer_live hn hd (fun _ => hw) ov

/-- filling a bad debt auction -/
theorem badDebtFill_live (hov : E .overflow = false) {s : SubmitState} (f : FlightOk w p sender s) (t : Track w p s.fl) (v : VOk w.time (s.vs p)) (cfg : CfgOk (w.pools p))
    (hq : 0 ≤ (s.fl.w.backstop.getPoolBal p).q4w) (hsh : 0 ≤ (s.fl.w.backstop.getPoolBal p).shares)
    {inst : PoolInst} (hi : (w.pools p).inst = some inst) (hne : sender ≠ inst.backstop) {bi : BackstopInst} (hbi : w.backstop.inst = some bi)
    (hba : inst.backstop = w.backstopAddr) {a : AuctionData} (hb : AllPos a.bid)
    (hle : ∀ i, amountAt (w.pools p) a.bid i ≤ ((s.books w p).acct inst.backstop).debt i)
    (hl0 : 0 < a.lot.bal bi.backstopToken) (hlp : a.lot.bal bi.backstopToken ≤ (s.books w p).lp)
    (hwal : a.lot.bal bi.backstopToken ≤ (s.books w p).wallet bi.backstopToken inst.backstop)
    (hlr : Listed (w.pools p) a.bid)
    (hval : (∀ i, ((s.books w p).acct inst.backstop).debt i = amountAt (w.pools p) a.bid i) ∨ ∃ v, w.backstop.lpVal = some v) :
    NoErr E (fillBadDebt s.fl p a) := by
  have ov : ∀ {P : Prop}, E .overflow = true → P := fun h => by rw [hov] at h; cases h
  have hua := f.addr
  have hinst : (s.fl.w.pools p).inst = some inst := by rw [f.same.inst]; exact hi
  have hbal0 : ∀ u, u ≠ sender → ∀ i, 0 ≤ ((s.books w p).acct u).collateral i := by
    intro u hu i
    have h1 : (s.books w p).acct u = accountOf (s.fl.w.pools p) u := by
      simp only [SubmitState.books, hua]; rw [if_neg hu]
    rw [h1]; exact f.other_nonneg hu .coll i
  obtain ⟨k1, k2⟩ := move_live hov f v cfg (Ne.symm hne) AllPos.empty hb (fun i => ⟨by
      have h0 : amountAt (w.pools p) .empty i = 0 := by unfold amountAt; split <;> simp
      rw [h0]; exact hbal0 _ (Ne.symm hne) i, hle i⟩) (fun x v h => by simp at h) hlr
  unfold fillBadDebt PoolState.getInst
  refine NoErr.bind (NoErr.unwrap hinst) fun inst' hi' => ?_
  rw [unwrap_ok, hinst] at hi'; cases hi'
  refine NoErr.bind (NoErr.req (by rw [hua]; exact hne)) fun _ _ => NoErr.bind k1 fun c1 h1 => ?_
  obtain ⟨j1, j2⟩ := k2 c1 h1
  refine NoErr.bind j1 fun c2 h2 => ?_
  obtain ⟨ok2, sc2, a1, a2, v2⟩ := j2 c2 h2
  dsimp only
  have hi2 : ((s.fl.w.setPool p c2.ps).pools p).inst = some inst := by rw [pools_setPool, sc2.inst]; exact hinst
  have hb2 : inst.backstop = (s.fl.w.setPool p c2.ps).backstopAddr := by rw [hba]; exact f.backstop.symm
  have hbi2 : (s.fl.w.setPool p c2.ps).backstop.inst = some bi := by
    show s.fl.w.backstop.inst = _
    rw [t.inst]; exact hbi
  refine NoErr.bind (token_live hi2 hb2 hbi2) fun tok htok => ?_
  have : tok = bi.backstopToken := by
    unfold backstopToken PoolState.getInst Backstop.inst at htok
    simp only [bind_ok, pure_ok, require_ok, unwrap_ok] at htok
    obtain ⟨_, _, _, _, bi', h, rfl⟩ := htok
    rw [hbi2] at h; cases h; rfl
  subst this
  obtain ⟨n, hn⟩ : ∃ n, a.lot.get bi.backstopToken = some n := by
    cases h : a.lot.get bi.backstopToken with
    | none => unfold SMap.bal at hl0; rw [h] at hl0; simp at hl0
    | some n => exact ⟨n, rfl⟩
  have hnb : a.lot.bal bi.backstopToken = n := by unfold SMap.bal; rw [hn]; rfl
  rw [hnb] at hl0 hlp hwal
  refine NoErr.bind (NoErr.unwrap hn) fun n' hn' => ?_
  rw [unwrap_ok, hn] at hn'; cases hn'
  rw [hba] at hwal
  refine NoErr.bind (draw_live hov hbi2 hl0.le hlp hsh hq ?_ ?_) fun w2 hd => ?_
  · have : s.fl.w.backstopAddr = w.backstopAddr := f.backstop
    show n ≤ s.fl.w.balance _ s.fl.w.backstopAddr
    rw [this]; exact hwal
  · have : s.fl.w.backstopAddr = w.backstopAddr := f.backstop
    show s.fl.user.addr ≠ s.fl.w.backstopAddr
    rw [this, hua, ← hba]; exact hne
  obtain ⟨_, _, dp, dt, ds, dba, dlv, din, _, _, _, ⟨_, _, _⟩, _, _⟩ := draw_full hd
  have hp2 : w2.pools p = c2.ps := by rw [dp]; simp
  have m1 := (rmPositions_moved cfg (c := ⟨s.fl.w.pools p, s.fl.cache, User.load (s.fl.w.pools p) inst.backstop⟩) t.cur (by rw [← f.time]; exact h1)).1
  split
  · exact NoErr.pure
  · rename_i hemp
    have hz : ∃ z, w.backstop.lpVal = some z := by
      rcases hval with h | h
      · exfalso
        apply hemp
        -- nothing is left
        have hbk : (s.books w p).acct inst.backstop = accountOf (s.fl.w.pools p) inst.backstop := by
          simp only [SubmitState.books, hua]; rw [if_neg (Ne.symm hne)]
        cases hl : c1.user.pos.liabilities.toList with
        | nil => unfold SMap.isEmpty; rw [hl]; rfl
        | cons kv l =>
          exfalso
          have hg : c1.user.pos.liabilities.get kv.1 = some kv.2 := SMap.mem_toList.1 (by rw [hl]; simp)
          have hpos := v2.einv.inv.bals c1.user.addr c1.user.pos .liab kv.1 kv.2 (by
            show ((overlay _ _ ([c2.user] ++ [c1.user])).positions).get _ = _
            rw [overlay_positions_append, SMap.get_set]; simp) hg
          have e := m1.bal .liab kv.1
          have e2 := h kv.1
          rw [hbk] at e2
          simp only [Kind.map, User.load, accountOf, amountAt_listed] at e e2
          have e3 : c1.user.pos.liabilities.bal kv.1 = kv.2 := by unfold SMap.bal; rw [hg]; rfl
          omega
      · exact h
    obtain ⟨z, hz⟩ := hz
    refine NoErr.bind (poolData_live hov (i := inst) (by rw [hp2, sc2.inst]; exact hinst) (by rw [dba]; exact hb2) (z := z) (by
      rw [dlv]; show s.fl.w.backstop.lpVal = _; rw [t.lpVal]; exact hz)) fun d _ => ?_
    split
    · have hent : ∀ kv ∈ c1.user.pos.liabilities.toList, 0 < kv.2 ∧ kv.1 < c2.ps.resList.length := by
        intro kv hkv
        exact v2.einv.inv.bals c1.user.addr c1.user.pos .liab kv.1 kv.2 (by
          show ((overlay _ _ ([c2.user] ++ [c1.user])).positions).get _ = _
          rw [overlay_positions_append, SMap.get_set]; simp) (SMap.mem_toList.1 hkv)
      rw [hp2]
      refine NoErr.bind (collect_live _ _ fun kv hkv => (hent kv hkv).2) fun rm hrm => ?_
      refine NoErr.bind ?_ fun _ _ => NoErr.pure
      rw [f.time]
      refine rm_live (c := ⟨c2.ps, c2.cache, c1.user⟩) (us := [c2.user]) hov ok2 v2 AllPos.empty
        (collect_ok _ _ _ _ hrm (fun kv hkv => (hent kv hkv).1) AllPos.empty) (fun a x hx => by simp at hx) fun b x hx => ?_
      obtain ⟨g1, g2⟩ := collect_bal (resList := c2.ps.resList) v2.cfg.nodup _ _ _ c1.user.pos.liabilities.sorted hrm
      obtain ⟨j, y, hj, hjb⟩ : ∃ j y, (j, y) ∈ c1.user.pos.liabilities.toList ∧ c2.ps.resList[j]? = some b := by
        by_contra hn
        have := g2 b fun i x hi hc => hn ⟨i, x, hi, hc⟩
        rw [hx] at this
        simp at this
      obtain ⟨b', hb', hg⟩ := g1 j y hj
      rw [hjb] at hb'; cases hb'
      rw [hx] at hg; cases hg
      obtain ⟨cf, _, hcf, _⟩ := v2.cfg.list b (List.mem_of_getElem? hjb)
      refine ⟨cf, hcf, ?_⟩
      have hci : cf.index = j := v2.cfg.index_list hjb hcf
      rw [hci]
      unfold SMap.bal
      rw [SMap.mem_toList.1 hj]
      exact le_refl _
    · exact NoErr.pure

theorem interestLoop_live (hov : E .overflow = false) {filler : Address} (hpf : p ≠ filler) {us : List User} : ∀ (l : List (Nat × Int)) (w : World) (cache : Cache)
    (act : Address → Int), CacheOk (w.pools p) w.time cache →
    VOk w.time ⟨overlay (w.pools p) cache us, fun a => w.balance a p + act a, fun _ => 0, fun _ => 0⟩ →
    l.Pairwise (fun a b => a.1 < b.1) → (∀ kv ∈ l, 0 ≤ kv.2) → (∀ kv ∈ l, ∃ c, (w.pools p).resConfig kv.1 = some c) → (∀ kv ∈ l, kv.2 ≤ w.balance kv.1 p) →
    NoErr E (fillInterestLoop p filler l (w, cache)) := by
  have ov : ∀ {P : Prop}, E .overflow = true → P := fun h => by rw [hov] at h; cases h
  intro l
  induction l with
  | nil => intro w cache act _ _ _ _ _ _; exact NoErr.pure
  | cons kv l ih =>
    intro w cache act ok v hs hn hc hb
    obtain ⟨a, n⟩ := kv
    obtain ⟨s1, s2⟩ := List.pairwise_cons.1 hs
    obtain ⟨cf, hcf⟩ := hc (a, n) (by simp)
    obtain ⟨d, hd⟩ := v.data hcf
    unfold fillInterestLoop
    refine NoErr.bind (load_ctx hov ok v hcf hd) fun rc hrc => ?_
    obtain ⟨r, c1⟩ := rc
    refine NoErr.bind (NoErr.chk ov) fun cr hcr => NoErr.bind (transfer_live (hn (a, n) (by simp)) (Ne.symm hpf) (fun _ => hb (a, n) (by simp)) ov) fun w1 hw1 => ?_
    have h1 : fillInterestLoop p filler [(a, n)] (w, cache) = .ok (w1, c1.put { r with data := { r.data with backstopCredit := cr } }) := by
      simp only [fillInterestLoop, bind_ok, Prod.exists, pure_ok]
      exact ⟨r, c1, hrc, cr, hcr, w1, hw1, rfl⟩
    obtain ⟨m, ok1, hp1, ht1, _⟩ := fill_interestLoop (U := fun _ => True) (us := us) hpf _ _ _ _ _ ok h1
    have v1 := v.micros (m act)
    have hr := transfer_res hw1
    rw [← ht1] at v1 ok1
    refine ih w1 _ act ok1 v1 s2 (fun x hx => hn x (by simp [hx])) (fun x hx => by rw [hp1]; exact hc x (by simp [hx])) fun x hx => ?_
    rw [hr.bal]
    unfold moved
    have hne : ¬ x.1 = a := Nat.ne_of_gt (s1 x hx)
    simp only [hne, false_and, if_false]
    have := hb x (by simp [hx])
    omega

theorem donate_live (hov : E .overflow = false) {v : World} {auth : List Address} {n : Int} {bi : BackstopInst} (hbi : v.backstop.inst = some bi) (hn : 0 ≤ n)
    (ha : sender ∈ auth) (hpa : p ∈ auth) (hsp : sender ≠ p) (hsb : sender ≠ v.backstopAddr) (hk : KnownPool v p)
    (hw : n ≤ v.balance bi.backstopToken sender) : NoErr E (Backstop.donate v auth sender p n) := by
  have ov : ∀ {P : Prop}, E .overflow = true → P := fun h => by rw [hov] at h; cases h
  unfold Backstop.donate Backstop.executeDonate Backstop.requireNonneg Backstop.requireIsFromFactory Backstop.pbDeposit Backstop.inst requireAuth
  refine NoErr.bind (NoErr.req ha) fun _ _ => NoErr.bind (NoErr.req hpa) fun _ _ => NoErr.bind (NoErr.req (by omega)) fun _ _ =>
    NoErr.bind (NoErr.req (by rintro (h | h); exacts [hsp h, hsb h])) fun _ _ => ?_
  have h3 : ∀ bi', unwrap v.backstop.inst = .ok bi' → bi' = bi := by
    intro bi' h
    rw [unwrap_ok, hbi] at h; cases h; rfl
  refine NoErr.bind ?_ fun _ _ => NoErr.bind (NoErr.unwrap hbi) fun bi' hbi' => ?_
  · split
    · rename_i h0
      rcases hk with h | ⟨bi2, h1, h2, h4⟩
      · exact (h h0).elim
      · rw [hbi] at h1; cases h1
        refine NoErr.bind (NoErr.unwrap hbi) fun bi' hbi' => ?_
        rw [h3 bi' hbi']
        exact NoErr.bind (NoErr.req h2) fun _ _ => NoErr.req h4
    · exact NoErr.pure
  · rw [h3 bi' hbi']
    exact NoErr.bind (transfer_live hn (Ne.symm hsb) (fun _ => hw) ov) fun _ _ => NoErr.bind (NoErr.bind (NoErr.chk ov) fun _ _ =>
      NoErr.bind (NoErr.chk ov) fun _ _ => NoErr.pure) fun _ _ => NoErr.pure

/-- filling an interest auction -/
theorem interestFill_live (hov : E .overflow = false) {s : SubmitState} {auth : List Address} (f : FlightOk w p sender s) (t : Track w p s.fl) (v : VOk w.time (s.vs p))
    (hpb : p ≠ w.backstopAddr) (hsp : sender ≠ p) (ha : sender ∈ auth)
    {inst : PoolInst} (hi : (w.pools p).inst = some inst) (hne : sender ≠ inst.backstop) {bi : BackstopInst} (hbi : w.backstop.inst = some bi)
    (hba : inst.backstop = w.backstopAddr) {a : AuctionData} (hl : AllPos a.lot)
    (hb0 : 0 < a.bid.bal bi.backstopToken) (hwal : a.bid.bal bi.backstopToken ≤ (s.books w p).wallet bi.backstopToken sender)
    (hlr : Listed (w.pools p) a.lot) (hpw : ∀ t v, a.lot.get t = some v → v ≤ (s.books w p).wallet t p) (hk : KnownPool w p) :
    NoErr E (fillInterest s.fl p auth a) := by
  have hua := f.addr
  have hinst : (s.fl.w.pools p).inst = some inst := by rw [f.same.inst]; exact hi
  have hb2 : inst.backstop = s.fl.w.backstopAddr := by rw [hba]; exact f.backstop.symm
  have hbi2 : s.fl.w.backstop.inst = some bi := by rw [t.inst]; exact hbi
  unfold fillInterest PoolState.getInst
  refine NoErr.bind (NoErr.unwrap hinst) fun inst' hi' => ?_
  rw [unwrap_ok, hinst] at hi'; cases hi'
  refine NoErr.bind (NoErr.req (by rw [hua]; exact hne)) fun _ _ => NoErr.bind (token_live hinst hb2 hbi2) fun tok htok => ?_
  have : tok = bi.backstopToken := by
    unfold backstopToken PoolState.getInst Backstop.inst at htok
    simp only [bind_ok, pure_ok, require_ok, unwrap_ok] at htok
    obtain ⟨_, _, _, _, bi', h, rfl⟩ := htok
    rw [hbi2] at h; cases h; rfl
  subst this
  obtain ⟨n, hn⟩ : ∃ n, a.bid.get bi.backstopToken = some n := by
    cases h : a.bid.get bi.backstopToken with
    | none => unfold SMap.bal at hb0; rw [h] at hb0; simp at hb0
    | some n => exact ⟨n, rfl⟩
  have hnb : a.bid.bal bi.backstopToken = n := by unfold SMap.bal; rw [hn]; rfl
  rw [hnb] at hb0 hwal
  refine NoErr.bind (NoErr.unwrap hn) fun n' hn' => ?_
  rw [unwrap_ok, hn] at hn'; cases hn'
  have hk2 : KnownPool s.fl.w p := by
    rcases hk with h | ⟨bi2, h1, h2, h3⟩
    · exact .inl (by rw [t.shares]; exact h)
    · exact .inr ⟨bi2, by rw [t.inst]; exact h1, by rw [t.factory.2]; exact h2, by rw [t.factory.1]; exact h3⟩
  rw [hua]
  refine NoErr.bind (donate_live hov hbi2 hb0.le (List.mem_cons_of_mem _ ha) (List.mem_cons_self ..) hsp (by rw [← hb2]; exact hne) hk2 hwal) fun w1 hd => ?_
  obtain ⟨_, dp, dt, dba, dbal⟩ := donate_pools hd
  have hbal : ∀ t, w1.balance t p = s.fl.w.balance t p := fun t => dbal t p (by rw [f.backstop]; exact hpb) (Ne.symm hsp)
  refine NoErr.bind (interestLoop_live (us := [s.fl.user]) hov (Ne.symm hsp) _ w1 s.fl.cache (fun b => s.actions.spender.bal b - s.actions.pool.bal b) ?_ ?_ a.lot.sorted
    hl.list (fun kv hkv => ?_) fun kv hkv => ?_) fun _ _ => NoErr.pure
  · rw [dp, dt, f.time]; exact f.cacheOk
  · rw [dp, dt, f.time]
    have : (fun b => w1.balance b p + (s.actions.spender.bal b - s.actions.pool.bal b)) = (s.vs p).vb := by
      funext b
      rw [hbal]
      show _ = s.fl.w.balance b p + s.actions.spender.bal b - s.actions.pool.bal b
      omega
    rw [this]; exact v
  · obtain ⟨c, hc⟩ := hlr kv.1 kv.2 (SMap.mem_toList.1 hkv)
    exact ⟨c, by rw [dp, f.same.resConfig]; exact hc⟩
  · rw [hbal]; exact hpw kv.1 kv.2 (SMap.mem_toList.1 hkv)

theorem interestLoop_backstop {filler : Address} : ∀ (l : List (Nat × Int)) (x y : World × Cache),
    fillInterestLoop p filler l x = .ok y → y.1.backstop = x.1.backstop := by
  intro l
  induction l with
  | nil => intro x y h; simp only [fillInterestLoop, pure_ok] at h; subst h; rfl
  | cons kv l ih =>
    intro x y h
    simp only [fillInterestLoop, bind_ok, Prod.exists] at h
    obtain ⟨r, c1, _, cr, _, w1, ht, h⟩ := h
    exact (ih _ _ h).trans (by rw [(transfer_res ht).frame])

/-- a request does not touch the queue of the backstop -/
theorem request_q4w {auth : List Address} {s s' : SubmitState} {q : Request} (f : FlightOk w p sender s) (h : processRequest p auth s q = .ok s') :
    (s'.fl.w.backstop.getPoolBal p).q4w = (s.fl.w.backstop.getPoolBal p).q4w := by
  by_cases hq : q.type ≤ 5
  · obtain ⟨_, _, ps', hw, _⟩ := plain_step f hq h
    rw [hw]; rfl
  · obtain ⟨hn, _, h1⟩ := processRequest_ok h
    clear h
    obtain ⟨ty, x, n⟩ := q
    dsimp only at hn h1 hq
    have hfill : ∀ t, reqFill p auth t s x n = .ok s' → (s'.fl.w.backstop.getPoolBal p).q4w = (s.fl.w.backstop.getPoolBal p).q4w := by
      intro t h
      unfold reqFill at h
      simp only [bind_ok, pure_ok] at h
      obtain ⟨fl', hf, rfl⟩ := h
      obtain ⟨_, a, tk, rest, fl1, ha, hs, hk, rfl⟩ := fill_ok hf
      show (fl1.w.backstop.getPoolBal p).q4w = _
      rcases hk with ⟨_, hk⟩ | ⟨_, hk⟩ | ⟨_, _, hk⟩
      · unfold fillUserLiq at hk
        simp only [bind_ok, pure_ok] at hk
        obtain ⟨c1, _, c2, _, rfl⟩ := hk
        rfl
      · unfold fillBadDebt PoolState.getInst at hk
        simp only [bind_ok, pure_ok, require_ok, unwrap_ok, ite_ok] at hk
        obtain ⟨i, _, _, _, c1, _, c2, _, tok, _, lot, _, w2, hd, hk⟩ := hk
        have : (w2.backstop.getPoolBal p).q4w = (s.fl.w.backstop.getPoolBal p).q4w := by
          unfold Backstop.draw at hd
          simp only [bind_ok] at hd
          obtain ⟨_, _, hd⟩ := hd
          obtain ⟨_, _, i, _, hr⟩ := Backstop.executeDraw_res hd
          rw [hr.frame]
          show ((s.fl.w.backstop.setPoolBal p _).getPoolBal p).q4w = _
          rw [Backstop.getPoolBal_setPoolBal]; simp; rfl
        rcases hk with ⟨_, rfl⟩ | ⟨_, d, _, ⟨_, rm, _, c3, _, rfl⟩ | ⟨_, rfl⟩⟩ <;> exact this
      · unfold fillInterest at hk
        simp only [bind_ok, pure_ok, Prod.exists] at hk
        obtain ⟨i, _, _, _, tok, _, bid, _, w1, hd, w2, cache, hl, rfl⟩ := hk
        have e := interestLoop_backstop _ _ _ hl
        show (w2.backstop.getPoolBal p).q4w = _
        change w2.backstop = w1.backstop at e
        rw [e]
        unfold Backstop.donate at hd
        simp only [bind_ok] at hd
        obtain ⟨_, _, _, _, hd⟩ := hd
        obtain ⟨_, _, _, i, w1, _, hr, rfl⟩ := Backstop.executeDonate_res hd
        show ((s.fl.w.backstop.setPoolBal p _).getPoolBal p).q4w = _
        rw [Backstop.getPoolBal_setPoolBal]; simp
    rcases h1 with ⟨ht, h⟩ | ⟨ht, h⟩ | ⟨ht, h⟩ | ⟨ht, h⟩ | ⟨ht, h⟩ | ⟨ht, h⟩ | ⟨ht, h⟩ | ⟨ht, h⟩ | ⟨ht, h⟩ | ⟨ht, h⟩
    iterate 6 exact absurd ht (by omega)
    · exact hfill _ h
    · exact hfill _ h
    · exact hfill _ h
    · unfold reqDelete at h
      simp only [bind_ok, pure_ok] at h
      obtain ⟨ps', _, rfl⟩ := h
      rfl

theorem _root_.Blend.Spec.Positive.allPos {m : SMap Int} (h : Positive m) : AllPos m := h

/-- a request that fills or deletes an auction, with a specified effect, goes through -/
theorem auction_live (hr : Reachable w) (hp : w.poolAddr p = true) (hov : E .overflow = false) {s : SubmitState} {auth : List Address} (hsp : sender ≠ p) (ha : sender ∈ auth)
    (f : FlightOk w p sender s) (t : Track w p s.fl) (hem : EInv w.time (s.vs p) ∧ ∀ id, 0 ≤ (s.vs p).ps.claimed id)
    (hq4 : (s.fl.w.backstop.getPoolBal p).q4w = (w.backstop.getPoolBal p).q4w)
    {i : PoolInst} (hi : (w.pools p).inst = some i) {q : Request} (hperm : Permitted i.config.status q) {B : Books}
    (he : AuctionEffect w p sender (s.books w p) q B) : NoErr E (processRequest p auth s q) := by
  have cfg := hr.base.cfg p
  have v : VOk w.time (s.vs p) := ⟨f.cfg, hem.1, hem.2⟩
  have hua := f.addr
  have hconf : s.fl.cache.config = i.config := by
    obtain ⟨j, hj, hjc⟩ := t.cur.config
    rw [← t.cur.inst, hi] at hj; cases hj
    exact hjc.symm
  have hallow : 0 ≤ q.amount → NoErr E (requireActionAllowed s.fl.cache.config q.type) := by
    intro _
    unfold requireActionAllowed
    rw [hconf]
    refine NoErr.req ?_
    obtain ⟨p1, p2⟩ := hperm
    rintro (⟨h1, h2⟩ | ⟨h1, h2⟩)
    · have := p1 h2; omega
    · have := p2 (by tauto); omega
  have hsc : ∀ {ty : Nat} {u : Address} {n : Int} {a tk : AuctionData} {rest : Option AuctionData}, Filling w (s.books w p) sender ty u n a tk rest →
      (∀ a', a'.bid = tk.bid → a'.lot = tk.lot → NoErr E (if ty = 0 then fillUserLiq s.fl p a' u else if ty = 1 then fillBadDebt s.fl p a' else fillInterest s.fl p auth a')) →
      NoErr E (reqFill p auth ty s u n) := by
    intro ty u n a tk rest ⟨h1, h2, h3, h4, h5⟩ hk
    unfold reqFill fill
    refine NoErr.bind (NoErr.bind (NoErr.req (by rw [hua]; exact h1)) fun _ _ => NoErr.bind (NoErr.unwrap h3) fun a' ha' => ?_) fun _ _ => NoErr.pure
    rw [unwrap_ok] at ha'
    have h3' : (s.fl.w.pools p).auctions ty u = some a := h3
    rw [h3'] at ha'; cases ha'
    rw [f.seq, asU64_eq h2]
    refine NoErr.bind (scale_live hov h4 h5.range.1 h5.range.2) fun x hx => ?_
    obtain ⟨tk', rest'⟩ := x
    obtain ⟨_, _, h6⟩ := scaleAuction_ok hx
    obtain ⟨e1, e2, _⟩ := h6.unique h5
    have := hk tk' e1 e2
    dsimp only
    split
    · rename_i h0
      rw [if_pos h0] at this
      exact NoErr.bind this fun _ _ => NoErr.pure
    · rename_i h0
      rw [if_neg h0] at this
      split
      · rename_i h1
        rw [if_pos h1] at this
        exact NoErr.bind this fun _ _ => NoErr.pure
      · rename_i h1
        rw [if_neg h1] at this
        exact NoErr.bind this fun _ _ => NoErr.pure
  unfold processRequest requireNonneg
  cases he with
  | liquidation hf hle hcr hlr =>
    have hn := hf.2.1
    refine NoErr.bind (NoErr.req (by dsimp only; omega)) fun _ _ => NoErr.bind (hallow hn) fun _ _ => hsc hf fun a' e1 e2 => ?_
    rw [if_pos rfl]
    have hpos := hf.2.2.2.2.positive
    rw [← e1, ← e2] at hpos
    exact liq_live hov f v cfg hf.1 hpos.1 hpos.2 (by rw [e1, e2]; exact hle) (by rw [e2]; exact hcr) (by rw [e1]; exact hlr)
  | badDebt hf h1 h2 h3 h4 h5 h6 h7 h8 h9 h10 h11 =>
    have hn := hf.2.1
    refine NoErr.bind (NoErr.req (by dsimp only; omega)) fun _ _ => NoErr.bind (hallow hn) fun _ _ => hsc hf fun a' e1 e2 => ?_
    rw [if_neg (by decide), if_pos rfl]
    have hpos := hf.2.2.2.2.positive
    rw [← e1, ← e2] at hpos
    have hsh := hr.ball.inv.shares_nonneg p
    refine badDebtFill_live hov f t v cfg (by rw [hq4]; exact hsh.1) (by rw [t.shares]; exact le_trans hsh.1 hsh.2) h1 h2 h3 h4 hpos.1 (by rw [e1]; exact h5) (by rw [e2]; exact h6)
      (by rw [e2]; exact h7) (by rw [e2]; exact h8) (by rw [e1]; exact h10) (by rw [e1]; exact h11)
  | interest hf h1 h2 h3 h4 h5 h6 h7 h8 h9 =>
    have hn := hf.2.1
    refine NoErr.bind (NoErr.req (by dsimp only; omega)) fun _ _ => NoErr.bind (hallow hn) fun _ _ => hsc hf fun a' e1 e2 => ?_
    rw [if_neg (by decide), if_neg (by decide)]
    have hpos := hf.2.2.2.2.positive
    rw [← e1, ← e2] at hpos
    exact interestFill_live hov f t v (hr.base.pool_ne hp) hsp ha h1 h2 h3 h4 hpos.2 (by rw [e1]; exact h5) (by rw [e1]; exact h6)
      (by rw [e2]; exact h7) (by rw [e2]; exact h8) h9
  | delete hn h1 =>
    refine NoErr.bind (NoErr.req (by dsimp only; omega)) fun _ _ => NoErr.bind (hallow hn) fun _ _ => ?_
    show NoErr E (reqDelete p s)
    unfold reqDelete deleteLiquidation
    refine NoErr.bind (NoErr.bind (NoErr.req ?_) fun _ _ => NoErr.pure) fun _ _ => NoErr.pure
    rw [hua]
    have h1' : (s.fl.w.pools p).auctions 0 sender = some _ := h1
    rw [h1']; rfl

/-- between the requests of a submit -/
structure Middle (w : World) (p : Address) (s : SubmitState) : Prop where
  track : Track w p s.fl
  q4w : (s.fl.w.backstop.getPoolBal p).q4w = (w.backstop.getPoolBal p).q4w

theorem books_sender {s : SubmitState} (f : FlightOk w p sender s) : (s.books w p).acct sender = s.acct := by
  simp [SubmitState.books, f.addr]

/-- requests that go through follow a plan -/
theorem full_plans (hr : Reachable w) (hp : w.poolAddr p = true) (hsp : sender ≠ p) {auth : List Address} {cache : Cache}
    (hc : Cache.load (w.pools p) = .ok cache) : ∀ (l l1 : List Request) (s s' : SubmitState),
      l1.foldlM (processRequest p auth) (startState w p cache sender) = .ok s → Middle w p s → l.foldlM (processRequest p auth) s = .ok s' →
      Middle w p s' ∧ FullPlan w p sender l (s.books w p) (s'.books w p) := by
  intro l
  induction l with
  | nil =>
    intro l1 s s' _ hb h
    rw [foldlM_nil] at h
    subst h
    exact ⟨hb, .nil _⟩
  | cons q l ih =>
    intro l1 s s' h1 hb h
    rw [foldlM_cons] at h
    obtain ⟨s1, hs1, h⟩ := h
    have h1' : (l1 ++ [q]).foldlM (processRequest p auth) (startState w p cache sender) = .ok s1 := by
      rw [List.foldlM_append, bind_ok]
      exact ⟨s, h1, by rw [foldlM_cons]; exact ⟨s1, hs1, rfl⟩⟩
    have f := flight_of hr hp hsp hc h1
    have f1 := flight_of hr hp hsp hc h1'
    obtain ⟨t1, k⟩ := full_step hr (hr.base.pool_ne hp) hsp f f1 hb.track hs1
    have hq4 := (request_q4w f hs1).trans hb.q4w
    obtain ⟨j1, j2⟩ := ih (l1 ++ [q]) s1 s' h1' ⟨t1, hq4⟩ h
    refine ⟨j1, ?_⟩
    rcases k with ⟨hq, c, d, A, e1, e2, e3, e4⟩ | k
    · have hA : A = s1.acct := by rw [← books_sender f1, e4]; simp
      rw [e4] at j2
      refine .plain hq e1 e2 e3 (fun h4 => ?_) j2
      rw [util_within h4 e3]
      obtain ⟨_, _, _, c', d', g1, g2, _, _, g3, g4⟩ := plain_plan hr hp hsp f f1 hb.track
        (Δ := fun k i => tot (s.vs p).ps k i - tot (w.pools p) k i) (fun k i => by omega) hq hs1
      rw [e1] at g1; cases g1
      have := Current.unique e2 g2
      subst this
      rw [hA, books_sender f]
      exact g4 h4
    · exact .auction k j2

theorem _root_.Blend.Spec.AuctionEffect.type_ge {sender : Address} {B B1 : Books} {q : Request} (h : AuctionEffect w p sender B q B1) :
    6 ≤ q.type := by
  cases h <;> simp

/-- requests that follow a plan go through, and lead where the plan says -/
theorem fullPlan_live (hr : Reachable w) (hp : w.poolAddr p = true) (hsp : sender ≠ p) {auth : List Address} (ha : sender ∈ auth) {cache : Cache}
    (hov : E .overflow = false) (hc : Cache.load (w.pools p) = .ok cache) {i : PoolInst} (hi : (w.pools p).inst = some i) :
    ∀ (l l1 : List Request) (s : SubmitState) (B : Books), (∀ q ∈ l, Permitted i.config.status q) →
      l1.foldlM (processRequest p auth) (startState w p cache sender) = .ok s → Middle w p s →
      FullPlan w p sender l (s.books w p) B →
      NoErr E (l.foldlM (processRequest p auth) s) ∧ ∀ s', l.foldlM (processRequest p auth) s = .ok s' → s'.books w p = B := by
  intro l
  induction l with
  | nil =>
    intro l1 s B _ _ _ hpl
    cases hpl
    exact ⟨NoErr.pure, fun s' hs' => by rw [foldlM_nil] at hs'; rw [hs']⟩
  | cons q l ih =>
    intro l1 s B hq h1 hb hpl
    have f := flight_of hr hp hsp hc h1
    have hem := flight_einv hr hp hsp hc h1
    have next : ∀ {s1}, processRequest p auth s q = .ok s1 →
        (l1 ++ [q]).foldlM (processRequest p auth) (startState w p cache sender) = .ok s1 := by
      intro s1 hs1
      rw [List.foldlM_append, bind_ok]
      exact ⟨s, h1, by rw [foldlM_cons]; exact ⟨s1, hs1, rfl⟩⟩
    suffices hmain : NoErr E (processRequest p auth s q) ∧ ∃ B1, FullPlan w p sender l B1 B ∧
        ∀ s1, processRequest p auth s q = .ok s1 → s1.books w p = B1 by
      obtain ⟨hreq, B1, hB1, hfin⟩ := hmain
      have key : ∀ s1, processRequest p auth s q = .ok s1 → NoErr E (l.foldlM (processRequest p auth) s1) ∧
          ∀ s', l.foldlM (processRequest p auth) s1 = .ok s' → s'.books w p = B := by
        intro s1 hs1
        have h1' := next hs1
        obtain ⟨t1, _⟩ := full_step hr (hr.base.pool_ne hp) hsp f (flight_of hr hp hsp hc h1') hb.track hs1
        exact ih (l1 ++ [q]) s1 B (fun x hx => hq x (by simp [hx])) h1' ⟨t1, (request_q4w f hs1).trans hb.q4w⟩ (by rw [hfin s1 hs1]; exact hB1)
      refine ⟨?_, fun s' hs' => ?_⟩
      · rw [List.foldlM_cons]
        exact NoErr.bind hreq fun s1 hs1 => (key s1 hs1).1
      · rw [foldlM_cons] at hs'
        obtain ⟨s1, hs1, hs'⟩ := hs'
        exact (key s1 hs1).2 s' hs'
    cases hpl with
    | plain p0 p1 p2 p3 p4 p5 =>
      have p3' := p3
      rw [books_sender f] at p3'
      refine ⟨request_flight hr hp hov f hb.track hem (Δ := fun k i => tot (s.vs p).ps k i - tot (w.pools p) k i) (fun k i => by omega) hi (hq q (by simp)) p1 p2 p3'
        (fun h4 => ?_), _, p5, fun s1 hs1 => ?_⟩
      · have := (util_within h4 p3).1 (p4 h4)
        rw [books_sender f] at this
        exact this
      · obtain ⟨_, k⟩ := full_step hr (hr.base.pool_ne hp) hsp f (flight_of hr hp hsp hc (next hs1)) hb.track hs1
        rcases k with ⟨_, c, d, A, e1, e2, e3, e4⟩ | k
        · rw [p1] at e1; cases e1
          have := Current.unique p2 e2
          subst this
          have hrt := hr.ratesPos hp _ _ p2
          have := Effect.unique hrt.1 hrt.2 p3 e3
          subst this
          exact e4
        · exfalso
          have := k.type_ge
          omega
    | auction p1 p2 =>
      refine ⟨auction_live hr hp hov hsp ha f hb.track hem hb.q4w hi (hq q (by simp)) p1, _, p2, fun s1 hs1 => ?_⟩
      obtain ⟨_, k⟩ := full_step hr (hr.base.pool_ne hp) hsp f (flight_of hr hp hsp hc (next hs1)) hb.track hs1
      rcases k with ⟨h5, _⟩ | k
      · exfalso
        have := p1.type_ge
        omega
      · exact k.unique p1

end Pool
end Blend
