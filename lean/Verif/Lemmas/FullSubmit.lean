import Verif.Lemmas.Scale
import Verif.Lemmas.Liquidation
import Verif.Lemmas.Threshold
/-
  A submit of any requests against its specification.
-/

namespace Blend
namespace Pool
open Spec

/-- the books of a submit in progress -/
def SubmitState.books (w : World) (p : Address) (s : SubmitState) : Books where
  acct x := if x = s.fl.user.addr then s.acct else accountOf (s.fl.w.pools p) x
  auction := (s.fl.w.pools p).auctions
  lp := (s.fl.w.backstop.getPoolBal p).tokens
  wallet := fun t x => s.fl.w.balance t x
  credit := credAt (w.pools p) w.time s.fl.cache

/-- what holds between the requests, besides `FlightOk` -/
structure Track (w : World) (p : Address) (fl : Flight) : Prop where
  cur : CacheCur (w.pools p) (fl.w.pools p) w.time fl.cache
  lpVal : fl.w.backstop.lpVal = w.backstop.lpVal
  inst : fl.w.backstop.inst = w.backstop.inst
  lp : 0 ≤ (fl.w.backstop.getPoolBal p).tokens
  shares : (fl.w.backstop.getPoolBal p).shares = (w.backstop.getPoolBal p).shares
  factory : fl.w.factory = w.factory ∧ fl.w.factoryAddr = w.factoryAddr

theorem amountAt_listed (ps : PoolState) (m : SMap Int) (i : Nat) : amountAt ps m i = listed ps m.bal i := rfl

/-- a loop of share operations meets only reserves -/
theorem fold_res {V : PoolState} {now : Nat} {f : ShareOp} {k : Kind} {add : Bool} (hop : IsShareOp f k add) (cfg : CfgOk V) :
    ∀ (l : List (Nat × Int)) (c c' : UCtx), CacheCur V c.ps now c.cache →
      l.foldlM (fun c kv => c.apply now f kv.1 kv.2) c = .ok c' → ∀ kv ∈ l, ∃ cf, V.resConfig kv.1 = some cf := by
  intro l
  induction l with
  | nil => intro c c' _ _ kv hkv; cases hkv
  | cons x l ih =>
    intro c c' cur h kv hkv
    rw [foldlM_cons] at h
    obtain ⟨c1, h1, h2⟩ := h
    have h1' : ([x] : List (Nat × Int)).foldlM (fun c kv => c.apply now f kv.1 kv.2) c = .ok c1 := by
      rw [foldlM_cons]; exact ⟨c1, h1, rfl⟩
    obtain ⟨m1, _⟩ := fold_moved hop cfg _ _ _ cur h1'
    rcases List.mem_cons.1 hkv with rfl | hkv
    · unfold UCtx.apply at h1
      simp only [bind_ok, Prod.exists] at h1
      obtain ⟨r, cc, hl, _⟩ := h1
      obtain ⟨hm, _⟩ := cur.load hl
      obtain ⟨cf, hcf, _⟩ := hm.cfg
      exact ⟨cf, by rw [cur.resConfig]; exact hcf⟩
    · exact ih c1 c' m1.cur h2 kv hkv

theorem addPositions_res {V : PoolState} {now : Nat} {c c' : UCtx} {coll liab : SMap Int} (cfg : CfgOk V)
    (cur : CacheCur V c.ps now c.cache) (h : addPositions now c coll liab = .ok c') : Listed V coll ∧ Listed V liab := by
  unfold addPositions at h
  simp only [bind_ok] at h
  obtain ⟨c1, h1, h2⟩ := h
  obtain ⟨m1, _⟩ := fold_moved isAddColl cfg _ _ _ cur h1
  exact ⟨fun x v hx => fold_res isAddColl cfg _ _ _ cur h1 (x, v) (SMap.mem_toList.2 hx),
    fun x v hx => fold_res isAddLiab cfg _ _ _ m1.cur h2 (x, v) (SMap.mem_toList.2 hx)⟩

theorem accountOf_store {u : User} {ps : PoolState} {x : Address} :
    accountOf (u.store ps) x = if x = u.addr then
      ⟨fun i => u.pos.supply.bal i, fun i => u.pos.collateral.bal i, fun i => u.pos.liabilities.bal i, fun _ => 0, fun _ => 0⟩
      else accountOf ps x := by
  unfold accountOf User.store setPositions getPositions
  simp only [SMap.get_set]
  by_cases h : x = u.addr
  · simp [h]
  · simp [h]

theorem accountOf_congr {ps ps' : PoolState} (h : ps'.positions = ps.positions) (x : Address) : accountOf ps' x = accountOf ps x := by
  unfold accountOf getPositions; rw [h]

theorem FlightOk.other_nonneg {w : World} {p sender : Address} {s : SubmitState} (f : FlightOk w p sender s) {u : Address}
    (hu : u ≠ sender) (k : Kind) (i : Nat) : 0 ≤ (k.map (getPositions (s.fl.w.pools p) u)).bal i := by
  have hne : u ≠ s.fl.user.addr := by rw [f.addr]; exact hu
  rw [← getPositions_overlay_ne (s.fl.w.pools p) s.fl.cache s.fl.user u hne]
  unfold getPositions
  cases hg : (overlay (s.fl.w.pools p) s.fl.cache [s.fl.user]).positions.get u with
  | none => simp [Positions.default]; cases k <;> simp [Kind.map, SMap.bal]
  | some pos => exact f.pinv.bal_nonneg k u pos i hg

theorem CfgOk.of_flight {w : World} {p sender : Address} {s : SubmitState} (f : FlightOk w p sender s) (hr : Reachable w) : CfgOk (w.pools p) :=
  (hr.base.cfg p)

/-- filling a liquidation -/
theorem full_userLiq {w : World} {p sender : Address} {s : SubmitState} {fl' : Flight} {a : AuctionData} {u : Address} {c : Bool}
    (cfg : CfgOk (w.pools p)) (f : FlightOk w p sender s) (t : Track w p s.fl) (hu : u ≠ sender)
    (h : fillUserLiq s.fl p a u = .ok fl') :
    Track w p fl' ∧ (fl'.w.pools p).auctions = (s.fl.w.pools p).auctions ∧
    (∀ i, amountAt (w.pools p) a.lot i ≤ ((s.books w p).acct u).collateral i ∧ amountAt (w.pools p) a.bid i ≤ ((s.books w p).acct u).debt i) ∧
    Listed (w.pools p) a.lot ∧ Listed (w.pools p) a.bid ∧
    SubmitState.books w p ⟨fl', s.actions, c⟩ = { s.books w p with
      acct := upd (upd (s.books w p).acct u (take (w.pools p) (-1) a.lot a.bid ((s.books w p).acct u)))
        sender (take (w.pools p) 1 a.lot a.bid ((s.books w p).acct sender)) } := by
  have hua := f.addr
  unfold fillUserLiq at h
  simp only [bind_ok, pure_ok] at h
  obtain ⟨c1, h1, c2, h2, rfl⟩ := h
  rw [f.time] at h1 h2
  obtain ⟨m1, n1⟩ := rmPositions_moved cfg t.cur h1
  have m2 := addPositions_moved cfg (c := ⟨c1.ps, c1.cache, s.fl.user⟩) m1.cur h2
  have nn := n1 (fun k i => f.other_nonneg hu k i)
  have a1 : c1.user.addr = u := m1.addr
  have a2 : c2.user.addr = sender := m2.addr.trans hua
  have hpos : ∀ x, accountOf c2.ps x = accountOf (s.fl.w.pools p) x := fun x => by
    rw [accountOf_congr m2.positions, accountOf_congr m1.positions]
  have hbu : (s.books w p).acct u = accountOf (s.fl.w.pools p) u := by
    simp only [SubmitState.books, hua]; rw [if_neg hu]
  obtain ⟨r1, r2⟩ := addPositions_res cfg (c := ⟨c1.ps, c1.cache, s.fl.user⟩) m1.cur h2
  refine ⟨⟨?_, t.lpVal, t.inst, t.lp, t.shares, t.factory⟩, ?_, fun i => ?_, r1, r2, ?_⟩
  · simp only [pools_setPool]
    exact m2.cur.same (store_same _ _)
  · simp only [pools_setPool]
    show c2.ps.auctions = _
    rw [m2.auctions, m1.auctions]
  · rw [hbu]
    have e1 := nn .coll i
    have e2 := nn .liab i
    rw [m1.bal] at e1 e2
    simp only [Kind.map, User.load] at e1 e2
    simp only [accountOf, amountAt_listed]
    omega
  · unfold SubmitState.books
    simp only [pools_setPool, Books.mk.injEq]
    refine ⟨funext fun x => ?_, ?_, rfl, rfl, ?_⟩
    · rw [a2, hua, accountOf_store, a1]
      by_cases hx : x = sender
      · subst hx
        simp only [upd, if_true, take, SubmitState.acct, Account.mk.injEq, true_and, and_true]
        refine ⟨?_, ?_, ?_⟩
        · funext i; have := m2.bal .supp i; simpa [Kind.map] using this
        · funext i; have := m2.bal .coll i; simp only [Kind.map] at this; simp [this, amountAt_listed]
        · funext i; have := m2.bal .liab i; simp only [Kind.map] at this; simp [this, amountAt_listed]
      · simp only [upd, if_neg hx]
        by_cases hxu : x = u
        · subst hxu
          simp only [if_true, take, if_neg hx, accountOf, Account.mk.injEq, and_true]
          refine ⟨?_, ?_, ?_⟩
          · funext i; have := m1.bal .supp i; simpa [Kind.map, User.load] using this
          · funext i; have := m1.bal .coll i; simp only [Kind.map, User.load] at this; simp [this, amountAt_listed]
          · funext i; have := m1.bal .liab i; simp only [Kind.map, User.load] at this; simp [this, amountAt_listed]
        · rw [if_neg hxu, if_neg hxu]; exact hpos x
    · show c2.ps.auctions = _
      rw [m2.auctions, m1.auctions]
    · funext b
      rw [m2.credit, m1.credit]

/-- what a draw does -/
theorem draw_full {w w' : World} {auth : List Address} {p dst : Address} {amt : Int} (h : Backstop.draw w auth p amt dst = .ok w') :
    ∃ bi, w.backstop.inst = some bi ∧ w'.pools = w.pools ∧ w'.time = w.time ∧ w'.seq = w.seq ∧ w'.backstopAddr = w.backstopAddr ∧
      w'.backstop.lpVal = w.backstop.lpVal ∧ w'.backstop.inst = w.backstop.inst ∧ 0 ≤ amt ∧ amt ≤ (w.backstop.getPoolBal p).tokens ∧
      (w'.backstop.getPoolBal p).tokens = (w.backstop.getPoolBal p).tokens - amt ∧
      ((w'.backstop.getPoolBal p).shares = (w.backstop.getPoolBal p).shares ∧ w'.factory = w.factory ∧ w'.factoryAddr = w.factoryAddr) ∧
      amt ≤ w.balance bi.backstopToken w.backstopAddr ∧
      ∀ t x, w'.balance t x = paid (fun t x => w.balance t x) bi.backstopToken w.backstopAddr dst amt t x := by
  unfold Backstop.draw at h
  simp only [bind_ok] at h
  obtain ⟨_, _, h⟩ := h
  obtain ⟨h0, hle, i, hi, hr⟩ := Backstop.executeDraw_res h
  refine ⟨i, hi, ?_, ?_, ?_, ?_, ?_, ?_, h0, hle, ?_, ⟨?_, ?_, ?_⟩, hr.enough, fun t x => ?_⟩
  case refine_11 => rw [hr.bal]; unfold moved paid; dsimp only; show World.balance w t x + _ = _; omega
  all_goals rw [hr.frame]
  all_goals first
    | rfl
    | (show ((w.backstop.setPoolBal p _).getPoolBal p).tokens = _
       rw [Backstop.getPoolBal_setPoolBal]; simp)
    | (show ((w.backstop.setPoolBal p _).getPoolBal p).shares = _
       rw [Backstop.getPoolBal_setPoolBal]; simp)

/-- what a donation does -/
theorem donate_full {w w' : World} {auth : List Address} {p sender : Address} {amt : Int} (h : Backstop.donate w auth sender p amt = .ok w') :
    ∃ bi, w.backstop.inst = some bi ∧ w'.pools = w.pools ∧ w'.time = w.time ∧ w'.seq = w.seq ∧ w'.backstopAddr = w.backstopAddr ∧
      w'.backstop.lpVal = w.backstop.lpVal ∧ w'.backstop.inst = w.backstop.inst ∧ 0 ≤ amt ∧
      (w'.backstop.getPoolBal p).tokens = (w.backstop.getPoolBal p).tokens + amt ∧
      ((w'.backstop.getPoolBal p).shares = (w.backstop.getPoolBal p).shares ∧ w'.factory = w.factory ∧ w'.factoryAddr = w.factoryAddr) ∧
      amt ≤ w.balance bi.backstopToken sender ∧ KnownPool w p ∧
      ∀ t x, w'.balance t x = paid (fun t x => w.balance t x) bi.backstopToken sender w.backstopAddr amt t x := by
  unfold Backstop.donate at h
  simp only [bind_ok] at h
  obtain ⟨_, _, _, _, h⟩ := h
  have hk : KnownPool w p := by
    unfold Backstop.executeDonate Backstop.requireIsFromFactory Backstop.inst at h
    simp only [bind_ok, require_ok, unwrap_ok, ite_ok, pure_ok] at h
    obtain ⟨_, _, _, _, _, h, _⟩ := h
    rcases h with ⟨_, bi, h1, _, h2, h3⟩ | ⟨h, _⟩
    · exact .inr ⟨bi, h1, h2, h3⟩
    · exact .inl h
  obtain ⟨h0, _, _, i, w1, hi, hr, rfl⟩ := Backstop.executeDonate_res h
  refine ⟨i, hi, by rw [hr.frame]; rfl, by rw [hr.frame]; rfl, by rw [hr.frame]; rfl, by rw [hr.frame]; rfl, rfl, rfl, h0, ?_,
    ⟨?_, by rw [hr.frame]; rfl, by rw [hr.frame]; rfl⟩, hr.enough, hk, fun t x => ?_⟩
  · show ((w.backstop.setPoolBal p _).getPoolBal p).tokens = _
    rw [Backstop.getPoolBal_setPoolBal]; simp
  · show ((w.backstop.setPoolBal p _).getPoolBal p).shares = _
    rw [Backstop.getPoolBal_setPoolBal]; simp
  · show w1.balance t x = _
    rw [hr.bal]; unfold moved paid; dsimp only; omega

/-- the write-off condition in terms of the specification -/
theorem low_iff {w : World} {p : Address} {pd : Backstop.PoolData} (lp : ∀ b u, w.backstop.lpVal = some (b, u) → 0 ≤ b ∧ 0 ≤ u)
    (ht : 0 ≤ (w.backstop.getPoolBal p).tokens) (h : Backstop.loadPoolData w p = .ok pd) :
    backstopThreshold pd < 3 ↔ BackstopLow w (w.backstop.getPoolBal p).tokens := by
  obtain ⟨_, _, h3⟩ := Backstop.loadPoolData_spec' lp ht h
  have key := Backstop.pool_threshold_iff' lp ht h (n := 3) (by norm_num) (by norm_num)
  rw [← not_le, key]
  constructor
  · intro hn
    obtain ⟨vb, vu, b, u, k1, k2, k3, k4, k5⟩ := (h3 _ _).2 ⟨rfl, rfl⟩
    refine ⟨vb, vu, b, u, _, _, k1, k2, k3, k4, k5, ?_⟩
    by_contra hc
    exact hn ⟨_, _, (h3 _ _).2 ⟨rfl, rfl⟩, by omega⟩
  · rintro ⟨vb, vu, b, u, B, U, k1, k2, k3, k4, k5, hlt⟩ ⟨B', U', hu, hge⟩
    obtain ⟨e1, e2⟩ := (h3 _ _).1 ⟨vb, vu, b, u, k1, k2, k3, k4, k5⟩
    obtain ⟨e3, e4⟩ := (h3 _ _).1 hu
    rw [e3, e4, ← e1, ← e2] at hge
    omega

/-- `collectLiabilities` lists every balance -/
theorem collect_bal {resList : List Address} (hnd : resList.Nodup) :
    ∀ (l : List (Nat × Int)) (m m' : SMap Int), l.Pairwise (fun a b => a.1 < b.1) → collectLiabilities resList l m = .ok m' →
      (∀ i x, (i, x) ∈ l → ∃ a, resList[i]? = some a ∧ m'.get a = some x) ∧
      (∀ a, (∀ i x, (i, x) ∈ l → resList[i]? ≠ some a) → m'.get a = m.get a) := by
  intro l
  induction l with
  | nil => intro m m' _ h; simp only [collectLiabilities, pure_ok] at h; subst h; simp
  | cons kv l ih =>
    obtain ⟨i, amount⟩ := kv
    intro m m' hs h
    simp only [collectLiabilities, bind_ok, unwrap_ok] at h
    obtain ⟨a, ha, h⟩ := h
    rw [List.pairwise_cons] at hs
    obtain ⟨h1, h2⟩ := ih _ _ hs.2 h
    refine ⟨fun j y hj => ?_, fun b hb => ?_⟩
    · rcases List.mem_cons.1 hj with e | hj
      · cases e
        refine ⟨a, ha, ?_⟩
        rw [h2, SMap.get_set_same]
        intro j y hjy hc
        have := hs.1 _ hjy
        have e := (List.getElem?_inj (l := resList) (i := i) (j := j) (by
          rw [List.getElem?_eq_some_iff] at ha; exact ha.1) hnd).1 (ha.trans hc.symm)
        simp only at this; omega
      · exact h1 j y hj
    · rw [h2 b fun j y hj => hb j y (by simp [hj]), SMap.get_set_ne]
      rintro rfl
      exact hb i amount (by simp) ha

theorem collect_listed {V : PoolState} (hnd : V.resList.Nodup) {pos m : SMap Int} (h : collectLiabilities V.resList pos.toList .empty = .ok m)
    (i : Nat) : listed V m.bal i = pos.bal i := by
  obtain ⟨h1, h2⟩ := collect_bal hnd _ _ _ pos.sorted h
  unfold listed
  cases hi : V.resList[i]? with
  | none =>
    cases hg : pos.get i with
    | none => simp [SMap.bal, hg]
    | some x =>
      obtain ⟨a, ha, _⟩ := h1 i x (SMap.mem_toList.2 hg)
      rw [hi] at ha; cases ha
  | some a =>
    cases hg : pos.get i with
    | none =>
      have := h2 a (by
        intro j x hj hc
        have e := (List.getElem?_inj (l := V.resList) (i := i) (j := j) (by
          rw [List.getElem?_eq_some_iff] at hi; exact hi.1) hnd).1 (hi.trans hc.symm)
        subst e
        rw [SMap.mem_toList, hg] at hj; cases hj)
      simp [SMap.bal, hg, this]
    | some x =>
      obtain ⟨b, hb, hm⟩ := h1 i x (SMap.mem_toList.2 hg)
      rw [hi] at hb; cases hb
      simp [SMap.bal, hg, hm]

/-- filling a bad debt auction -/
theorem full_badDebt {w : World} {p sender : Address} {s : SubmitState} {fl' : Flight} {a : AuctionData} {c : Bool}
    (lpv : ∀ b u, w.backstop.lpVal = some (b, u) → 0 ≤ b ∧ 0 ≤ u) (hpos : AllPos a.lot)
    (cfg : CfgOk (w.pools p)) (f : FlightOk w p sender s) (t : Track w p s.fl) (h : fillBadDebt s.fl p a = .ok fl') :
    Track w p fl' ∧ (fl'.w.pools p).auctions = (s.fl.w.pools p).auctions ∧ ∃ inst bi, ∃ gone : Nat → Int,
    (w.pools p).inst = some inst ∧ sender ≠ inst.backstop ∧ w.backstop.inst = some bi ∧ inst.backstop = w.backstopAddr ∧
    (∀ i, amountAt (w.pools p) a.bid i ≤ ((s.books w p).acct inst.backstop).debt i) ∧
    0 < a.lot.bal bi.backstopToken ∧ a.lot.bal bi.backstopToken ≤ (s.books w p).lp ∧
    a.lot.bal bi.backstopToken ≤ (s.books w p).wallet bi.backstopToken inst.backstop ∧
    ((∀ i, gone i = 0) ∧ ((∀ i, ((s.books w p).acct inst.backstop).debt i = amountAt (w.pools p) a.bid i) ∨
          ¬ BackstopLow w ((s.books w p).lp - a.lot.bal bi.backstopToken)) ∨
        (∀ i, gone i = ((s.books w p).acct inst.backstop).debt i - amountAt (w.pools p) a.bid i) ∧
          BackstopLow w ((s.books w p).lp - a.lot.bal bi.backstopToken)) ∧
    Listed (w.pools p) a.bid ∧ ((∀ i, ((s.books w p).acct inst.backstop).debt i = amountAt (w.pools p) a.bid i) ∨ ∃ v, w.backstop.lpVal = some v) ∧
    SubmitState.books w p ⟨fl', s.actions, c⟩ = { s.books w p with
        acct := upd (upd (s.books w p).acct inst.backstop { (s.books w p).acct inst.backstop with
            debt := fun i => ((s.books w p).acct inst.backstop).debt i - amountAt (w.pools p) a.bid i - gone i })
          sender (take (w.pools p) 1 .empty a.bid ((s.books w p).acct sender))
        lp := (s.books w p).lp - a.lot.bal bi.backstopToken
        wallet := paid (s.books w p).wallet bi.backstopToken inst.backstop sender (a.lot.bal bi.backstopToken) } := by
  have hua := f.addr
  unfold fillBadDebt PoolState.getInst backstopToken at h
  simp only [bind_ok, pure_ok, require_ok, unwrap_ok, ite_ok, PoolState.getInst, Backstop.inst] at h
  obtain ⟨inst, hinst, _, hne, c1, h1, c2, h2, tok, ⟨inst', hinst', _, hba, bi, hbi, rfl⟩, lot, hlot, w2, hd, h⟩ := h
  rw [f.time] at h1 h2
  rw [hua] at hd hne
  obtain ⟨m1, n1⟩ := rmPositions_moved cfg t.cur h1
  have m2 := addPositions_moved cfg (c := ⟨c1.ps, c1.cache, s.fl.user⟩) m1.cur h2
  have nn := n1 (fun k i => f.other_nonneg (Ne.symm hne) k i)
  have a1 : c1.user.addr = inst.backstop := m1.addr
  have a2 : c2.user.addr = sender := m2.addr.trans hua
  have hpos2 : ∀ x, accountOf c2.ps x = accountOf (s.fl.w.pools p) x := fun x => by
    rw [accountOf_congr m2.positions, accountOf_congr m1.positions]
  obtain ⟨bi', hbi', dp, dt, ds, dba, dlv, din, d0, dle, dtok, ⟨dsh, dfa, dfb⟩, den, dbal⟩ := draw_full hd
  change s.fl.w.backstop.inst = some bi at hbi
  change s.fl.w.backstop.inst = some bi' at hbi'
  rw [hbi] at hbi'; cases hbi'
  simp only [pools_setPool] at hinst'
  have hii : inst' = inst := by
    rw [m2.same.inst, m1.same.inst, hinst] at hinst'; exact (Option.some.inj hinst').symm
  subst hii
  have hinstw : (w.pools p).inst = some inst' := by rw [← f.same.inst]; exact hinst
  have hbw : inst'.backstop = w.backstopAddr := hba.trans f.backstop
  have hp2 : w2.pools p = c2.ps := by rw [dp]; simp
  change lot ≤ s.fl.w.balance bi.backstopToken s.fl.w.backstopAddr at den
  have hen : a.lot.bal bi.backstopToken ≤ (s.books w p).wallet bi.backstopToken inst'.backstop := by
    have : a.lot.bal bi.backstopToken = lot := by simp [SMap.bal, hlot]
    rw [this, hba]
    exact den
  change w2.backstop.lpVal = s.fl.w.backstop.lpVal at dlv
  change w2.backstop.inst = s.fl.w.backstop.inst at din
  change (w2.backstop.getPoolBal p).tokens = (s.fl.w.backstop.getPoolBal p).tokens - lot at dtok
  change lot ≤ (s.fl.w.backstop.getPoolBal p).tokens at dle
  change (w2.backstop.getPoolBal p).shares = (s.fl.w.backstop.getPoolBal p).shares at dsh
  change w2.factory = s.fl.w.factory at dfa
  change w2.factoryAddr = s.fl.w.factoryAddr at dfb
  have r2 := (addPositions_res cfg (c := ⟨c1.ps, c1.cache, s.fl.user⟩) m1.cur h2).2
  have hl0 : 0 < lot := hpos _ _ hlot
  have hlb : a.lot.bal bi.backstopToken = lot := by simp [SMap.bal, hlot]
  have hbk : (s.books w p).acct inst'.backstop = accountOf (s.fl.w.pools p) inst'.backstop := by
    simp only [SubmitState.books, hua]; rw [if_neg (Ne.symm hne)]
  have hle : ∀ i, amountAt (w.pools p) a.bid i ≤ ((s.books w p).acct inst'.backstop).debt i := by
    intro i
    rw [hbk]
    have e2 := nn .liab i
    rw [m1.bal] at e2
    simp only [Kind.map, User.load] at e2
    simp only [accountOf, amountAt_listed]
    omega
  have hdebt : ∀ i, c1.user.pos.liabilities.bal i = ((s.books w p).acct inst'.backstop).debt i - amountAt (w.pools p) a.bid i := by
    intro i
    have := m1.bal .liab i
    simp only [Kind.map, User.load] at this
    rw [hbk, this]; simp only [accountOf, amountAt_listed]; omega
  -- the final state, whatever is written off
  have fin : ∀ (psF : PoolState) (cacheF : Cache) (gone : Nat → Int),
      (∀ x, accountOf psF x = if x = inst'.backstop then { (s.books w p).acct inst'.backstop with
            debt := fun i => ((s.books w p).acct inst'.backstop).debt i - amountAt (w.pools p) a.bid i - gone i }
          else accountOf (s.fl.w.pools p) x) → psF.auctions = (s.fl.w.pools p).auctions →
      (∀ b, credAt (w.pools p) w.time cacheF b = credAt (w.pools p) w.time s.fl.cache b) →
      SubmitState.books w p ⟨⟨w2.setPool p psF, cacheF, c2.user⟩, s.actions, c⟩ = { s.books w p with
        acct := upd (upd (s.books w p).acct inst'.backstop { (s.books w p).acct inst'.backstop with
            debt := fun i => ((s.books w p).acct inst'.backstop).debt i - amountAt (w.pools p) a.bid i - gone i })
          sender (take (w.pools p) 1 .empty a.bid ((s.books w p).acct sender))
        lp := (s.books w p).lp - a.lot.bal bi.backstopToken
        wallet := paid (s.books w p).wallet bi.backstopToken inst'.backstop sender (a.lot.bal bi.backstopToken) } := by
    intro psF cacheF gone k1 k2 k3
    unfold SubmitState.books
    simp only [pools_setPool, Books.mk.injEq]
    refine ⟨funext fun x => ?_, k2, ?_, ?_, funext k3⟩
    · rw [a2, hua]
      by_cases hx : x = sender
      · subst hx
        simp only [upd, if_true, take, SubmitState.acct, Account.mk.injEq, true_and, and_true]
        refine ⟨?_, ?_, ?_⟩
        · funext i; have := m2.bal .supp i; simpa [Kind.map] using this
        · funext i; have := m2.bal .coll i; simp only [Kind.map] at this; simp [this, amountAt_listed]
        · funext i; have := m2.bal .liab i; simp only [Kind.map] at this; simp [this, amountAt_listed]
      · simp only [upd, if_neg hx]
        rw [k1 x]
        by_cases hxu : x = inst'.backstop
        · subst hxu
          simp only [if_true, SubmitState.books, hua]
        · rw [if_neg hxu, if_neg hxu]
    · rw [hlb]; exact dtok
    · funext t' x
      show w2.balance t' x = _
      rw [dbal, hlb]
      unfold paid
      rw [hba]; rfl
  have acc1 : ∀ x, accountOf (c1.user.store (w2.pools p)) x = if x = inst'.backstop then { (s.books w p).acct inst'.backstop with
            debt := fun i => ((s.books w p).acct inst'.backstop).debt i - amountAt (w.pools p) a.bid i - 0 }
          else accountOf (s.fl.w.pools p) x := by
    intro x
    rw [accountOf_store, a1, hp2, hpos2]
    by_cases hx : x = inst'.backstop
    · subst hx
      simp only [if_true, Account.mk.injEq]
      rw [hbk]
      refine ⟨?_, ?_, ?_, rfl, rfl⟩
      · funext i; have := m1.bal .supp i; simp only [Kind.map, User.load] at this; simp [accountOf, this]
      · funext i; have := m1.bal .coll i; simp only [Kind.map, User.load] at this
        simp only [accountOf, this, listed, SMap.bal_empty]
        split <;> simp
      · funext i; rw [hdebt, hbk]; omega
    · rw [if_neg hx, if_neg hx]
  have tr1 : Track w p ⟨w2.setPool p (c1.user.store (w2.pools p)), c2.cache, c2.user⟩ := by
    refine ⟨?_, dlv.trans t.lpVal, din.trans t.inst, ?_, dsh.trans t.shares, dfa.trans t.factory.1, dfb.trans t.factory.2⟩
    · simp only [pools_setPool, hp2]
      exact m2.cur.same (store_same _ _)
    · show 0 ≤ (w2.backstop.getPoolBal p).tokens
      omega
  have au1 : (c1.user.store (w2.pools p)).auctions = (s.fl.w.pools p).auctions := by
    show (w2.pools p).auctions = _
    rw [hp2, m2.auctions, m1.auctions]
  have cr1 : ∀ b, credAt (w.pools p) w.time c2.cache b = credAt (w.pools p) w.time s.fl.cache b := fun b => by rw [m2.credit, m1.credit]
  have hval : ∀ {d}, backstopData w2 p = .ok d → ∃ v, w.backstop.lpVal = some v := by
    intro d hd
    unfold backstopData Backstop.loadPoolData at hd
    simp only [bind_ok, PoolState.getInst, unwrap_ok, require_ok, ite_ok, Prod.exists] at hd
    obtain ⟨_, _, _, _, hd⟩ := hd
    rcases hd with ⟨_, _, _, x, y, h, _⟩ | ⟨_, _, _, x, y, h, _⟩ <;> exact ⟨(x, y), by rw [← t.lpVal, ← dlv]; exact h⟩
  have hlow : ∀ {d}, backstopData w2 p = .ok d → (backstopThreshold d < 3 ↔ BackstopLow w ((s.books w p).lp - a.lot.bal bi.backstopToken)) := by
    intro d hd
    unfold backstopData at hd
    simp only [bind_ok, PoolState.getInst, unwrap_ok, require_ok] at hd
    obtain ⟨_, _, _, _, hd⟩ := hd
    rw [low_iff (by rw [dlv, t.lpVal]; exact lpv) (by omega) hd]
    unfold BackstopLow
    rw [dlv, t.lpVal, dtok, hlb]; rfl
  rcases h with ⟨hemp, rfl⟩ | ⟨hemp, d, hd, ⟨hthr, rm, hrm, c3, h3, rfl⟩ | ⟨hthr, rfl⟩⟩
  · refine ⟨tr1, by simpa using au1, inst', bi, fun _ => 0, hinstw, hne, by rw [← t.inst]; exact hbi, hbw, hle, by rw [hlb]; exact hl0,
      by rw [hlb]; exact dle, hen, .inl ⟨fun _ => rfl, .inl fun i => ?_⟩, r2, .inl fun i => ?_, fin _ _ _ acc1 au1 cr1⟩
    all_goals
      have := hdebt i
      have he : c1.user.pos.liabilities.bal i = 0 := by simp [SMap.bal, SMap.get_of_isEmpty hemp]
      omega
  · rw [f.time, hp2] at h3
    rw [hp2] at hrm
    obtain ⟨m3, n3⟩ := rmPositions_moved cfg (c := ⟨c2.ps, c2.cache, c1.user⟩) m2.cur h3
    have hrl : c2.ps.resList = (w.pools p).resList := by rw [← m2.cur.resList]
    rw [hrl] at hrm
    have hcl := collect_listed cfg.nodup hrm
    have a3 : c3.user.addr = inst'.backstop := m3.addr.trans a1
    have au3 : c3.ps.auctions = (s.fl.w.pools p).auctions := by rw [m3.auctions, m2.auctions, m1.auctions]
    refine ⟨⟨?_, dlv.trans t.lpVal, din.trans t.inst, ?_, dsh.trans t.shares, dfa.trans t.factory.1, dfb.trans t.factory.2⟩,
      by simp only [pools_setPool]; exact au3, inst', bi,
      fun i => ((s.books w p).acct inst'.backstop).debt i - amountAt (w.pools p) a.bid i, hinstw, hne,
      by rw [← t.inst]; exact hbi, hbw, hle, by rw [hlb]; exact hl0, by rw [hlb]; exact dle, hen, .inr ⟨fun _ => rfl, (hlow hd).1 hthr⟩, r2, .inr (hval hd),
      fin _ _ _ (fun x => ?_) au3 (fun b => by rw [m3.credit]; exact cr1 b)⟩
    · simp only [pools_setPool]
      exact m3.cur.same ⟨rfl, rfl, rfl, rfl, rfl, rfl, rfl, rfl, rfl⟩
    · show 0 ≤ (w2.backstop.getPoolBal p).tokens
      omega
    · rw [accountOf_congr (ps' := recordWriteOff _ _ _) (ps := c3.user.store c3.ps) rfl, accountOf_store, a3, accountOf_congr m3.positions, hpos2]
      by_cases hx : x = inst'.backstop
      · subst hx
        simp only [if_true, Account.mk.injEq]
        rw [hbk]
        refine ⟨?_, ?_, ?_, rfl, rfl⟩
        · funext i
          have := m1.bal .supp i; simp only [Kind.map, User.load] at this
          have h3 := m3.bal .supp i; simp only [Kind.map] at h3; simp [accountOf, h3, this]
        · funext i
          have := m1.bal .coll i; simp only [Kind.map, User.load] at this
          have h3 := m3.bal .coll i; simp only [Kind.map] at h3
          simp only [accountOf, this, h3, listed, SMap.bal_empty]
          split <;> simp
        · funext i
          have h3 := m3.bal .liab i
          simp only [Kind.map] at h3
          rw [h3, hcl i]; omega
      · rw [if_neg hx, if_neg hx]
  · refine ⟨tr1, by simpa using au1, inst', bi, fun _ => 0, hinstw, hne, by rw [← t.inst]; exact hbi, hbw, hle, by rw [hlb]; exact hl0,
      by rw [hlb]; exact dle, hen, .inl ⟨fun _ => rfl, .inr fun hc => hthr ((hlow hd).2 hc)⟩, r2, .inr (hval hd), fin _ _ _ acc1 au1 cr1⟩

theorem full_interestLoop {V : PoolState} {now : Nat} {p filler : Address} (hpf : p ≠ filler) :
    ∀ (l : List (Nat × Int)) (w w' : World) (cache cache' : Cache), CacheCur V (w.pools p) now cache → w.time = now →
      fillInterestLoop p filler l (w, cache) = .ok (w', cache') →
      CacheCur V (w'.pools p) now cache' ∧ w'.pools = w.pools ∧ w'.backstop = w.backstop ∧
      (∀ b, credAt V now cache' b = credAt V now cache b - lsum l b) ∧ (∀ kv ∈ l, ∃ c, V.resConfig kv.1 = some c) ∧
      (l.Pairwise (fun a b => a.1 < b.1) → ∀ kv ∈ l, kv.2 ≤ w.balance kv.1 p) ∧
      ∀ t x, w'.balance t x = w.balance t x + (if x = filler then lsum l t else 0) - (if x = p then lsum l t else 0) := by
  intro l
  induction l with
  | nil =>
    intro w w' cache cache' cur _ h
    simp only [fillInterestLoop, pure_ok, Prod.mk.injEq] at h
    obtain ⟨rfl, rfl⟩ := h
    exact ⟨cur, rfl, rfl, by simp, by simp, by simp, by simp⟩
  | cons kv l ih =>
    intro w w' cache cache' cur hnow h
    obtain ⟨a, x⟩ := kv
    simp only [fillInterestLoop, bind_ok, Prod.exists, chk_ok] at h
    obtain ⟨r, c1, hl, cr, ⟨_, rfl⟩, w1, ht, h⟩ := h
    rw [hnow] at hl
    have hr := transfer_res ht
    have hp1 : w1.pools = w.pools := by rw [hr.frame]
    have ht1 : w1.time = w.time := by rw [hr.frame]
    have hb1 : w1.backstop = w.backstop := by rw [hr.frame]
    obtain ⟨hm, hrates, hcfg, hcur⟩ := cur.load hl
    obtain ⟨e1, e2⟩ := cur.credit hl
    have hm' : ResMatch (w.pools p) now a { r with data := { r.data with backstopCredit := r.data.backstopCredit - x } } :=
      ⟨hm.asset, hm.time, hm.cfg⟩
    have hr' : RatesOf V now a { r.data with backstopCredit := r.data.backstopCredit - x } := hrates
    have cur1 := hcur.put hm' hr'
    rw [← hp1] at cur1
    obtain ⟨k1, k2, k3, k4, k6, k7, k5⟩ := ih _ _ _ _ cur1 (ht1.trans hnow) h
    refine ⟨k1, k2.trans hp1, k3.trans hb1, fun b => ?_, fun kv hkv => ?_, fun hs kv hkv => ?_, fun t' y => ?_⟩
    · rw [k4, credAt_put, lsum_cons]
      show (if b = r.asset then r.data.backstopCredit - x else _) - _ = _
      rw [hm.asset, e1]
      by_cases hb : b = a
      · subst hb; simp; omega
      · rw [if_neg hb, if_neg (Ne.symm hb)]
        simp [credAt, e2]
    · rcases List.mem_cons.1 hkv with rfl | hkv
      · obtain ⟨cf, hcf, _⟩ := hm.cfg
        exact ⟨cf, by rw [cur.resConfig]; exact hcf⟩
      · exact k6 kv hkv
    · obtain ⟨s1, s2⟩ := List.pairwise_cons.1 hs
      rcases List.mem_cons.1 hkv with rfl | hkv
      · exact hr.enough
      · have h1 := k7 s2 kv hkv
        have h2 := s1 kv hkv
        rw [hr.bal] at h1
        unfold moved at h1
        have hne : ¬ kv.1 = a := Nat.ne_of_gt h2
        simp only [hne, false_and, if_false] at h1
        omega
    · rw [k5, hr.bal, lsum_cons]
      unfold moved
      by_cases hy : y = filler
      · subst hy
        by_cases hta : t' = a
        · subst hta; simp [Ne.symm hpf]; omega
        · simp [hta, Ne.symm hta, Ne.symm hpf]
      · by_cases hyp : y = p
        · subst hyp
          by_cases hta : t' = a
          · subst hta; simp [hpf]; omega
          · simp [hta, Ne.symm hta, hpf]
        · simp [hy, hyp]

theorem interestLoop_factory {p filler : Address} : ∀ (l : List (Nat × Int)) (x y : World × Cache),
    fillInterestLoop p filler l x = .ok y → y.1.factory = x.1.factory ∧ y.1.factoryAddr = x.1.factoryAddr := by
  intro l
  induction l with
  | nil => intro x y h; simp only [fillInterestLoop, pure_ok] at h; subst h; exact ⟨rfl, rfl⟩
  | cons kv l ih =>
    intro x y h
    simp only [fillInterestLoop, bind_ok, Prod.exists] at h
    obtain ⟨r, c1, _, cr, _, w1, ht, h⟩ := h
    have hr := transfer_res ht
    obtain ⟨h1, h2⟩ := ih _ _ h
    exact ⟨h1.trans (by rw [hr.frame]), h2.trans (by rw [hr.frame])⟩

/-- filling an interest auction -/
theorem full_interest {w : World} {p sender : Address} {s : SubmitState} {fl' : Flight} {auth : List Address} {a : AuctionData} {c : Bool}
    (hpos : AllPos a.bid) (hpb : p ≠ w.backstopAddr) (hsp : sender ≠ p) (f : FlightOk w p sender s) (t : Track w p s.fl) (h : fillInterest s.fl p auth a = .ok fl') :
    Track w p fl' ∧ (fl'.w.pools p).auctions = (s.fl.w.pools p).auctions ∧ ∃ inst bi,
    (w.pools p).inst = some inst ∧ sender ≠ inst.backstop ∧ w.backstop.inst = some bi ∧ inst.backstop = w.backstopAddr ∧
    0 < a.bid.bal bi.backstopToken ∧ a.bid.bal bi.backstopToken ≤ (s.books w p).wallet bi.backstopToken sender ∧ Listed (w.pools p) a.lot ∧
    (∀ t v, a.lot.get t = some v → v ≤ (s.books w p).wallet t p) ∧ KnownPool w p ∧
    SubmitState.books w p ⟨fl', s.actions, c⟩ = { s.books w p with
        lp := (s.books w p).lp + a.bid.bal bi.backstopToken
        wallet := fun t x => paid (s.books w p).wallet bi.backstopToken sender inst.backstop (a.bid.bal bi.backstopToken) t x
          + (if x = sender then a.lot.bal t else 0) - (if x = p then a.lot.bal t else 0)
        credit := fun b => (s.books w p).credit b - a.lot.bal b } := by
  have hua := f.addr
  unfold fillInterest PoolState.getInst backstopToken at h
  simp only [bind_ok, pure_ok, require_ok, unwrap_ok, PoolState.getInst, Backstop.inst, Prod.exists] at h
  obtain ⟨inst, hinst, _, hne, tok, ⟨inst', hinst', _, hba, bi, hbi, rfl⟩, bid, hbid, w1, hd, w2, cache, hl, rfl⟩ := h
  rw [hinst] at hinst'; cases hinst'
  rw [hua] at hne hd hl
  obtain ⟨bi', hbi', dp, dt, ds, dba, dlv, din, d0, dtok, ⟨dsh, dfa, dfb⟩, den, dkn, dbal⟩ := donate_full hd
  rw [hbi] at hbi'; cases hbi'
  have hcur := t.cur
  rw [← dp] at hcur
  obtain ⟨k1, k2, k3, k4, k6, k7, k5⟩ := full_interestLoop (Ne.symm hsp) _ _ _ _ _ hcur (dt.trans f.time) hl
  have hb : a.bid.bal bi.backstopToken = bid := by simp [SMap.bal, hbid]
  have hpools : w2.pools p = s.fl.w.pools p := by rw [k2, dp]
  have hfw : w2.factory = w1.factory ∧ w2.factoryAddr = w1.factoryAddr := interestLoop_factory _ _ _ hl
  refine ⟨⟨k1, ?_, ?_, ?_, ?_, hfw.1.trans (dfa.trans t.factory.1), hfw.2.trans (dfb.trans t.factory.2)⟩, by rw [hpools], inst, bi, by rw [← f.same.inst]; exact hinst, hne, by rw [← t.inst]; exact hbi,
    hba.trans f.backstop, by rw [hb]; exact hpos _ _ hbid, by rw [hb]; exact den,
    fun x v hx => k6 (x, v) (SMap.mem_toList.2 hx), fun x v hx => ?_, ?_, ?_⟩
  · show w2.backstop.lpVal = _; rw [k3, dlv, t.lpVal]
  · show w2.backstop.inst = _; rw [k3, din, t.inst]
  · show 0 ≤ (w2.backstop.getPoolBal p).tokens; rw [k3, dtok]; have := t.lp; omega
  · show (w2.backstop.getPoolBal p).shares = _; rw [k3, dsh]; exact t.shares
  · have h1 := k7 a.lot.sorted (x, v) (SMap.mem_toList.2 hx)
    rw [dbal] at h1
    unfold paid at h1
    rw [f.backstop] at h1
    simp only [hpb, Ne.symm hsp, and_false, if_false] at h1
    show v ≤ s.fl.w.balance x p
    omega
  · rcases dkn with h | ⟨bi2, h1, h2, h3⟩
    · exact .inl (by rw [← t.shares]; exact h)
    · exact .inr ⟨bi2, by rw [← t.inst]; exact h1, by rw [← t.factory.2]; exact h2, by rw [← t.factory.1]; exact h3⟩
  · unfold SubmitState.books
    simp only [Books.mk.injEq]
    refine ⟨?_, by rw [hpools], ?_, ?_, ?_⟩
    · funext x; rw [hpools]; rfl
    · rw [k3, dtok, hb]
    · funext t' x
      rw [k5, dbal, lsum_toList, hb, hba]
    · funext b; rw [k4, lsum_toList]

theorem asU64_eq {n : Int} (h : 0 ≤ n) : asU64 n = n.toNat % 2 ^ 64 := by
  unfold asU64; omega

theorem books_setAuction {w : World} {p : Address} {fl : Flight} {acts : Actions} {c : Bool} {t : Nat} {u : Address} {r : Option AuctionData} :
    SubmitState.books w p ⟨{ fl with w := fl.w.setPool p (setAuction (fl.w.pools p) t u r) }, acts, c⟩ =
      { SubmitState.books w p ⟨fl, acts, c⟩ with
        auction := upd (SubmitState.books w p ⟨fl, acts, c⟩).auction t (upd ((SubmitState.books w p ⟨fl, acts, c⟩).auction t) u r) } := by
  unfold SubmitState.books
  simp only [pools_setPool, Books.mk.injEq]
  refine ⟨?_, rfl, ?_, ?_, ?_⟩
  · funext x; congr 1
  all_goals trivial

theorem track_setAuction {w : World} {p : Address} {fl : Flight} (h : Track w p fl) {t : Nat} {u : Address} {r : Option AuctionData} :
    Track w p { fl with w := fl.w.setPool p (setAuction (fl.w.pools p) t u r) } := by
  refine ⟨?_, h.lpVal, h.inst, h.lp, h.shares, h.factory⟩
  simp only [pools_setPool]
  exact h.cur.same ⟨rfl, rfl, rfl, rfl, rfl, rfl, rfl, rfl, rfl⟩

/-- every request does what its specification says -/
theorem full_step {w : World} (hr : Reachable w) {p sender : Address} (hpb : p ≠ w.backstopAddr) {auth : List Address} (hsp : sender ≠ p) {s s' : SubmitState} {q : Request}
    (f : FlightOk w p sender s) (f' : FlightOk w p sender s') (t : Track w p s.fl) (h : processRequest p auth s q = .ok s') :
    Track w p s'.fl ∧
    ((q.type ≤ 5 ∧ ∃ c d A, (w.pools p).resConfig q.address = some c ∧ Current (w.pools p) w.time q.address d ∧
        Effect d.bRate d.dRate c.index ((s.books w p).acct sender) q A ∧
        s'.books w p = { s.books w p with acct := upd (s.books w p).acct sender A }) ∨
      AuctionEffect w p sender (s.books w p) q (s'.books w p)) := by
  have cfg := hr.base.cfg p
  have hua := f.addr
  by_cases hq : q.type ≤ 5
  · obtain ⟨⟨r, r', cache, hld, hlo, hres, eb, ed, he, _, _, hcr, hir, hrm⟩, hbal, ps', hw, hpo, hau⟩ := plain_step f hq h
    obtain ⟨c, hc, hi, _⟩ := hlo.cfg
    have hpp : s'.fl.w.pools p = ps' := by rw [hw]; simp
    have haddr : s'.fl.user.addr = s.fl.user.addr := f'.addr.trans f.addr.symm
    have hsame : SameConfig (s.fl.w.pools p) ps' := by
      rw [← hpp]
      obtain ⟨b1, b2, b3, b4, b5, b6, b7, b8, b9⟩ := f.same
      obtain ⟨d1, d2, d3, d4, d5, d6, d7, d8, d9⟩ := f'.same
      exact ⟨d1.trans b1.symm, d2.trans b2.symm, d3.trans b3.symm, d4.trans b4.symm, d5.trans b5.symm, d6.trans b6.symm, d7.trans b7.symm, d8.trans b8.symm,
        d9.trans b9.symm⟩
    -- the reserve that was loaded
    have hr : RatesOf (w.pools p) w.time q.address r.data ∧ r.data.backstopCredit = credAt (w.pools p) w.time s.fl.cache q.address := by
      obtain ⟨c0, d0, i0, hc0, hd0, hi0, hic0, hac⟩ := hld.data
      unfold overlayData at hd0
      cases hg : s.fl.cache.reserves.get q.address with
      | some x =>
        rw [hg] at hd0
        cases hd0
        rw [accrue_idem (f.cacheOk.res _ _ hg).time] at hac
        have hac := (Except.ok.inj hac)
        rw [← hac]
        exact ⟨(t.cur.cached _ _ hg).2, by simp [credAt, hg]⟩
      | none =>
        rw [hg] at hd0
        have hd0 : (s.fl.w.pools p).resData q.address = some d0 := hd0
        refine ⟨⟨r.data, ⟨c0, d0, i0, by rw [t.cur.resConfig]; exact hc0, by rw [← t.cur.rest _ hg]; exact hd0, by rw [t.cur.inst]; exact hi0, hac⟩, rfl, rfl, rfl⟩, ?_⟩
        simp [credAt, hg, creditOf, t.cur.resConfig, hc0, ← t.cur.rest _ hg, hd0, t.cur.inst, hi0, hac]
    obtain ⟨⟨d, hcurd, e1, e2, e2'⟩, e3⟩ := hr
    have hput : s'.fl.cache.reserves = (s.fl.cache.put r').reserves := by
      rw [hres, Cache.put, hrm.asset]
    refine ⟨⟨?_, ?_, ?_, ?_, ?_, ?_⟩, .inl ⟨hq, c, d, s'.acct, hc, hcurd, ?_, ?_⟩⟩
    · rw [hpp]
      have k := (t.cur.put hrm ⟨d, hcurd, by rw [eb, e1], by rw [ed, e2], by rw [hir, e2']⟩).same hsame
      refine ⟨fun a x hx => k.cached a x (by rw [← hput]; exact hx), fun a hx => k.rest a (by rw [← hput]; exact hx), ?_, k.inst, k.resConfig, k.resList⟩
      rw [request_config h]; exact k.config
    · rw [hw]; exact t.lpVal
    · rw [hw]; exact t.inst
    · rw [hw]; exact t.lp
    · rw [hw]; exact t.shares
    · rw [hw]; exact t.factory
    · simp only [SubmitState.books, hua, if_true]
      rw [← e1, ← e2, ← hi]; exact he
    · unfold SubmitState.books
      simp only [Books.mk.injEq, hpp]
      refine ⟨funext fun x => ?_, hau, by rw [hw]; rfl, by funext a b; exact hbal a b, funext fun b => ?_⟩
      · rw [haddr, hua]
        by_cases hx : x = sender
        · subst hx; simp [upd]
        · simp only [if_neg hx, upd]; exact accountOf_congr hpo x
      · have : credAt (w.pools p) w.time s'.fl.cache b = credAt (w.pools p) w.time (s.fl.cache.put r') b := by
          unfold credAt; rw [hput]
        rw [this, credAt_put, hrm.asset, hcr, e3]
        split
        · subst_vars; rfl
        · rfl
  · obtain ⟨hn, _, h1⟩ := processRequest_ok h
    clear h
    obtain ⟨ty, x, n⟩ := q
    dsimp only at hn h1 hq
    have lpv := hr.lpOk.val
    rcases h1 with ⟨ht, h⟩ | ⟨ht, h⟩ | ⟨ht, h⟩ | ⟨ht, h⟩ | ⟨ht, h⟩ | ⟨ht, h⟩ | ⟨ht, h⟩ | ⟨ht, h⟩ | ⟨ht, h⟩ | ⟨ht, h⟩
    iterate 6 exact absurd ht (by omega)
    · subst ht
      unfold reqFill at h
      simp only [bind_ok, pure_ok] at h
      obtain ⟨fl', hf, rfl⟩ := h
      obtain ⟨hne, a, tk, rest, fl1, ha, hs, hk, rfl⟩ := fill_ok hf
      rw [hua] at hne
      rw [asU64_eq hn, f.seq] at hs
      obtain ⟨hb, _, hft⟩ := scaleAuction_ok hs
      rcases hk with ⟨_, hk⟩ | ⟨h0, _⟩ | ⟨h0, _⟩
      · obtain ⟨k1, k2, k3, r1, r2, k4⟩ := full_userLiq (c := true) cfg f t hne hk
        refine ⟨track_setAuction k1, .inr ?_⟩
        rw [if_neg (by decide), books_setAuction, k4]
        exact AuctionEffect.liquidation ⟨hne, hn, ha, hb, hft⟩ k3 r1 r2
      · simp at h0
      · simp at h0
    · subst ht
      unfold reqFill at h
      simp only [bind_ok, pure_ok] at h
      obtain ⟨fl', hf, rfl⟩ := h
      obtain ⟨hne, a, tk, rest, fl1, ha, hs, hk, rfl⟩ := fill_ok hf
      rw [hua] at hne
      rw [asU64_eq hn, f.seq] at hs
      obtain ⟨hb, _, hft⟩ := scaleAuction_ok hs
      rcases hk with ⟨h0, _⟩ | ⟨_, hk⟩ | ⟨_, h0, _⟩
      · simp at h0
      · obtain ⟨k1, k2, inst, bi, gone, g1, g2, g3, g4, g5, g6, g7, g12, g8, g10, g11, g9⟩ :=
          full_badDebt (c := true) lpv (scaleAuction_pos hs).2.1 cfg f t hk
        refine ⟨track_setAuction k1, .inr ?_⟩
        rw [if_neg (by decide), books_setAuction, g9]
        exact AuctionEffect.badDebt ⟨hne, hn, ha, hb, hft⟩ g1 g2 g3 g4 g5 g6 g7 g12 g8 g10 g11
      · simp at h0
    · subst ht
      unfold reqFill at h
      simp only [bind_ok, pure_ok] at h
      obtain ⟨fl', hf, rfl⟩ := h
      obtain ⟨hne, a, tk, rest, fl1, ha, hs, hk, rfl⟩ := fill_ok hf
      rw [hua] at hne
      rw [asU64_eq hn, f.seq] at hs
      obtain ⟨hb, _, hft⟩ := scaleAuction_ok hs
      rcases hk with ⟨h0, _⟩ | ⟨h0, _⟩ | ⟨_, _, hk⟩
      · simp at h0
      · simp at h0
      · obtain ⟨k1, k2, inst, bi, g1, g2, g3, g4, g5, g7, g8, g9, g10, g6⟩ := full_interest (c := s.check) (scaleAuction_pos hs).1 hpb hsp f t hk
        refine ⟨track_setAuction k1, .inr ?_⟩
        rw [if_pos trivial, books_setAuction, g6]
        exact AuctionEffect.interest ⟨hne, hn, ha, hb, hft⟩ g1 g2 g3 g4 g5 g7 g8 g9 g10
    · subst ht
      unfold reqDelete deleteLiquidation at h
      simp only [bind_ok, pure_ok, require_ok] at h
      obtain ⟨ps', ⟨_, hsome, rfl⟩, rfl⟩ := h
      refine ⟨track_setAuction t, .inr ?_⟩
      rw [hua] at hsome
      obtain ⟨a, ha⟩ := Option.isSome_iff_exists.1 hsome
      have := books_setAuction (w := w) (p := p) (fl := s.fl) (acts := s.actions) (c := true) (t := 0) (u := s.fl.user.addr) (r := none)
      rw [show (⟨s.fl.w.setPool p (setAuction (s.fl.w.pools p) 0 s.fl.user.addr none), s.fl.cache, s.fl.user⟩ : Flight) =
        { s.fl with w := s.fl.w.setPool p (setAuction (s.fl.w.pools p) 0 s.fl.user.addr none) } from rfl, this, hua]
      exact AuctionEffect.delete hn ha

theorem full_run {w : World} (hr : Reachable w) {p : Address} (hp : w.poolAddr p = true) {cache : Cache} {sender : Address}
    (hsp : sender ≠ p) (hc : Cache.load (w.pools p) = .ok cache) {auth : List Address} :
    ∀ (l l1 : List Request) (s s' : SubmitState),
      l1.foldlM (processRequest p auth) (startState w p cache sender) = .ok s → Track w p s.fl →
      l.foldlM (processRequest p auth) s = .ok s' →
      FullRun w p sender l (s.books w p) (s'.books w p) ∧ Track w p s'.fl := by
  intro l
  induction l with
  | nil =>
    intro l1 s s' _ t h
    rw [foldlM_nil] at h
    subst h
    exact ⟨.nil _, t⟩
  | cons q l ih =>
    intro l1 s s' h1 t h
    rw [foldlM_cons] at h
    obtain ⟨s1, hs1, h⟩ := h
    have h1' : (l1 ++ [q]).foldlM (processRequest p auth) (startState w p cache sender) = .ok s1 := by
      rw [List.foldlM_append, bind_ok]
      exact ⟨s, h1, by rw [foldlM_cons]; exact ⟨s1, hs1, rfl⟩⟩
    obtain ⟨t1, k⟩ := full_step hr (hr.base.pool_ne hp) hsp (flight_of hr hp hsp hc h1) (flight_of hr hp hsp hc h1') t hs1
    obtain ⟨g1, g2⟩ := ih (l1 ++ [q]) s1 s' h1' t1 h
    refine ⟨?_, g2⟩
    rcases k with ⟨hq, c, d, A, e1, e2, e3, e4⟩ | k
    · rw [e4] at g1
      exact .plain hq e1 e2 e3 g1
    · exact .auction k g1

theorem track_start {w : World} (hr : Reachable w) {p : Address} {cache : Cache} {sender : Address}
    (hc : Cache.load (w.pools p) = .ok cache) : Track w p (startState w p cache sender).fl ∧
      (startState w p cache sender).books w p = booksOf w p := by
  obtain ⟨ok0, hr0, _, _⟩ := load_ok (now := w.time) hc
  refine ⟨⟨?_, rfl, rfl, hr.ball.inv.pool p, rfl, rfl, rfl⟩, ?_⟩
  · have := CacheCur.of ok0 []
    rw [overlay_loaded hr0] at this
    exact this
  · unfold SubmitState.books booksOf startState
    simp only [Books.mk.injEq]
    refine ⟨funext fun x => ?_, trivial, trivial, trivial, funext fun a => ?_⟩
    · by_cases hx : x = sender
      · subst hx
        simp [SubmitState.acct, accountOf, User.load, SMap.bal]
      · simp [User.load, hx]
    · simp [credAt, hr0]

/-- **refinement**: a submit does exactly what the specification says -/
theorem submit_full {w w' : World} (hr : Reachable w) {p : Address} {auth : List Address} {sender spender dst : Address}
    {reqs : List Request} (h : step w (.pool p auth (.submit sender spender dst reqs)) = .ok w') :
    ∃ B, FullRun w p sender reqs (booksOf w p) B ∧
      (∀ x i, (getPositions (w'.pools p) x).supply.bal i = (B.acct x).supplied i ∧
        (getPositions (w'.pools p) x).collateral.bal i = (B.acct x).collateral i ∧
        (getPositions (w'.pools p) x).liabilities.bal i = (B.acct x).debt i) ∧
      (w'.pools p).auctions = B.auction ∧ (w'.backstop.getPoolBal p).tokens = B.lp ∧
      (∀ a, creditOf (w'.pools p) w'.time a = B.credit a) ∧
      ∀ t x, w'.balance t x = B.wallet t x + (if x = p then (B.acct sender).pays t - (B.acct sender).gets t else 0)
        - (if x = spender then (B.acct sender).pays t else 0) + (if x = dst then (B.acct sender).gets t else 0) := by
  obtain ⟨hp, cache, s, v⟩ := submit_view hr h
  obtain ⟨t0, e0⟩ := track_start (sender := sender) hr v.load
  obtain ⟨run, t⟩ := full_run hr hp v.sender_ne v.load _ [] _ _ (by rw [foldlM_nil]) t0 v.fold
  rw [e0] at run
  have hua := v.flight.addr
  have hacc : (s.books w p).acct sender = s.acct := by simp [SubmitState.books, hua]
  refine ⟨_, run, fun x i => ?_, ?_, ?_, fun a => ?_, fun t' x => ?_⟩
  · rw [v.pools]
    by_cases hx : x = sender
    · subst hx
      have : getPositions (overlay (s.fl.w.pools p) s.fl.cache [s.fl.user]) s.fl.user.addr = s.fl.user.pos := by
        have := getPositions_overlay_last (s.fl.w.pools p) s.fl.cache [] s.fl.user
        simpa using this
      rw [hua] at this
      rw [this, hacc]
      exact ⟨rfl, rfl, rfl⟩
    · rw [getPositions_overlay_ne _ _ _ _ (by rw [hua]; exact hx)]
      simp only [SubmitState.books, hua, if_neg hx]
      exact ⟨rfl, rfl, rfl⟩
  · rw [v.pools]; rfl
  · rw [v.backstop']; rfl
  · rw [v.pools, v.time']
    show _ = credAt _ _ _ _
    unfold credAt
    cases hg : s.fl.cache.reserves.get a with
    | some r =>
      obtain ⟨hm, _⟩ := t.cur.cached a r hg
      obtain ⟨c, hc, _⟩ := hm.cfg
      obtain ⟨i, hi, _⟩ := t.cur.config
      have e1 : (overlay (s.fl.w.pools p) s.fl.cache [s.fl.user]).resData a = some r.data := by
        show overlayData _ _ _ = _; simp [overlayData, hg]
      have e2 : (overlay (s.fl.w.pools p) s.fl.cache [s.fl.user]).resConfig a = some c := hc
      have e3 : (overlay (s.fl.w.pools p) s.fl.cache [s.fl.user]).inst = some i := hi
      simp only [creditOf, e1, e2, e3, accrue_idem hm.time]
    | none =>
      have e1 : (overlay (s.fl.w.pools p) s.fl.cache [s.fl.user]).resData a = (w.pools p).resData a := by
        show overlayData _ _ _ = _; simp [overlayData, hg, t.cur.rest a hg]
      have e2 : (overlay (s.fl.w.pools p) s.fl.cache [s.fl.user]).resConfig = (w.pools p).resConfig := t.cur.resConfig.symm
      have e3 : (overlay (s.fl.w.pools p) s.fl.cache [s.fl.user]).inst = (w.pools p).inst := t.cur.inst.symm
      simp only [creditOf, e1, e2, e3]
  · rw [v.bal, hacc]; rfl

end Pool
end Blend
