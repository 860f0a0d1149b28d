import Verif.Spec.Follow
import Verif.Lemmas.FullSubmit
import Verif.Lemmas.AuctionStep
import Verif.Lemmas.BadDebtView
import Verif.Lemmas.LiveLiq
/-
  Lemmas about the observer of a pool (C75).
-/

namespace Blend
namespace Pool
open Spec

/-- the notes `F` describe the auctions `auction`; under `E` no others are noted -/
def Auctions (E : Prop) (auction : Nat → Address → Option AuctionData) (F : PoolNotes) : Prop :=
  ∀ t u, ((auction t u).isSome = true → F.on t u) ∧ (E → F.on t u → (auction t u).isSome = true) ∧ ∀ x, auction t u = some x →
    (∀ a, F.bid t u a = x.bid.bal a) ∧ (∀ a, F.lot t u a = x.lot.bal a) ∧ F.start t u = x.block

/-- the notes `F` describe the accounts `acct` and the auctions `auction`; nothing is noted for other assets than reserves -/
structure Match (E : Prop) (ps : PoolState) (acct : Address → Account) (auction : Nat → Address → Option AuctionData) (F : PoolNotes) : Prop where
  pos : ∀ u a c, ps.resConfig a = some c →
    F.supplied u a = (acct u).supplied c.index ∧ F.collateral u a = (acct u).collateral c.index ∧ F.debt u a = (acct u).debt c.index
  fresh : ∀ u a, ps.resConfig a = none → F.supplied u a = 0 ∧ F.collateral u a = 0 ∧ F.debt u a = 0
  auc : Auctions E auction F

theorem cfg_inj {ps : PoolState} (cfg : CfgOk ps) {a a' : Address} {c c' : ReserveConfig} (h : ps.resConfig a = some c)
    (h' : ps.resConfig a' = some c') (hi : c.index = c'.index) : a = a' := by
  have h1 := cfg.idx a c h
  have h2 := cfg.idx a' c' h'
  rw [hi, h2] at h1
  exact (Option.some.inj h1).symm

theorem bump_plus {ps : PoolState} (cfg : CfgOk ps) {acct : Address → Nat → Int} {f : Address → Address → Int} {u a x b : Address}
    {c c' : ReserveConfig} {n : Int} (hc : ps.resConfig a = some c) (hc' : ps.resConfig b = some c')
    (h : f x b = acct x c'.index) :
    plus f u a n x b = if x = u then bump (acct u) c.index n c'.index else acct x c'.index := by
  unfold plus bump
  by_cases hx : x = u
  · subst hx
    by_cases hb : b = a
    · subst hb
      rw [hc] at hc'; cases hc'
      simp [h]
    · have : ¬ c'.index = c.index := fun e => hb (cfg_inj cfg hc' hc e)
      simp [hb, this, h]
  · simp [hx, h]

theorem plus_other {f : Address → Address → Int} {u a x b : Address} {n : Int} (h : b ≠ a) : plus f u a n x b = f x b := by
  simp [plus, h]

theorem ne_of_cfg {ps : PoolState} {a b : Address} {c : ReserveConfig} (h : ps.resConfig a = some c) (h' : ps.resConfig b = none) : b ≠ a := by
  rintro rfl; rw [h] at h'; cases h'

theorem Match.supplied {ps : PoolState} (cfg : CfgOk ps) {acct auction F} (m : Match E ps acct auction F) {u a : Address} {c : ReserveConfig}
    (hc : ps.resConfig a = some c) {A : Account} {n : Int} (hs : A.supplied = bump (acct u).supplied c.index n)
    (h1 : A.collateral = (acct u).collateral) (h2 : A.debt = (acct u).debt) :
    Match E ps (upd acct u A) auction { F with supplied := plus F.supplied u a n } := by
  refine ⟨fun x b c' hb => ?_, fun x b hb => ?_, m.auc⟩
  · obtain ⟨p1, p2, p3⟩ := m.pos x b c' hb
    refine ⟨?_, ?_, ?_⟩
    · dsimp only; rw [bump_plus cfg (acct := fun y => (acct y).supplied) hc hb p1, ← hs]
      by_cases hx : x = u <;> simp [upd, hx]
    · simp only [p2, upd]; split
      · rename_i h; subst h; rw [h1]
      · rfl
    · simp only [p3, upd]; split
      · rename_i h; subst h; rw [h2]
      · rfl
  · obtain ⟨p1, p2, p3⟩ := m.fresh x b hb
    exact ⟨(plus_other (ne_of_cfg hc hb)).trans p1, p2, p3⟩

theorem Match.collateral {ps : PoolState} (cfg : CfgOk ps) {acct auction F} (m : Match E ps acct auction F) {u a : Address} {c : ReserveConfig}
    (hc : ps.resConfig a = some c) {A : Account} {n : Int} (hs : A.collateral = bump (acct u).collateral c.index n)
    (h1 : A.supplied = (acct u).supplied) (h2 : A.debt = (acct u).debt) :
    Match E ps (upd acct u A) auction { F with collateral := plus F.collateral u a n } := by
  refine ⟨fun x b c' hb => ?_, fun x b hb => ?_, m.auc⟩
  · obtain ⟨p1, p2, p3⟩ := m.pos x b c' hb
    refine ⟨?_, ?_, ?_⟩
    · simp only [p1, upd]; split
      · rename_i h; subst h; rw [h1]
      · rfl
    · dsimp only; rw [bump_plus cfg (acct := fun y => (acct y).collateral) hc hb p2, ← hs]
      by_cases hx : x = u <;> simp [upd, hx]
    · simp only [p3, upd]; split
      · rename_i h; subst h; rw [h2]
      · rfl
  · obtain ⟨p1, p2, p3⟩ := m.fresh x b hb
    exact ⟨p1, (plus_other (ne_of_cfg hc hb)).trans p2, p3⟩

theorem Match.debt {ps : PoolState} (cfg : CfgOk ps) {acct auction F} (m : Match E ps acct auction F) {u a : Address} {c : ReserveConfig}
    (hc : ps.resConfig a = some c) {A : Account} {n : Int} (hs : A.debt = bump (acct u).debt c.index n)
    (h1 : A.supplied = (acct u).supplied) (h2 : A.collateral = (acct u).collateral) :
    Match E ps (upd acct u A) auction { F with debt := plus F.debt u a n } := by
  refine ⟨fun x b c' hb => ?_, fun x b hb => ?_, m.auc⟩
  · obtain ⟨p1, p2, p3⟩ := m.pos x b c' hb
    refine ⟨?_, ?_, ?_⟩
    · simp only [p1, upd]; split
      · rename_i h; subst h; rw [h1]
      · rfl
    · simp only [p2, upd]; split
      · rename_i h; subst h; rw [h2]
      · rfl
    · dsimp only; rw [bump_plus cfg (acct := fun y => (acct y).debt) hc hb p3, ← hs]
      by_cases hx : x = u <;> simp [upd, hx]
  · obtain ⟨p1, p2, p3⟩ := m.fresh x b hb
    exact ⟨p1, p2, (plus_other (ne_of_cfg hc hb)).trans p3⟩

/-! ### plain requests -/

/-- the notes after the events `l` of one operation -/
def seeAll (p b : Address) (seq : Nat) (F : PoolNotes) (l : List Event) : PoolNotes :=
  l.foldl (fun F e => F.see p b (seq, e)) F

theorem books_sender {w : World} {p sender : Address} {s : SubmitState} (f : FlightOk w p sender s) :
    (s.books w p).acct sender = s.acct := by simp [SubmitState.books, f.addr]

theorem plain_log {w : World} (hr : Reachable w) {p sender b : Address} (hpb : p ≠ w.backstopAddr) {auth : List Address} (hsp : sender ≠ p)
    {s s' : SubmitState} {q : Request} (f : FlightOk w p sender s) (f' : FlightOk w p sender s') (t : Track w p s.fl)
    (hq : q.type ≤ 5) (h : processRequest p auth s q = .ok s') :
    ∃ l, requestLog p s q = .ok l ∧ ∀ F, Match E (w.pools p) (s.books w p).acct (s.books w p).auction F →
      Match E (w.pools p) (s'.books w p).acct (s'.books w p).auction (seeAll p b w.seq F l) := by
  have cfg := hr.base.cfg p
  obtain ⟨_, hB⟩ := full_step hr hpb hsp f f' t h
  have hB : ∃ A, s'.books w p = { s.books w p with acct := upd (s.books w p).acct sender A } := by
    rcases hB with ⟨_, c, d, A, _, _, _, e⟩ | k
    · exact ⟨A, e⟩
    · generalize s'.books w p = B at k
      cases k <;> simp at hq
  obtain ⟨A, hB⟩ := hB
  have hA : A = s'.acct := by
    have := congrArg (fun B => B.acct sender) hB
    simp only [upd, if_true] at this
    rw [books_sender f'] at this
    exact this.symm
  subst hA
  rw [hB]
  have hac := books_sender f
  have hua := f.addr
  generalize s.books w p = B at hac
  obtain ⟨_, _, h1⟩ := processRequest_ok h
  clear h hB
  rename' h1 => h
  obtain ⟨ty, a, n⟩ := q
  dsimp only at h hq
  have key : ∀ {r : Reserve} {cache : Cache}, s.fl.cache.loadReserve (s.fl.w.pools p) s.fl.w.time a true = .ok (r, cache) →
      ∃ c, (w.pools p).resConfig a = some c ∧ r.index = c.index := by
    intro r cache hl
    have hld := loadReserve_true (by rw [f.time]; exact f.cacheOk) hl
    rw [f.time] at hld
    obtain ⟨c, hc, hi, _⟩ := (f.loadedOk hld).cfg
    exact ⟨c, hc, hi⟩
  rcases h with ⟨ht, h⟩ | ⟨ht, h⟩ | ⟨ht, h⟩ | ⟨ht, h⟩ | ⟨ht, h⟩ | ⟨ht, h⟩ | ⟨ht, h⟩ | ⟨ht, h⟩ | ⟨ht, h⟩ | ⟨ht, h⟩
  · subst ht
    unfold reqSupply at h
    simp only [bind_ok, Prod.exists, pure_ok] at h
    obtain ⟨r, cache, hl, m, hm, ps', u', r', hf, acts, ha, rfl⟩ := h
    have hs := isAddSupp hf
    obtain ⟨c, hc, hi⟩ := key hl
    refine ⟨[.supply p a sender n m], by simp only [requestLog, bind_ok, pure_ok, Prod.exists]; exact ⟨r, cache, hl, m, hm, by rw [hua]⟩, fun F k => ?_⟩
    simp only [seeAll, List.foldl, PoolNotes.see, if_true]
    rw [acct_share hs]
    exact k.supplied cfg hc (by simp [hac, hi]) (by simp [hac]) (by simp [hac])
  · subst ht
    unfold reqWithdraw at h
    simp only [bind_ok, Prod.exists, pure_ok] at h
    obtain ⟨r, cache, hl, burn, out, hw, ps', u', r', hf, acts, ha, rfl⟩ := h
    have hs := isRemoveSupp hf
    obtain ⟨c, hc, hi⟩ := key hl
    refine ⟨[.withdraw p a sender out burn], by simp only [requestLog, bind_ok, pure_ok, Prod.exists]; exact ⟨r, cache, hl, burn, out, hw, by rw [hua]⟩, fun F k => ?_⟩
    simp only [seeAll, List.foldl, PoolNotes.see, if_true]
    rw [acct_share hs]
    exact k.supplied cfg hc (by simp [hac, hi]) (by simp [hac]) (by simp [hac])
  · subst ht
    unfold reqSupply at h
    simp only [bind_ok, Prod.exists, pure_ok] at h
    obtain ⟨r, cache, hl, m, hm, ps', u', r', hf, acts, ha, rfl⟩ := h
    have hs := isAddColl hf
    obtain ⟨c, hc, hi⟩ := key hl
    refine ⟨[.supplyCollateral p a sender n m], by simp only [requestLog, bind_ok, pure_ok, Prod.exists]; exact ⟨r, cache, hl, m, hm, by rw [hua]⟩, fun F k => ?_⟩
    simp only [seeAll, List.foldl, PoolNotes.see, if_true]
    rw [acct_share hs]
    exact k.collateral cfg hc (by simp [hac, hi]) (by simp [hac]) (by simp [hac])
  · subst ht
    unfold reqWithdrawColl at h
    simp only [bind_ok, Prod.exists, pure_ok] at h
    obtain ⟨r, cache, hl, burn, out, hw, ps', u', r', hf, acts, ha, rfl⟩ := h
    have hs := isRemoveColl hf
    obtain ⟨c, hc, hi⟩ := key hl
    refine ⟨[.withdrawCollateral p a sender out burn], by simp only [requestLog, bind_ok, pure_ok, Prod.exists]; exact ⟨r, cache, hl, burn, out, hw, by rw [hua]⟩, fun F k => ?_⟩
    simp only [seeAll, List.foldl, PoolNotes.see, if_true]
    rw [acct_share hs]
    exact k.collateral cfg hc (by simp [hac, hi]) (by simp [hac]) (by simp [hac])
  · subst ht
    unfold reqBorrow at h
    simp only [bind_ok, Prod.exists, pure_ok] at h
    obtain ⟨r, cache, hl, m, hm, ps', u', r', hf, _, hut, acts, ha, rfl⟩ := h
    have hs := isAddLiab hf
    obtain ⟨c, hc, hi⟩ := key hl
    refine ⟨[.borrow p a sender n m], by simp only [requestLog, bind_ok, pure_ok, Prod.exists]; exact ⟨r, cache, hl, m, hm, by rw [hua]⟩, fun F k => ?_⟩
    simp only [seeAll, List.foldl, PoolNotes.see, if_true]
    rw [acct_share hs]
    exact k.debt cfg hc (by simp [hac, hi]) (by simp [hac]) (by simp [hac])
  · subst ht
    unfold reqRepay at h
    simp only [bind_ok, Prod.exists, pure_ok, ite_ok] at h
    obtain ⟨r, cache, hl, burnt, hburn, acts, ha, h⟩ := h
    obtain ⟨c, hc, hi⟩ := key hl
    rcases h with ⟨hgt, owed, ho, rf, hrf, _, hnn, ps', u', r', hf, acts', ha', rfl⟩ |
      ⟨hgt, ps', u', r', hf, rfl⟩
    · have hs := isRemoveLiab hf
      have hrf' := hrf
      rw [chk_ok] at hrf
      obtain ⟨hin, rfl⟩ := hrf
      have hko : ∃ kept, chk (n - (n - owed)) = .ok kept := by
        refine ⟨n - (n - owed), chk_ok.2 ⟨?_, rfl⟩⟩
        have : n - (n - owed) = owed := by omega
        rw [this]
        unfold ReserveData.toAssetFromD at ho
        simp only [mulDivCeil_ok, fixedMulCeil] at ho
        exact ho.2.2.1
      obtain ⟨kept, hk⟩ := hko
      refine ⟨[.repay p a sender kept (s.fl.user.pos.liabilities.bal r.index)], ?_, fun F k => ?_⟩
      · simp only [requestLog, bind_ok, pure_ok, Prod.exists, ite_ok]
        exact ⟨r, cache, hl, burnt, hburn, .inl ⟨hgt, owed, ho, _, hrf', kept, hk, by rw [hua]⟩⟩
      · simp only [seeAll, List.foldl, PoolNotes.see, if_true]
        rw [acct_share hs]
        exact k.debt cfg hc (by simp [hac, hi]) (by simp [hac]) (by simp [hac])
    · have hs := isRemoveLiab hf
      refine ⟨[.repay p a sender n burnt], ?_, fun F k => ?_⟩
      · simp only [requestLog, bind_ok, pure_ok, Prod.exists, ite_ok]
        exact ⟨r, cache, hl, burnt, hburn, .inr ⟨hgt, by rw [hua]⟩⟩
      · simp only [seeAll, List.foldl, PoolNotes.see, if_true]
        rw [acct_share hs]
        exact k.debt cfg hc (by simp [hac, hi]) (by simp [hac]) (by simp [hac])
  all_goals omega

/-! ### fills -/

theorem isCeil_ceilDiv {x y : Int} (hy : 0 < y) : IsCeil (ceilDiv x y) x y := by
  unfold IsCeil ceilDiv
  have h1 := Int.emod_add_mul_ediv (-x) y
  have h2 := Int.emod_nonneg (-x) (by omega : y ≠ 0)
  have h3 := Int.emod_lt_of_pos (-x) hy
  constructor <;> nlinarith

theorem isFloor_div {x y : Int} (hy : 0 < y) : IsFloor (x / y) x y := by
  unfold IsFloor
  have h1 := Int.emod_add_mul_ediv x y
  have h2 := Int.emod_nonneg x (by omega : y ≠ 0)
  have h3 := Int.emod_lt_of_pos x hy
  constructor <;> nlinarith

theorem ceil_eq {v x y : Int} (hy : 0 < y) (h : IsCeil v x y) : v = ceilDiv x y := ceil_unique h (isCeil_ceilDiv hy) hy
theorem floor_eq {v x y : Int} (hy : 0 < y) (h : IsFloor v x y) : v = x / y := floor_unique h (isFloor_div hy) hy

theorem ceilDiv_zero (y : Int) : ceilDiv 0 y = 0 := by simp [ceilDiv]

/-- the observer computes a fill -/
theorem fill_parts {k n : Nat} {a taken : AuctionData} {rest : Option AuctionData} (h : FillTerms k n a taken rest) (x : Address) :
    ceilDiv (ceilDiv (max 0 (a.bid.bal x) * n) 100 * bidDue k) 200 = taken.bid.bal x ∧
    max 0 (a.bid.bal x) - ceilDiv (max 0 (a.bid.bal x) * n) 100 = leftBid rest x ∧
    max 0 (a.lot.bal x) * n / 100 * lotDue k / 200 = taken.lot.bal x ∧
    max 0 (a.lot.bal x) - max 0 (a.lot.bal x) * n / 100 = leftLot rest x := by
  have hb : ceilDiv (ceilDiv (max 0 (a.bid.bal x) * n) 100 * bidDue k) 200 = taken.bid.bal x ∧
      max 0 (a.bid.bal x) - ceilDiv (max 0 (a.bid.bal x) * n) 100 = leftBid rest x := by
    by_cases h0 : 0 ≤ a.bid.bal x
    · obtain ⟨part, h1, h2, h3⟩ := h.bid x h0
      rw [max_eq_right h0, ← ceil_eq (by omega) h1, ← ceil_eq (by omega) h2]
      exact ⟨rfl, h3.symm⟩
    · obtain ⟨h1, h2⟩ := h.negBid x (by omega)
      rw [max_eq_left (by omega), h1, h2]
      simp [ceilDiv_zero]
  have hl : max 0 (a.lot.bal x) * n / 100 * lotDue k / 200 = taken.lot.bal x ∧
      max 0 (a.lot.bal x) - max 0 (a.lot.bal x) * n / 100 = leftLot rest x := by
    by_cases h0 : 0 ≤ a.lot.bal x
    · obtain ⟨part, h1, h2, h3⟩ := h.lot x h0
      rw [max_eq_right h0, ← floor_eq (by omega) h1, ← floor_eq (by omega) h2]
      exact ⟨rfl, h3.symm⟩
    · obtain ⟨h1, h2⟩ := h.negLot x (by omega)
      rw [max_eq_left (by omega), h1, h2]
      simp
  exact ⟨hb.1, hb.2, hl.1, hl.2⟩

/-- what the observer notes on a fill, given the terms of the fill -/
theorem see_fill {w : World} {p b sender : Address} {B : Books} {t : Nat} {u : Address} {n : Int} {a taken : AuctionData}
    {rest : Option AuctionData} (hf : Filling w B sender t u n a taken rest) {F : PoolNotes}
    (hF : Auctions E B.auction F) :
    F.see p b (w.seq, .fillAuction p u t sender n) = { F with
      collateral := if t = 0 then Spec.moved F.collateral u sender taken.lot.bal else F.collateral
      debt := if t = 0 then Spec.moved F.debt u sender taken.bid.bal else if t = 1 then Spec.moved F.debt b sender taken.bid.bal else F.debt
      on := upd F.on t (upd (F.on t) u (rest.isSome = true))
      bid := upd F.bid t (upd (F.bid t) u (leftBid rest))
      lot := upd F.lot t (upd (F.lot t) u (leftLot rest)) } := by
  obtain ⟨_, _, ha, _, hft⟩ := hf
  obtain ⟨h1, h2, h3⟩ := (hF t u).2.2 a ha
  have hp := fill_parts hft
  have e1 : F.bid t u = a.bid.bal := funext h1
  have e2 : F.lot t u = a.lot.bal := funext h2
  simp only [PoolNotes.see, if_true, e1, e2, h3]
  have g1 : (fun x => ceilDiv (ceilDiv (max 0 (a.bid.bal x) * ((n.toNat % 2 ^ 64 : Nat) : Int)) 100 * bidDue (w.seq - a.block)) 200) = taken.bid.bal :=
    funext fun x => (hp x).1
  have g2 : (fun x => max 0 (a.bid.bal x) - ceilDiv (max 0 (a.bid.bal x) * ((n.toNat % 2 ^ 64 : Nat) : Int)) 100) = leftBid rest :=
    funext fun x => (hp x).2.1
  have g3 : (fun x => max 0 (a.lot.bal x) * ((n.toNat % 2 ^ 64 : Nat) : Int) / 100 * lotDue (w.seq - a.block) / 200) = taken.lot.bal :=
    funext fun x => (hp x).2.2.1
  have g4 : (fun x => max 0 (a.lot.bal x) - max 0 (a.lot.bal x) * ((n.toNat % 2 ^ 64 : Nat) : Int) / 100) = leftLot rest :=
    funext fun x => (hp x).2.2.2
  have g5 : (∃ x, max 0 (a.bid.bal x) - ceilDiv (max 0 (a.bid.bal x) * ((n.toNat % 2 ^ 64 : Nat) : Int)) 100 ≠ 0 ∨
      max 0 (a.lot.bal x) - max 0 (a.lot.bal x) * ((n.toNat % 2 ^ 64 : Nat) : Int) / 100 ≠ 0) = (rest.isSome = true) := by
    refine propext ⟨fun ⟨x, hx⟩ => ?_, fun hs => ?_⟩
    · rw [(hp x).2.1, (hp x).2.2.2] at hx
      cases rest with
      | none => simp [leftBid, leftLot] at hx
      | some r => rfl
    · obtain ⟨r, rfl⟩ := Option.isSome_iff_exists.1 hs
      obtain ⟨x, hx⟩ := hft.removed r rfl
      refine ⟨x, ?_⟩
      rw [(hp x).2.1, (hp x).2.2.2]
      simp only [leftBid, leftLot]
      omega
  rw [g1, g2, g3, g4, g5]

/-- the notes about auctions after a fill -/
theorem auc_fill {w : World} {sender : Address} {B : Books} {t : Nat} {u : Address} {n : Int} {a taken : AuctionData}
    {rest : Option AuctionData} (hf : Filling w B sender t u n a taken rest) {F F' : PoolNotes} (hF : Auctions E B.auction F)
    (h1 : F'.on = upd F.on t (upd (F.on t) u (rest.isSome = true))) (h2 : F'.bid = upd F.bid t (upd (F.bid t) u (leftBid rest)))
    (h3 : F'.lot = upd F.lot t (upd (F.lot t) u (leftLot rest))) (h4 : F'.start = F.start) :
    Auctions E (upd B.auction t (upd (B.auction t) u rest)) F' := by
  obtain ⟨_, _, ha, _, hft⟩ := hf
  intro t' u'
  rw [h1, h2, h3, h4]
  by_cases ht : t' = t
  · subst ht
    simp only [upd_same]
    by_cases hu : u' = u
    · subst hu
      simp only [upd_same, imp_self, implies_true, true_and]
      intro x hx
      subst hx
      exact ⟨fun _ => rfl, fun _ => rfl, by rw [((hF _ _).2.2 _ ha).2.2, hft.block x rfl]⟩
    · rw [upd_ne hu, upd_ne hu, upd_ne hu, upd_ne hu]
      exact hF _ _
  · rw [upd_ne ht, upd_ne ht, upd_ne ht, upd_ne ht]
    exact hF _ _

theorem amountAt_cfg {ps : PoolState} (cfg : CfgOk ps) {a : Address} {c : ReserveConfig} (hc : ps.resConfig a = some c) (m : SMap Int) :
    amountAt ps m c.index = m.bal a := by
  simp [amountAt, cfg.idx a c hc]

theorem bal_fresh {ps : PoolState} {m : SMap Int} (h : Listed ps m) {a : Address} (ha : ps.resConfig a = none) : m.bal a = 0 := by
  cases hg : m.get a with
  | none => simp [SMap.bal, hg]
  | some v => obtain ⟨c, hc⟩ := h a v hg; rw [hc] at ha; cases ha

/-- debt written off (`u = b`) or moved to the backstop -/
def noteDebt (b u : Address) (n : Address → Int) (f : Address → Address → Int) : Address → Address → Int :=
  fun x a => f x a - (if x = u then n a else 0) + (if u ≠ b ∧ x = b then n a else 0)

/-- the sum of the shares listed for `a` -/
def tally (resList : List Address) (l : List (Nat × Int)) (a : Address) : Int :=
  (l.map fun kv => if resList[kv.1]? = some a then kv.2 else 0).sum

theorem see_badDebts {p b u : Address} {resList : List Address} {seq : Nat} : ∀ {kvs : List (Nat × Int)} {l : List Event} {F : PoolNotes},
    badDebtEvents p u resList kvs = .ok l → seeAll p b seq F l = { F with debt := noteDebt b u (tally resList kvs) F.debt } := by
  intro kvs
  induction kvs with
  | nil =>
    intro l F h
    simp only [badDebtEvents, pure_ok] at h
    subst h
    have : noteDebt b u (tally resList []) F.debt = F.debt := by funext x a; simp [noteDebt, tally]
    rw [this]; rfl
  | cons kv t ih =>
    intro l F h
    obtain ⟨i, v⟩ := kv
    simp only [badDebtEvents, bind_ok, unwrap_ok, pure_ok] at h
    obtain ⟨a, ha, l', hl, rfl⟩ := h
    have e : F.see p b (seq, .badDebt p u a v) = { F with debt := noteDebt b u (fun x => if a = x then v else 0) F.debt } := by
      simp only [PoolNotes.see, if_true]
      have hd : noteDebt b u (fun x => if a = x then v else 0) F.debt =
          if u = b then plus F.debt b a (-v) else plus (plus F.debt u a (-v)) b a v := by
        funext x y
        unfold noteDebt
        by_cases hub : u = b
        · subst hub
          by_cases hx : x = u <;> by_cases hy : a = y
          · subst hx hy; simp [plus]; omega
          · subst hx; have : ¬ y = a := fun e => hy e.symm
            simp [plus, hy, this]
          · simp [plus, hx]
          · simp [plus, hx]
        · by_cases hy : a = y
          · subst hy
            by_cases hx : x = u
            · subst hx
              simp [plus, hub]; omega
            · by_cases hxb : x = b
              · subst hxb; simp [plus, hub, hx]
              · simp [plus, hub, hx, hxb]
          · have : ¬ y = a := fun e => hy e.symm
            simp [plus, hub, hy, this]
      rw [hd]
      split <;> rfl
    show seeAll p b seq (F.see p b (seq, .badDebt p u a v)) l' = _
    rw [ih hl, e]
    simp only
    congr 1
    funext x y
    simp only [noteDebt, tally, List.map_cons, List.sum_cons, ha, Option.some.injEq]
    split_ifs <;> omega

theorem tally_at {resList : List Address} (hnd : resList.Nodup) {k : Nat} {a : Address} (hk : resList[k]? = some a) (l : List (Nat × Int)) :
    tally resList l a = lsum l k := by
  induction l with
  | nil => rfl
  | cons kv l ih =>
    rw [lsum_cons, ← ih]
    simp only [tally, List.map_cons, List.sum_cons]
    have : resList[kv.1]? = some a ↔ kv.1 = k := by
      constructor
      · intro h
        rw [List.getElem?_eq_some_iff] at h hk
        obtain ⟨l1, e1⟩ := h
        obtain ⟨l2, e2⟩ := hk
        exact (List.Nodup.getElem_inj_iff hnd).1 (e1.trans e2.symm)
      · rintro rfl; exact hk
    simp only [this]

theorem tally_none {resList : List Address} {a : Address} (ha : a ∉ resList) (l : List (Nat × Int)) : tally resList l a = 0 := by
  induction l with
  | nil => rfl
  | cons kv l ih =>
    simp only [tally, List.map_cons, List.sum_cons] at ih ⊢
    rw [ih, if_neg]
    · rfl
    · intro h
      exact ha (List.mem_of_getElem? h)

theorem not_listed {ps : PoolState} (cfg : CfgOk ps) {a : Address} (h : ps.resConfig a = none) : a ∉ ps.resList := by
  intro hm
  obtain ⟨c, _, hc, _⟩ := cfg.list a hm
  rw [h] at hc; cases hc

theorem tally_cfg {ps : PoolState} (cfg : CfgOk ps) {a : Address} {c : ReserveConfig} (hc : ps.resConfig a = some c) (m : SMap Int) :
    tally ps.resList m.toList a = m.bal c.index := by
  rw [tally_at cfg.nodup (cfg.idx a c hc), lsum_toList]

/-- a liquidation, in the notes -/
theorem Match.liquidation {w : World} {p b sender : Address} {B : Books} {u : Address} {n : Int} {a taken : AuctionData}
    {rest : Option AuctionData} (cfg : CfgOk (w.pools p)) (hf : Filling w B sender 0 u n a taken rest)
    (hl : Listed (w.pools p) taken.lot) (hb : Listed (w.pools p) taken.bid) {F : PoolNotes} (m : Match E (w.pools p) B.acct B.auction F) :
    Match E (w.pools p) (upd (upd B.acct u (take (w.pools p) (-1) taken.lot taken.bid (B.acct u)))
          sender (take (w.pools p) 1 taken.lot taken.bid (B.acct sender)))
      (upd B.auction 0 (upd (B.auction 0) u rest)) (F.see p b (w.seq, .fillAuction p u 0 sender n)) := by
  rw [see_fill hf m.auc]
  have hne : u ≠ sender := hf.1
  refine ⟨fun x c cf hc => ?_, fun x c hc => ?_, auc_fill hf m.auc rfl rfl rfl rfl⟩
  · obtain ⟨h1, h2, h3⟩ := m.pos x c cf hc
    simp only [if_true, Spec.moved]
    by_cases hx : x = sender
    · subst hx
      have : ¬ x = u := fun e => hne e.symm
      simp only [upd_same, take, amountAt_cfg cfg hc, if_true, if_neg this]
      exact ⟨h1, by omega, by omega⟩
    · rw [upd_ne hx]
      by_cases hu : x = u
      · subst hu
        simp only [upd_same, take, amountAt_cfg cfg hc, if_true, if_neg hx]
        exact ⟨h1, by omega, by omega⟩
      · rw [upd_ne hu]
        simp only [if_neg hx, if_neg hu]
        exact ⟨h1, by omega, by omega⟩
  · obtain ⟨h1, h2, h3⟩ := m.fresh x c hc
    simp only [if_true, Spec.moved, bal_fresh hl hc, bal_fresh hb hc, h1, h2, h3]
    simp

/-- a fill of an interest auction, in the notes -/
theorem Match.interest {w : World} {p b sender : Address} {B : Books} {u : Address} {n : Int} {a taken : AuctionData}
    {rest : Option AuctionData} (hf : Filling w B sender 2 u n a taken rest) {F : PoolNotes} {ps : PoolState} (m : Match E ps B.acct B.auction F) :
    Match E ps B.acct (upd B.auction 2 (upd (B.auction 2) u rest)) (F.see p b (w.seq, .fillAuction p u 2 sender n)) := by
  rw [see_fill hf m.auc]
  exact ⟨m.pos, m.fresh, auc_fill hf m.auc rfl rfl rfl rfl⟩

/-- a fill of a bad debt auction, in the notes: the debt `gone` is noted first -/
theorem Match.badDebt {w : World} {p b sender : Address} {B : Books} {u : Address} {n : Int} {a taken : AuctionData}
    {rest : Option AuctionData} (cfg : CfgOk (w.pools p)) (hf : Filling w B sender 1 u n a taken rest) (hne : sender ≠ b)
    (hb : Listed (w.pools p) taken.bid) {F : PoolNotes} (m : Match E (w.pools p) B.acct B.auction F) {g : Address → Int} {gone : Nat → Int}
    (hg : ∀ a c, (w.pools p).resConfig a = some c → g a = gone c.index) (hg0 : ∀ a, (w.pools p).resConfig a = none → g a = 0) :
    Match E (w.pools p) (upd (upd B.acct b { B.acct b with
            debt := fun i => (B.acct b).debt i - amountAt (w.pools p) taken.bid i - gone i })
          sender (take (w.pools p) 1 .empty taken.bid (B.acct sender)))
      (upd B.auction 1 (upd (B.auction 1) u rest))
      (PoolNotes.see p b { F with debt := noteDebt b b g F.debt } (w.seq, .fillAuction p u 1 sender n)) := by
  rw [see_fill hf (F := { F with debt := noteDebt b b g F.debt }) m.auc]
  refine ⟨fun x c cf hc => ?_, fun x c hc => ?_, auc_fill hf m.auc rfl rfl rfl rfl⟩
  · obtain ⟨h1, h2, h3⟩ := m.pos x c cf hc
    simp only [Nat.one_ne_zero, if_false, if_true, Spec.moved, noteDebt, ne_eq, not_true_eq_false, false_and]
    by_cases hx : x = sender
    · subst hx
      simp only [upd_same, take, amountAt_cfg cfg hc, if_true, if_neg hne]
      refine ⟨h1, ?_, by omega⟩
      rw [h2]; simp
    · rw [upd_ne hx]
      by_cases hu : x = b
      · subst hu
        simp only [upd_same, amountAt_cfg cfg hc, if_true, if_neg hx, hg c cf hc]
        exact ⟨h1, h2, by omega⟩
      · rw [upd_ne hu]
        simp only [if_neg hx, if_neg hu]
        exact ⟨h1, h2, by omega⟩
  · obtain ⟨h1, h2, h3⟩ := m.fresh x c hc
    simp only [Nat.one_ne_zero, if_false, if_true, Spec.moved, noteDebt, bal_fresh hb hc, hg0 c hc, h1, h2, h3]
    simp

theorem collect_events {p u : Address} {resList : List Address} : ∀ {kvs : List (Nat × Int)} {m m' : SMap Int},
    collectLiabilities resList kvs m = .ok m' → ∃ l, badDebtEvents p u resList kvs = .ok l := by
  intro kvs
  induction kvs with
  | nil => intro m m' _; exact ⟨[], rfl⟩
  | cons kv t ih =>
    intro m m' h
    simp only [collectLiabilities, bind_ok] at h
    obtain ⟨a, ha, h⟩ := h
    obtain ⟨l, hl⟩ := ih h
    exact ⟨_, by simp only [badDebtEvents, bind_ok, pure_ok]; exact ⟨a, ha, l, hl, rfl⟩⟩

/-- the log of a fill of a bad debt auction tells what is written off -/
theorem badDebt_log {w : World} {p sender : Address} {s : SubmitState} {fl' : Flight} {a : AuctionData}
    (cfg : CfgOk (w.pools p)) (f : FlightOk w p sender s) (t : Track w p s.fl) (h : fillBadDebt s.fl p a = .ok fl') :
    ∃ lot l inst, (w.pools p).inst = some inst ∧ sender ≠ inst.backstop ∧ fillBadDebtLog s.fl p a = .ok (.draw p sender lot :: l) ∧
      ∃ pos, badDebtEvents p inst.backstop (w.pools p).resList (SMap.toList pos) = .ok l ∧
        ∀ i, SMap.bal pos i = ((s.books w p).acct inst.backstop).debt i - amountAt (w.pools p) a.bid i
          - (accountOf (fl'.w.pools p) inst.backstop).debt i := by
  have hua := f.addr
  unfold fillBadDebt at h
  simp only [bind_ok, pure_ok, require_ok, ite_ok] at h
  obtain ⟨inst, hinst, _, hne, c1, h1, c2, h2, tok, htok, lot, hlot, w2, hd, h⟩ := h
  have h1' := h1
  have h2' := h2
  have hd' := hd
  have hinst' := hinst
  simp only [PoolState.getInst, unwrap_ok] at hinst
  rw [f.time] at h1 h2
  rw [hua] at hd hne
  obtain ⟨m1, n1⟩ := rmPositions_moved cfg t.cur h1
  have m2 := addPositions_moved cfg (c := ⟨c1.ps, c1.cache, s.fl.user⟩) m1.cur h2
  have a1 : c1.user.addr = inst.backstop := m1.addr
  have hbk : (s.books w p).acct inst.backstop = accountOf (s.fl.w.pools p) inst.backstop := by
    simp only [SubmitState.books, hua]; rw [if_neg (Ne.symm hne)]
  have hdebt : ∀ i, c1.user.pos.liabilities.bal i = ((s.books w p).acct inst.backstop).debt i - amountAt (w.pools p) a.bid i := by
    intro i
    have := m1.bal .liab i
    simp only [Kind.map, User.load] at this
    rw [hbk, this]; simp only [accountOf, amountAt_listed]; omega
  have hinstw : (w.pools p).inst = some inst := by rw [← f.same.inst]; exact hinst
  obtain ⟨_, _, dp, _⟩ := draw_full hd
  have hp2 : w2.pools p = c2.ps := by rw [dp]; simp
  have st1 : ∀ i, (accountOf (c1.user.store (w2.pools p)) inst.backstop).debt i = c1.user.pos.liabilities.bal i := by
    intro i
    rw [accountOf_store, a1, if_pos rfl]
  have quiet : ∀ i, SMap.bal (.empty : SMap Int) i = ((s.books w p).acct inst.backstop).debt i - amountAt (w.pools p) a.bid i
      - (accountOf (c1.user.store (w2.pools p)) inst.backstop).debt i := by
    intro i
    rw [st1, hdebt]; simp
  rcases h with ⟨hemp, rfl⟩ | ⟨hemp, d, hdd, ⟨hthr, rm, hrm, c3, h3, rfl⟩ | ⟨hthr, rfl⟩⟩
  · refine ⟨lot, [], inst, hinstw, hne, ?_, .empty, rfl, by simpa using quiet⟩
    simp only [fillBadDebtLog, bind_ok, pure_ok, ite_ok]
    exact ⟨inst, hinst', c1, h1', c2, h2', tok, htok, lot, hlot, w2, hd', .inl ⟨hemp, by rw [hua]⟩⟩
  · have hrm' := hrm
    rw [f.time, hp2] at h3
    rw [hp2] at hrm
    obtain ⟨m3, n3⟩ := rmPositions_moved cfg (c := ⟨c2.ps, c2.cache, c1.user⟩) m2.cur h3
    have hrl : c2.ps.resList = (w.pools p).resList := by rw [← m2.cur.resList]
    rw [hrl] at hrm
    have hcl := collect_listed cfg.nodup hrm
    have a3 : c3.user.addr = inst.backstop := m3.addr.trans a1
    obtain ⟨l, hl⟩ := collect_events (p := p) (u := inst.backstop) hrm
    refine ⟨lot, l, inst, hinstw, hne, ?_, c1.user.pos.liabilities, hl, fun i => ?_⟩
    · simp only [fillBadDebtLog, bind_ok, pure_ok, ite_ok]
      refine ⟨inst, hinst', c1, h1', c2, h2', tok, htok, lot, hlot, w2, hd', .inr ⟨hemp, d, hdd, .inl ⟨hthr, l, ?_, by rw [hua]⟩⟩⟩
      rw [hp2, hrl]; exact hl
    · have e : (accountOf (recordWriteOff (c3.user.store c3.ps) c3.cache rm) inst.backstop).debt i = c3.user.pos.liabilities.bal i := by
        rw [accountOf_congr (ps' := recordWriteOff _ _ _) (ps := c3.user.store c3.ps) rfl, accountOf_store, a3, if_pos rfl]
      have := m3.bal .liab i
      simp only [Kind.map] at this
      simp only [pools_setPool]
      rw [e, this, hcl, hdebt]
      omega
  · refine ⟨lot, [], inst, hinstw, hne, ?_, .empty, rfl, by simpa using quiet⟩
    simp only [fillBadDebtLog, bind_ok, pure_ok, ite_ok]
    exact ⟨inst, hinst', c1, h1', c2, h2', tok, htok, lot, hlot, w2, hd', .inr ⟨hemp, d, hdd, .inr ⟨hthr, by rw [hua]⟩⟩⟩

theorem seeAll_append {p b : Address} {seq : Nat} {F : PoolNotes} {l l' : List Event} :
    seeAll p b seq F (l ++ l') = seeAll p b seq (seeAll p b seq F l) l' := List.foldl_append

theorem auction_log {w : World} (hr : Reachable w) {p sender b : Address} (hpb : p ≠ w.backstopAddr) {auth : List Address} (hsp : sender ≠ p)
    (hb : ∀ i, (w.pools p).inst = some i → i.backstop = b)
    {s s' : SubmitState} {q : Request} (f : FlightOk w p sender s) (f' : FlightOk w p sender s') (t : Track w p s.fl)
    (hq : ¬ q.type ≤ 5) (h : processRequest p auth s q = .ok s') :
    ∃ l, requestLog p s q = .ok l ∧ ∀ F, Match E (w.pools p) (s.books w p).acct (s.books w p).auction F →
      Match E (w.pools p) (s'.books w p).acct (s'.books w p).auction (seeAll p b w.seq F l) := by
  have cfg := hr.base.cfg p
  obtain ⟨_, hB⟩ := full_step hr hpb hsp f f' t h
  have hB : AuctionEffect w p sender (s.books w p) q (s'.books w p) := by
    rcases hB with ⟨h0, _⟩ | k
    · exact absurd h0 hq
    · exact k
  have hua := f.addr
  generalize hBe : s'.books w p = B' at hB
  cases hB with
  | @liquidation u n a taken rest hf hle r1 r2 =>
    obtain ⟨hn, _, h1⟩ := processRequest_ok h
    have h : reqFill p auth 0 s u n = .ok s' := by simpa using h1
    unfold reqFill at h
    simp only [bind_ok, pure_ok] at h
    obtain ⟨fl', hfl, rfl⟩ := h
    obtain ⟨hne, a', tk, rest', fl1, ha, hs, hk, rfl⟩ := fill_ok hfl
    refine ⟨[.fillAuction p u 0 sender n], ?_, fun F m => ?_⟩
    · simp only [requestLog, fillLog, bind_ok, unwrap_ok, Prod.exists, pure_ok, if_true]
      exact ⟨a', ha, tk, rest', hs, [], rfl, by rw [hua]; rfl⟩
    · exact m.liquidation cfg hf r1 r2
  | @badDebt u n a taken rest inst bi gone hf hi hne hbi hba hle h0 hlp hw hg r1 hv =>
    obtain ⟨hn, _, h1⟩ := processRequest_ok h
    have h : reqFill p auth 1 s u n = .ok s' := by simpa using h1
    unfold reqFill at h
    simp only [bind_ok, pure_ok] at h
    obtain ⟨fl', hfl, rfl⟩ := h
    obtain ⟨_, a', tk, rest', fl1, ha, hs, hk, rfl⟩ := fill_ok hfl
    have hs' := hs
    rw [asU64_eq hn, f.seq] at hs
    obtain ⟨_, _, hft⟩ := scaleAuction_ok hs
    have haa : a' = a := by
      have := hf.2.2.1
      change (s.fl.w.pools p).auctions 1 u = some a at this
      rw [ha] at this
      exact Option.some.inj this
    subst haa
    have htk : ∀ x, tk.bid.bal x = taken.bid.bal x := fun x => by
      rw [← (fill_parts hft x).1, ← (fill_parts hf.2.2.2.2 x).1]
    have hk : fillBadDebt s.fl p tk = .ok fl1 := by simpa using hk
    obtain ⟨lot, l, inst', hi', _, hlog, pos, hev, hpos⟩ := badDebt_log cfg f t hk
    rw [hi] at hi'; cases hi'
    have hbb := hb inst hi
    subst hbb
    refine ⟨.draw p sender lot :: l ++ [.fillAuction p u 1 sender n], ?_, fun F m => ?_⟩
    · simp only [requestLog, fillLog, bind_ok, unwrap_ok, Prod.exists, pure_ok, Nat.one_ne_zero, if_false, if_true]
      exact ⟨a', ha, tk, rest', hs', _, hlog, by rw [hua]⟩
    · rw [seeAll_append]
      show Match _ _ _ _ (PoolNotes.see p inst.backstop (seeAll p inst.backstop w.seq F l) (w.seq, .fillAuction p u 1 sender n))
      rw [see_badDebts hev]
      -- what the books say about the debt that is gone
      have hgone : ∀ i, gone i = pos.bal i := by
        intro i
        rw [hpos]
        have e := congrArg (fun B => (B.acct inst.backstop).debt i) hBe
        simp only [upd_ne (Ne.symm hne), upd_same] at e
        have hu1 : fl1.user.addr = sender := f'.addr
        have e2 : (SubmitState.books w p ⟨{ fl1 with w := fl1.w.setPool p (setAuction (fl1.w.pools p) 1 u rest') }, s.actions, if 1 = 2 then s.check else true⟩).acct inst.backstop
            = accountOf (fl1.w.pools p) inst.backstop := by
          simp only [SubmitState.books, hu1, if_neg (Ne.symm hne), pools_setPool]
          exact accountOf_congr rfl _
        rw [e2] at e
        have e3 : amountAt (w.pools p) tk.bid i = amountAt (w.pools p) taken.bid i := by
          unfold amountAt; split
          · exact htk _
          · rfl
        rw [e3]; omega
      exact m.badDebt cfg hf hne r1 (fun a c hc => by rw [hgone, tally_cfg cfg hc]) (fun a ha => tally_none (not_listed cfg ha) _)
  | @interest u n a taken rest inst bi hf hi hne hbi hba h0 hw r1 hw2 hkn =>
    obtain ⟨hn, _, h1⟩ := processRequest_ok h
    have h : reqFill p auth 2 s u n = .ok s' := by simpa using h1
    unfold reqFill at h
    simp only [bind_ok, pure_ok] at h
    obtain ⟨fl', hfl, rfl⟩ := h
    obtain ⟨_, a', tk, rest', fl1, ha, hs, hk, rfl⟩ := fill_ok hfl
    have hk : fillInterest s.fl p auth tk = .ok fl1 := by simpa using hk
    unfold fillInterest at hk
    simp only [bind_ok, unwrap_ok] at hk
    obtain ⟨_, _, _, _, tok, htok, bid, hbid, _⟩ := hk
    refine ⟨[.donate p sender bid, .fillAuction p u 2 sender n], ?_, fun F m => ?_⟩
    · simp only [requestLog, fillLog, fillInterestLog, bind_ok, unwrap_ok, Prod.exists, pure_ok, OfNat.ofNat_ne_zero, OfNat.ofNat_ne_one, if_false]
      exact ⟨a', ha, tk, rest', hs, _, ⟨tok, htok, bid, hbid, rfl⟩, by rw [hua]; rfl⟩
    · exact m.interest hf
  | delete hn ha =>
    refine ⟨[.deleteLiquidation p sender], by simp [requestLog, hua]; rfl, fun F m => ?_⟩
    simp only [seeAll, List.foldl, PoolNotes.see, if_true]
    refine ⟨m.pos, m.fresh, fun t u => ?_⟩
    dsimp only
    by_cases ht : t = 0
    · subst ht
      rw [upd_same, upd_same]
      by_cases hu : u = sender
      · subst hu; simp
      · rw [upd_ne hu, upd_ne hu]; exact m.auc _ _
    · rw [upd_ne ht, upd_ne ht]; exact m.auc _ _

theorem requests_log {w : World} (hr : Reachable w) {p : Address} (hp : w.poolAddr p = true) {b : Address}
    (hb : ∀ i, (w.pools p).inst = some i → i.backstop = b) {cache : Cache} {sender : Address}
    (hsp : sender ≠ p) (hc : Cache.load (w.pools p) = .ok cache) {auth : List Address} :
    ∀ (l l1 : List Request) (s s' : SubmitState),
      l1.foldlM (processRequest p auth) (startState w p cache sender) = .ok s → Track w p s.fl →
      l.foldlM (processRequest p auth) s = .ok s' →
      ∃ ev, requestsLog p auth l s = .ok ev ∧ ∀ F, Match E (w.pools p) (s.books w p).acct (s.books w p).auction F →
        Match E (w.pools p) (s'.books w p).acct (s'.books w p).auction (seeAll p b w.seq F ev) := by
  intro l
  induction l with
  | nil =>
    intro l1 s s' _ t h
    rw [foldlM_nil] at h
    subst h
    exact ⟨[], rfl, fun F m => m⟩
  | cons q l ih =>
    intro l1 s s' h1 t h
    rw [foldlM_cons] at h
    obtain ⟨s1, hs1, h⟩ := h
    have h1' : (l1 ++ [q]).foldlM (processRequest p auth) (startState w p cache sender) = .ok s1 := by
      rw [List.foldlM_append, bind_ok]
      exact ⟨s, h1, by rw [foldlM_cons]; exact ⟨s1, hs1, rfl⟩⟩
    have f := flight_of hr hp hsp hc h1
    have f' := flight_of hr hp hsp hc h1'
    have hpb := hr.base.pool_ne hp
    obtain ⟨t1, _⟩ := full_step hr hpb hsp f f' t hs1
    obtain ⟨evs, g1, g2⟩ := ih (l1 ++ [q]) s1 s' h1' t1 h
    have : ∃ ev, requestLog p s q = .ok ev ∧ ∀ F, Match E (w.pools p) (s.books w p).acct (s.books w p).auction F →
        Match E (w.pools p) (s1.books w p).acct (s1.books w p).auction (seeAll p b w.seq F ev) := by
      by_cases hq : q.type ≤ 5
      · exact plain_log hr hpb hsp f f' t hq hs1
      · exact auction_log hr hpb hsp hb f f' t hq hs1
    obtain ⟨ev, e1, e2⟩ := this
    refine ⟨ev ++ evs, ?_, fun F m => ?_⟩
    · simp only [requestsLog, bind_ok, pure_ok]
      exact ⟨ev, e1, s1, hs1, evs, g1, rfl⟩
    · rw [seeAll_append]
      exact g2 _ (e2 _ m)

/-- a submit, in the log -/
theorem submit_log {w w' : World} (hr : Reachable w) {p : Address} {b : Address}
    (hb : ∀ i, (w.pools p).inst = some i → i.backstop = b) {auth : List Address} {sender spender dst : Address}
    {reqs : List Request} (h : step w (.pool p auth (.submit sender spender dst reqs)) = .ok w') :
    ∃ ev, callLog w p auth (.submit sender spender dst reqs) = .ok ev ∧
      ∀ F, Match E (w.pools p) (accountOf (w.pools p)) (w.pools p).auctions F →
        Match E (w.pools p) (accountOf (w'.pools p)) (w'.pools p).auctions (seeAll p b w.seq F ev) := by
  obtain ⟨hp, cache, s, v⟩ := submit_view hr h
  obtain ⟨t0, e0⟩ := track_start (sender := sender) hr v.load
  obtain ⟨ev, h1, h2⟩ := requests_log hr hp hb v.sender_ne v.load _ [] _ _ (by rw [foldlM_nil]) t0 v.fold
  refine ⟨ev, ?_, fun F m => ?_⟩
  · simp only [callLog, bind_ok]
    exact ⟨cache, v.load, h1⟩
  · rw [e0] at h2
    have k := h2 F m
    have hua := v.flight.addr
    have hauc : (w'.pools p).auctions = (s.books w p).auction := by rw [v.pools]; rfl
    have hacc : ∀ x i, (accountOf (w'.pools p) x).supplied i = ((s.books w p).acct x).supplied i ∧
        (accountOf (w'.pools p) x).collateral i = ((s.books w p).acct x).collateral i ∧
        (accountOf (w'.pools p) x).debt i = ((s.books w p).acct x).debt i := by
      intro x i
      simp only [accountOf]
      rw [v.pools]
      by_cases hx : x = sender
      · subst hx
        have : getPositions (overlay (s.fl.w.pools p) s.fl.cache [s.fl.user]) s.fl.user.addr = s.fl.user.pos := by
          have := getPositions_overlay_last (s.fl.w.pools p) s.fl.cache [] s.fl.user
          simpa using this
        rw [hua] at this
        rw [this, books_sender v.flight]
        exact ⟨rfl, rfl, rfl⟩
      · rw [getPositions_overlay_ne _ _ _ _ (by rw [hua]; exact hx)]
        simp only [SubmitState.books, hua, if_neg hx]
        exact ⟨rfl, rfl, rfl⟩
    refine ⟨fun x a c hc => ?_, k.fresh, by rw [hauc]; exact k.auc⟩
    obtain ⟨p1, p2, p3⟩ := k.pos x a c hc
    obtain ⟨q1, q2, q3⟩ := hacc x c.index
    exact ⟨p1.trans q1.symm, p2.trans q2.symm, p3.trans q3.symm⟩

theorem badDebtLoop_events {now : Nat} {p u : Address} {L : List Address} : ∀ {kvs : List (Nat × Int)} {S S' : PoolState × Cache × User × User},
    S.1.resList = L → badDebtTransferLoop now kvs S = .ok S' → ∃ l, badDebtEvents p u L kvs = .ok l := by
  intro kvs
  induction kvs with
  | nil => intro S S' _ _; exact ⟨[], rfl⟩
  | cons kv t ih =>
    rintro ⟨ps, cache, bs, us⟩ S' hL h
    simp only [badDebtTransferLoop, bind_ok, Prod.exists] at h
    obtain ⟨a, ha, r, cache', hl, ps1, bs', r1, hadd, ps2, u', r2, hrm, h⟩ := h
    obtain ⟨_, ⟨_, e1⟩, _⟩ := isAddLiab hadd
    obtain ⟨_, ⟨_, e2⟩, _⟩ := isRemoveLiab hrm
    obtain ⟨l, hl⟩ := ih (S := (ps2, cache'.put r2, bs', u')) (by
      obtain ⟨_, _, rfl, _⟩ := updateEmissions_frame e1
      obtain ⟨_, _, rfl, _⟩ := updateEmissions_frame e2
      exact hL) h
    dsimp only at hL
    subst hL
    exact ⟨_, by simp only [badDebtEvents, bind_ok, pure_ok]; exact ⟨a, ha, l, hl, rfl⟩⟩

/-- a transfer of bad debt, in the log -/
theorem transfer_log {w w' : World} (hr : Reachable w) {p : Address} {b : Address}
    (hb : ∀ i, (w.pools p).inst = some i → i.backstop = b) {auth : List Address} {u : Address}
    (h : step w (.pool p auth (.badDebt u)) = .ok w') :
    ∃ ev, callLog w p auth (.badDebt u) = .ok ev ∧
      ∀ F, Match E (w.pools p) (accountOf (w.pools p)) (w.pools p).auctions F →
        Match E (w.pools p) (accountOf (w'.pools p)) (w'.pools p).auctions (seeAll p b w.seq F ev) := by
  simp only [step, bind_ok, require_ok, call] at h
  obtain ⟨_, hp, _, _, h⟩ := h
  have cfg := hr.base.cfg p
  have m := badDebt_moved cfg (hr.pinv hp) h
  simp only [transferBadDebt, bind_ok, Prod.exists] at h
  obtain ⟨_, _, _, _, _, _, cache, _, ps1, cache', bs', u', hl, _⟩ := h
  obtain ⟨ev, hev⟩ := badDebtLoop_events (p := p) (u := u) rfl hl
  obtain ⟨i, hi, hne, m1, m2⟩ := m.inst
  have hbb := hb i hi
  subst hbb
  refine ⟨ev, hev, fun F k => ?_⟩
  rw [see_badDebts hev]
  refine ⟨fun x a c hc => ?_, fun x a ha => ?_, by rw [m.auctions]; exact k.auc⟩
  · obtain ⟨p1, p2, p3⟩ := k.pos x a c hc
    obtain ⟨o1, o2⟩ := m.other x c.index
    refine ⟨p1.trans o1.symm, p2.trans o2.symm, ?_⟩
    simp only [noteDebt]
    have ht : tally (w.pools p).resList (SMap.toList (User.load (w.pools p) u).pos.liabilities) a = (accountOf (w.pools p) u).debt c.index :=
      tally_cfg cfg hc _
    rw [ht, p3]
    by_cases hx : x = u
    · subst hx
      rw [m.debt']
      simp [hne]
    · by_cases hxb : x = i.backstop
      · subst hxb
        rw [m1, if_neg hx, if_pos ⟨hne, rfl⟩]; omega
      · rw [m2 x hx hxb, if_neg hx, if_neg (fun e => hxb e.2)]; omega
  · obtain ⟨p1, p2, p3⟩ := k.fresh x a ha
    refine ⟨p1, p2, ?_⟩
    simp only [noteDebt]
    have ht : tally (w.pools p).resList (SMap.toList (User.load (w.pools p) u).pos.liabilities) a = 0 := tally_none (not_listed cfg ha) _
    rw [ht, p3]; simp

/-! ### the other operations -/

/-- the pool whose positions or auctions the event is about -/
def about : Event → Option Address
  | .supply p .. | .withdraw p .. | .supplyCollateral p .. | .withdrawCollateral p .. | .borrow p .. | .repay p ..
  | .fillAuction p .. | .deleteLiquidation p .. | .badDebt p .. | .newLiquidation p .. | .newAuction p .. => some p
  | _ => none

theorem see_other {p b : Address} {F : PoolNotes} {seq : Nat} {e : Event} (h : about e ≠ some p) : F.see p b (seq, e) = F := by
  cases e <;> simp_all [about, PoolNotes.see]

theorem seeAll_other {p b : Address} {F : PoolNotes} {seq : Nat} {l : List Event} (h : ∀ e ∈ l, about e ≠ some p) :
    seeAll p b seq F l = F := by
  induction l with
  | nil => rfl
  | cons e l ih =>
    show seeAll p b seq (F.see p b (seq, e)) l = F
    rw [see_other (h e (by simp))]
    exact ih fun x hx => h x (by simp [hx])

theorem badDebtEvents_about {p u : Address} {L : List Address} : ∀ {kvs : List (Nat × Int)} {l : List Event},
    badDebtEvents p u L kvs = .ok l → ∀ e ∈ l, about e = some p := by
  intro kvs
  induction kvs with
  | nil => intro l h; simp only [badDebtEvents, pure_ok] at h; subst h; simp
  | cons kv t ih =>
    intro l h
    simp only [badDebtEvents, bind_ok, pure_ok] at h
    obtain ⟨a, _, l', hl, rfl⟩ := h
    intro e he
    rcases List.mem_cons.1 he with rfl | he
    · rfl
    · exact ih hl e he

def Concerns (p : Address) (l : List Event) : Prop := ∀ e ∈ l, about e = none ∨ about e = some p

theorem fillLog_about {fl : Flight} {p : Address} {t : Nat} {u : Address} {n : Int} {l : List Event} (h : fillLog fl p t u n = .ok l) :
    Concerns p l := by
  simp only [fillLog, bind_ok, Prod.exists, pure_ok, ite_ok] at h
  obtain ⟨a, _, tk, _, _, h⟩ := h
  have fin : ∀ l', (∀ e ∈ l', about e = none ∨ about e = some p) → l' ++ [.fillAuction p u t fl.user.addr n] = l → Concerns p l := by
    rintro l' h' rfl e he
    rcases List.mem_append.1 he with he | he
    · exact h' e he
    · rw [List.mem_singleton] at he; subst he; exact .inr rfl
  rcases h with ⟨_, l', rfl, hl⟩ | ⟨_, ⟨_, l', h, hl⟩ | ⟨_, l', h, hl⟩⟩
  · exact fin _ (by simp) hl
  · refine fin _ (fun e he => ?_) hl
    simp only [fillBadDebtLog, bind_ok, pure_ok, ite_ok] at h
    obtain ⟨i, _, c1, _, c2, _, tok, _, lot, _, w2, _, h⟩ := h
    rcases h with ⟨_, rfl⟩ | ⟨_, d, _, ⟨_, l2, h2, rfl⟩ | ⟨_, rfl⟩⟩
    · rw [List.mem_singleton] at he; subst he; exact .inl rfl
    · rcases List.mem_cons.1 he with rfl | he
      · exact .inl rfl
      · exact .inr (badDebtEvents_about h2 e he)
    · rw [List.mem_singleton] at he; subst he; exact .inl rfl
  · refine fin _ (fun e he => ?_) hl
    simp only [fillInterestLog, bind_ok, pure_ok] at h
    obtain ⟨_, _, _, _, rfl⟩ := h
    rw [List.mem_singleton] at he; subst he; exact .inl rfl

theorem requestLog_about {p : Address} {s : SubmitState} {q : Request} {l : List Event} (h : requestLog p s q = .ok l) : Concerns p l := by
  unfold requestLog at h
  split at h
  all_goals try simp only [bind_ok, pure_ok, Prod.exists, ite_ok] at h
  · obtain ⟨_, _, _, _, _, rfl⟩ := h; simp [Concerns, about]
  · obtain ⟨_, _, _, _, _, _, rfl⟩ := h; simp [Concerns, about]
  · obtain ⟨_, _, _, _, _, rfl⟩ := h; simp [Concerns, about]
  · obtain ⟨_, _, _, _, _, _, rfl⟩ := h; simp [Concerns, about]
  · obtain ⟨_, _, _, _, _, rfl⟩ := h; simp [Concerns, about]
  · obtain ⟨_, _, _, _, _, ⟨_, _, _, _, _, _, _, rfl⟩ | ⟨_, rfl⟩⟩ := h <;> simp [Concerns, about]
  · exact fillLog_about h
  · exact fillLog_about h
  · exact fillLog_about h
  · subst h; simp [Concerns, about]
  · cases h

theorem requestsLog_about {p : Address} {auth : List Address} : ∀ {reqs : List Request} {s : SubmitState} {l : List Event},
    requestsLog p auth reqs s = .ok l → Concerns p l := by
  intro reqs
  induction reqs with
  | nil => intro s l h; simp only [requestsLog, pure_ok] at h; subst h; simp [Concerns]
  | cons q t ih =>
    intro s l h
    simp only [requestsLog, bind_ok, pure_ok] at h
    obtain ⟨l1, h1, s', _, l2, h2, rfl⟩ := h
    intro e he
    rcases List.mem_append.1 he with he | he
    · exact requestLog_about h1 e he
    · exact ih h2 e he

theorem gulpLog_about {p : Address} {now : Nat} {n : Int} : ∀ {l : List (Nat × Nat)} {ps : PoolState} {ev : List Event},
    gulpLog p now n l ps = .ok ev → ∀ e ∈ ev, about e = none := by
  intro l
  induction l with
  | nil => intro ps ev h; simp only [gulpLog, pure_ok] at h; subst h; simp
  | cons kv t ih =>
    intro ps ev h
    simp only [gulpLog, bind_ok, pure_ok] at h
    obtain ⟨_, _, _, _, _, _, _, _, l2, h2, rfl⟩ := h
    intro e he
    rcases List.mem_cons.1 he with rfl | he
    · rfl
    · exact ih h2 e he

/-- calls that publish events about positions or auctions -/
def Call.publishes : Call → Bool
  | .submit .. | .badDebt .. | .newLiquidation .. | .newBadDebt | .newInterest .. => true
  | _ => false

theorem callLog_about {w : World} {p : Address} {auth : List Address} {c : Call} {l : List Event} (h : callLog w p auth c = .ok l) :
    Concerns p l ∧ (c.publishes = false → ∀ e ∈ l, about e = none) := by
  cases c with
  | submit => exact ⟨by simp only [callLog, bind_ok] at h; obtain ⟨_, _, h⟩ := h; exact requestsLog_about h, by simp [Call.publishes]⟩
  | badDebt => exact ⟨fun e he => .inr (badDebtEvents_about h e he), by simp [Call.publishes]⟩
  | gulpEmissions =>
    simp only [callLog, bind_ok, pure_ok, Prod.exists] at h
    obtain ⟨n, w1, _, l2, h2, rfl⟩ := h
    have : ∀ e ∈ l2 ++ [Event.updateEmissions p n], about e = none := by
      intro e he
      rcases List.mem_append.1 he with he | he
      · exact gulpLog_about h2 e he
      · rw [List.mem_singleton] at he; subst he; rfl
    exact ⟨fun e he => .inl (this e he), fun _ => this⟩
  | updateStatus =>
    simp only [callLog, bind_ok, pure_ok] at h
    obtain ⟨_, _, _, _, _, _, rfl⟩ := h
    simp [Concerns, about]
  | newBadDebt =>
    simp only [callLog, bind_ok, pure_ok] at h
    obtain ⟨_, _, _, _, rfl⟩ := h
    simp [Concerns, about, Call.publishes]
  | newInterest =>
    simp only [callLog, bind_ok, pure_ok] at h
    obtain ⟨_, _, _, _, rfl⟩ := h
    simp [Concerns, about, Call.publishes]
  | newLiquidation =>
    simp only [callLog, bind_ok, pure_ok, Prod.exists] at h
    obtain ⟨_, _, _, rfl⟩ := h
    simp [Concerns, about, Call.publishes]
  | setReserve =>
    simp only [callLog, bind_ok, pure_ok, Prod.exists] at h
    obtain ⟨_, _, _, rfl⟩ := h
    simp [Concerns, about]
  | claim =>
    simp only [callLog, bind_ok, pure_ok, Prod.exists] at h
    obtain ⟨_, _, _, rfl⟩ := h
    simp [Concerns, about]
  | «initialize» => simp only [callLog, pure_ok] at h; subst h; simp [Concerns]
  | setEmissionsConfig => simp only [callLog, pure_ok] at h; subst h; simp [Concerns]
  | _ =>
    simp only [callLog, bind_ok, pure_ok] at h
    obtain ⟨_, _, rfl⟩ := h
    simp [Concerns, about]

theorem claimDepositLog_about {lp n : Int} {claims : SMap Int} {d : Address} : ∀ {ps : List Address} {b : BackstopState} {l : List Event},
    Backstop.claimDepositLog lp n claims d ps b = .ok l → ∀ e ∈ l, about e = none := by
  intro ps
  induction ps with
  | nil => intro b l h; simp only [Backstop.claimDepositLog, pure_ok] at h; subst h; simp
  | cons p t ih =>
    intro b l h
    simp only [Backstop.claimDepositLog, bind_ok, pure_ok] at h
    obtain ⟨_, _, _, _, _, _, _, _, _, _, l2, h2, rfl⟩ := h
    intro e he
    rcases List.mem_cons.1 he with rfl | he
    · rfl
    · exact ih h2 e he

theorem backstopLog_about {w : World} {auth : List Address} {c : BackstopCall} {l : List Event} (h : backstopLog w auth c = .ok l) :
    ∀ e ∈ l, about e = none := by
  cases c with
  | claim s ps d =>
    simp only [backstopLog, Backstop.claimLog, bind_ok, pure_ok, Prod.exists, ite_ok] at h
    obtain ⟨n, cl, b1, _, ⟨_, _, _, _, _, _, l2, h2, rfl⟩ | ⟨_, rfl⟩⟩ := h
    · intro e he
      rcases List.mem_append.1 he with he | he
      · exact claimDepositLog_about h2 e he
      · rw [List.mem_singleton] at he; subst he; rfl
    · simp [about]
  | deposit => simp only [backstopLog, bind_ok, pure_ok, Prod.exists] at h; obtain ⟨_, _, _, rfl⟩ := h; simp [about]
  | queueWithdrawal => simp only [backstopLog, bind_ok, pure_ok, Prod.exists] at h; obtain ⟨_, _, _, rfl⟩ := h; simp [about]
  | withdraw => simp only [backstopLog, bind_ok, pure_ok, Prod.exists] at h; obtain ⟨_, _, _, rfl⟩ := h; simp [about]
  | gulpEmissions => simp only [backstopLog, bind_ok, pure_ok, Prod.exists] at h; obtain ⟨_, _, _, rfl⟩ := h; simp [about]
  | drop => simp only [backstopLog, bind_ok, pure_ok] at h; obtain ⟨_, _, rfl⟩ := h; simp [about]
  | _ => simp only [backstopLog, pure_ok] at h; subst h; simp [about]

theorem emitterLog_about {w : World} {c : EmitterCall} {l : List Event} (h : emitterLog w c = .ok l) : ∀ e ∈ l, about e = none := by
  cases c with
  | distribute => simp only [emitterLog, bind_ok, pure_ok, Prod.exists] at h; obtain ⟨_, _, _, _, _, rfl⟩ := h; simp [about]
  | queueSwap => simp only [emitterLog, bind_ok, pure_ok] at h; obtain ⟨_, _, _, _, rfl⟩ := h; simp [about]
  | cancelSwap => simp only [emitterLog, bind_ok, pure_ok] at h; obtain ⟨_, _, rfl⟩ := h; simp [about]
  | swapBackstop => simp only [emitterLog, bind_ok, pure_ok] at h; obtain ⟨_, _, rfl⟩ := h; simp [about]
  | _ => simp only [emitterLog, pure_ok] at h; subst h; simp [about]

/-- operations without events about the positions and auctions of `p` -/
def Silent (p : Address) (op : Op) : Prop := ∀ auth c, op = .pool p auth c → c.publishes = false

theorem silent_log {w : World} {p : Address} {op : Op} (hs : Silent p op) {l : List Event} (h : logOf w op = .ok l) :
    ∀ e ∈ l, about e ≠ some p := by
  cases op with
  | pool q auth c =>
    obtain ⟨h1, h2⟩ := callLog_about h
    intro e he
    by_cases hq : q = p
    · subst hq
      rw [h2 (hs auth c rfl) e he]; simp
    · rcases h1 e he with e1 | e1 <;> rw [e1] <;> simp [hq]
  | backstop auth c => intro e he; rw [backstopLog_about h e he]; simp
  | emitter auth c => intro e he; rw [emitterLog_about h e he]; simp
  | factory auth c =>
    cases c with
    | deploy => simp only [logOf, factoryLog, bind_ok, pure_ok, Prod.exists] at h; obtain ⟨_, _, _, rfl⟩ := h; simp [about]
    | «initialize» => simp only [logOf, factoryLog, pure_ok] at h; subst h; simp
  | _ => simp only [logOf, pure_ok] at h; subst h; simp

end Pool
end Blend
