import Verif.Lemmas.FullPlan
import Verif.Lemmas.PlainValue
/-
  The utilization of a reserve after a borrow, through any further requests (C14).
-/

namespace Blend
namespace Pool
open Spec

/-- a reserve that was accrued in this ledger keeps its rates -/
def Fixed (now : Nat) (S S' : VS) : Prop := ∀ a d, S.ps.resData a = some d → d.lastTime = now →
  ∃ d', S'.ps.resData a = some d' ∧ d'.lastTime = now ∧ d'.bRate = d.bRate ∧ d'.dRate = d.dRate

theorem Fixed.of_eq {now : Nat} {S S' : VS} (h : S'.ps.resData = S.ps.resData) : Fixed now S S' :=
  fun _ d hd ht => ⟨d, by rw [h]; exact hd, ht, rfl, rfl⟩

theorem Fixed.upd {now : Nat} {S S' : VS} {a : Address} {d d' : ReserveData} (hd : S.ps.resData a = some d)
    (h1 : S'.ps.resData = Blend.upd S.ps.resData a (some d'))
    (h2 : d.lastTime = now → d'.lastTime = now ∧ d'.bRate = d.bRate ∧ d'.dRate = d.dRate) : Fixed now S S' := by
  intro b x hx ht
  by_cases e : b = a
  · subst e; rw [hd] at hx; cases hx
    exact ⟨d', by rw [h1]; exact upd_same, h2 ht⟩
  · exact ⟨x, by rw [h1, upd_ne e]; exact hx, ht, rfl, rfl⟩

theorem micro_fixed {now : Nat} {U : Address → Prop} {S S' : VS} (cfg : CfgOk S.ps) (h : PMicro now U S S') : Fixed now S S' := by
  have hacc : ∀ {c : ReserveConfig} {d d' : ReserveData} {b : Nat}, accrue c b now d = .ok d' → d.lastTime = now →
      d'.lastTime = now ∧ d'.bRate = d.bRate ∧ d'.dRate = d.dRate := by
    intro c d d' b h4 ht
    rw [accrue_idem ht] at h4
    cases h4
    exact ⟨ht, rfl, rfl⟩
  cases h with
  | touch u h => exact .of_eq rfl
  | accrue a c d d' i h1 h2 h3 h4 => exact .upd h2 rfl (hacc h4)
  | share V1 k a u c d δ x m' vb' pb' pd' h0 h1 h2 h3 h4 h5 h6 =>
    obtain ⟨o1, _⟩ := updateEmissions_other h4
    refine .upd (d' := k.addSupply d δ) h2 (by show Blend.upd V1.resData a _ = _; rw [o1.resData]) ?_
    cases k <;> exact fun h => ⟨h, rfl, rfl⟩
  | credit a d x h1 h2 => exact .upd h1 rfl fun h => ⟨h, rfl, rfl⟩
  | auction t u x => exact .of_eq rfl
  | emis V1 k a u c d i claim amt h0 h1 h2 h3 h4 =>
    obtain ⟨o1, _⟩ := updateEmissions_other h4
    exact .of_eq o1.resData
  | gulp V' a id n h1 h2 h3 =>
    obtain ⟨ed, ec, rfl⟩ := updateReserveEmisConfig_other h3
    exact .of_eq rfl
  | setInst i' h1 h2 => exact .of_eq rfl
  | queueReserve V' a c h =>
    unfold queueSetReserve PoolState.getInst at h
    simp only [bind_ok, require_ok, unwrap_ok, pure_ok] at h
    obtain ⟨_, hn, _, hv, i, hi', rfl⟩ := h
    exact .of_eq rfl
  | unqueue a => exact .of_eq rfl
  | setReserve V' a h =>
    obtain ⟨q, hq, _, h⟩ := setReserve_ok h
    rcases h with ⟨old, d, i, r, h1, h2, h3, h4, h5, rfl⟩ | ⟨h1, h2, rfl⟩
    · refine .upd h2 rfl fun ht => ?_
      have := hacc h4 ht
      split <;> exact this
    · intro b x hx ht
      have e : b ≠ a := by
        rintro rfl
        obtain ⟨c, hc⟩ := cfg.data b x hx; rw [h1] at hc; simp at hc
      exact ⟨x, by simp only [upd_ne e]; exact hx, ht, rfl, rfl⟩
  | poolEmis V' l h =>
    unfold setPoolEmissions at h
    simp only [bind_ok, Prod.exists, require_ok, pure_ok] at h
    obtain ⟨_, _, _, _, _, rfl⟩ := h
    exact .of_eq rfl
  | writeOff f h => exact .of_eq rfl
  | gain vb' h => exact .of_eq rfl

theorem micros_fixed {now : Nat} {U : Address → Prop} {S S' : VS} (cfg : CfgOk S.ps) (h : PMicros now U S S') : Fixed now S S' := by
  induction h with
  | refl => exact .of_eq rfl
  | tail h1 h2 ih =>
    intro a d hd ht
    obtain ⟨d1, e1, e2, e3, e4⟩ := ih a d hd ht
    obtain ⟨d2, f1, f2, f3, f4⟩ := micro_fixed (micros_cfg h1 cfg).1 h2 a d1 e1 e2
    exact ⟨d2, f1, f2, f3.trans e3, f4.trans e4⟩

/-- filling or deleting an auction moves shares; it creates no debt and takes no deposits -/
theorem auction_totals {w : World} {p sender : Address} {B B1 : Books} {q : Request} (h : AuctionEffect w p sender B q B1)
    (hn : ∀ x i, 0 ≤ (B1.acct x).debt i) (i : Nat) :
    ∃ X : Finset Address, (∀ x, x ∉ X → B1.acct x = B.acct x) ∧
      (X.sum fun x => (B1.acct x).supplied i - (B.acct x).supplied i) = 0 ∧
      (X.sum fun x => (B1.acct x).collateral i - (B.acct x).collateral i) = 0 ∧
      (X.sum fun x => (B1.acct x).debt i - (B.acct x).debt i) ≤ 0 := by
  cases h with
  | @liquidation u n a taken rest hf hle hl hb =>
    have hne : u ≠ sender := hf.1
    refine ⟨{u, sender}, fun x hx => ?_, ?_, ?_, ?_⟩
    · simp only [Finset.mem_insert, Finset.mem_singleton, not_or] at hx
      simp [upd_ne hx.1, upd_ne hx.2]
    all_goals
      rw [Finset.sum_pair hne]
      simp only [upd_same, upd_ne hne, take]
      omega
  | @badDebt u n a taken rest inst bi gone hf hi hne hbi hba hle h0 hlp hw hgone hl hv =>
    refine ⟨{inst.backstop, sender}, fun x hx => ?_, ?_, ?_, ?_⟩
    · simp only [Finset.mem_insert, Finset.mem_singleton, not_or] at hx
      simp [upd_ne hx.1, upd_ne hx.2]
    · rw [Finset.sum_pair (Ne.symm hne)]
      simp only [upd_same, upd_ne (Ne.symm hne), take]
      omega
    · rw [Finset.sum_pair (Ne.symm hne)]
      simp only [upd_same, upd_ne (Ne.symm hne), take]
      have : amountAt (w.pools p) .empty i = 0 := by
        unfold amountAt
        split <;> simp
      rw [this]
      omega
    · rw [Finset.sum_pair (Ne.symm hne)]
      simp only [upd_same, upd_ne (Ne.symm hne), take]
      have hg : 0 ≤ gone i := by
        rcases hgone with ⟨h, _⟩ | ⟨h, _⟩
        · rw [h]
        · rw [h]; have := hle i; omega
      omega
  | interest hf hi hne hbi hba h0 hle hl hw hk => exact ⟨∅, fun _ _ => rfl, by simp, by simp, by simp⟩
  | delete h0 ha => exact ⟨∅, fun _ _ => rfl, by simp, by simp, by simp⟩

/-- the utilization of the reserve `t`, in a submit in progress, is within its limit -/
def Within (w : World) (p : Address) (s : SubmitState) (t : Address) (m : Nat) : Prop :=
  ∃ d, (s.vs p).ps.resData t = some d ∧ d.lastTime = w.time ∧ UtilAtMost d m

theorem auction_within {w : World} {p sender : Address} {s s' : SubmitState} (f : FlightOk w p sender s) (f' : FlightOk w p sender s')
    {U : Address → Prop} (hm : PMicros w.time U (s.vs p) (s'.vs p)) {q : Request}
    (h : AuctionEffect w p sender (s.books w p) q (s'.books w p)) {t : Address} {m : Nat} (hu : Within w p s t m) : Within w p s' t m := by
  obtain ⟨d, hd, ht, hu⟩ := hu
  obtain ⟨d', hd', ht', hb, hdr⟩ := micros_fixed f.cfg hm t d hd ht
  obtain ⟨c, hc⟩ := f.cfg.data t d hd
  obtain ⟨c', hc'⟩ := f'.cfg.data t d' hd'
  have hcc : c' = c := by
    have e1 : (w.pools p).resConfig t = some c := by rw [← f.same.resConfig]; exact hc
    have e2 : (w.pools p).resConfig t = some c' := by rw [← f'.same.resConfig]; exact hc'
    rw [e1] at e2; exact (Option.some.inj e2).symm
  subst hcc
  have hk : ∀ (k : Kind) x i, k.of ((s.books w p).acct x) i = k.of (accountOf (s.vs p).ps x) i := fun k x i => books_acct x k i
  have hk' : ∀ (k : Kind) x i, k.of ((s'.books w p).acct x) i = k.of (accountOf (s'.vs p).ps x) i := fun k x i => books_acct x k i
  have hn : ∀ x i, 0 ≤ ((s'.books w p).acct x).debt i := by
    intro x i
    have := hk' .liab x i
    simp only [Kind.of] at this
    rw [this]
    have e : (accountOf (s'.vs p).ps x).debt i = (getPositions (s'.vs p).ps x).liabilities.bal i := rfl
    rw [e]
    unfold getPositions
    cases hg : (s'.vs p).ps.positions.get x with
    | none => exact le_refl _
    | some pos => exact f'.pinv.bal_nonneg .liab x pos i hg
  obtain ⟨X, hX, s1, s2, s3⟩ := auction_totals h hn c'.index
  have td : ∀ k : Kind, tot (s'.vs p).ps k c'.index = tot (s.vs p).ps k c'.index +
      X.sum fun x => k.of ((s'.books w p).acct x) c'.index - k.of ((s.books w p).acct x) c'.index := by
    intro k
    rw [tot_diff (s.vs p).ps (s'.vs p).ps k c'.index (X := X) (fun x hx => by rw [← hk, ← hk', hX x hx])]
    congr 1
    exact Finset.sum_congr rfl fun x _ => by rw [hk, hk']
  have t1 := td .supp
  have t2 := td .coll
  have t3 := td .liab
  simp only [Kind.of] at t1 t2 t3
  refine ⟨d', hd', ht', hu.mono hb hdr ?_ ?_ ?_ ?_⟩
  · rw [f.pinv.bsum t c' d hc hd, f'.pinv.bsum t c' d' hc' hd']; omega
  · rw [f.pinv.dsum t c' d hc hd, f'.pinv.dsum t c' d' hc' hd']; omega
  · have := f.pinv.rates t d hd; omega
  · have := f.pinv.rates t d hd; omega

theorem within_iff {w : World} {p sender : Address} {s : SubmitState} (f : FlightOk w p sender s) {t : Address} {m : Nat} {r : Reserve}
    (hr : s.fl.cache.reserves.get t = some r) : Within w p s t m ↔ UtilAtMost r.data m := by
  have hd : (s.vs p).ps.resData t = some r.data := by
    show overlayData _ _ _ = _
    simp [overlayData, hr]
  constructor
  · rintro ⟨d, h1, _, h2⟩
    rw [hd] at h1; cases h1; exact h2
  · exact fun h => ⟨_, hd, (f.cacheOk.res _ _ hr).time, h⟩

theorem plain_within {w : World} {p sender : Address} {auth : List Address} {s s' : SubmitState} (f : FlightOk w p sender s)
    (f' : FlightOk w p sender s') (tr : Track w p s.fl) (tr' : Track w p s'.fl) {q : Request} (hq : Plain q)
    (h : processRequest p auth s q = .ok s') {t : Address} {c : ReserveConfig} (hc : (w.pools p).resConfig t = some c)
    (hu : Within w p s t c.maxUtil) (hn : ¬ (q.address = t ∧ (q.type = 1 ∨ q.type = 3))) : Within w p s' t c.maxUtil := by
  by_cases h4 : q.address = t ∧ q.type = 4
  · obtain ⟨r, h1, h2⟩ := plain_util f hq h f' hc (.inl h4)
    exact (within_iff f' h1).2 h2
  obtain ⟨⟨r, r', cache', hld, hlo, hres, eb, ed, he, ⟨hsb, hsd⟩, hut, _⟩, _⟩ := plain_step f hq h
  have hr' : s'.fl.cache.reserves.get q.address = some r' := by rw [hres]; simp
  obtain ⟨d, hd, ht, hu⟩ := hu
  by_cases hqt : q.address = t
  · subst hqt
    refine (within_iff f' hr').2 ?_
    have hr0d : r.data = d := by
      obtain ⟨c0, d0, i0, _, hd0, _, _, hac⟩ := hld.data
      have e : d0 = d := Option.some.inj (hd0.symm.trans hd)
      rw [e, accrue_idem ht] at hac
      exact (Except.ok.inj hac).symm
    unfold Plain at hq
    have hs := effect_supplies he (by simp only [true_and] at hn h4; omega)
    have := f.pinv.rates _ d hd
    rw [← hr0d] at hu this
    exact hu.mono eb ed (by omega) (by omega) (by omega) (by omega)
  · refine ⟨d, ?_, ht, hu⟩
    have hget : s'.fl.cache.reserves.get t = s.fl.cache.reserves.get t := by rw [hres, SMap.get_set_ne (Ne.symm hqt)]
    have hd1 : overlayData (s.fl.w.pools p) s.fl.cache t = some d := hd
    show overlayData (s'.fl.w.pools p) s'.fl.cache t = some d
    unfold overlayData at hd1 ⊢
    rw [hget]
    cases hg : s.fl.cache.reserves.get t with
    | some r0 => rw [hg] at hd1; exact hd1
    | none =>
      rw [hg] at hd1
      have e1 := tr.cur.rest t hg
      have e2 := tr'.cur.rest t (hget.trans hg)
      simp only at hd1 ⊢
      rw [e2, ← e1]; exact hd1

/-- after a borrow from `t` and any requests other than withdrawals from `t` the utilization of `t` is within its limit -/
theorem submit_util {w w' : World} (hr : Reachable w) {p : Address} {auth : List Address} {sender spender dst : Address}
    {l1 l2 : List Request} {t : Address} {n : Int}
    (h : step w (.pool p auth (.submit sender spender dst (l1 ++ ⟨4, t, n⟩ :: l2))) = .ok w')
    (hl : ∀ q ∈ l2, ¬ (q.address = t ∧ (q.type = 1 ∨ q.type = 3))) {c : ReserveConfig}
    (hc : (w.pools p).resConfig t = some c) :
    ∃ d, (w'.pools p).resData t = some d ∧ UtilAtMost d c.maxUtil := by
  obtain ⟨hp, cache, s, v⟩ := submit_view hr h
  have hf := v.fold
  rw [List.foldlM_append, bind_ok] at hf
  obtain ⟨s1, h1, h2⟩ := hf
  rw [foldlM_cons] at h2
  obtain ⟨s2, h3, h4⟩ := h2
  have h1' : (l1 ++ [(⟨4, t, n⟩ : Request)]).foldlM (processRequest p auth) (startState w p cache sender) = .ok s2 := by
    rw [List.foldlM_append, bind_ok]
    refine ⟨s1, h1, ?_⟩
    rw [foldlM_cons]; exact ⟨s2, h3, rfl⟩
  have f1 := flight_of hr hp v.sender_ne v.load h1
  have f2 := flight_of hr hp v.sender_ne v.load h1'
  obtain ⟨t0, _⟩ := track_start (sender := sender) hr v.load
  have tr2 := (full_run hr hp v.sender_ne v.load _ [] _ _ (by rw [foldlM_nil]) t0 h1').2
  obtain ⟨r0, hr0, hu0⟩ := plain_util f1 (q := ⟨4, t, n⟩) (by simp [Plain]) h3 f2 hc (.inl ⟨rfl, rfl⟩)
  have key : ∀ (l l0 : List Request) (x : SubmitState), (∀ q ∈ l, ¬ (q.address = t ∧ (q.type = 1 ∨ q.type = 3))) →
      l0.foldlM (processRequest p auth) (startState w p cache sender) = .ok x → l.foldlM (processRequest p auth) x = .ok s →
      Within w p x t c.maxUtil → Within w p s t c.maxUtil := by
    intro l
    induction l with
    | nil => intro l0 x _ _ e hx; rw [foldlM_nil] at e; subst e; exact hx
    | cons q l ih =>
      intro l0 x hq h0 e hx
      rw [foldlM_cons] at e
      obtain ⟨y, hy, e⟩ := e
      have h0' : (l0 ++ [q]).foldlM (processRequest p auth) (startState w p cache sender) = .ok y := by
        rw [List.foldlM_append, bind_ok]
        exact ⟨x, h0, by rw [foldlM_cons]; exact ⟨y, hy, rfl⟩⟩
      have fx := flight_of hr hp v.sender_ne v.load h0
      have fy := flight_of hr hp v.sender_ne v.load h0'
      have tx := (full_run hr hp v.sender_ne v.load _ [] _ _ (by rw [foldlM_nil]) t0 h0).2
      refine ih _ y (fun z hz => hq z (by simp [hz])) h0' e ?_
      obtain ⟨ty, hy'⟩ := full_step hr (hr.base.pool_ne hp) v.sender_ne fx fy tx hy
      by_cases hpl : q.type ≤ 5
      · exact plain_within fx fy tx ty hpl hy hc hx (hq q (by simp))
      · rcases hy' with ⟨h5, _⟩ | hy'
        · exact absurd h5 hpl
        · have k := step_request (U := fun _ => True) (by rw [fx.time]; exact fx.cacheOk) trivial (fun _ => trivial) (fun _ _ _ => trivial)
            (by rw [fx.backstop]; exact hr.base.pool_ne hp) (by rw [fx.addr]; exact Ne.symm v.sender_ne) hy
          exact auction_within fx fy (fx.time ▸ k.micros) hy' hx
  obtain ⟨d, hd, _, hu⟩ := key l2 _ s2 hl h1' h4 ((within_iff f2 hr0).2 hu0)
  exact ⟨d, by rw [v.pools]; exact hd, hu⟩

end Pool
end Blend
