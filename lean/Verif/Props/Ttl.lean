import Verif.Lemmas.Ttl
import Verif.Examples.Demo
/-
  C81: what lies in temporary storage lives long enough.
-/

namespace Blend
namespace Props
open Spec Pool Demo

/-- an auction stays as it is while nobody asks for it and its time to live is not over -/
private theorem keep_auction {T T' : TWorld} {l : List Op} (hr : TReach T) (hh : THistory T l T') {p u : Address} {t : Nat}
    {a : AuctionData} (ha : (T.world.pools p).auctions t u = some a) (hq : ∀ op ∈ l, ¬ AsksForAuction p t u op) {n : Nat}
    (hn : n ≤ T.live (.auction p t u)) (hseq : T'.world.seq ≤ n) :
    (T'.world.pools p).auctions t u = some a ∧ n ≤ T'.live (.auction p t u) := by
  induction hh with
  | nil => exact ⟨ha, hn⟩
  | @snoc l op T1 T2 hh hs ih =>
    have hr1 := hr.history hh
    have hsq := hs.seq hr1
    obtain ⟨h1, h2⟩ := ih (fun o ho => hq o (by simp [ho])) (hsq.trans hseq)
    refine ⟨?_, h2.trans (hs.live (by simp [World.stored, h1]))⟩
    have hqo := hq op (by simp)
    cases hs with
    | mk hs hm =>
      rcases C19_not_replaced hr1.reachable h1 hs with h | ⟨rfl | h, _⟩
      · exact h
      · have : T1.live (.auction p t u) < T1.world.seq := hm
        simp only at hseq hsq
        omega
      · exact absurd h hqo

/-- **C81**: an auction that was created, or of which a part was filled, stays as it is for 45 days of ledgers, unless somebody asks
to fill it or the liquidated account asks to delete it: the ledger does not drop it. -/
theorem C81_auction {T0 T T' : TWorld} {op : Op} {l : List Op} (hr : TReach T0) (hs : TStep T0 op T) {p u : Address} {t : Nat}
    {i : PoolInst} (hi : (T0.world.pools p).inst = some i) (hop : Creates p i.backstop t u op ∨ t ≤ 2 ∧ ∃ auth sender spender dst reqs n,
      op = .pool p auth (.submit sender spender dst reqs) ∧ ⟨6 + t, u, n⟩ ∈ reqs)
    {a : AuctionData} (ha : (T.world.pools p).auctions t u = some a) (hh : THistory T l T')
    (hq : ∀ op ∈ l, ¬ AsksForAuction p t u op) (hseq : T'.world.seq ≤ T0.world.seq + 45 * ledgersPerDay) :
    (T'.world.pools p).auctions t u = some a := by
  have hw : T0.world.writes op (.auction p t u) = true := by
    rcases hop with hc | ⟨ht, auth, sender, spender, dst, reqs, n, rfl, hq⟩
    · cases hc with
      | liquidation => simp [World.writes]
      | badDebt => simp [World.writes, hi]
      | interest => simp [World.writes, hi]
    · simp only [World.writes, Bool.and_eq_true, decide_eq_true_eq, List.any_eq_true]
      exact ⟨⟨trivial, ht⟩, _, hq, rfl, rfl⟩
  have := hs.written hw (by simp [World.stored, ha])
  exact (keep_auction (hr.step hs) hh ha hq this hseq).1

/-- how long an auction lives at least, by its start -/
private theorem auction_live {T : TWorld} (hr : TReach T) {p u : Address} {t : Nat} {a : AuctionData}
    (ha : (T.world.pools p).auctions t u = some a) : a.block + 45 * ledgersPerDay ≤ T.live (.auction p t u) + 1 := by
  obtain ⟨T0, l, g, hh⟩ := hr
  induction hh generalizing a with
  | nil => rw [g.pools] at ha; simp at ha
  | @snoc l op T1 T2 hh hs ih =>
    have hr1 : TReach T1 := ⟨T0, l, g, hh⟩
    have hstep : step T1.world op = .ok T2.world := by cases hs with | mk h _ => exact h
    have new : ∀ {i : PoolInst}, (T1.world.pools p).inst = some i → Creates p i.backstop t u op →
        a.block + 45 * ledgersPerDay ≤ T2.live (.auction p t u) + 1 := by
      intro i hi hc
      obtain ⟨b, hb, hbl⟩ := C17_created hi hc hstep
      rw [ha] at hb
      cases hb
      have hw : T1.world.writes op (.auction p t u) = true := by
        cases hc with
        | liquidation => simp [World.writes]
        | badDebt => simp [World.writes, hi]
        | interest => simp [World.writes, hi]
      have h1 := hs.written hw (by simp [World.stored, ha])
      have h2 : T2.world.seq = T1.world.seq := by
        refine ((step_frame hr1.reachable.base hstep).time ?_).2
        intro dt ds e
        subst e
        cases hc
      have h3 : (ttlArgs (.auction p t u)).1 = 45 * ledgersPerDay := rfl
      omega
    have old : (∃ b, (T1.world.pools p).auctions t u = some b ∧ b.block = a.block) →
        a.block + 45 * ledgersPerDay ≤ T2.live (.auction p t u) + 1 := by
      rintro ⟨b, hb, e⟩
      have h1 := ih hb
      have h2 := hs.live (k := .auction p t u) (by simp [World.stored, hb])
      omega
    rcases auction_step hr1.reachable.base hstep p t u with h | h
    · exact old ⟨a, by rw [← h, ha], rfl⟩
    · rw [ha] at h
      cases h with
      | liquidation _ _ i _ _ h1 hi _ _ h2 => subst h1; exact new hi (.liquidation _ _ _)
      | badDebt _ i _ h1 hi h2 h3 => subst h1 h2; exact new hi (.badDebt _)
      | interest _ i _ _ h1 hi h2 h3 => subst h1 h2; exact new hi (.interest _ _)
      | submit =>
        obtain ⟨B, hrun, -, hauc, -⟩ := submit_full hr1.reachable hstep
        refine old ?_
        rw [hauc] at ha
        exact FullRun_block hrun t u (P := fun b => ∃ c, (T1.world.pools p).auctions t u = some c ∧ c.block = b)
          (fun c hc => ⟨c, hc, rfl⟩) a ha

/-- **C81**: whatever its history, a stored auction that started in ledger `a.block` is not dropped by the ledger before 45 days of
ledgers have passed since; the prices of an auction move during the first 400 ledgers. -/
theorem C81_auction_since_start {T T' : TWorld} {l : List Op} (hr : TReach T) {p u : Address} {t : Nat} {a : AuctionData}
    (ha : (T.world.pools p).auctions t u = some a) (hh : THistory T l T') (hq : ∀ op ∈ l, ¬ AsksForAuction p t u op)
    (hseq : T'.world.seq < a.block + 45 * ledgersPerDay) : (T'.world.pools p).auctions t u = some a := by
  have := auction_live hr ha
  exact (keep_auction hr hh ha hq (n := a.block + 45 * ledgersPerDay - 1) (by omega) (by omega)).1

/-- **C81**: an interest auction that nobody filled in its first 400 ledgers blocks the interest of the pool for 45 days of ledgers:
until then it cannot be filled and no other can be created, whatever happens. -/
theorem C81_interest_blocked {T T' : TWorld} {l : List Op} (hr : TReach T) {p u : Address} {a : AuctionData}
    (ha : (T.world.pools p).auctions 2 u = some a) (hold : a.block + 400 ≤ T.world.seq) (hh : THistory T l T')
    (hseq : T'.world.seq < a.block + 45 * ledgersPerDay) :
    (T'.world.pools p).auctions 2 u = some a ∧
    (∀ auth sender spender dst reqs n w'', ⟨8, u, n⟩ ∈ reqs → step T'.world (.pool p auth (.submit sender spender dst reqs)) ≠ .ok w'') ∧
    ∀ i auth l w'', (T'.world.pools p).inst = some i → u = i.backstop → step T'.world (.pool p auth (.newInterest l)) ≠ .ok w'' := by
  suffices h : History (fun op => op ≠ .expireAuction p 2 u) T.world T'.world from C43_stuck hr.reachable ha hold h
  induction hh with
  | nil => exact .refl _
  | @snoc l op T1 T2 hh hs ih =>
    have hr1 := hr.history hh
    have hsq := hs.seq hr1
    have h1 := ih (by omega)
    have h2 := (C43_stuck hr.reachable ha hold h1).1
    have h3 := auction_live hr1 h2
    cases hs with
    | mk hs hm =>
      refine .tail h1 ?_ hs
      rintro rfl
      have : T1.live (.auction p 2 u) < T1.world.seq := hm
      simp only at hsq hseq
      omega

/-- a queued change is stored -/
private theorem queue_now {w w' : World} {p x : Address} {auth : List Address} {c : ReserveConfig}
    (h : step w (.pool p auth (.queueSetReserve x c)) = .ok w') : ∃ i, (w.pools p).inst = some i ∧
      (w'.pools p).resInit x = some ⟨c, if i.config.status = 6 then w.time else w.time + 7 * 24 * 60 * 60⟩ := by
  simp only [step, bind_ok, require_ok] at h
  obtain ⟨_, _, _, _, h⟩ := h
  simp only [call, queueSetReserve, PoolState.getInst, bind_ok, unwrap_ok, require_ok, pure_ok] at h
  obtain ⟨_, _, ps, ⟨_, _, _, _, i, hi, rfl⟩, rfl⟩ := h
  refine ⟨i, hi, ?_⟩
  rw [pools_setPool]
  simp only [upd_same, SECONDS_PER_WEEK]
  by_cases h6 : i.config.status = 6 <;> simp [h6]

/-- **C81**: a change of a reserve that the admin queued is there, as it was queued, for 100 days of ledgers, unless it is cancelled or
put into effect. It can be put into effect after 7 days, at once if the pool is still being set up. -/
theorem C81_queued {T0 T T' : TWorld} {l : List Op} (hr : TReach T0) {p x : Address} {auth : List Address} {c : ReserveConfig}
    (hs : TStep T0 (.pool p auth (.queueSetReserve x c)) T) (hh : THistory T l T') (hq : ∀ op ∈ l, ¬ SettlesQueued p x op)
    (hseq : T'.world.seq ≤ T0.world.seq + 100 * ledgersPerDay) :
    ∃ i, (T0.world.pools p).inst = some i ∧ (T'.world.pools p).resInit x =
      some ⟨c, if i.config.status = 6 then T0.world.time else T0.world.time + 7 * 24 * 60 * 60⟩ := by
  have hstep : step T0.world (.pool p auth (.queueSetReserve x c)) = .ok T.world := by cases hs with | mk h _ => exact h
  obtain ⟨i, hi, e⟩ : ∃ i, (T0.world.pools p).inst = some i ∧ (T.world.pools p).resInit x =
      some ⟨c, if i.config.status = 6 then T0.world.time else T0.world.time + 7 * 24 * 60 * 60⟩ := by
    have hx := queue_now hstep
    exact hx
  refine ⟨i, hi, ?_⟩
  have hw := hs.written (k := .queued p x) (by simp [World.writes]) (by simp [World.stored, e])
  have h3 : (ttlArgs (.queued p x)).1 = 100 * ledgersPerDay := rfl
  suffices h : (T'.world.pools p).resInit x =
      some ⟨c, if i.config.status = 6 then T0.world.time else T0.world.time + 7 * 24 * 60 * 60⟩ ∧
      T0.world.seq + 100 * ledgersPerDay ≤ T'.live (.queued p x) from h.1
  have hrT := hr.step hs
  clear hs hstep
  induction hh with
  | nil => exact ⟨e, by omega⟩
  | @snoc l op T1 T2 hh hs ih =>
    have hr1 := hrT.history hh
    have hsq := hs.seq hr1
    obtain ⟨h1, h2⟩ := ih (fun o ho => hq o (by simp [ho])) (hsq.trans hseq)
    refine ⟨?_, h2.trans (hs.live (by simp [World.stored, h1]))⟩
    have hqo := hq op (by simp)
    cases hs with
    | mk hs hm =>
      simp only at hseq hsq
      rcases queued_step hr1.reachable hs p x with h | rfl | h | ⟨_, _, _, _, _, h, _⟩
      · rw [h]; exact h1
      · have : T1.live (.queued p x) < T1.world.seq := hm
        omega
      · exact absurd h hqo
      · rw [h1] at h; cases h

/-- **C81**: the drop list of the backstop is there for 100 days of ledgers after the backstop was set up. -/
theorem C81_drop_list {T0 T T' : TWorld} {ops : List Op} (hr : TReach T0) {auth : List Address} {t e u b f : Address}
    {l : List (Address × Int)} (hs : TStep T0 (.backstop auth (.initialize t e u b f l)) T) (hh : THistory T ops T')
    (hseq : T'.world.seq ≤ T0.world.seq + 100 * ledgersPerDay) : T'.world.backstop.dropList = some l := by
  have hstep : step T0.world (.backstop auth (.initialize t e u b f l)) = .ok T.world := by cases hs with | mk h _ => exact h
  have hd : T.world.backstop.dropList = some l ∧ T.world.backstop.inst ≠ none := by
    simp only [step, bind_ok, require_ok] at hstep
    obtain ⟨_, _, h⟩ := hstep
    cases Backstop.call_cases hr.reachable.ball.inv h with
    | init h1 h2 => rw [h2]; exact ⟨rfl, by simp⟩
  have hw := hs.written (k := .dropList) rfl (by simp [World.stored, hd.1])
  have h3 : (ttlArgs .dropList).1 = 100 * ledgersPerDay := rfl
  suffices h : T'.world.backstop.dropList = some l ∧ T0.world.seq + 100 * ledgersPerDay ≤ T'.live .dropList ∧
      T'.world.backstop.inst ≠ none from h.1
  have hrT := hr.step hs
  clear hs hstep
  induction hh with
  | nil => exact ⟨hd.1, by omega, hd.2⟩
  | @snoc ops op T1 T2 hh hs ih =>
    have hr1 := hrT.history hh
    have hsq := hs.seq hr1
    obtain ⟨h1, h2, h4⟩ := ih (hsq.trans hseq)
    refine ⟨?_, h2.trans (hs.live (by simp [World.stored, h1])), ?_⟩
    · cases hs with
      | mk hs hm =>
        simp only at hseq hsq
        rcases Backstop.dropList_step hr1.reachable hs with h | ⟨rfl, _⟩ | ⟨_, _, _, _, _, _, _, _, h, _⟩
        · rw [h]; exact h1
        · have : T1.live .dropList < T1.world.seq := hm
          omega
        · exact absurd h h4
    · cases hs with
      | mk hs hm =>
        obtain ⟨j, hj⟩ := Option.ne_none_iff_exists'.1 h4
        rw [Backstop.inst_keep hr1.reachable (.tail (.refl _) ⟨_, hs⟩) hj]
        simp

/-- **C81**: after that it may be gone, and then it is gone for ever: a backstop that is set up and has no drop list never drops. -/
theorem C81_drop_list_gone {w w' : World} (hr : Reachable w) {i : BackstopInst} (hi : w.backstop.inst = some i)
    (hn : w.backstop.dropList = none) (hh : Steps w w') (auth : List Address) (w'' : World) :
    w'.backstop.dropList = none ∧ step w' (.backstop auth .drop) ≠ .ok w'' := by
  have key : w'.backstop.dropList = none ∧ w'.backstop.inst = some i ∧ Reachable w' := by
    induction hh with
    | refl => exact ⟨hn, hi, hr⟩
    | tail _ hs ih =>
      obtain ⟨op, hs⟩ := hs
      obtain ⟨h1, h2, h3⟩ := ih
      refine ⟨?_, ?_, h3.step hs⟩
      · rcases Backstop.dropList_step h3 hs with h | ⟨_, h⟩ | ⟨_, _, _, _, _, _, _, _, h, _⟩
        · rw [h]; exact h1
        · exact h
        · rw [h2] at h; cases h
      · exact Backstop.inst_keep h3 (.tail (.refl _) ⟨_, hs⟩) h2
  refine ⟨key.1, fun h => ?_⟩
  simp only [step, backstopCall, Backstop.drop, bind_ok, unwrap_ok, require_ok] at h
  obtain ⟨_, _, _, _, _, _, l, hl, _⟩ := h
  rw [key.1] at hl
  cases hl

/-! ### non-vacuity -/

/-- a run of operations, with times to live; nothing is dropped before its time -/
def _root_.Blend.Demo.runT (T : TWorld) : List Op → R TWorld
  | [] => pure T
  | op :: ops => do
    let w' ← step T.world op
    require (T.mayRun op) .notModelled
    Demo.runT ⟨w', liveAfter T.world w' op T.live⟩ ops

theorem _root_.Blend.Demo.runT_history : ∀ {ops : List Op} {T T' : TWorld}, Demo.runT T ops = .ok T' →
    ∀ {T0 l}, THistory T0 l T → THistory T0 (l ++ ops) T'
  | [], T, T', h, T0, l, h0 => by simp only [Demo.runT, pure_ok] at h; rw [List.append_nil]; exact h ▸ h0
  | op :: ops, T, T', h, T0, l, h0 => by
    simp only [Demo.runT, bind_ok, require_ok] at h
    obtain ⟨w1, h1, _, h2, h3⟩ := h
    have := Demo.runT_history h3 (THistory.snoc h0 (.mk h1 h2))
    rwa [List.append_assoc] at this

theorem _root_.Blend.Demo.reachT {ops ops' : List Op} {op : Op} {f : TWorld → TWorld → TWorld → Bool}
    (h : okAnd (Demo.runT ⟨genesis, fun _ => 0⟩ ops) (fun T0 => okAnd (Demo.runT T0 [op]) fun T =>
      okAnd (Demo.runT T ops') (f T0 T)) = true) :
    ∃ T0 T T', TReach T0 ∧ TStep T0 op T ∧ THistory T ops' T' ∧ f T0 T T' = true := by
  obtain ⟨T0, h0, h⟩ := okAnd_iff.1 h
  obtain ⟨T, h1, h⟩ := okAnd_iff.1 h
  obtain ⟨T', h2, h⟩ := okAnd_iff.1 h
  refine ⟨T0, T, T', ⟨_, _, genesis_ok, Demo.runT_history h0 .nil⟩, ?_, Demo.runT_history h2 .nil, h⟩
  simp only [Demo.runT, bind_ok, require_ok, pure_ok] at h1
  obtain ⟨w1, a1, _, a2, rfl⟩ := h1
  exact .mk a1 a2

/-- a liquidation of bob is created, and is still there 400 ledgers later; the hypotheses of `C81_auction` hold -/
example : ∃ T0 T T' i a, TReach T0 ∧ TStep T0 (.pool poolA [] (.newLiquidation bob 60)) T ∧ (T0.world.pools poolA).inst = some i ∧
    Creates poolA i.backstop 0 bob (.pool poolA [] (.newLiquidation bob 60)) ∧ (T.world.pools poolA).auctions 0 bob = some a ∧
    THistory T [.ledger 2000 400] T' ∧ (∀ op ∈ [Op.ledger 2000 400], ¬ AsksForAuction poolA 0 bob op) ∧
    T'.world.seq ≤ T0.world.seq + 45 * ledgersPerDay ∧ (T'.world.pools poolA).auctions 0 bob = some a := by
  obtain ⟨T0, T, T', hr, hs, hh, h⟩ := Demo.reachT (ops := setup ++ trade ++ emissions ++ claims ++ liquidation.take 1)
    (op := .pool poolA [] (.newLiquidation bob 60)) (ops' := [.ledger 2000 400])
    (f := fun T0 T T' => optAnd (T0.world.pools poolA).inst fun _ => optAnd ((T.world.pools poolA).auctions 0 bob) fun _ =>
      decide (T'.world.seq ≤ T0.world.seq + 45 * ledgersPerDay)) (by decide +kernel)
  obtain ⟨i, hi, h⟩ := optAnd_iff.1 h
  obtain ⟨a, ha, h⟩ := optAnd_iff.1 h
  have hq : ∀ op ∈ [Op.ledger 2000 400], ¬ AsksForAuction poolA 0 bob op := by
    rintro op hop ⟨_, _, _, _, _, e, _⟩
    rw [List.mem_singleton] at hop
    rw [hop] at e
    cases e
  exact ⟨T0, T, T', i, a, hr, hs, hi, .liquidation _ _ _, ha, hh, hq, of_decide_eq_true h,
    C81_auction hr hs hi (.inl (.liquidation _ _ _)) ha hh hq (of_decide_eq_true h)⟩

/-- an interest auction that nobody filled is in the way for 45 days, and may be gone one day later: then a new one is accepted -/
example : ∃ T0 T T', TReach T0 ∧ THistory T [.expireAuction poolA 2 backstopA, prices 2117113300 10000000 1000000,
      .pool poolA [] (.newInterest [usdcA, xlmA])] T' ∧
    ∃ a b, (T0.world.pools poolA).auctions 2 backstopA = some a ∧ (T'.world.pools poolA).auctions 2 backstopA = some b ∧
      a.block + 46 * ledgersPerDay ≤ b.block := by
  obtain ⟨T0, T, T', hr, hs, hh, h⟩ := Demo.reachT (ops := setup ++ trade ++ interest)
    (op := .ledger (46 * 86400) (46 * 17280 + 1))
    (ops' := [.expireAuction poolA 2 backstopA, prices 2117113300 10000000 1000000,
      .pool poolA [] (.newInterest [usdcA, xlmA])])
    (f := fun T0 T T' => optAnd ((T0.world.pools poolA).auctions 2 backstopA) fun a =>
      optAnd ((T'.world.pools poolA).auctions 2 backstopA) fun b => decide (a.block + 46 * ledgersPerDay ≤ b.block)) (by decide +kernel)
  obtain ⟨a, ha, h⟩ := optAnd_iff.1 h
  obtain ⟨b, hb, h⟩ := optAnd_iff.1 h
  exact ⟨T0, T, T', hr, hh, a, b, ha, hb, of_decide_eq_true h⟩

/-- a change of the XLM reserve is queued, and is still there eight days later -/
example : ∃ T0 T T', TReach T0 ∧ TStep T0 (.pool poolA [adminA] (.queueSetReserve xlmA xlmCfg)) T ∧
    THistory T [.ledger (8 * 86400) (8 * 17280)] T' ∧ T'.world.seq ≤ T0.world.seq + 100 * ledgersPerDay ∧
    ∃ q, (T'.world.pools poolA).resInit xlmA = some q ∧ q.unlockTime ≤ T'.world.time ∧ T.world.time < q.unlockTime := by
  obtain ⟨T0, T, T', hr, hs, hh, h⟩ := Demo.reachT (ops := setup ++ trade)
    (op := .pool poolA [adminA] (.queueSetReserve xlmA xlmCfg)) (ops' := [.ledger (8 * 86400) (8 * 17280)])
    (f := fun T0 T T' => optAnd ((T'.world.pools poolA).resInit xlmA) fun q =>
      decide (T'.world.seq ≤ T0.world.seq + 100 * ledgersPerDay ∧ q.unlockTime ≤ T'.world.time ∧ T.world.time < q.unlockTime))
    (by decide +kernel)
  obtain ⟨q, hq, h⟩ := optAnd_iff.1 h
  obtain ⟨h1, h2, h3⟩ := of_decide_eq_true h
  exact ⟨T0, T, T', hr, hs, hh, h1, q, hq, h2, h3⟩

/-- the backstop is set up; 100 days later the drop list is there -/
example : ∃ T0 T T', TReach T0 ∧ TStep T0 (.backstop [] (.initialize lpA emitterA usdcA blndA factoryA [(carol, 70000000)])) T ∧
    THistory T [.ledger (100 * 86400) (100 * 17280)] T' ∧ T'.world.seq ≤ T0.world.seq + 100 * ledgersPerDay := by
  obtain ⟨T0, T, T', hr, hs, hh, h⟩ := Demo.reachT (ops := setup.take 1)
    (op := .backstop [] (.initialize lpA emitterA usdcA blndA factoryA [(carol, 70000000)])) (ops' := [.ledger (100 * 86400) (100 * 17280)])
    (f := fun T0 T T' => decide (T'.world.seq ≤ T0.world.seq + 100 * ledgersPerDay)) (by decide +kernel)
  exact ⟨T0, T, T', hr, hs, hh, of_decide_eq_true h⟩

/-- nobody calls `drop` for 120 days: the ledger may drop the list, and carol never gets what it promised her -/
example : ∃ T T', TReach T ∧ THistory T [.expireDropList] T' ∧ T.world.backstop.dropList = some [(carol, 70000000)] ∧
    ∀ w, Steps T'.world w → ∀ auth w'', step w (.backstop auth .drop) ≠ .ok w'' := by
  obtain ⟨T0, T, T', hr, hs, hh, h⟩ := Demo.reachT (ops := setup) (op := .ledger (121 * 86400) (120 * 17280 + 1)) (ops' := [.expireDropList])
    (f := fun T0 T T' => optAnd T.world.backstop.dropList fun l => optAnd T'.world.backstop.inst fun _ =>
      decide (l = [(carol, 70000000)] ∧ T'.world.backstop.dropList.isNone = true)) (by decide +kernel)
  obtain ⟨l, hl, h⟩ := optAnd_iff.1 h
  obtain ⟨i, hi, h⟩ := optAnd_iff.1 h
  obtain ⟨rfl, hn⟩ := of_decide_eq_true h
  have hrT := hr.step hs
  exact ⟨T, T', hrT, hh, hl, fun w hw auth w'' =>
    (C81_drop_list_gone (hrT.history hh).reachable hi (Option.isNone_iff_eq_none.1 hn) hw auth w'').2⟩

end Props
end Blend
