import Verif.Spec.FollowCash
import Verif.Lemmas.FollowStep
/-
  Lemmas about the tokens of a pool in the eyes of an observer (C77).
-/

namespace Blend
namespace Pool
open Spec

/-- the tokens of the pool once what a submit in progress has collected is settled -/
def SubmitState.cash (p : Address) (s : SubmitState) (t : Address) : Int :=
  s.fl.w.balance t p + s.actions.spender.bal t - s.actions.pool.bal t

/-- what the events of one operation put into the pool -/
def inflowAll (p b : Address) (seq : Nat) (F : PoolNotes) (l : List Event) (t : Address) : Int :=
  F.inflows p b (l.map fun e => (seq, e)) t

theorem inflows_append {p b : Address} {t : Address} : ∀ {l l' : List (Nat × Event)} {F : PoolNotes},
    F.inflows p b (l ++ l') t = F.inflows p b l t + (l.foldl (PoolNotes.see p b) F).inflows p b l' t := by
  intro l
  induction l with
  | nil => intro l' F; simp [PoolNotes.inflows]
  | cons e l ih =>
    intro l' F
    simp only [List.cons_append, PoolNotes.inflows, List.foldl_cons, ih]
    omega

theorem inflowAll_append {p b : Address} {seq : Nat} {t : Address} {l l' : List Event} {F : PoolNotes} :
    inflowAll p b seq F (l ++ l') t = inflowAll p b seq F l t + inflowAll p b seq (seeAll p b seq F l) l' t := by
  unfold inflowAll
  rw [List.map_append, inflows_append, List.foldl_map]; rfl

theorem addSpender_cash {a a' : Actions} {t x : Address} {n : Int} (h : a.addSpender t n = .ok a') :
    a'.spender.bal x - a'.pool.bal x = a.spender.bal x - a.pool.bal x + (if t = x then n else 0) := by
  obtain ⟨h1, h2⟩ := addSpender_exact h
  have := congrFun h1 x
  simp only [bump] at this
  rw [h2, this]
  by_cases hx : x = t
  · subst hx; simp; omega
  · have : ¬ t = x := fun e => hx e.symm
    simp [hx, this]

theorem addPool_cash {a a' : Actions} {t x : Address} {n : Int} (h : a.addPool t n = .ok a') :
    a'.spender.bal x - a'.pool.bal x = a.spender.bal x - a.pool.bal x - (if t = x then n else 0) := by
  obtain ⟨h1, h2⟩ := addPool_exact h
  have := congrFun h1 x
  simp only [bump] at this
  rw [h2, this]
  by_cases hx : x = t
  · subst hx; simp; omega
  · have : ¬ t = x := fun e => hx e.symm
    simp [hx, this]

/-- the events of a plain request say what it moves -/
theorem plain_cash {w : World} {p sender b : Address} {auth : List Address}
    {s s' : SubmitState} {q : Request} (f : FlightOk w p sender s)
    (hq : q.type ≤ 5) (h : processRequest p auth s q = .ok s') {l : List Event} (hl : requestLog p s q = .ok l) (F : PoolNotes) (t : Address) :
    s'.cash p t = s.cash p t + inflowAll p b w.seq F l t := by
  obtain ⟨_, _, h1⟩ := processRequest_ok h
  clear h
  rename' h1 => h
  obtain ⟨ty, a, n⟩ := q
  dsimp only at h hq
  have key : ∀ {r : Reserve} {cache : Cache}, s.fl.cache.loadReserve (s.fl.w.pools p) s.fl.w.time a true = .ok (r, cache) → r.asset = a := by
    intro r cache hl
    have hld := loadReserve_true (by rw [f.time]; exact f.cacheOk) hl
    exact hld.rm.asset
  rcases h with ⟨ht, h⟩ | ⟨ht, h⟩ | ⟨ht, h⟩ | ⟨ht, h⟩ | ⟨ht, h⟩ | ⟨ht, h⟩ | ⟨ht, h⟩ | ⟨ht, h⟩ | ⟨ht, h⟩ | ⟨ht, h⟩
  · subst ht
    unfold reqSupply at h
    simp only [bind_ok, Prod.exists, pure_ok] at h
    obtain ⟨r, cache, hld, m, hm, ps', u', r', hf, acts, ha, rfl⟩ := h
    simp only [requestLog, bind_ok, pure_ok, Prod.exists] at hl
    obtain ⟨_, _, _, _, _, rfl⟩ := hl
    rw [key hld] at ha
    have := addSpender_cash (x := t) ha
    simp only [SubmitState.cash, inflowAll, List.map, PoolNotes.inflows, PoolNotes.inflow, true_and, balance_setPool]
    omega
  · subst ht
    unfold reqWithdraw at h
    simp only [bind_ok, Prod.exists, pure_ok] at h
    obtain ⟨r, cache, hld, burn, out, hw, ps', u', r', hf, acts, ha, rfl⟩ := h
    simp only [requestLog, bind_ok, pure_ok, Prod.exists] at hl
    obtain ⟨r2, c2, hld2, b2, o2, hw2, rfl⟩ := hl
    rw [hld] at hld2; cases hld2
    rw [hw] at hw2; cases hw2
    rw [key hld] at ha
    have := addPool_cash (x := t) ha
    simp only [SubmitState.cash, inflowAll, List.map, PoolNotes.inflows, PoolNotes.inflow, true_and, balance_setPool]
    split at this <;> split <;> first | contradiction | omega
  · subst ht
    unfold reqSupply at h
    simp only [bind_ok, Prod.exists, pure_ok] at h
    obtain ⟨r, cache, hld, m, hm, ps', u', r', hf, acts, ha, rfl⟩ := h
    simp only [requestLog, bind_ok, pure_ok, Prod.exists] at hl
    obtain ⟨_, _, _, _, _, rfl⟩ := hl
    rw [key hld] at ha
    have := addSpender_cash (x := t) ha
    simp only [SubmitState.cash, inflowAll, List.map, PoolNotes.inflows, PoolNotes.inflow, true_and, balance_setPool]
    omega
  · subst ht
    unfold reqWithdrawColl at h
    simp only [bind_ok, Prod.exists, pure_ok] at h
    obtain ⟨r, cache, hld, burn, out, hw, ps', u', r', hf, acts, ha, rfl⟩ := h
    simp only [requestLog, bind_ok, pure_ok, Prod.exists] at hl
    obtain ⟨r2, c2, hld2, b2, o2, hw2, rfl⟩ := hl
    rw [hld] at hld2; cases hld2
    rw [hw] at hw2; cases hw2
    rw [key hld] at ha
    have := addPool_cash (x := t) ha
    simp only [SubmitState.cash, inflowAll, List.map, PoolNotes.inflows, PoolNotes.inflow, true_and, balance_setPool]
    split at this <;> split <;> first | contradiction | omega
  · subst ht
    unfold reqBorrow at h
    simp only [bind_ok, Prod.exists, pure_ok] at h
    obtain ⟨r, cache, hld, m, hm, ps', u', r', hf, _, hut, acts, ha, rfl⟩ := h
    simp only [requestLog, bind_ok, pure_ok, Prod.exists] at hl
    obtain ⟨_, _, _, _, _, rfl⟩ := hl
    rw [key hld] at ha
    have := addPool_cash (x := t) ha
    simp only [SubmitState.cash, inflowAll, List.map, PoolNotes.inflows, PoolNotes.inflow, true_and, balance_setPool]
    split at this <;> split <;> first | contradiction | omega
  · subst ht
    unfold reqRepay at h
    simp only [bind_ok, Prod.exists, pure_ok, ite_ok] at h
    obtain ⟨r, cache, hld, burnt, hburn, acts, ha, h⟩ := h
    simp only [requestLog, bind_ok, pure_ok, Prod.exists, ite_ok] at hl
    obtain ⟨r2, c2, hld2, b2, hb2, hl⟩ := hl
    rw [hld] at hld2; cases hld2
    rw [hburn] at hb2; cases hb2
    rw [key hld] at ha
    have e1 := addSpender_cash (x := t) ha
    rcases h with ⟨hgt, owed, ho, rf, hrf, _, hnn, ps', u', r', hf, acts', ha', rfl⟩ |
      ⟨hgt, ps', u', r', hf, rfl⟩
    · rcases hl with ⟨_, ow2, ho2, rf2, hrf2, kept, hk, rfl⟩ | ⟨hng, _⟩
      · rw [ho] at ho2; cases ho2
        rw [hrf] at hrf2; cases hrf2
        rw [key hld] at ha'
        rw [chk_ok] at hk
        obtain ⟨_, rfl⟩ := hk
        have e2 := addPool_cash (x := t) ha'
        simp only [SubmitState.cash, inflowAll, List.map, PoolNotes.inflows, PoolNotes.inflow, true_and, balance_setPool]
        split at e1 <;> rename_i hx <;> simp only [hx, if_true, if_false] at e2 ⊢ <;> omega
      · exact absurd hgt hng
    · rcases hl with ⟨hg, _⟩ | ⟨_, rfl⟩
      · exact absurd hg hgt
      · simp only [SubmitState.cash, inflowAll, List.map, PoolNotes.inflows, PoolNotes.inflow, true_and, balance_setPool]
        omega
  all_goals omega

/-- an event that does not speak about tokens of the pool -/
def still (p : Address) (e : Event) : Prop := ∀ F seq t, PoolNotes.inflow p F (seq, e) t = 0

theorem inflowAll_still {p b : Address} {seq : Nat} {t : Address} : ∀ {l : List Event} {F : PoolNotes}, (∀ e ∈ l, still p e) →
    inflowAll p b seq F l t = 0 := by
  intro l
  induction l with
  | nil => intro F _; rfl
  | cons e l ih =>
    intro F h
    have e1 := h e (by simp) F seq t
    have e2 := ih (F := F.see p b (seq, e)) fun x hx => h x (by simp [hx])
    unfold inflowAll at e2 ⊢
    simp only [List.map, PoolNotes.inflows]
    rw [e1, e2]; rfl

theorem badDebtEvents_still {p q u : Address} {L : List Address} : ∀ {kvs : List (Nat × Int)} {l : List Event},
    badDebtEvents q u L kvs = .ok l → ∀ e ∈ l, still p e := by
  intro kvs
  induction kvs with
  | nil => intro l h; simp only [badDebtEvents, pure_ok] at h; subst h; simp
  | cons kv t ih =>
    intro l h
    simp only [badDebtEvents, bind_ok, pure_ok] at h
    obtain ⟨a, _, l', hl, rfl⟩ := h
    intro e he
    rcases List.mem_cons.1 he with rfl | he
    · exact fun _ _ _ => rfl
    · exact ih hl e he

theorem books_cash {w : World} {p sender : Address} {s : SubmitState} (f : FlightOk w p sender s) (t : Address) :
    s.cash p t = (s.books w p).wallet t p + ((s.books w p).acct sender).pays t - ((s.books w p).acct sender).gets t := by
  rw [books_sender f]; rfl

theorem auction_cash {w : World} (hr : Reachable w) {p sender b : Address} (hpb : p ≠ w.backstopAddr) {auth : List Address} (hsp : sender ≠ p)
    {s s' : SubmitState} {q : Request} (f : FlightOk w p sender s) (f' : FlightOk w p sender s') (t : Track w p s.fl)
    (hq : ¬ q.type ≤ 5) (h : processRequest p auth s q = .ok s') {l : List Event} (hl : requestLog p s q = .ok l) {F : PoolNotes}
    (m : Auctions E (s.books w p).auction F) (x : Address) :
    s'.cash p x = s.cash p x + inflowAll p b w.seq F l x := by
  obtain ⟨_, hB⟩ := full_step hr hpb hsp f f' t h
  have hB : AuctionEffect w p sender (s.books w p) q (s'.books w p) := by
    rcases hB with ⟨h0, _⟩ | k
    · exact absurd h0 hq
    · exact k
  rw [books_cash f, books_cash f']
  clear h
  generalize s'.books w p = B' at hB
  cases hB with
  | @liquidation u n a taken rest hf hle r1 r2 =>
    simp only [requestLog, fillLog, bind_ok, unwrap_ok, Prod.exists, pure_ok, if_true] at hl
    obtain ⟨_, _, _, _, _, l', rfl, rfl⟩ := hl
    rw [inflowAll_still (by
      intro e he
      simp only [List.nil_append, List.mem_singleton] at he
      subst he
      intro F seq t; simp [PoolNotes.inflow])]
    simp [take]
  | @badDebt u n a taken rest inst bi gone hf hi hne hbi hba hle h0 hlp hw hg r1 hv =>
    simp only [requestLog, fillLog, bind_ok, unwrap_ok, Prod.exists, pure_ok, Nat.one_ne_zero, if_false, if_true] at hl
    obtain ⟨_, _, _, _, _, l', hl, rfl⟩ := hl
    rw [inflowAll_still (by
      intro e he
      rcases List.mem_append.1 he with he | he
      · simp only [fillBadDebtLog, bind_ok, pure_ok, ite_ok] at hl
        obtain ⟨i, _, c1, _, c2, _, tok, _, lot, _, w2, _, hl⟩ := hl
        rcases hl with ⟨_, rfl⟩ | ⟨_, d, _, ⟨_, l2, h2, rfl⟩ | ⟨_, rfl⟩⟩
        · rw [List.mem_singleton] at he; subst he; exact fun _ _ _ => rfl
        · rcases List.mem_cons.1 he with rfl | he
          · exact fun _ _ _ => rfl
          · exact badDebtEvents_still h2 e he
        · rw [List.mem_singleton] at he; subst he; exact fun _ _ _ => rfl
      · rw [List.mem_singleton] at he; subst he
        intro F seq t; simp [PoolNotes.inflow])]
    have e1 : p ≠ inst.backstop := by rw [hba]; exact hpb
    simp [take, paid, Ne.symm hsp, e1]
  | @interest u n a taken rest inst bi hf hi hne hbi hba h0 hw r1 hw2 hkn =>
    simp only [requestLog, fillLog, fillInterestLog, bind_ok, unwrap_ok, Prod.exists, pure_ok, OfNat.ofNat_ne_zero, OfNat.ofNat_ne_one, if_false] at hl
    obtain ⟨_, _, _, _, _, l', ⟨tok, _, bid, _, rfl⟩, rfl⟩ := hl
    have e1 : p ≠ inst.backstop := by rw [hba]; exact hpb
    obtain ⟨_, _, ha, _, hft⟩ := hf
    obtain ⟨_, g2, g3⟩ := (m 2 u).2.2 a ha
    have k := (fill_parts hft x).2.2.1
    simp only [inflowAll, List.cons_append, List.nil_append, List.map, PoolNotes.inflows, PoolNotes.inflow, PoolNotes.see, and_self, if_true, g2, g3]
    rw [k]
    simp only [paid, Ne.symm hsp, e1, and_false, if_false]
    omega
  | delete hn ha =>
    simp only [requestLog, pure_ok] at hl
    subst hl
    rw [inflowAll_still (by
      intro e he
      rw [List.mem_singleton] at he; subst he; exact fun _ _ _ => rfl)]
    simp

theorem requests_cash {w : World} (hr : Reachable w) {p : Address} (hp : w.poolAddr p = true) {b : Address}
    (hb : ∀ i, (w.pools p).inst = some i → i.backstop = b) {cache : Cache} {sender : Address}
    (hsp : sender ≠ p) (hc : Cache.load (w.pools p) = .ok cache) {auth : List Address} :
    ∀ (l l1 : List Request) (s s' : SubmitState) (ev : List Event) (F : PoolNotes),
      l1.foldlM (processRequest p auth) (startState w p cache sender) = .ok s → Track w p s.fl →
      l.foldlM (processRequest p auth) s = .ok s' → requestsLog p auth l s = .ok ev →
      Match E (w.pools p) (s.books w p).acct (s.books w p).auction F → ∀ x,
        s'.cash p x = s.cash p x + inflowAll p b w.seq F ev x := by
  intro l
  induction l with
  | nil =>
    intro l1 s s' ev F _ t h hev _ x
    rw [foldlM_nil] at h
    subst h
    simp only [requestsLog, pure_ok] at hev
    subst hev
    simp [inflowAll, PoolNotes.inflows]
  | cons q l ih =>
    intro l1 s s' ev F h1 t h hev m x
    rw [foldlM_cons] at h
    obtain ⟨s1, hs1, h⟩ := h
    simp only [requestsLog, bind_ok, pure_ok] at hev
    obtain ⟨ev1, hev1, s1', hs1', evs, hevs, rfl⟩ := hev
    rw [hs1] at hs1'; cases hs1'
    have h1' : (l1 ++ [q]).foldlM (processRequest p auth) (startState w p cache sender) = .ok s1 := by
      rw [List.foldlM_append, bind_ok]
      exact ⟨s, h1, by rw [foldlM_cons]; exact ⟨s1, hs1, rfl⟩⟩
    have f := flight_of hr hp hsp hc h1
    have f' := flight_of hr hp hsp hc h1'
    have hpb := hr.base.pool_ne hp
    obtain ⟨t1, _⟩ := full_step hr hpb hsp f f' t hs1
    have : Match E (w.pools p) (s1.books w p).acct (s1.books w p).auction (seeAll p b w.seq F ev1) ∧
        s1.cash p x = s.cash p x + inflowAll p b w.seq F ev1 x := by
      by_cases hq : q.type ≤ 5
      · obtain ⟨ev', e1, e2⟩ := plain_log (E := E) (b := b) hr hpb hsp f f' t hq hs1
        rw [hev1] at e1; cases e1
        exact ⟨e2 F m, plain_cash f hq hs1 hev1 F x⟩
      · obtain ⟨ev', e1, e2⟩ := auction_log (E := E) (b := b) hr hpb hsp hb f f' t hq hs1
        rw [hev1] at e1; cases e1
        exact ⟨e2 F m, auction_cash hr hpb hsp f f' t hq hs1 hev1 m.auc x⟩
    rw [inflowAll_append, ih (l1 ++ [q]) s1 s' evs _ h1' t1 h hevs this.1 x, this.2]
    omega

/-- a submit moves into the pool what its events say -/
theorem submit_cash {w w' : World} (hr : Reachable w) {p : Address} {b : Address}
    (hb : ∀ i, (w.pools p).inst = some i → i.backstop = b) {auth : List Address} {sender spender dst : Address}
    {reqs : List Request} (h : step w (.pool p auth (.submit sender spender dst reqs)) = .ok w') {ev : List Event}
    (hev : callLog w p auth (.submit sender spender dst reqs) = .ok ev) {F : PoolNotes}
    (m : Match E (w.pools p) (accountOf (w.pools p)) (w.pools p).auctions F) (x : Address) :
    w'.balance x p = w.balance x p + inflowAll p b w.seq F ev x := by
  obtain ⟨hp, cache, s, v⟩ := submit_view hr h
  obtain ⟨t0, e0⟩ := track_start (sender := sender) hr v.load
  simp only [callLog, bind_ok] at hev
  obtain ⟨cache', hc', hev⟩ := hev
  rw [v.load] at hc'; cases hc'
  have m0 : Match E (w.pools p) ((startState w p cache sender).books w p).acct ((startState w p cache sender).books w p).auction F := by
    rw [e0]; exact m
  have k := requests_cash (b := b) hr hp hb v.sender_ne v.load _ [] _ _ _ _ (by rw [foldlM_nil]) t0 v.fold hev m0 x
  have e1 := v.bal x p
  rw [if_pos rfl, if_neg (Ne.symm v.spender_ne), if_neg (Ne.symm v.dst_ne)] at e1
  have e2 : (startState w p cache sender).cash p x = w.balance x p := by
    simp [SubmitState.cash, startState, SMap.bal]
  rw [e2] at k
  unfold SubmitState.cash at k
  omega

/-! ### the other operations -/

/-- the calls that move no tokens -/
def Call.movesNone : Call → Bool
  | .submit .. | .claim .. => false
  | _ => true

theorem call_still {w w' : World} {p : Address} {auth : List Address} {c : Call} (hc : c.movesNone = true) (h : call w p auth c = .ok w')
    (t x : Address) : w'.balance t x = w.balance t x := by
  have set : ∀ ps, (w.setPool p ps).balance t x = w.balance t x := fun ps => balance_setPool w p ps t x
  cases c with
  | submit => simp [Call.movesNone] at hc
  | claim => simp [Call.movesNone] at hc
  | gulpEmissions =>
    simp only [call, gulpEmissions, doGulp, bind_ok, Prod.exists, pure_ok, Prod.mk.injEq] at h
    obtain ⟨n, w1, ⟨i, _, _, _, n1, w2, hg, ps, _, rfl, rfl⟩, rfl⟩ := h
    obtain ⟨_, _, _, bi, _, rfl⟩ := gulpPoolAuth_frame hg
    rw [balance_setPool]
    exact (setAllowance_res w bi.blnd w.backstopAddr p _ _).2.1 t x
  | «initialize» => simp only [call, bind_ok, pure_ok] at h; obtain ⟨_, _, _, _, rfl⟩ := h; exact set _
  | setAdmin => simp only [call, bind_ok, pure_ok] at h; obtain ⟨_, _, _, _, _, _, rfl⟩ := h; exact set _
  | updatePool => simp only [call, bind_ok, pure_ok] at h; obtain ⟨_, _, _, _, rfl⟩ := h; exact set _
  | queueSetReserve => simp only [call, bind_ok, pure_ok] at h; obtain ⟨_, _, _, _, rfl⟩ := h; exact set _
  | cancelSetReserve => simp only [call, bind_ok, pure_ok] at h; obtain ⟨_, _, rfl⟩ := h; exact set _
  | setReserve => simp only [call, bind_ok, pure_ok] at h; obtain ⟨_, _, rfl⟩ := h; exact set _
  | badDebt =>
    simp only [call, transferBadDebt, bind_ok, pure_ok, Prod.exists] at h
    obtain ⟨_, _, _, _, _, _, _, _, _, _, _, _, _, _, _, rfl⟩ := h; exact set _
  | updateStatus => simp only [call, updateStatus, bind_ok, pure_ok] at h; obtain ⟨_, _, _, _, _, _, rfl⟩ := h; exact set _
  | setStatus => simp only [call, setStatus, bind_ok, pure_ok] at h; obtain ⟨_, _, _, _, _, _, _, _, rfl⟩ := h; exact set _
  | setEmissionsConfig => simp only [call, bind_ok, pure_ok] at h; obtain ⟨_, _, _, _, rfl⟩ := h; exact set _
  | newLiquidation => simp only [call, createLiquidation, bind_ok, pure_ok, Prod.exists] at h; obtain ⟨_, _, _, _, _, _, _, rfl⟩ := h; exact set _
  | newBadDebt => simp only [call, createBadDebt, bind_ok, pure_ok] at h; obtain ⟨_, _, _, _, rfl⟩ := h; exact set _
  | newInterest => simp only [call, createInterest, bind_ok, pure_ok] at h; obtain ⟨_, _, _, _, rfl⟩ := h; exact set _

theorem mints_other {t x p : Address} (hne : x ≠ t) : ∀ {l : List (Address × Int)} {w w' : World},
    l.foldlM (fun w y => mint w t y.1 y.2) w = .ok w' → w'.balance x p = w.balance x p := by
  intro l w w' h
  refine foldlM_inv (fun y : World => y.balance x p = w.balance x p) (fun b d kv _ hb hs => ?_) rfl h
  rw [(mint_res hs).bal, hb]
  simp [hne]

/-- in a submit to another pool `p` gets tokens only if they are to be paid to it -/
theorem run_wallet {w : World} {q sender p : Address} (hqp : p ≠ q) (hsp : p ≠ sender) (hpb : p ≠ w.backstopAddr) {reqs : List Request}
    {B B' : Books} (h : FullRun w q sender reqs B B') (t : Address) : B'.wallet t p = B.wallet t p := by
  induction h with
  | nil => rfl
  | plain _ _ _ _ _ ih => exact ih
  | auction he _ ih =>
    rw [ih]
    cases he with
    | liquidation => rfl
    | badDebt _ _ _ _ hba => simp [paid, hsp, hba, hpb]
    | interest _ _ _ _ hba => simp [paid, hsp, hba, hpb, hqp]
    | delete => rfl

/-- an operation that is no submit to the pool `p` takes nothing out of it, and puts nothing into it unless it sends it tokens -/
theorem step_gift {w w' : World} (hr : Reachable w) {op : Op} (h : step w op = .ok w') {p : Address} (hp : w.poolAddr p = true)
    (hown : ∀ auth sender spender dst reqs, op ≠ .pool p auth (.submit sender spender dst reqs)) (t : Address) :
    w.balance t p ≤ w'.balance t p ∧ (¬ Gives p op → ¬ IsBlnd w t → w'.balance t p = w.balance t p) := by
  have hb := hr.base
  have hpb := hb.pool_ne hp
  have hprot := protocol_pool hp
  have same : w'.balance t p = w.balance t p →
      w.balance t p ≤ w'.balance t p ∧ (¬ Gives p op → ¬ IsBlnd w t → w'.balance t p = w.balance t p) :=
    fun e => ⟨le_of_eq e.symm, fun _ _ => e⟩
  have nb : ∀ i, w.backstop.inst = some i → ¬ IsBlnd w t → t ≠ i.blnd := by
    rintro i hi hn rfl; exact hn (.inr ⟨i, hi, rfl⟩)
  have ne' : ∀ i, w.emitter.inst = some i → ¬ IsBlnd w t → t ≠ i.blnd := by
    rintro i hi hn rfl; exact hn (.inl ⟨i, hi, rfl⟩)
  have h0 := h
  cases op with
  | pool q auth c =>
    simp only [step, bind_ok, require_ok] at h
    obtain ⟨_, hq, _, ha, h⟩ := h
    by_cases hc : c.movesNone = true
    · exact same (call_still hc h t p)
    · cases c with
      | submit sender spender dst reqs =>
        have hqp : p ≠ q := by rintro rfl; exact hown _ _ _ _ _ rfl
        obtain ⟨_, hwf, _⟩ := pool_step hb hq ha h
        refine ⟨hwf.bal t p ?_, fun hg _ => ?_⟩
        · rintro (e | e | e)
          · exact hqp e
          · exact hpb e
          · exact e hprot
        · obtain ⟨_, cache, s, v⟩ := submit_view hr h0
          obtain ⟨B, run, _, _, _, _, hbal⟩ := submit_full hr h0
          have hs1 : p ≠ sender := fun e => ha _ v.auths.1 (e ▸ hprot)
          have hs2 : p ≠ spender := fun e => ha _ v.auths.2 (e ▸ hprot)
          have hd : p ≠ dst := fun e => hg e.symm
          rw [hbal, if_neg hqp, if_neg hs2, if_neg hd, run_wallet hqp hs1 hpb run]
          simp [booksOf]
      | claim sender ids dst =>
        simp only [call, executeClaim, bind_ok, Prod.exists, ite_ok, pure_ok, Prod.mk.injEq] at h
        obtain ⟨_, _, n, w1, ⟨n1, ps1, _, ⟨hpos, i, _, w2, ht, rfl, rfl⟩ | ⟨_, rfl, rfl⟩⟩, rfl⟩ := h
        · have r := transferFrom_res ht
          have hne : p ≠ i.backstop := by
            intro e
            have h1 : (w.setPool q ps1).allowance i.blnd i.backstop q = 0 := by
              simp [World.allowance, World.setPool, ← e, hb.pool_allow hp]
            have := r.allowed
            omega
          have hnn := r.nonneg
          rw [r.bal, balance_setPool]
          unfold Blend.moved
          simp only [hne, and_false, if_false]
          refine ⟨by split <;> omega, fun hg _ => ?_⟩
          have hd : p ≠ dst := fun e => hg e.symm
          simp [hd]
        · exact same (balance_setPool _ _ _ _ _)
      | _ => simp [Call.movesNone] at hc
  | backstop auth c =>
    simp only [step, bind_ok, require_ok] at h
    obtain ⟨_, ha, h⟩ := h
    obtain ⟨hwf, _⟩ := Backstop.call_wf ha h
    refine ⟨hwf.bal t p (not_bpayer hb hp), fun hg hbl => ?_⟩
    have hne : ∀ {s}, s ∈ auth → p ≠ s := fun hs e => ha _ hs (e ▸ hprot)
    cases c with
    | «initialize» =>
      simp only [backstopCall, Backstop.init, bind_ok, pure_ok] at h
      obtain ⟨_, _, _, _, _, _, rfl⟩ := h; rfl
    | deposit s q a =>
      simp only [backstopCall, Backstop.deposit, Backstop.executeDeposit, bind_ok, pure_ok, Prod.exists, requireAuth_ok, Prod.mk.injEq] at h
      obtain ⟨_, _, ⟨_, hm, _, _, _, _, _, _, _, b1, _, i, _, w2, ht, _, _, _, _, _, _, _, _, _, rfl⟩, rfl⟩ := h
      have r := transfer_res ht
      show w2.balance t p = _
      rw [r.bal]
      unfold Blend.moved
      simp only [hne hm, hpb, and_false, if_false]
      exact Int.add_zero _
    | queueWithdrawal s q a =>
      simp only [backstopCall, Backstop.queueWithdrawal, Backstop.executeQueue, bind_ok, pure_ok, Prod.exists] at h
      obtain ⟨_, _, _, _, _, _, _, _, _, _, _, rfl⟩ := h; rfl
    | dequeueWithdrawal s q a =>
      simp only [backstopCall, Backstop.dequeueWithdrawal, Backstop.executeDequeue, bind_ok, pure_ok, Prod.exists] at h
      obtain ⟨_, _, _, _, _, _, _, _, _, _, _, _, _, rfl⟩ := h; rfl
    | withdraw s q a =>
      simp only [backstopCall, Backstop.withdraw, Backstop.executeWithdraw, bind_ok, pure_ok, Prod.exists, Prod.mk.injEq, requireAuth_ok] at h
      obtain ⟨_, _, ⟨_, hm, _, _, _, _, _, _, _, _, pb', _, i, _, w2, ht, _, rfl⟩, rfl⟩ := h
      have r := transfer_res ht
      rw [r.bal]
      unfold Blend.moved
      simp only [hne hm, hpb, and_false, if_false]
      exact Int.add_zero _
    | gulpEmissions =>
      simp only [backstopCall, Backstop.gulpEmissions, bind_ok, pure_ok, Prod.exists, Prod.mk.injEq] at h
      obtain ⟨_, _, ⟨_, _, _, _, _, _, _, _, _, _, _, _, _, _, _, _, _, _, b1, _, _, rfl⟩, rfl⟩ := h
      rfl
    | addReward a r =>
      simp only [backstopCall, Backstop.addReward, bind_ok, pure_ok, ite_ok] at h
      obtain ⟨_, _, _, _, _, _, ⟨_, _, _, rfl⟩ | ⟨_, _, _, _, _, _, _, _, _, _, _, rfl⟩⟩ := h <;> rfl
    | gulpPoolEmissions q =>
      simp only [backstopCall, Backstop.gulpPoolEmissionsAuth, Backstop.gulpPoolEmissions, bind_ok, pure_ok, Prod.exists,
        Prod.mk.injEq] at h
      obtain ⟨_, _, ⟨_, _, _, _, i, _, _, _, w1, ha, _, rfl⟩, rfl⟩ := h
      obtain ⟨_, rfl⟩ := approve_res ha
      exact (setAllowance_res w _ _ _ _ _).2.1 t p
    | claim s ps d =>
      simp only [backstopCall, Backstop.claim, Backstop.executeClaim, Backstop.cometDeposit, Backstop.inst, bind_ok, unwrap_ok, pure_ok, Prod.exists, ite_ok,
        Prod.mk.injEq] at h
      obtain ⟨_, _, ⟨_, _, _, _, n, cl, b1, hcl, ⟨_, i, hi, lp, w2, ⟨w3, ht, w4, hm, s, _, rfl, rfl⟩, b2, _, _, rfl⟩ |
        ⟨_, _, rfl⟩⟩, rfl⟩ := h
      · have r := transfer_res ht
        have m := mint_res hm
        show w4.balance t p = _
        have hnt : t ≠ i.blnd := nb i (by
          change b1.inst = some i at hi
          rw [(Backstop.claimLoop_same hcl).1] at hi; exact hi) hbl
        rw [m.bal, r.bal]
        unfold Blend.moved
        simp only [hnt, hpb, and_false, false_and, if_false]
        show w.balance t p + (0 - 0) + 0 = _
        omega
      · rfl
    | drop =>
      simp only [backstopCall, Backstop.drop, bind_ok] at h
      obtain ⟨_, _, _, _, _, _, h⟩ := h
      obtain ⟨_, _, _, _, i, w1, hi, _, _, hm, rfl⟩ := Emitter.drop_ok (L := fun _ => True) (A := fun _ => True) h
      have := mints_other (p := p) (ne' i hi hbl) hm
      exact this
    | draw q a d =>
      simp only [backstopCall, Backstop.draw, bind_ok] at h
      obtain ⟨_, _, h⟩ := h
      obtain ⟨i, _, r⟩ := (Backstop.executeDraw_res h).ex
      have hd : p ≠ d := fun e => hg e.symm
      rw [r.bal]
      unfold Blend.moved
      simp only [hd, hpb, and_false, if_false]
      exact Int.add_zero _
    | donate s q a =>
      simp only [backstopCall, Backstop.donate, bind_ok, requireAuth_ok] at h
      obtain ⟨_, hm, _, _, h⟩ := h
      obtain ⟨i, w1, _, r, rfl⟩ := (Backstop.executeDonate_res h).ex
      show w1.balance t p = _
      rw [r.bal]
      unfold Blend.moved
      simp only [hne hm, hpb, and_false, if_false]
      exact Int.add_zero _
    | updateTknVal =>
      simp only [backstopCall, Backstop.updateTknVal, bind_ok, pure_ok] at h
      obtain ⟨_, _, _, _, _, _, rfl⟩ := h; rfl
  | emitter auth c =>
    simp only [step, bind_ok, require_ok] at h
    obtain ⟨_, ha, h⟩ := h
    obtain ⟨hwf, _⟩ := Emitter.call_wf (L := fun _ => False) (A := fun _ => False) h
    refine ⟨hwf.bal t p id, fun hg hbl => ?_⟩
    have hd : ∀ {w1 : World} {b : Address} {n : Int}, Emitter.executeDistribute w b = .ok (n, w1) → w1.balance t p = w.balance t p := by
      intro w1 b n h
      obtain ⟨last, i, _, _, hi, _, r⟩ := Emitter.distribute_ok h
      have hnt : t ≠ i.blnd := ne' i hi hbl
      rw [r.bal]
      simp only [hnt, false_and, if_false]
      exact Int.add_zero _
    cases c with
    | «initialize» b s t =>
      simp only [emitterCall, Emitter.init, bind_ok, pure_ok] at h
      obtain ⟨_, _, rfl⟩ := h; rfl
    | distribute =>
      simp only [emitterCall, Emitter.distribute, bind_ok, pure_ok, Prod.exists] at h
      obtain ⟨n, w1, ⟨_, _, h⟩, rfl⟩ := h
      exact hd h
    | queueSwap b t =>
      simp only [emitterCall, Emitter.queueSwap, bind_ok, pure_ok] at h
      obtain ⟨_, _, _, _, _, _, rfl⟩ := h; rfl
    | cancelSwap =>
      simp only [emitterCall, Emitter.cancelSwap, bind_ok, pure_ok] at h
      obtain ⟨_, _, _, _, _, _, rfl⟩ := h; rfl
    | swapBackstop =>
      simp only [emitterCall, Emitter.swapBackstop, bind_ok, pure_ok, Prod.exists] at h
      obtain ⟨s, _, _, _, i, _, _, _, n, w1, hx, rfl⟩ := h
      have := hd hx
      exact this
    | drop l =>
      obtain ⟨_, _, _, _, i, w1, hi, _, _, hm, rfl⟩ := Emitter.drop_ok (L := fun _ => True) (A := fun _ => True) h
      have := mints_other (p := p) (ne' i hi hbl) hm
      exact this
  | factory auth c =>
    simp only [step, bind_ok, require_ok] at h
    obtain ⟨_, ha, h⟩ := h
    cases c with
    | «initialize» m =>
      simp only [factoryCall, Factory.init, bind_ok, pure_ok] at h
      obtain ⟨_, _, rfl⟩ := h
      exact same rfl
    | deploy a s o r m =>
      simp only [factoryCall, Factory.deploy, bind_ok, pure_ok, Prod.exists, require_ok, requireAuth_ok,
        Prod.mk.injEq] at h
      obtain ⟨x, w1, ⟨_, hm, mt, _, _, hr, _, _, _, _, _, hi, w2, hc, rfl, rfl⟩, rfl⟩ := h
      exact same (call_still rfl hc t p)
  | tokenTransfer t' s d a =>
    simp only [step, bind_ok, require_ok] at h
    obtain ⟨_, hs, h⟩ := h
    have r := transfer_res h
    have hps : p ≠ s := fun e => hs (e ▸ hprot)
    have hnn := r.nonneg
    rw [r.bal]
    unfold Blend.moved
    simp only [hps, and_false, if_false]
    refine ⟨by split <;> omega, fun hg _ => ?_⟩
    have hd : p ≠ d := fun e => hg e.symm
    simp [hd]
  | tokenMint t' d a =>
    simp only [step, bind_ok, require_ok] at h
    obtain ⟨_, hs, h⟩ := h
    have r := mint_res h
    have hnn := r.nonneg
    rw [r.bal]
    refine ⟨by split <;> omega, fun hg _ => ?_⟩
    have hd : p ≠ d := fun e => hg e.symm
    simp [hd]
  | tokenBurn t' s a =>
    simp only [step, bind_ok, require_ok, pure_ok] at h
    obtain ⟨_, hs, _, ha, rfl⟩ := h
    have hps : p ≠ s := fun e => hs (e ▸ hprot)
    exact same (by rw [balance_setBalance, if_neg (fun e => hps e.2)])
  | tokenApprove t' o s a e =>
    simp only [step, bind_ok, require_ok] at h
    obtain ⟨_, hs, h⟩ := h
    obtain ⟨_, rfl⟩ := approve_res h
    exact same ((setAllowance_res w _ _ _ _ _).2.1 t p)
  | comet s o =>
    simp only [step, pure_ok, bind_ok] at h
    obtain ⟨_, _, rfl⟩ := h
    exact same rfl
  | _ =>
    simp only [step, pure_ok] at h
    subst h
    exact same rfl

theorem about_still {p : Address} {e : Event} (h : about e ≠ some p) : still p e := by
  intro F seq t
  cases e <;> simp_all [about, PoolNotes.inflow]

theorem badDebtCall_still {w : World} {p : Address} {auth : List Address} {c : Call} {l : List Event} (hc : ∀ a b d r, c ≠ .submit a b d r)
    (h : callLog w p auth c = .ok l) : ∀ e ∈ l, still p e := by
  by_cases hp : c.publishes = false
  · intro e he
    exact about_still (by rw [(callLog_about h).2 hp e he]; simp)
  · cases c with
    | submit => exact absurd rfl (hc _ _ _ _)
    | badDebt => exact badDebtEvents_still h
    | newBadDebt =>
      simp only [callLog, bind_ok, pure_ok] at h
      obtain ⟨_, _, _, _, rfl⟩ := h
      intro e he; rw [List.mem_singleton] at he; subst he; exact fun _ _ _ => rfl
    | newInterest =>
      simp only [callLog, bind_ok, pure_ok] at h
      obtain ⟨_, _, _, _, rfl⟩ := h
      intro e he; rw [List.mem_singleton] at he; subst he; exact fun _ _ _ => rfl
    | newLiquidation =>
      simp only [callLog, bind_ok, pure_ok, Prod.exists] at h
      obtain ⟨_, _, _, rfl⟩ := h
      intro e he; rw [List.mem_singleton] at he; subst he; exact fun _ _ _ => rfl
    | _ => simp [Call.publishes] at hp

/-- one operation in the eyes of the observer of the tokens -/
theorem cash_step {w w' : World} (hr : Reachable w) {op : Op} (h : step w op = .ok w') {p b : Address} (hp : w.poolAddr p = true)
    (hb : ∀ i, (w.pools p).inst = some i → i.backstop = b) {l : List Event} (hl : logOf w op = .ok l) {F : PoolNotes}
    (m : Match E (w.pools p) (accountOf (w.pools p)) (w.pools p).auctions F) (t : Address) :
    w.balance t p + inflowAll p b w.seq F l t ≤ w'.balance t p ∧
    (¬ Gives p op → ¬ IsBlnd w t → w'.balance t p = w.balance t p + inflowAll p b w.seq F l t) := by
  by_cases ho : ∃ auth sender spender dst reqs, op = .pool p auth (.submit sender spender dst reqs)
  · obtain ⟨auth, sender, spender, dst, reqs, rfl⟩ := ho
    have := submit_cash hr hb h hl m t
    exact ⟨le_of_eq this.symm, fun _ _ => this⟩
  · have hown : ∀ auth sender spender dst reqs, op ≠ .pool p auth (.submit sender spender dst reqs) :=
      fun a b c d e hh => ho ⟨a, b, c, d, e, hh⟩
    have hst : ∀ e ∈ l, still p e := by
      by_cases hs : Silent p op
      · exact fun e he => about_still (silent_log hs hl e he)
      · unfold Silent at hs
        push Not at hs
        obtain ⟨auth, c, rfl, _⟩ := hs
        exact badDebtCall_still (fun a b d r e => hown auth a b d r (by rw [e])) hl
    rw [inflowAll_still hst, Int.add_zero]
    exact step_gift hr h hp hown t

end Pool
end Blend
