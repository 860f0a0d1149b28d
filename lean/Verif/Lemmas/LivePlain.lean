import Verif.Lemmas.LiveLiq
import Verif.Lemmas.LiveClaim
import Verif.Lemmas.FullSubmit
import Verif.Spec.Plan
/-
  Which errors a submit of any number of plain requests can run into (C59).
-/

namespace Blend
namespace Pool
open Spec

variable {E : Err → Bool} {w : World} {p a : Address}

theorem noErr_map {α β : Type} {r : R α} {f : α → β} (h : NoErr E r) : NoErr E (f <$> r) := by
  intro e he hr
  cases r with
  | ok x => cases hr
  | error e' => exact h e he (by cases hr; rfl)

theorem noErr_of_map {α β : Type} {r : R α} {f : α → β} (h : NoErr E (f <$> r)) : NoErr E r := by
  intro e he hr
  subst hr
  exact h e he rfl

theorem updateUserEmis_map (ps : PoolState) (x : Address → Option ReserveData) (y : SMap Positions) (d : EmisData) (id : Nat) (scalar : Int)
    (u : Address) (bal : Int) (claim : Bool) :
    updateUserEmis { ps with resData := x, positions := y } d id scalar u bal claim =
      (fun r => (r.1, { r.2 with resData := x, positions := y })) <$> updateUserEmis ps d id scalar u bal claim := by
  unfold updateUserEmis setUserEmis
  dsimp only
  cases (ps.userEmis id).get u with
  | none =>
    dsimp only
    split
    · cases claim <;> rfl
    · cases fixedMulFloor bal d.index scalar with
      | error => rfl
      | ok => cases claim <;> rfl
  | some ud =>
    dsimp only
    split
    · split
      · generalize chk _ = r1
        cases r1 with
        | error => rfl
        | ok dl =>
          show (requireNonneg _ >>= _) = _ <$> (requireNonneg _ >>= _)
          generalize requireNonneg _ = r2
          cases r2 with
          | error => rfl
          | ok _ =>
            show (fixedMulFloor _ _ _ >>= _) = _ <$> (fixedMulFloor _ _ _ >>= _)
            generalize fixedMulFloor _ _ _ = r3
            cases r3 with
            | error => rfl
            | ok acc =>
              show (chk _ >>= _) = _ <$> (chk _ >>= _)
              generalize chk _ = r4
              cases r4 with
              | error => rfl
              | ok => cases claim <;> rfl
      · cases claim <;> rfl
    · rfl

theorem updateEmisDataWith_map (ps : PoolState) (x : Address → Option ReserveData) (y : SMap Positions) (now id : Nat) (supply scalar : Int) (cfg : EmisConfig) :
    updateEmisDataWith { ps with resData := x, positions := y } now id supply scalar cfg =
      (fun r => (r.1, { r.2 with resData := x, positions := y })) <$> updateEmisDataWith ps now id supply scalar cfg := by
  unfold updateEmisDataWith
  dsimp only
  cases ps.emisData id with
  | none => rfl
  | some d =>
    show (if _ then _ else _) = _ <$> (if _ then _ else _)
    split
    · rfl
    · generalize subU _ _ = r1
      cases r1 with
      | error => rfl
      | ok dt =>
        show (chk _ >>= _) = _ <$> (chk _ >>= _)
        generalize chk _ = r2
        cases r2 with
        | error => rfl
        | ok num =>
          show (fixedDivFloor _ _ _ >>= _) = _ <$> (fixedDivFloor _ _ _ >>= _)
          generalize fixedDivFloor _ _ _ = r3
          cases r3 with
          | error => rfl
          | ok add =>
            show (chk _ >>= _) = _ <$> (chk _ >>= _)
            generalize chk _ = r4
            cases r4 <;> rfl

/-- an emission update does not look at the reserves and positions -/
theorem updateEmissions_map (ps : PoolState) (x : Address → Option ReserveData) (y : SMap Positions) (now id : Nat) (supply scalar : Int)
    (u : Address) (bal : Int) (claim : Bool) :
    updateEmissions { ps with resData := x, positions := y } now id supply scalar u bal claim =
      (fun r => (r.1, { r.2 with resData := x, positions := y })) <$> updateEmissions ps now id supply scalar u bal claim := by
  unfold updateEmissions updateEmisData
  dsimp only
  cases ps.emisConfig id with
  | none => rfl
  | some cfg =>
    dsimp only
    rw [updateEmisDataWith_map]
    cases updateEmisDataWith ps now id supply scalar cfg with
    | error => rfl
    | ok r => exact updateUserEmis_map r.2 x y r.1 id scalar u bal claim

/-- an emission update fails in flight only if it does on the virtual state -/
theorem noErr_emis_overlay {ps : PoolState} {cache : Cache} {us : List User} {now id : Nat} {supply scalar : Int} {u : Address} {bal : Int} {claim : Bool}
    (h : NoErr E (updateEmissions (overlay ps cache us) now id supply scalar u bal claim)) :
    NoErr E (updateEmissions ps now id supply scalar u bal claim) := by
  have e := updateEmissions_map ps (overlay ps cache us).resData (overlay ps cache us).positions now id supply scalar u bal claim
  have e' : ({ ps with resData := (overlay ps cache us).resData, positions := (overlay ps cache us).positions } : PoolState) = overlay ps cache us := rfl
  rw [e'] at e
  rw [e] at h
  exact noErr_of_map h

/-! ### the effect of a request is unique -/

theorem _root_.Blend.Spec.Effect.unique {b d : Int} {i : Nat} {A A1 A2 : Account} {q : Request} (hb : 0 < b) (hd : 0 < d)
    (h1 : Effect b d i A q A1) (h2 : Effect b d i A q A2) : A1 = A2 := by
  have o9 : (0 : Int) < ONE9 := by decide
  cases h1 with
  | supply a1 a2 a3 => cases h2 with
    | supply b1 b2 b3 => rw [floor_unique a2 b2 hb]
  | withdraw a1 a2 a3 a4 => cases h2 with
    | withdraw b1 b2 b3 b4 => rw [ceil_unique a2 b2 hb]
    | withdrawAll b1 b2 b3 b4 b5 => rw [ceil_unique b2 a2 hb] at b3; omega
  | withdrawAll a1 a2 a3 a4 a5 => cases h2 with
    | withdraw b1 b2 b3 b4 => rw [ceil_unique b2 a2 hb] at b4; omega
    | withdrawAll b1 b2 b3 b4 b5 => rw [floor_unique a5 b5 o9]
  | supplyCollateral a1 a2 a3 => cases h2 with
    | supplyCollateral b1 b2 b3 => rw [floor_unique a2 b2 hb]
  | withdrawCollateral a1 a2 a3 a4 => cases h2 with
    | withdrawCollateral b1 b2 b3 b4 => rw [ceil_unique a2 b2 hb]
    | withdrawCollateralAll b1 b2 b3 b4 b5 => rw [ceil_unique b2 a2 hb] at b3; omega
  | withdrawCollateralAll a1 a2 a3 a4 a5 => cases h2 with
    | withdrawCollateral b1 b2 b3 b4 => rw [ceil_unique b2 a2 hb] at b4; omega
    | withdrawCollateralAll b1 b2 b3 b4 b5 => rw [floor_unique a5 b5 o9]
  | borrow a1 a2 a3 => cases h2 with
    | borrow b1 b2 b3 => rw [ceil_unique a2 b2 hd]
  | repay a1 a2 a3 a4 => cases h2 with
    | repay b1 b2 b3 b4 => rw [floor_unique a2 b2 hd]
    | repayAll b1 b2 b3 b4 b5 b6 => rw [floor_unique b2 a2 hd] at b3; omega
  | repayAll a1 a2 a3 a4 a5 a6 => cases h2 with
    | repay b1 b2 b3 b4 => rw [floor_unique b2 a2 hd] at b4; omega
    | repayAll b1 b2 b3 b4 b5 b6 => rw [ceil_unique a5 b5 o9]

/-! ### the tokens -/

/-- many transfers between two accounts fail only for lack of tokens or by overflow -/
theorem transfers_live {src dst : Address} (hov : E .overflow = false) (hne : dst ≠ src) : ∀ (l : List (Nat × Int)) (w : World),
    l.Pairwise (fun a b => a.1 < b.1) → (∀ kv ∈ l, 0 ≤ kv.2) → (E .token = true → ∀ kv ∈ l, kv.2 ≤ w.balance kv.1 src) →
    NoErr E (l.foldlM (fun w kv => transfer w kv.1 src dst kv.2) w) := by
  intro l
  induction l with
  | nil => intro w _ _ _; exact NoErr.pure
  | cons kv l ih =>
    intro w hs hn hb
    rw [List.foldlM_cons]
    obtain ⟨h1, h2⟩ := List.pairwise_cons.1 hs
    refine NoErr.bind (transfer_live (hn kv (by simp)) hne (fun hE => hb hE kv (by simp)) fun hE => ?_) fun w1 hw1 => ?_
    · rw [hov] at hE; cases hE
    · refine ih w1 h2 (fun x hx => hn x (by simp [hx])) fun hE x hx => ?_
      have hlt := h1 x hx
      rw [(transfer_res hw1).bal]
      unfold moved
      have := hb hE x (by simp [hx])
      have hk : ¬ x.1 = kv.1 := by omega
      simp only [hk, false_and, if_false]
      omega

/-! ### the number of positions -/

theorem len_count {m : SMap Int} {n : Nat} (h : ∀ i v, m.get i = some v → 0 < v ∧ i < n) :
    m.len = ((List.range n).filter fun i => m.bal i ≠ 0).length := by
  have hperm : (m.toList.map Prod.fst).Perm ((List.range n).filter fun i => m.bal i ≠ 0) := by
    refine (List.perm_ext_iff_of_nodup ?_ (List.nodup_range.filter _)).2 fun i => ?_
    · have := m.sorted
      refine (List.pairwise_map.2 (this.imp fun h => ?_) : List.Pairwise (· ≠ ·) _)
      omega
    · simp only [List.mem_map, Prod.exists, exists_and_right, exists_eq_right, List.mem_filter, List.mem_range, decide_eq_true_eq]
      constructor
      · rintro ⟨v, hv⟩
        have hv := SMap.mem_toList.1 hv
        have := h i v hv
        refine ⟨this.2, ?_⟩
        unfold SMap.bal
        rw [hv]
        simp only [Option.getD_some]
        omega
      · rintro ⟨_, hb⟩
        unfold SMap.bal at hb
        cases hg : m.get i with
        | none => rw [hg] at hb; simp at hb
        | some v => exact ⟨v, SMap.mem_toList.2 hg⟩
  unfold SMap.len
  rw [← hperm.length_eq, List.length_map]

/-! ### requests in flight -/

/-- the emission invariant between two requests -/
theorem flight_einv (hr : Reachable w) (hp : w.poolAddr p = true) {cache : Cache} {sender : Address}
    (hsp : sender ≠ p) (hc : Cache.load (w.pools p) = .ok cache) {auth : List Address} {l : List Request} {s : SubmitState}
    (h : l.foldlM (processRequest p auth) (startState w p cache sender) = .ok s) :
    EInv w.time (s.vs p) ∧ ∀ id, 0 ≤ (s.vs p).ps.claimed id := by
  obtain ⟨ok0, hr0, _, _⟩ := load_ok (now := w.time) hc
  have hb := hr.base
  have k := step_requests (U := fun _ => True) l _ _ ok0 trivial
    (fun q hq ht => trivial) (fun hq i hi => trivial) (hb.pool_ne hp) (Ne.symm hsp) h
  have touch := PMicro.touch (now := w.time) (U := fun _ => True) (.of w p) sender trivial
  have e0 : ({ VS.of w p with ps := setPositions (w.pools p) sender (getPositions (w.pools p) sender) } : VS)
      = SubmitState.vs p (startState w p cache sender) := by
    unfold SubmitState.vs VS.of startState
    simp only [overlay_load hr0]
    simp [setPositions, User.load]
  have touch' : PMicro w.time (fun _ => True) (.of w p) (SubmitState.vs p (startState w p cache sender)) := by
    rw [← e0]; exact touch
  have ms : PMicros w.time (fun _ => True) (.of w p) (s.vs p) := (PMicros.one touch').trans k.micros
  have : ∀ {S S'}, PMicros w.time (fun _ => True) S S' → CfgOk S.ps → EInv w.time S ∧ (∀ id, 0 ≤ S.ps.claimed id) →
      EInv w.time S' ∧ ∀ id, 0 ≤ S'.ps.claimed id := by
    intro S S' h
    induction h with
    | refl => exact fun _ h => h
    | tail h1 h2 ih =>
      intro hc h
      have := ih hc h
      have cfg := (micros_cfg h1 hc).1
      exact ⟨micro_emis cfg h2 this.1, fun id => le_trans (this.2 id) (micro_claimed cfg this.1 h2 id)⟩
  exact this ms (hb.cfg p) ⟨hr.einv hp, hr.claimed_nonneg hp⟩

/-- the emission update of a share operation in flight -/
theorem emis_flight {sender : Address} {s : SubmitState} (hov : E .overflow = false) (f : FlightOk w p sender s)
    (hem : EInv w.time (s.vs p) ∧ ∀ id, 0 ≤ (s.vs p).ps.claimed id) {r : Reserve} {cache : Cache}
    (hl : Loaded (s.fl.w.pools p) w.time s.fl.cache a r cache) (k : Kind) :
    NoErr E (updateEmissions (s.fl.w.pools p) w.time (k.id r.index) (k.supply r.data) r.scalar s.fl.user.addr (k.emisBal s.fl.user.pos r.index) false) := by
  refine noErr_emis_overlay (cache := s.fl.cache) (us := [s.fl.user]) ?_
  obtain ⟨c, d, i, hc, hd, hi, hic, hac⟩ := hl.data
  obtain ⟨c', hc', e1, e2, _⟩ := hl.rm.cfg
  rw [hc] at hc'; cases hc'
  have hd' : (s.vs p).ps.resData a = some d := hd
  have hcv : (s.vs p).ps.resConfig a = some c := hc
  have hidx := f.cfg.idx a c hcv
  have hdiv : k.id c.index / 2 = c.index := by cases k <;> simp only [Kind.id] <;> omega
  have h := emissions_live (claim := false) (E := E) (S := s.vs p) (id := k.id c.index) (a := a) (c := c) (u := s.fl.user.addr) hem.1 (hem.2 _)
    (by rw [hdiv]; exact hidx) hcv (f.cfg.valid a c hcv).decimals (fun hE => by rw [hov] at hE; cases hE)
  have e3 : k.supply r.data = etot (s.vs p).ps (k.id c.index) := by
    rw [← f.pinv.supply_eq hcv hd' k]
    have := accrue_supplies hac
    cases k <;> simp only [Kind.supply] <;> omega
  have e4 := emisBal_eq (s.vs p).ps k c.index s.fl.user.addr
  have e5 : getPositions (s.vs p).ps s.fl.user.addr = s.fl.user.pos := getPositions_overlay_last _ _ [] _
  rw [e5] at e4
  rw [e1, e2, e3, e4]
  exact h

/-- what is loaded has the rates of the start of the submit -/
theorem loaded_rates {sender : Address} {s : SubmitState} (f : FlightOk w p sender s) (t : Track w p s.fl) {r : Reserve} {cache : Cache}
    (hl : Loaded (s.fl.w.pools p) w.time s.fl.cache a r cache) : RatesOf (w.pools p) w.time a r.data := by
  obtain ⟨c0, d0, i0, hc0, hd0, hi0, hic0, hac⟩ := hl.data
  unfold overlayData at hd0
  cases hg : s.fl.cache.reserves.get a with
  | some x =>
    rw [hg] at hd0
    cases hd0
    rw [accrue_idem (f.cacheOk.res _ _ hg).time] at hac
    have hac := (Except.ok.inj hac)
    rw [← hac]
    exact (t.cur.cached _ _ hg).2
  | none =>
    rw [hg] at hd0
    have hd0 : (s.fl.w.pools p).resData a = some d0 := hd0
    exact ⟨r.data, ⟨c0, d0, i0, by rw [t.cur.resConfig]; exact hc0, by rw [← t.cur.rest _ hg]; exact hd0, by rw [t.cur.inst]; exact hi0, hac⟩, rfl, rfl, rfl⟩

/-- the supplies of what is loaded, when the shares in flight differ by `Δ` from those at the start of the submit -/
theorem loaded_supplies (hr : Reachable w) (hp : w.poolAddr p = true) {sender : Address} {s : SubmitState} (f : FlightOk w p sender s)
    {Δ : Kind → Nat → Int} (hsup : ∀ k i, tot (s.vs p).ps k i = tot (w.pools p) k i + Δ k i) {r : Reserve} {cache : Cache}
    (hl : Loaded (s.fl.w.pools p) w.time s.fl.cache a r cache) {c : ReserveConfig} {d : ReserveData} (hc : (w.pools p).resConfig a = some c)
    (hd : Current (w.pools p) w.time a d) :
    r.data.bSupply = d.bSupply + (Δ .supp c.index + Δ .coll c.index) ∧ r.data.dSupply = d.dSupply + Δ .liab c.index := by
  obtain ⟨c0, d0, i0, hc0, hd0, hi0, hic0, hac⟩ := hl.data
  obtain ⟨c1, d1, i1, hc1, hd1, hi1, hac1⟩ := hd
  rw [hc] at hc1; cases hc1
  rw [f.same.resConfig, hc] at hc0; cases hc0
  have hcv : (s.vs p).ps.resConfig a = some c := by
    show (s.fl.w.pools p).resConfig a = _
    rw [f.same.resConfig]; exact hc
  have e1 := accrue_supplies hac
  have e2 := accrue_supplies hac1
  have k1 := f.pinv.dsum a c d0 hcv hd0
  have k2 := f.pinv.bsum a c d0 hcv hd0
  have j1 := (hr.pinv hp).dsum a c d1 hc hd1
  have j2 := (hr.pinv hp).bsum a c d1 hc hd1
  have m1 := hsup .liab c.index
  have m2 := hsup .coll c.index
  have m3 := hsup .supp c.index
  have hw : (VS.of w p).ps = w.pools p := rfl
  rw [hw] at j1 j2
  omega

/-- the shares in flight when only those of the sender have changed -/
theorem sup_of_pos {sender : Address} {s : SubmitState} (f : FlightOk w p sender s)
    (hpos : (s.fl.w.pools p).positions = (w.pools p).positions) (k : Kind) (i : Nat) :
    tot (s.vs p).ps k i = tot (w.pools p) k i + ((k.map s.fl.user.pos).bal i - (k.map (getPositions (w.pools p) sender)).bal i) := by
  have key : tot (s.vs p).ps k i = tot (w.pools p) k i + (k.map s.fl.user.pos).bal i - (k.map (getPositions (w.pools p) sender)).bal i := by
    unfold tot
    have : (s.vs p).ps.positions = (w.pools p).positions.set sender s.fl.user.pos := by
      show (overlay _ _ ([] ++ [s.fl.user])).positions = _
      rw [overlay_positions_append, f.addr, ← hpos]; rfl
    rw [this, SMap.sum_set]
    congr 1
    unfold getPositions
    cases (w.pools p).positions.get sender with
    | none => cases k <;> rfl
    | some pos => rfl
  omega

/-! ### the share operations in flight -/

section
variable {sender : Address} {s : SubmitState} {r : Reserve} {cache : Cache} {amt : Int}

theorem addLiab_flight (hov : E .overflow = false) (f : FlightOk w p sender s) (hem : EInv w.time (s.vs p) ∧ ∀ id, 0 ≤ (s.vs p).ps.claimed id)
    (hl : Loaded (s.fl.w.pools p) w.time s.fl.cache a r cache) (h0 : amt ≠ 0) :
    NoErr E (addLiabilities (s.fl.w.pools p) w.time s.fl.user r amt) := by
  have ov : ∀ {P : Prop}, E .overflow = true → P := fun h => by rw [hov] at h; cases h
  unfold addLiabilities updateDEmis
  exact NoErr.bind (NoErr.req h0) fun _ _ => NoErr.bind (NoErr.bind (emis_flight hov f hem hl .liab) fun _ _ => NoErr.pure) fun _ _ =>
    NoErr.bind (NoErr.chk ov) fun _ _ => NoErr.bind (NoErr.chk ov) fun _ _ => NoErr.pure

theorem removeLiab_flight (hov : E .overflow = false) (f : FlightOk w p sender s) (hem : EInv w.time (s.vs p) ∧ ∀ id, 0 ≤ (s.vs p).ps.claimed id)
    (hl : Loaded (s.fl.w.pools p) w.time s.fl.cache a r cache) (h0 : amt ≠ 0) (hle : amt ≤ s.fl.user.pos.liabilities.bal r.index) :
    NoErr E (removeLiabilities (s.fl.w.pools p) w.time s.fl.user r amt) := by
  have ov : ∀ {P : Prop}, E .overflow = true → P := fun h => by rw [hov] at h; cases h
  unfold removeLiabilities updateDEmis requireNonneg
  refine NoErr.bind (NoErr.req h0) fun _ _ => NoErr.bind (NoErr.bind (emis_flight hov f hem hl .liab) fun _ _ => NoErr.pure) fun _ _ =>
    NoErr.bind (NoErr.chk ov) fun nb hnb => NoErr.bind (NoErr.req ?_) fun _ _ => NoErr.bind (NoErr.chk ov) fun _ _ => NoErr.pure
  rw [chk_ok] at hnb
  omega

theorem addB_flight (hov : E .overflow = false) (f : FlightOk w p sender s) (hem : EInv w.time (s.vs p) ∧ ∀ id, 0 ≤ (s.vs p).ps.claimed id)
    (hl : Loaded (s.fl.w.pools p) w.time s.fl.cache a r cache) (h0 : amt ≠ 0) (coll : Bool) :
    NoErr E ((if coll then addCollateral else addSupply) (s.fl.w.pools p) w.time s.fl.user r amt) := by
  have ov : ∀ {P : Prop}, E .overflow = true → P := fun h => by rw [hov] at h; cases h
  cases coll
  all_goals
    simp only [if_true, if_false, Bool.false_eq_true]
    first | unfold addCollateral | unfold addSupply
    unfold updateBEmis User.totalSupply
    refine NoErr.bind (NoErr.req h0) fun _ _ => NoErr.bind (NoErr.chk ov) fun tot ht => NoErr.bind (NoErr.bind ?_ fun _ _ => NoErr.pure) fun _ _ =>
      NoErr.bind (NoErr.chk ov) fun _ _ => NoErr.bind (NoErr.chk ov) fun _ _ => NoErr.pure
    rw [chk_ok] at ht
    rw [ht.2]
    exact emis_flight hov f hem hl .supp

theorem removeColl_flight (hov : E .overflow = false) (f : FlightOk w p sender s) (hem : EInv w.time (s.vs p) ∧ ∀ id, 0 ≤ (s.vs p).ps.claimed id)
    (hl : Loaded (s.fl.w.pools p) w.time s.fl.cache a r cache) (h0 : amt ≠ 0) (hle : amt ≤ s.fl.user.pos.collateral.bal r.index) :
    NoErr E (removeCollateral (s.fl.w.pools p) w.time s.fl.user r amt) := by
  have ov : ∀ {P : Prop}, E .overflow = true → P := fun h => by rw [hov] at h; cases h
  unfold removeCollateral updateBEmis User.totalSupply requireNonneg
  refine NoErr.bind (NoErr.req h0) fun _ _ => NoErr.bind (NoErr.chk ov) fun tot ht => NoErr.bind (NoErr.bind ?_ fun _ _ => NoErr.pure) fun _ _ =>
    NoErr.bind (NoErr.chk ov) fun nb hnb => NoErr.bind (NoErr.req ?_) fun _ _ => NoErr.bind (NoErr.chk ov) fun _ _ => NoErr.pure
  · rw [chk_ok] at ht
    rw [ht.2]
    exact emis_flight hov f hem hl .coll
  · rw [chk_ok] at hnb
    omega

theorem removeSupp_flight (hov : E .overflow = false) (f : FlightOk w p sender s) (hem : EInv w.time (s.vs p) ∧ ∀ id, 0 ≤ (s.vs p).ps.claimed id)
    (hl : Loaded (s.fl.w.pools p) w.time s.fl.cache a r cache) (h0 : amt ≠ 0) (hle : amt ≤ s.fl.user.pos.supply.bal r.index) :
    NoErr E (removeSupply (s.fl.w.pools p) w.time s.fl.user r amt) := by
  have ov : ∀ {P : Prop}, E .overflow = true → P := fun h => by rw [hov] at h; cases h
  unfold removeSupply updateBEmis User.totalSupply requireNonneg
  refine NoErr.bind (NoErr.req h0) fun _ _ => NoErr.bind (NoErr.chk ov) fun tot ht => NoErr.bind (NoErr.bind ?_ fun _ _ => NoErr.pure) fun _ _ =>
    NoErr.bind (NoErr.chk ov) fun nb hnb => NoErr.bind (NoErr.req ?_) fun _ _ => NoErr.bind (NoErr.chk ov) fun _ _ => NoErr.pure
  · rw [chk_ok] at ht
    rw [ht.2]
    exact emis_flight hov f hem hl .supp
  · rw [chk_ok] at hnb
    omega

end

/-- the utilization check passes -/
theorem util_live {r : Reserve} (hov : E .overflow = false) (h : UtilAtMost r.data r.maxUtil) (h1 : 0 < r.data.dSupply) (h2 : 0 < r.data.dRate)
    (h3 : 0 ≤ r.data.bSupply) (h4 : 0 < r.data.bRate) : NoErr E r.requireUtilBelowMax := by
  have ov : ∀ {P : Prop}, E .overflow = true → P := fun h => by rw [hov] at h; cases h
  obtain ⟨L, S, hL, hS, hle⟩ := h
  unfold Reserve.requireUtilBelowMax ReserveData.utilization ReserveData.totalLiabilities ReserveData.totalSupply
    ReserveData.toAssetFromD ReserveData.toAssetFromB
  have o9 : (0 : Int) < ONE9 := by decide
  have hL0 : 0 < L := by
    have hx : 0 < r.data.dSupply * r.data.dRate := Int.mul_pos h1 h2
    by_contra hc
    have := hL.2
    have : L * ONE9 ≤ 0 := mul_nonpos_of_nonpos_of_nonneg (by omega) (by decide)
    omega
  have hS0 : 0 ≤ S := IsFloor.nonneg hS o9 (Int.mul_nonneg h3 h4.le)
  have hS1 : 0 < S := by
    rcases Int.lt_or_eq_of_le hS0 with h | h
    · exact h
    · rw [← h] at hle
      have : 0 < L * ONE7 := Int.mul_pos hL0 (by decide)
      omega
  refine NoErr.bind (NoErr.bind (NoErr.mulDivCeil (by decide) ov) fun l hl => NoErr.bind (NoErr.mulDivFloor (by decide) ov) fun s hs =>
    NoErr.mulDivCeil ?_ ov) fun u hu => NoErr.req ?_
  · have := floor_unique (floor_spec hs S9_pos) hS o9
    omega
  · simp only [bind_ok] at hu
    obtain ⟨l, hl, s, hs, hu⟩ := hu
    have e1 := floor_unique (floor_spec hs S9_pos) hS o9
    have e2 := ceil_unique (ceil_spec hl S9_pos) hL o9
    subst e1 e2
    have h5 := (ceil_spec hu hS1).1
    by_contra hc
    have : (r.maxUtil : Int) * s ≤ (u - 1) * s := mul_le_mul_of_nonneg_right (by omega) hS0
    have e7 : SCALAR_7 = ONE7 := rfl
    rw [e7] at h5
    omega

/-- a plain request with a specified effect goes through -/
theorem request_flight (hr : Reachable w) (hp : w.poolAddr p = true) {sender : Address} {s : SubmitState} {auth : List Address} (hov : E .overflow = false)
    (f : FlightOk w p sender s) (t : Track w p s.fl) (hem : EInv w.time (s.vs p) ∧ ∀ id, 0 ≤ (s.vs p).ps.claimed id)
    {Δ : Kind → Nat → Int} (hsup : ∀ k i, tot (s.vs p).ps k i = tot (w.pools p) k i + Δ k i) {i : PoolInst} (hi : (w.pools p).inst = some i)
    {q : Request} {c : ReserveConfig} {d : ReserveData} {A1 : Account} (hperm : Permitted i.config.status q)
    (hc : (w.pools p).resConfig q.address = some c) (hd : Current (w.pools p) w.time q.address d) (he : Effect d.bRate d.dRate c.index s.acct q A1)
    (hut : q.type = 4 → UtilAtMost { d with
      bSupply := d.bSupply + (Δ .supp c.index + Δ .coll c.index)
      dSupply := d.dSupply + Δ .liab c.index + (A1.debt c.index - s.acct.debt c.index) } c.maxUtil) :
    NoErr E (processRequest p auth s q) := by
  have ov : ∀ {P : Prop}, E .overflow = true → P := fun h => by rw [hov] at h; cases h
  have hconf : s.fl.cache.config = i.config := by
    obtain ⟨j, hj, hjc⟩ := t.cur.config
    rw [← t.cur.inst, hi] at hj; cases hj
    exact hjc.symm
  have hload : NoErr E (s.fl.cache.loadReserve (s.fl.w.pools p) s.fl.w.time q.address true) := by
    rw [f.time]; exact t.cur.load_live (hr.base.cfg p) hd
  have key : ∀ {r : Reserve} {cache : Cache}, s.fl.cache.loadReserve (s.fl.w.pools p) s.fl.w.time q.address true = .ok (r, cache) →
      Loaded (s.fl.w.pools p) w.time s.fl.cache q.address r cache ∧ r.index = c.index ∧ r.data.bRate = d.bRate ∧ r.data.dRate = d.dRate ∧
      0 < d.bRate ∧ 0 < d.dRate ∧ r.maxUtil = c.maxUtil ∧ 0 ≤ r.data.bSupply ∧ 0 ≤ r.data.dSupply := by
    intro r cache hl
    rw [f.time] at hl
    have hld := loadReserve_true f.cacheOk hl
    have hlo := f.loadedOk hld
    obtain ⟨c', hc', e1, _, _, _, e2⟩ := hlo.cfg
    rw [hc] at hc'; cases hc'
    obtain ⟨d', hd', e3, e4, _⟩ := loaded_rates f t hld
    rw [Current.unique hd' hd] at e3 e4
    have := hlo.bRate
    have := hlo.dRate
    exact ⟨hld, e1, e3, e4, by omega, by omega, e2, hlo.bSupply, hlo.dSupply⟩
  have htime := f.time
  unfold processRequest requireNonneg requireActionAllowed
  rw [hconf]
  obtain ⟨ty, tk, n⟩ := q
  have hn : 0 ≤ n := by cases he <;> assumption
  refine NoErr.bind (NoErr.req (by dsimp only; omega)) fun _ _ => NoErr.bind (NoErr.req ?_) fun _ _ => ?_
  · obtain ⟨p1, p2⟩ := hperm
    dsimp only at p1 p2 ⊢
    rintro (⟨h1, h2⟩ | ⟨h1, h2⟩)
    · have := p1 h2; omega
    · have := p2 (by tauto); omega
  cases he with
  | supply a1 a2 a3 =>
    dsimp only
    unfold reqSupply
    refine NoErr.bind hload fun x hx => ?_
    obtain ⟨r, cache⟩ := x
    obtain ⟨hld, k1, k2, k3, k4, k5, k6, _⟩ := key hx
    refine NoErr.bind (NoErr.mulDivFloor (by omega) ov) fun m hm => NoErr.bind ?_ fun _ _ => NoErr.bind (NoErr.bind (NoErr.chk ov) fun _ _ => NoErr.pure) fun _ _ => NoErr.pure
    have := floor_spec hm (by omega)
    rw [k2] at this
    have := floor_unique this a2 k4
    rw [htime]
    exact addB_flight hov f hem hld (by omega) false
  | supplyCollateral a1 a2 a3 =>
    dsimp only
    unfold reqSupply
    refine NoErr.bind hload fun x hx => ?_
    obtain ⟨r, cache⟩ := x
    obtain ⟨hld, k1, k2, k3, k4, k5, k6, _⟩ := key hx
    refine NoErr.bind (NoErr.mulDivFloor (by omega) ov) fun m hm => NoErr.bind ?_ fun _ _ => NoErr.bind (NoErr.bind (NoErr.chk ov) fun _ _ => NoErr.pure) fun _ _ => NoErr.pure
    have := floor_spec hm (by omega)
    rw [k2] at this
    have := floor_unique this a2 k4
    rw [htime]
    exact addB_flight hov f hem hld (by omega) true
  | withdraw a1 a2 a3 a4 =>
    dsimp only
    unfold reqWithdraw
    refine NoErr.bind hload fun x hx => ?_
    obtain ⟨r, cache⟩ := x
    obtain ⟨hld, k1, k2, k3, k4, k5, k6, _⟩ := key hx
    refine NoErr.bind ?_ fun x hx => ?_
    · unfold withdrawAmounts
      refine NoErr.bind (NoErr.mulDivCeil (by omega) ov) fun b hb => ?_
      split
      · exact NoErr.bind (NoErr.mulDivFloor (by decide) ov) fun _ _ => NoErr.pure
      · exact NoErr.pure
    obtain ⟨burn, out⟩ := x
    refine NoErr.bind ?_ fun _ _ => NoErr.bind (NoErr.bind (NoErr.chk ov) fun _ _ => NoErr.pure) fun _ _ => NoErr.pure
    obtain ⟨m, hm, hx⟩ := withdrawAmounts_exact (by omega) hx
    rw [k2] at hm
    have := ceil_unique hm a2 k4
    simp only [SubmitState.acct, ← k1] at a4
    rw [htime]
    exact removeSupp_flight hov f hem hld (by omega) (by omega)
  | withdrawAll a1 a2 a3 a4 a5 =>
    dsimp only
    unfold reqWithdraw
    refine NoErr.bind hload fun x hx => ?_
    obtain ⟨r, cache⟩ := x
    obtain ⟨hld, k1, k2, k3, k4, k5, k6, _⟩ := key hx
    refine NoErr.bind ?_ fun x hx => ?_
    · unfold withdrawAmounts
      refine NoErr.bind (NoErr.mulDivCeil (by omega) ov) fun b hb => ?_
      split
      · exact NoErr.bind (NoErr.mulDivFloor (by decide) ov) fun _ _ => NoErr.pure
      · exact NoErr.pure
    obtain ⟨burn, out⟩ := x
    refine NoErr.bind ?_ fun _ _ => NoErr.bind (NoErr.bind (NoErr.chk ov) fun _ _ => NoErr.pure) fun _ _ => NoErr.pure
    obtain ⟨m, hm, hx⟩ := withdrawAmounts_exact (by omega) hx
    rw [k2] at hm
    have := ceil_unique hm a2 k4
    simp only [SubmitState.acct, ← k1] at a3 a4
    rw [htime]
    exact removeSupp_flight hov f hem hld (by omega) (by omega)
  | withdrawCollateral a1 a2 a3 a4 =>
    dsimp only
    unfold reqWithdrawColl
    refine NoErr.bind hload fun x hx => ?_
    obtain ⟨r, cache⟩ := x
    obtain ⟨hld, k1, k2, k3, k4, k5, k6, _⟩ := key hx
    refine NoErr.bind ?_ fun x hx => ?_
    · unfold withdrawAmounts
      refine NoErr.bind (NoErr.mulDivCeil (by omega) ov) fun b hb => ?_
      split
      · exact NoErr.bind (NoErr.mulDivFloor (by decide) ov) fun _ _ => NoErr.pure
      · exact NoErr.pure
    obtain ⟨burn, out⟩ := x
    refine NoErr.bind ?_ fun _ _ => NoErr.bind (NoErr.bind (NoErr.chk ov) fun _ _ => NoErr.pure) fun _ _ => NoErr.pure
    obtain ⟨m, hm, hx⟩ := withdrawAmounts_exact (by omega) hx
    rw [k2] at hm
    have := ceil_unique hm a2 k4
    simp only [SubmitState.acct, ← k1] at a4
    rw [htime]
    exact removeColl_flight hov f hem hld (by omega) (by omega)
  | withdrawCollateralAll a1 a2 a3 a4 a5 =>
    dsimp only
    unfold reqWithdrawColl
    refine NoErr.bind hload fun x hx => ?_
    obtain ⟨r, cache⟩ := x
    obtain ⟨hld, k1, k2, k3, k4, k5, k6, _⟩ := key hx
    refine NoErr.bind ?_ fun x hx => ?_
    · unfold withdrawAmounts
      refine NoErr.bind (NoErr.mulDivCeil (by omega) ov) fun b hb => ?_
      split
      · exact NoErr.bind (NoErr.mulDivFloor (by decide) ov) fun _ _ => NoErr.pure
      · exact NoErr.pure
    obtain ⟨burn, out⟩ := x
    refine NoErr.bind ?_ fun _ _ => NoErr.bind (NoErr.bind (NoErr.chk ov) fun _ _ => NoErr.pure) fun _ _ => NoErr.pure
    obtain ⟨m, hm, hx⟩ := withdrawAmounts_exact (by omega) hx
    rw [k2] at hm
    have := ceil_unique hm a2 k4
    simp only [SubmitState.acct, ← k1] at a3 a4
    rw [htime]
    exact removeColl_flight hov f hem hld (by omega) (by omega)
  | borrow a1 a2 a3 =>
    dsimp only
    unfold reqBorrow
    refine NoErr.bind hload fun x hx => ?_
    obtain ⟨r, cache⟩ := x
    obtain ⟨hld, k1, k2, k3, k4, k5, k6, k7, k8⟩ := key hx
    refine NoErr.bind (NoErr.mulDivCeil (by omega) ov) fun m hm => ?_
    have h1 := ceil_spec hm (by omega)
    rw [k3] at h1
    have h2 := ceil_unique h1 a2 k5
    refine NoErr.bind (by rw [htime]; exact addLiab_flight hov f hem hld (by omega)) fun x hx => ?_
    obtain ⟨ps', u', r'⟩ := x
    have hs := (isAddLiab hx).2.2.2.1
    obtain ⟨j1, j2⟩ := loaded_supplies hr hp f hsup hld hc hd
    have hu := hut rfl
    have e1 : r'.data.bSupply = r.data.bSupply ∧ r'.data.dSupply = r.data.dSupply + m ∧ r'.data.bRate = r.data.bRate ∧ r'.data.dRate = r.data.dRate ∧
        r'.maxUtil = r.maxUtil := by
      rw [hs]; simp [Kind.addSupply]
    obtain ⟨g1, g2, g3, g4, g5⟩ := e1
    refine NoErr.bind (util_live hov ?_ (by omega) (by omega) (by omega) (by omega)) fun _ _ =>
      NoErr.bind (NoErr.bind (NoErr.chk ov) fun _ _ => NoErr.pure) fun _ _ => NoErr.pure
    unfold UtilAtMost at hu ⊢
    simp only [bump, if_true] at hu
    rw [g1, g2, g3, g4, g5, j1, j2, k2, k3, k6, h2]
    convert hu using 7
    omega
  | repay a1 a2 a3 a4 =>
    dsimp only
    unfold reqRepay
    refine NoErr.bind hload fun x hx => ?_
    obtain ⟨r, cache⟩ := x
    obtain ⟨hld, k1, k2, k3, k4, k5, k6, _⟩ := key hx
    refine NoErr.bind (NoErr.mulDivFloor (by omega) ov) fun m hm => NoErr.bind (NoErr.bind (NoErr.chk ov) fun _ _ => NoErr.pure) fun _ _ => ?_
    have h1 := floor_spec hm (by omega)
    rw [k3] at h1
    have h2 := floor_unique h1 a2 k5
    simp only [SubmitState.acct, ← k1] at a4
    dsimp only
    rw [if_neg (by omega)]
    refine NoErr.bind (by rw [htime]; exact removeLiab_flight hov f hem hld (by omega) (by omega)) fun _ _ => NoErr.pure
  | repayAll a1 a2 a3 a4 a5 a6 =>
    dsimp only
    unfold reqRepay
    refine NoErr.bind hload fun x hx => ?_
    obtain ⟨r, cache⟩ := x
    obtain ⟨hld, k1, k2, k3, k4, k5, k6, _⟩ := key hx
    refine NoErr.bind (NoErr.mulDivFloor (by omega) ov) fun m hm => NoErr.bind (NoErr.bind (NoErr.chk ov) fun _ _ => NoErr.pure) fun _ _ => ?_
    have h1 := floor_spec hm (by omega)
    rw [k3] at h1
    have h2 := floor_unique h1 a2 k5
    simp only [SubmitState.acct, ← k1] at a3 a4 a5
    dsimp only
    rw [if_pos (by omega)]
    refine NoErr.bind (NoErr.mulDivCeil (by decide) ov) fun o ho => ?_
    have h3 := ceil_spec ho S9_pos
    rw [k3] at h3
    have h4 := ceil_unique h3 a5 (by decide)
    refine NoErr.bind (NoErr.chk ov) fun rf hrf => ?_
    rw [chk_ok] at hrf
    unfold requireNonneg
    refine NoErr.bind (NoErr.req (by omega)) fun _ _ => NoErr.bind (by rw [htime]; exact removeLiab_flight hov f hem hld (by omega) (by omega)) fun _ _ =>
      NoErr.bind (NoErr.bind (NoErr.chk ov) fun _ _ => NoErr.pure) fun _ _ => NoErr.pure

/-! ### the health check -/

theorem exists_raw {V : PoolState} {pos : Positions} {C L : Int} (hC : CollateralValue w V pos C) (hL : LiabilityValue w V pos L) :
    ∃ Cr Lr, Values w V pos C Cr L Lr := by
  have h1 : ∀ i : Nat, ∃ v, i < V.resList.length → RawCollItem w V i (pos.collateral.bal i) v := by
    intro i
    obtain ⟨f, hf, _⟩ := hC
    by_cases hi : i < V.resList.length
    · rcases hf i hi with ⟨h, _⟩ | ⟨a, c, d, x, n, e, h1, h2, h3, h4, h5, _⟩
      · exact ⟨0, fun _ => .inl ⟨h, rfl⟩⟩
      · obtain ⟨v, hv⟩ := exists_floor (x * n) (y := 10 ^ c.decimals) (by positivity)
        exact ⟨v, fun _ => .inr ⟨a, c, d, x, n, h1, h2, h3, h4, h5, hv⟩⟩
    · exact ⟨0, fun h => absurd h hi⟩
  have h2 : ∀ i : Nat, ∃ v, i < V.resList.length → RawLiabItem w V i (pos.liabilities.bal i) v := by
    intro i
    obtain ⟨f, hf, _⟩ := hL
    by_cases hi : i < V.resList.length
    · rcases hf i hi with ⟨h, _⟩ | ⟨a, c, d, x, n, e, h1, h2, h3, h4, h5, _⟩
      · exact ⟨0, fun _ => .inl ⟨h, rfl⟩⟩
      · obtain ⟨v, hv⟩ := exists_ceil (x * n) (y := 10 ^ c.decimals) (by positivity)
        exact ⟨v, fun _ => .inr ⟨a, c, d, x, n, h1, h2, h3, h4, h5, hv⟩⟩
    · exact ⟨0, fun h => absurd h hi⟩
  choose f hf using h1
  choose g hg using h2
  exact ⟨_, _, ⟨hC, ⟨f, hf, rfl⟩, hL, ⟨g, hg, rfl⟩⟩⟩

theorem hfUnder_live {pd : PositionData} {n : Nat} (hov : E .overflow = false) (hs : pd.scalar = 10 ^ n) (hL : 0 ≤ pd.liabilityBase)
    (h1 : pd.liabilityBase ≤ pd.collateralBase) (h2 : 5 ≤ n → 100001 * pd.liabilityBase ≤ 100000 * pd.collateralBase) :
    NoErr E (pd.isHfUnder 10000100) ∧ ∀ b, pd.isHfUnder 10000100 = .ok b → b = false := by
  have ov : ∀ {P : Prop}, E .overflow = true → P := fun h => by rw [hov] at h; cases h
  unfold PositionData.isHfUnder PositionData.healthFactor
  split
  · exact ⟨NoErr.pure, fun b hb => by cases hb; rfl⟩
  rename_i h0
  refine ⟨NoErr.bind (NoErr.mulDivFloor (by decide) ov) fun _ _ => NoErr.bind (NoErr.mulDivFloor (by omega) ov) fun _ _ => NoErr.pure, fun b hb => ?_⟩
  simp only [bind_ok, pure_ok] at hb
  obtain ⟨k, hk, hf, hhf, rfl⟩ := hb
  have e1 := floor_spec hk (by decide)
  have e2 := mulDivFloor_spec hhf (by omega)
  rw [hs] at e1 e2
  rw [decide_eq_false_iff_not, not_lt]
  have hpos : 0 < pd.liabilityBase := by omega
  have hkL : k * pd.liabilityBase ≤ pd.collateralBase * 10 ^ n := by
    by_cases h5 : 5 ≤ n
    · obtain ⟨m, rfl⟩ := Nat.exists_eq_add_of_le h5
      have hm : (0 : Int) < 10 ^ m := by positivity
      have e10 : (10 : Int) ^ (5 + m) = 100000 * 10 ^ m := by rw [pow_add]; norm_num
      have e : IsFloor (100001 * 10 ^ m) ((10 : Int) ^ (5 + m) * 10000100) SCALAR_7 := by
        rw [e10]
        simp only [IsFloor, SCALAR_7]
        constructor <;> nlinarith
      rw [floor_unique e1 e (by decide), e10]
      have := mul_le_mul_of_nonneg_left (h2 h5) hm.le
      nlinarith
    · have e : IsFloor ((10 : Int) ^ n) ((10 : Int) ^ n * 10000100) SCALAR_7 := by
        have : n = 0 ∨ n = 1 ∨ n = 2 ∨ n = 3 ∨ n = 4 := by omega
        rcases this with rfl | rfl | rfl | rfl | rfl <;> simp [IsFloor, SCALAR_7]
      rw [floor_unique e1 e (by decide), mul_comm]
      exact mul_le_mul_of_nonneg_right h1 (by positivity)
  by_contra hc
  have : (hf + 1) * pd.liabilityBase ≤ k * pd.liabilityBase := mul_le_mul_of_nonneg_right (by omega) hL
  have := e2.2
  nlinarith

theorem health_flight (hr : Reachable w) (hp : w.poolAddr p = true) {sender : Address} {s : SubmitState} (hov : E .overflow = false)
    (f : FlightOk w p sender s) (t : Track w p s.fl)
    (h : s.check = true → s.fl.user.pos.liabilities.isEmpty = false → PricesOk w (w.pools p) ∧ Healthy w (w.pools p) s.fl.user.pos) :
    NoErr E (healthCheck s.fl.w (s.fl.w.pools p) s) := by
  unfold healthCheck
  split
  case isFalse => exact NoErr.pure
  case isTrue hc =>
    obtain ⟨hpr, C, L, n, hC, hL, ⟨i, hi, hn⟩, h1, h2⟩ := h hc.1 hc.2
    have hC' := collValue_congr (w' := s.fl.w) f.oracle f.time hC
    have hL' := liabValue_congr (w' := s.fl.w) f.oracle f.time hL
    obtain ⟨Cr, Lr, hv⟩ := exists_raw hC' hL'
    have hpr' : PricesOk s.fl.w (w.pools p) := by
      intro i a x ts h1 h2 h3
      rw [f.oracle] at h3
      exact hpr i a x ts h1 h2 h3
    have hrt : RatesPos (w.pools p) s.fl.w.time := by rw [f.time]; exact hr.ratesPos hp
    have hcur : CacheCur (w.pools p) (s.fl.w.pools p) s.fl.w.time s.fl.cache := by rw [f.time]; exact t.cur
    have hb : ∀ i, 0 ≤ s.fl.user.pos.collateral.bal i := f.bal_nonneg .coll
    have hd : ∀ i, 0 ≤ s.fl.user.pos.liabilities.bal i := f.bal_nonneg .liab
    refine NoErr.bind (calcPositionData_live hcur (hr.base.cfg p) hpr' hrt hb hd hv fun hE => by rw [hov] at hE; cases hE) fun x hx => ?_
    obtain ⟨pd, cache'⟩ := x
    obtain ⟨_, va⟩ := calcPositionData_ok hcur hb hd hx
    obtain ⟨m, ⟨j, hj, hjm⟩, hsc⟩ := va.scalar
    rw [hi] at hj; cases hj
    rw [f.oracle, hn] at hjm; subst hjm
    obtain ⟨e1, _, e2, _⟩ := values_unique hv ⟨va.coll, va.collRaw, va.liab, va.liabRaw⟩
    have hL0 := liabValue_nonneg va.liab hpr' hrt hd
    subst e1 e2
    obtain ⟨k1, k2⟩ := hfUnder_live hov hsc hL0 h1 h2
    refine NoErr.bind k1 fun b hb => NoErr.bind (NoErr.req ?_) fun _ _ => NoErr.pure
    rw [k2 b hb]
    simp

/-! ### all requests of a submit -/

/-- a borrow leaves the supplied shares as they are -/
theorem _root_.Blend.Pool.effect_borrow {b dr : Int} {i j : Nat} {A A1 : Account} {q : Request} (he : Effect b dr i A q A1) (h4 : q.type = 4) :
    A1.supplied j + A1.collateral j = A.supplied j + A.collateral j := by
  cases he <;> simp_all

/-- what a plain request that goes through leaves, and its part of the plan -/
theorem plain_plan (hr : Reachable w) (hp : w.poolAddr p = true) {sender : Address} (hsp : sender ≠ p) {s s' : SubmitState} {auth : List Address}
    (f : FlightOk w p sender s) (f' : FlightOk w p sender s') (t : Track w p s.fl)
    {Δ : Kind → Nat → Int} (hsup : ∀ k i, tot (s.vs p).ps k i = tot (w.pools p) k i + Δ k i) {q : Request} (hq : Plain q)
    (h : processRequest p auth s q = .ok s') :
    Track w p s'.fl ∧ (s'.fl.w.pools p).positions = (s.fl.w.pools p).positions ∧ (∀ t x, s'.fl.w.balance t x = s.fl.w.balance t x) ∧
    ∃ c d, (w.pools p).resConfig q.address = some c ∧ Current (w.pools p) w.time q.address d ∧ 0 < d.bRate ∧ 0 < d.dRate ∧
      Effect d.bRate d.dRate c.index s.acct q s'.acct ∧
      (q.type = 4 → UtilAtMost { d with
        bSupply := d.bSupply + (Δ .supp c.index + Δ .coll c.index)
        dSupply := d.dSupply + Δ .liab c.index + (s'.acct.debt c.index - s.acct.debt c.index) } c.maxUtil) := by
  obtain ⟨⟨r, r', cache, hld, hlo, hres, eb, ed, he, ⟨e1, e2⟩, hut, _⟩, hbal, ps', hw, hpo, _⟩ := plain_step f hq h
  obtain ⟨c, hc, hi, _, _, _, hmax⟩ := hlo.cfg
  obtain ⟨d, hd, k1, k2, _⟩ := loaded_rates f t hld
  have hb := hlo.bRate
  have hdr := hlo.dRate
  refine ⟨(full_step hr (hr.base.pool_ne hp) hsp f f' t h).1, ?_, hbal, c, d, hc, hd, by omega, by omega, ?_, fun h4 => ?_⟩
  · rw [hw, pools_setPool, hpo]
  · rw [← k1, ← k2, ← hi]; exact he
  · obtain ⟨j1, j2⟩ := loaded_supplies hr hp f hsup hld hc hd
    have hr' : s'.fl.cache.reserves.get q.address = some r' := by rw [hres]; simp
    have hd' : (s'.vs p).ps.resData q.address = some r'.data := by
      show overlayData _ _ _ = _
      simp [overlayData, hr']
    have hs0 := (f'.pinv.dataOk f'.cfg hd').bSupply
    have hu := util_spec (hut h4) hs0 (by omega)
    have hm : r'.maxUtil = c.maxUtil := by
      obtain ⟨c1, hc1, _, _, _, _, hm⟩ := (f'.cacheOk.res _ _ hr').cfg
      rw [f'.same.resConfig, hc] at hc1
      cases hc1
      exact hm
    rw [hm] at hu
    unfold UtilAtMost at hu ⊢
    rw [hi] at e1 e2
    have hs4 : s'.acct.supplied c.index + s'.acct.collateral c.index = s.acct.supplied c.index + s.acct.collateral c.index := by
      clear e1 e2
      exact effect_borrow he h4
    have g1 : r'.data.bSupply = d.bSupply + (Δ .supp c.index + Δ .coll c.index) := by omega
    have g2 : r'.data.dSupply = d.dSupply + Δ .liab c.index + (s'.acct.debt c.index - s.acct.debt c.index) := by omega
    rw [g1, g2, eb, ed, k1, k2] at hu
    exact hu

/-- the two forms of the condition on the utilization after a borrow -/
theorem util_shares {sender : Address} {s : SubmitState} {b dr : Int} {d : ReserveData} {i : Nat} {q : Request} {A1 : Account} (h4 : q.type = 4)
    (he : Effect b dr i s.acct q A1) :
    ({ d with
        bSupply := d.bSupply + (((Kind.supp.map s.fl.user.pos).bal i - (Kind.supp.map (getPositions (w.pools p) sender)).bal i) +
          ((Kind.coll.map s.fl.user.pos).bal i - (Kind.coll.map (getPositions (w.pools p) sender)).bal i))
        dSupply := d.dSupply + ((Kind.liab.map s.fl.user.pos).bal i - (Kind.liab.map (getPositions (w.pools p) sender)).bal i)
          + (A1.debt i - s.acct.debt i) } : ReserveData) = withShares d i (accountOf (w.pools p) sender) A1 := by
  cases he with
  | borrow _ _ _ =>
    simp only [withShares, SubmitState.acct, accountOf, Kind.map, bump, if_true, ReserveData.mk.injEq, true_and, and_true]
    constructor <;> omega
  | _ => simp at h4

/-- between the requests of a submit of plain requests -/
structure Between (w : World) (p : Address) (s : SubmitState) : Prop where
  track : Track w p s.fl
  pos : (s.fl.w.pools p).positions = (w.pools p).positions
  bal : ∀ t x, s.fl.w.balance t x = w.balance t x

/-- requests that go through follow a plan -/
theorem plans (hr : Reachable w) (hp : w.poolAddr p = true) {sender : Address} (hsp : sender ≠ p) {auth : List Address} {cache : Cache}
    (hc : Cache.load (w.pools p) = .ok cache) : ∀ (l l1 : List Request) (s s' : SubmitState), (∀ q ∈ l, Plain q) →
      l1.foldlM (processRequest p auth) (startState w p cache sender) = .ok s → Between w p s → l.foldlM (processRequest p auth) s = .ok s' →
      Between w p s' ∧ Plan (w.pools p) w.time (accountOf (w.pools p) sender) l s.acct s'.acct := by
  intro l
  induction l with
  | nil =>
    intro l1 s s' _ _ hb h
    rw [foldlM_nil] at h
    subst h
    exact ⟨hb, .nil _⟩
  | cons q l ih =>
    intro l1 s s' hq h1 hb h
    rw [foldlM_cons] at h
    obtain ⟨s1, hs1, h⟩ := h
    have h1' : (l1 ++ [q]).foldlM (processRequest p auth) (startState w p cache sender) = .ok s1 := by
      rw [List.foldlM_append, bind_ok]
      exact ⟨s, h1, by rw [foldlM_cons]; exact ⟨s1, hs1, rfl⟩⟩
    have f := flight_of hr hp hsp hc h1
    obtain ⟨k1, k2, k3, c, d, k4, k5, _, _, k6, k7⟩ := plain_plan hr hp hsp f (flight_of hr hp hsp hc h1') hb.track (sup_of_pos f hb.pos) (hq q (by simp)) hs1
    rw [hb.pos] at k2
    obtain ⟨j1, j2⟩ := ih (l1 ++ [q]) s1 s' (fun x hx => hq x (by simp [hx])) h1' ⟨k1, k2, fun t x => (k3 t x).trans (hb.bal t x)⟩ h
    refine ⟨j1, .cons k4 k5 k6 (fun h4 => ?_) j2⟩
    have h7 := k7 h4
    rw [util_shares h4 k6] at h7
    exact h7

/-- requests that follow a plan go through, and lead where the plan says -/
theorem plan_live (hr : Reachable w) (hp : w.poolAddr p = true) {sender : Address} (hsp : sender ≠ p) {auth : List Address} {cache : Cache}
    (hov : E .overflow = false) (hc : Cache.load (w.pools p) = .ok cache) {i : PoolInst} (hi : (w.pools p).inst = some i) :
    ∀ (l l1 : List Request) (s : SubmitState) (A : Account), (∀ q ∈ l, Plain q ∧ Permitted i.config.status q) →
      l1.foldlM (processRequest p auth) (startState w p cache sender) = .ok s → Between w p s →
      Plan (w.pools p) w.time (accountOf (w.pools p) sender) l s.acct A →
      NoErr E (l.foldlM (processRequest p auth) s) ∧ ∀ s', l.foldlM (processRequest p auth) s = .ok s' → s'.acct = A := by
  intro l
  induction l with
  | nil =>
    intro l1 s A _ _ _ hpl
    cases hpl
    exact ⟨NoErr.pure, fun s' hs' => by rw [foldlM_nil] at hs'; rw [hs']⟩
  | cons q l ih =>
    intro l1 s A hq h1 hb hpl
    cases hpl with
    | cons p1 p2 p3 p4 p5 =>
    have f := flight_of hr hp hsp hc h1
    have hreq : NoErr E (processRequest p auth s q) := request_flight hr hp hov f hb.track (flight_einv hr hp hsp hc h1) (sup_of_pos f hb.pos) hi (hq q (by simp)).2 p1 p2 p3
      (fun h4 => by rw [util_shares h4 p3]; exact p4 h4)
    have key : ∀ s1, processRequest p auth s q = .ok s1 → NoErr E (l.foldlM (processRequest p auth) s1) ∧
        ∀ s', l.foldlM (processRequest p auth) s1 = .ok s' → s'.acct = A := by
      intro s1 hs1
      have h1' : (l1 ++ [q]).foldlM (processRequest p auth) (startState w p cache sender) = .ok s1 := by
        rw [List.foldlM_append, bind_ok]
        exact ⟨s, h1, by rw [foldlM_cons]; exact ⟨s1, hs1, rfl⟩⟩
      obtain ⟨k1, k2, k3, c, d, k4, k5, k8, k9, k6, k7⟩ := plain_plan hr hp hsp f (flight_of hr hp hsp hc h1') hb.track (sup_of_pos f hb.pos) (hq q (by simp)).1 hs1
      rw [hb.pos] at k2
      rw [p1] at k4; cases k4
      have := Current.unique p2 k5
      subst this
      have := Effect.unique k8 k9 p3 k6
      subst this
      exact ih (l1 ++ [q]) s1 A (fun x hx => hq x (by simp [hx])) h1' ⟨k1, k2, fun t x => (k3 t x).trans (hb.bal t x)⟩ p5
    refine ⟨?_, fun s' hs' => ?_⟩
    · rw [List.foldlM_cons]
      exact NoErr.bind hreq fun s1 hs1 => (key s1 hs1).1
    · rw [foldlM_cons] at hs'
      obtain ⟨s1, hs1, hs'⟩ := hs'
      exact (key s1 hs1).2 s' hs'

/-! ### positions -/

theorem FlightOk.entries {sender : Address} {s : SubmitState} (f : FlightOk w p sender s) (k : Kind) {i : Nat} {v : Int}
    (h : (k.map s.fl.user.pos).get i = some v) : 0 < v ∧ i < (w.pools p).resList.length := by
  have := f.pinv.bals s.fl.user.addr s.fl.user.pos k i v (by
    show ((overlay _ _ ([] ++ [s.fl.user])).positions).get _ = _
    rw [overlay_positions_append, SMap.get_set]; simp) h
  refine ⟨this.1, ?_⟩
  have h2 : i < (s.fl.w.pools p).resList.length := this.2
  rw [f.same.resList] at h2
  exact h2

theorem FlightOk.count {sender : Address} {s : SubmitState} (f : FlightOk w p sender s) :
    s.fl.user.pos.effectiveCount = openPositions (w.pools p).resList.length s.acct := by
  have h1 : s.fl.user.pos.liabilities.len = _ := len_count (fun i v h => f.entries .liab h)
  have h2 : s.fl.user.pos.collateral.len = _ := len_count (fun i v h => f.entries .coll h)
  unfold Positions.effectiveCount openPositions
  rw [h1, h2]
  exact Nat.add_comm _ _

theorem FlightOk.noDebt {sender : Address} {s : SubmitState} (f : FlightOk w p sender s) :
    s.fl.user.pos.liabilities.isEmpty = false ↔ ∃ k, s.acct.debt k ≠ 0 := by
  constructor
  · intro h
    cases hl : s.fl.user.pos.liabilities.toList with
    | nil => rw [SMap.isEmpty, hl] at h; cases h
    | cons kv l =>
      have hg : s.fl.user.pos.liabilities.get kv.1 = some kv.2 := SMap.mem_toList.1 (by rw [hl]; simp)
      refine ⟨kv.1, ?_⟩
      have := (f.entries .liab hg).1
      show s.fl.user.pos.liabilities.bal kv.1 ≠ 0
      unfold SMap.bal
      rw [hg]
      simp only [Option.getD_some]
      omega
  · rintro ⟨k, hk⟩
    cases h : s.fl.user.pos.liabilities.isEmpty with
    | false => rfl
    | true =>
      exfalso
      apply hk
      show s.fl.user.pos.liabilities.bal k = 0
      unfold SMap.bal
      rw [SMap.get_of_isEmpty h]; rfl

theorem healthy_congr {V : PoolState} {pos pos' : Positions} (h1 : ∀ i, pos'.collateral.bal i = pos.collateral.bal i)
    (h2 : ∀ i, pos'.liabilities.bal i = pos.liabilities.bal i) (h : Healthy w V pos) : Healthy w V pos' := by
  obtain ⟨C, L, n, ⟨f, hf, rfl⟩, ⟨g, hg, rfl⟩, h3⟩ := h
  exact ⟨_, _, n, ⟨f, fun i hi => by rw [h1]; exact hf i hi, rfl⟩, ⟨g, fun i hi => by rw [h2]; exact hg i hi, rfl⟩, h3⟩

/-- transfers that go through were covered -/
theorem transfers_enough {src dst : Address} : ∀ (l : List (Nat × Int)) (w w' : World),
    l.Pairwise (fun a b => a.1 < b.1) → l.foldlM (fun w kv => transfer w kv.1 src dst kv.2) w = .ok w' →
    ∀ kv ∈ l, kv.2 ≤ w.balance kv.1 src := by
  intro l
  induction l with
  | nil => intro w w' _ _ kv hkv; cases hkv
  | cons kv l ih =>
    intro w w' hs h x hx
    rw [foldlM_cons] at h
    obtain ⟨w1, h1, h2⟩ := h
    obtain ⟨p1, p2⟩ := List.pairwise_cons.1 hs
    have r := transfer_res h1
    rcases List.mem_cons.1 hx with rfl | hx
    · exact r.enough
    · have := ih w1 w' p2 h2 x hx
      rw [r.bal] at this
      unfold moved at this
      have hlt := p1 x hx
      have hk : ¬ x.1 = kv.1 := by omega
      simp only [hk, false_and, if_false] at this
      omega

end Pool
end Blend
