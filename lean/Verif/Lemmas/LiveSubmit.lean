import Verif.Lemmas.LivePool
import Verif.Lemmas.PlainValue
import Verif.Lemmas.NoSubmit
import Verif.Lemmas.Liquidation
/-
  Which errors a submit of a single withdrawal or repayment can run into (C52).
-/

namespace Blend
namespace Pool
open Spec

variable {E : Err → Bool} {w : World} {p a : Address} {c : ReserveConfig} {d : ReserveData} {i : PoolInst}

/-- a submit of a single request without a health check -/
theorem one_live (hr : Reachable w) (hp : w.poolAddr p = true) {auth : List Address} {sender spender dst : Address} {q : Request}
    (hauth : ∀ x ∈ auth, ¬ w.isProtocol x) (h1 : sender ∈ auth) (h2 : spender ∈ auth) (hs : sender ≠ p) (hsp : spender ≠ p) (hd : dst ≠ p)
    (hi : (w.pools p).inst = some i) (hq : OpensNone q)
    (hreq : ∀ cache, Cache.load (w.pools p) = .ok cache → NoErr E (processRequest p auth (startState w p cache sender) q))
    (hrest : ∀ cache s, Cache.load (w.pools p) = .ok cache → processRequest p auth (startState w p cache sender) q = .ok s →
      (s.check = false ∨ s.fl.user.pos.liabilities.isEmpty = true) ∧
      (∀ a ∈ s.fl.cache.toStore, ∃ r, s.fl.cache.reserves.get a = some r) ∧
      NoErr E (s.actions.spender.toList.foldlM (fun w kv => transfer w kv.1 spender p kv.2) s.fl.w) ∧
      ∀ w1 w2, s.actions.spender.toList.foldlM (fun w kv => transfer w kv.1 spender p kv.2) s.fl.w = .ok w1 →
        (∀ t x, w2.balance t x = w1.balance t x) →
        NoErr E (s.actions.pool.toList.foldlM (fun w kv => transfer w kv.1 p dst kv.2) w2)) :
    NoErr E (step w (.pool p auth (.submit sender spender dst [q]))) := by
  have hexec : NoErr E (executeSubmit w p auth sender spender dst [q]) := by
    unfold executeSubmit buildActions
    refine NoErr.bind (NoErr.req (by simp [hs, hsp, hd])) fun _ _ => ?_
    refine NoErr.bind ?_ fun cache hc => ?_
    · unfold Cache.load PoolState.getInst
      exact NoErr.bind (NoErr.unwrap hi) fun _ _ => NoErr.pure
    refine NoErr.bind ?_ fun s hs' => ?_
    · refine NoErr.bind ?_ fun s hs' => NoErr.bind ?_ fun _ _ => NoErr.pure
      · rw [List.foldlM_cons]
        exact NoErr.bind (hreq cache hc) fun _ _ => NoErr.pure
      · have := requests_count hr hp hs hc [q] [] _ s (by simpa using hq) rfl hs'
        unfold requireUnderMax
        refine NoErr.req ?_
        simp only [startState, User.load] at this ⊢
        omega
    · simp only [bind_ok, pure_ok, List.foldlM_cons, List.foldlM_nil] at hs'
      obtain ⟨_, ⟨s', hs', rfl⟩, _, _, rfl⟩ := hs'
      obtain ⟨r1, r2, r3, r4⟩ := hrest cache _ hc hs'
      refine NoErr.bind (?_ : NoErr E (healthCheck _ _ _)) fun cache' hc' => ?_
      · unfold healthCheck
        rw [if_neg]
        · exact NoErr.pure
        · rintro ⟨e1, e2⟩
          rcases r1 with r1 | r1
          · rw [r1] at e1; cases e1
          · rw [r1] at e2; cases e2
      have : cache' = s'.fl.cache := by
        unfold healthCheck at hc'
        rw [if_neg] at hc'
        · cases hc'; rfl
        · rintro ⟨e1, e2⟩
          rcases r1 with r1 | r1
          · rw [r1] at e1; cases e1
          · rw [r1] at e2; cases e2
      subst this
      refine NoErr.bind r3 fun w1 hw1 => NoErr.bind ?_ fun ps1 _ => ?_
      · unfold Cache.storeAll
        generalize w1.pools p = x
        have : ∀ (l : List Address) (x : PoolState), (∀ a ∈ l, ∃ r, s'.fl.cache.reserves.get a = some r) →
            NoErr E (l.foldlM (fun ps a => match s'.fl.cache.reserves.get a with
              | some r => Pure.pure (r.store ps)
              | none => .error (.pool .internalReserveNotFound)) x) := by
          intro l
          induction l with
          | nil => intro x _; exact NoErr.pure
          | cons b l ih =>
            intro x hl
            rw [List.foldlM_cons]
            obtain ⟨r, hr⟩ := hl b (List.mem_cons_self ..)
            refine NoErr.bind ?_ fun y _ => ih y fun z hz => hl z (List.mem_cons_of_mem _ hz)
            rw [hr]; exact NoErr.pure
        exact this _ _ r2
      · exact NoErr.bind (r4 w1 _ hw1 fun t x => rfl) fun _ _ => NoErr.pure
  unfold step call
  refine NoErr.bind (NoErr.req hp) fun _ _ => NoErr.bind (NoErr.req hauth) fun _ _ => ?_
  refine NoErr.bind (NoErr.req h2) fun _ _ => ?_
  dsimp only
  split
  · exact NoErr.bind (NoErr.req h1) fun _ _ => NoErr.bind hexec fun _ _ => NoErr.pure
  · exact NoErr.bind hexec fun _ _ => NoErr.pure

/-- loading a reserve for the first time -/
theorem loadReserve_live (hr : Reachable w) (hp : w.poolAddr p = true) (hi : (w.pools p).inst = some i)
    (hc : (w.pools p).resConfig a = some c) (hd : (w.pools p).resData a = some d)
    (hB : E .overflow = true → Moderate c d w.time) {cache : Cache} (hl : Cache.load (w.pools p) = .ok cache) :
    NoErr E (cache.loadReserve (w.pools p) w.time a true) := by
  have cfg := hr.base.cfg p
  have hv := cfg.valid a c hc
  obtain ⟨_, e1, e2, i', hi', e3⟩ := load_ok (now := w.time) hl
  rw [hi] at hi'; cases hi'
  have hok := (hr.pinv hp).dataOk cfg hd
  unfold Cache.loadReserve
  dsimp only
  rw [e2]
  simp only [List.not_mem_nil, not_false_eq_true, and_self, if_true, e1]
  have : (SMap.empty : SMap Reserve).get a = none := by simp
  rw [this]
  refine NoErr.bind ?_ fun _ _ => NoErr.pure
  unfold Reserve.load
  refine NoErr.bind (NoErr.unwrap hc) fun c' hc' => ?_
  rw [unwrap_ok, hc] at hc'; cases hc'
  refine NoErr.bind (NoErr.unwrap hd) fun d' hd' => ?_
  rw [unwrap_ok, hd] at hd'; cases hd'
  refine NoErr.bind ?_ fun _ _ => NoErr.bind ?_ fun _ _ => NoErr.pure
  · unfold pow10
    have h18 : (10 : Int) ^ c.decimals ≤ 10 ^ 18 := pow_le_pow_right₀ (by decide) hv.decimals
    exact NoErr.chk fun _ => inI (by positivity) (by omega)
  · rw [e3]
    exact accrue_live hv hok ((hr.pinv hp).rates a d hd).2.2.2.2 (cfg.rate i hi) hB

/-- what a loaded reserve looks like -/
structure LoadedNow (w : World) (p a : Address) (c : ReserveConfig) (d : ReserveData) (i : PoolInst) (r : Reserve) (cache : Cache) : Prop where
  asset : r.asset = a
  index : r.index = c.index
  scalar : r.scalar = 10 ^ c.decimals
  data : accrue c i.config.bstopRate w.time d = .ok r.data
  store : cache.toStore = [a]
  config : cache.config = i.config

theorem loadReserve_now (hi : (w.pools p).inst = some i) (hc : (w.pools p).resConfig a = some c) (hd : (w.pools p).resData a = some d)
    {cache cache' : Cache} (hl : Cache.load (w.pools p) = .ok cache) {r : Reserve}
    (h : cache.loadReserve (w.pools p) w.time a true = .ok (r, cache')) : LoadedNow w p a c d i r cache' := by
  obtain ⟨_, e1, e2, i', hi', e3⟩ := load_ok (now := w.time) hl
  rw [hi] at hi'; cases hi'
  unfold Cache.loadReserve at h
  dsimp only at h
  rw [e2] at h
  simp only [List.not_mem_nil, not_false_eq_true, and_self, if_true, e1] at h
  have : (SMap.empty : SMap Reserve).get a = none := by simp
  rw [this] at h
  unfold Reserve.load at h
  simp only [bind_ok, unwrap_ok, pure_ok, Prod.mk.injEq, hc, hd, pow10, chk_ok] at h
  obtain ⟨r', ⟨c', hc', d', hd', s, ⟨_, rfl⟩, d1, hd1, rfl⟩, rfl, rfl⟩ := h
  cases hc'; cases hd'
  rw [e3] at hd1
  exact ⟨rfl, rfl, rfl, hd1, rfl, e3⟩

theorem ebal_le {id : Nat} (hr : Reachable w) (hp : w.poolAddr p = true) (u : Address) :
    0 ≤ ebal (w.pools p) id u ∧ ebal (w.pools p) id u ≤ etot (w.pools p) id :=
  ⟨(hr.pinv hp).ebal_nonneg id u, ebal_le_etot (hr.pinv hp) id u⟩

/-- the emission update of a share operation -/
theorem bEmis_live (hr : Reachable w) (hp : w.poolAddr p = true) (hc : (w.pools p).resConfig a = some c)
    (hd : (w.pools p).resData a = some d) (hB : E .overflow = true → ModerateEmissions (w.pools p) (c.index * 2 + 1))
    {r : Reserve} {cache : Cache} (hl : LoadedNow w p a c d i r cache) (u : Address) :
    NoErr E (updateBEmis (w.pools p) w.time (User.load (w.pools p) u) r
      ((getPositions (w.pools p) u).collateral.bal c.index + (getPositions (w.pools p) u).supply.bal c.index)) := by
  have cfg := hr.base.cfg p
  have e := emissions_live (claim := false) (E := E) (S := .of w p) (id := c.index * 2 + 1) (a := a) (c := c) (u := u) (hr.einv hp) (hr.claimed_nonneg hp _)
    (by have : (c.index * 2 + 1) / 2 = c.index := by omega
        rw [this]; exact cfg.idx a c hc) hc (cfg.valid a c hc).decimals hB
  unfold updateBEmis
  refine NoErr.bind ?_ fun _ _ => NoErr.pure
  have e1 : r.data.bSupply = etot (w.pools p) (c.index * 2 + 1) := by
    rw [(accrue_supplies hl.data).1]
    exact (hr.pinv hp).supply_eq hc hd .supp
  have e2 := emisBal_eq (w.pools p) .supp c.index u
  rw [hl.index, hl.scalar, e1, show (getPositions (w.pools p) u).collateral.bal c.index + (getPositions (w.pools p) u).supply.bal c.index =
    ebal (w.pools p) (c.index * 2 + 1) u from e2]
  exact e

theorem dEmis_live (hr : Reachable w) (hp : w.poolAddr p = true) (hc : (w.pools p).resConfig a = some c)
    (hd : (w.pools p).resData a = some d) (hB : E .overflow = true → ModerateEmissions (w.pools p) (c.index * 2))
    {r : Reserve} {cache : Cache} (hl : LoadedNow w p a c d i r cache) (u : Address) :
    NoErr E (updateDEmis (w.pools p) w.time (User.load (w.pools p) u) r ((getPositions (w.pools p) u).liabilities.bal c.index)) := by
  have cfg := hr.base.cfg p
  have e := emissions_live (claim := false) (E := E) (S := .of w p) (id := c.index * 2) (a := a) (c := c) (u := u) (hr.einv hp) (hr.claimed_nonneg hp _)
    (by have : (c.index * 2) / 2 = c.index := by omega
        rw [this]; exact cfg.idx a c hc) hc (cfg.valid a c hc).decimals hB
  unfold updateDEmis
  refine NoErr.bind ?_ fun _ _ => NoErr.pure
  have e1 : r.data.dSupply = etot (w.pools p) (c.index * 2) := by
    rw [(accrue_supplies hl.data).2]
    exact (hr.pinv hp).supply_eq hc hd .liab
  have e2 := emisBal_eq (w.pools p) .liab c.index u
  rw [hl.index, hl.scalar, e1, show (getPositions (w.pools p) u).liabilities.bal c.index = ebal (w.pools p) (c.index * 2) u from e2]
  exact e

theorem withdrawAmounts_live {cur n : Int} (hr1 : 1000000000 ≤ d.bRate) (hcur : 0 ≤ cur) (hn : 0 < n)
    (hB : E .overflow = true → n ≤ 10 ^ 29 ∧ cur * d.bRate ≤ 10 ^ 38) : NoErr E (withdrawAmounts d cur n) := by
  unfold withdrawAmounts
  have e9 : SCALAR_9 = 1000000000 := rfl
  refine NoErr.bind (NoErr.mulDivCeil (by omega) fun hE => ?_) fun burn hb => ?_
  · have := (hB hE).1
    rw [e9]; omega
  · split
    · refine NoErr.bind (NoErr.mulDivFloor (by decide) fun hE => inI ?_ (hB hE).2) fun _ _ => NoErr.pure
      exact mul_nonneg hcur (by omega)
    · exact NoErr.pure

theorem withdrawAmounts_paid {cur n burn out : Int} (hr1 : 1000000000 ≤ d.bRate) (hcur : 0 < cur) (hn : 0 < n)
    (h : withdrawAmounts d cur n = .ok (burn, out)) :
    0 < burn ∧ burn ≤ cur ∧ 0 ≤ out ∧ out ≤ n ∧ out * 1000000000 ≤ cur * d.bRate := by
  have e9 : SCALAR_9 = 1000000000 := rfl
  unfold withdrawAmounts at h
  simp only [bind_ok, ite_ok, pure_ok, Prod.mk.injEq] at h
  obtain ⟨b, hb1, ⟨hlt, o, ho, rfl, rfl⟩ | ⟨hge, rfl, rfl⟩⟩ := h
  · obtain ⟨h1, h2⟩ := mulDivFloor_spec ho (by decide)
    obtain ⟨h3, h4⟩ := mulDivCeil_spec hb1 (by omega)
    have h0 : 0 ≤ o := mulDivFloor_nonneg ho (by decide) (mul_nonneg hcur.le (by omega))
    rw [e9] at h1 h2 h3 h4
    refine ⟨hcur, le_refl _, h0, ?_, h1⟩
    have : (cur + 1) * d.bRate ≤ b * d.bRate := mul_le_mul_of_nonneg_right (by omega) (by omega)
    nlinarith
  · obtain ⟨h3, h4⟩ := mulDivCeil_spec hb1 (by omega)
    rw [e9] at h3 h4
    have hbp : 0 < b := by
      by_contra hb
      have : b * d.bRate ≤ 0 := mul_nonpos_of_nonpos_of_nonneg (by omega) (by omega)
      omega
    refine ⟨hbp, by omega, hn.le, le_refl _, ?_⟩
    have : b * d.bRate ≤ cur * d.bRate := mul_le_mul_of_nonneg_right (by omega) (by omega)
    omega

/-- what a user's shares of a reserve come to, against its totals -/
theorem shares_le (hr : Reachable w) (hp : w.poolAddr p = true) (hc : (w.pools p).resConfig a = some c)
    (hd : (w.pools p).resData a = some d) (u : Address) :
    0 ≤ (getPositions (w.pools p) u).collateral.bal c.index ∧ 0 ≤ (getPositions (w.pools p) u).supply.bal c.index ∧
    0 ≤ (getPositions (w.pools p) u).liabilities.bal c.index ∧
    (getPositions (w.pools p) u).collateral.bal c.index + (getPositions (w.pools p) u).supply.bal c.index ≤ d.bSupply ∧
    (getPositions (w.pools p) u).liabilities.bal c.index ≤ d.dSupply := by
  refine ⟨hr.bal_nonneg hp u .coll _, hr.bal_nonneg hp u .supp _, hr.bal_nonneg hp u .liab _, ?_, ?_⟩
  · have e2 := emisBal_eq (w.pools p) .supp c.index u
    have e1 := (hr.pinv hp).supply_eq hc hd .supp
    have := (ebal_le (id := c.index * 2 + 1) hr hp u).2
    simp only [Kind.emisBal, Kind.supply, Kind.id] at e1 e2
    rw [e2, e1]; exact this
  · have e2 := emisBal_eq (w.pools p) .liab c.index u
    have e1 := (hr.pinv hp).supply_eq hc hd .liab
    have := (ebal_le (id := c.index * 2) hr hp u).2
    simp only [Kind.emisBal, Kind.supply, Kind.id] at e1 e2
    rw [e2, e1]; exact this

/-- a transfer between two accounts fails only for lack of tokens or by overflow -/
theorem transfer_live {t src dst : Address} {n : Int} (hn : 0 ≤ n) (hne : dst ≠ src) (hb : E .token = true → n ≤ w.balance t src)
    (hB : E .overflow = true → 0 ≤ w.balance t dst ∧ w.balance t dst + n ≤ 10 ^ 38) : NoErr E (transfer w t src dst n) := by
  unfold transfer
  refine NoErr.bind (NoErr.req hn) fun _ _ => NoErr.bind ?_ fun _ _ => NoErr.bind (NoErr.chk fun hE => ?_) fun _ _ => NoErr.pure
  · by_cases h : n ≤ w.balance t src
    · exact NoErr.req h
    · exact NoErr.require (by cases hE : E .token with | true => exact absurd (hb hE) h | false => rfl)
  · have : (w.setBalance t src (w.balance t src - n)).balance t dst = w.balance t dst := by
      unfold World.balance World.setBalance
      simp [upd_apply, hne]
    rw [this]
    exact inI (by have := hB hE; omega) (hB hE).2

/-- the conditions of a withdrawal of `n` tokens by the owner of `cur` shares -/
structure WithdrawLive (E : Err → Bool) (w : World) (p a dst : Address) (c : ReserveConfig) (d : ReserveData) (i : PoolInst) (cur n : Int) : Prop where
  sizes : E .overflow = true → Moderate c d w.time ∧ ModerateEmissions (w.pools p) (c.index * 2 + 1) ∧ n ≤ 10 ^ 29 ∧
    w.balance a dst + n ≤ 10 ^ 38
  funds : E .token = true → ∀ d', accrue c i.config.bstopRate w.time d = .ok d' → ∀ v, v ≤ n → v * 1000000000 ≤ cur * d'.bRate →
    v ≤ w.balance a p

/-- the rates of a loaded reserve -/
theorem LoadedNow.rates (hr : Reachable w) (hp : w.poolAddr p = true) (hi : (w.pools p).inst = some i)
    (hc : (w.pools p).resConfig a = some c) (hd : (w.pools p).resData a = some d) {r : Reserve} {cache : Cache}
    (L : LoadedNow w p a c d i r cache) : 1000000000 ≤ r.data.bRate ∧ 1000000000 ≤ r.data.dRate := by
  have cfg := hr.base.cfg p
  have hok := (hr.pinv hp).dataOk cfg hd
  rcases accrue_mono L.data hok (cfg.valid a c hc).util (cfg.rate i hi) with h | ⟨_, h⟩
  · have := hok.bRate; have := hok.dRate; omega
  · rw [h]; exact ⟨hok.bRate, hok.dRate⟩

theorem setL_nil_toList (k : Nat) (v : Int) : ((SMap.empty : SMap Int).set k v).toList = [(k, v)] := rfl

/-- what happens after a request that only sends tokens out -/
theorem out_live {auth : List Address} {spender dst : Address} {s : SubmitState} {out : Int} {ps' : PoolState}
    (hw : s.fl.w = w.setPool p ps') (hsp : s.actions.spender = .empty) (hpl : s.actions.pool = SMap.empty.set a out)
    (hdst : dst ≠ p) (h0 : 0 ≤ out) (hb : E .token = true → out ≤ w.balance a p)
    (hB : E .overflow = true → 0 ≤ w.balance a dst ∧ w.balance a dst + out ≤ 10 ^ 38) :
    NoErr E (s.actions.spender.toList.foldlM (fun w kv => transfer w kv.1 spender p kv.2) s.fl.w) ∧
      ∀ w1 w2, s.actions.spender.toList.foldlM (fun w kv => transfer w kv.1 spender p kv.2) s.fl.w = .ok w1 →
        (∀ t x, w2.balance t x = w1.balance t x) →
        NoErr E (s.actions.pool.toList.foldlM (fun w kv => transfer w kv.1 p dst kv.2) w2) := by
  rw [hsp, hpl, setL_nil_toList]
  refine ⟨NoErr.pure, fun w1 w2 h1 h2 => ?_⟩
  have : w1 = s.fl.w := by cases h1; rfl
  subst this
  rw [hw] at h2
  have h2' : ∀ t x, w2.balance t x = w.balance t x := h2
  rw [List.foldlM_cons]
  refine NoErr.bind (transfer_live h0 hdst ?_ ?_) fun _ _ => NoErr.pure
  · rw [h2']; exact hb
  · rw [h2']; exact hB

theorem withdraw_live (hr : Reachable w) (hp : w.poolAddr p = true) {auth : List Address} {sender spender dst : Address} {n : Int}
    (hauth : ∀ x ∈ auth, ¬ w.isProtocol x) (h1 : sender ∈ auth) (h2 : spender ∈ auth) (hs : sender ≠ p) (hsp : spender ≠ p) (hdst : dst ≠ p)
    (hi : (w.pools p).inst = some i) (hc : (w.pools p).resConfig a = some c) (hd : (w.pools p).resData a = some d)
    (hcur : 0 < (getPositions (w.pools p) sender).supply.bal c.index) (hn : 0 < n)
    (hl : WithdrawLive E w p a dst c d i ((getPositions (w.pools p) sender).supply.bal c.index) n) :
    NoErr E (step w (.pool p auth (.submit sender spender dst [⟨1, a, n⟩]))) := by
  have cfg := hr.base.cfg p
  have hv := cfg.valid a c hc
  have hok := (hr.pinv hp).dataOk cfg hd
  obtain ⟨s1, s2, _, s4, _⟩ := shares_le hr hp hc hd sender
  have hsz : E .overflow = true → d.bSupply ≤ 10 ^ 35 := fun hE => by
    have h1 := (hl.sizes hE).1.value
    have h2 := hok.bSupply
    have h3 := hok.bRate
    nlinarith
  refine one_live hr hp hauth h1 h2 hs hsp hdst hi (.inr (.inl rfl)) (fun cache hca => ?_) fun cache s hca hst => ?_
  · unfold processRequest requireNonneg requireActionAllowed
    refine NoErr.bind (NoErr.req ?_) fun _ _ => NoErr.bind (NoErr.req (by simp)) fun _ _ => ?_
    · simpa using hn.le
    dsimp only
    unfold reqWithdraw
    dsimp only [startState]
    refine NoErr.bind (loadReserve_live hr hp hi hc hd (fun hE => (hl.sizes hE).1) hca) fun x hx => ?_
    obtain ⟨r, cache'⟩ := x
    have L := loadReserve_now hi hc hd hca hx
    dsimp only
    have hr1 := (L.rates hr hp hi hc hd).1
    have hsup := (accrue_supplies L.data).1
    simp only [User.load, L.index]
    refine NoErr.bind (withdrawAmounts_live hr1 s2 hn fun hE => ⟨(hl.sizes hE).2.2.1, ?_⟩) fun x hx => ?_
    · have h1 := (accrue_le hv hok (hl.sizes hE).1 L.data).2
      rw [hsup] at h1
      refine le_trans (mul_le_mul_of_nonneg_right ?_ (by omega)) h1
      omega
    obtain ⟨burn, out⟩ := x
    obtain ⟨p1, p2, p3, p4, p5⟩ := withdrawAmounts_paid hr1 hcur hn hx
    dsimp only
    refine NoErr.bind ?_ fun x _ => NoErr.bind (NoErr.bind (NoErr.chk fun hE => ?_) fun _ _ => NoErr.pure) fun _ _ => NoErr.pure
    · unfold removeSupply User.totalSupply requireNonneg
      dsimp only
      rw [L.index]
      refine NoErr.bind (NoErr.req (by omega)) fun _ _ => NoErr.bind (NoErr.chk fun hE => inI (by omega) ?_) fun tot ht => ?_
      · have := hsz hE; omega
      rw [chk_ok] at ht
      rw [ht.2]
      refine NoErr.bind (bEmis_live hr hp hc hd (fun hE => (hl.sizes hE).2.1) L sender) fun _ _ => ?_
      refine NoErr.bind (NoErr.chk fun hE => inI (by omega) (by have := hsz hE; omega)) fun nb hnb => ?_
      rw [chk_ok] at hnb
      refine NoErr.bind (NoErr.req (by omega)) fun _ _ => NoErr.bind (NoErr.chk fun hE => inI (by omega) ?_) fun _ _ => NoErr.pure
      have := hsz hE; omega
    · have e0 : (SMap.empty : SMap Int).bal r.asset = 0 := by simp
      rw [e0]
      exact inI (by omega) (by have := (hl.sizes hE).2.2.1; omega)
  · unfold processRequest at hst
    simp only [bind_ok] at hst
    obtain ⟨_, _, _, _, hst⟩ := hst
    unfold reqWithdraw at hst
    simp only [bind_ok, Prod.exists, pure_ok, startState] at hst
    obtain ⟨r, cache', hx, burn, out, hwa, ps', u', r', hrm, acts, hac, rfl⟩ := hst
    have L := loadReserve_now hi hc hd hca hx
    have hr1 := (L.rates hr hp hi hc hd).1
    simp only [User.load, L.index] at hwa
    obtain ⟨p1, p2, p3, p4, p5⟩ := withdrawAmounts_paid hr1 hcur hn hwa
    have hra : r'.asset = a := by
      unfold removeSupply at hrm
      simp only [bind_ok, pure_ok, Prod.mk.injEq] at hrm
      obtain ⟨_, _, _, _, _, _, _, _, _, _, _, _, _, _, rfl⟩ := hrm
      exact L.asset
    have hact : acts = ⟨.empty, SMap.empty.set a out⟩ := by
      unfold Actions.addPool at hac
      simp only [bind_ok, chk_ok, pure_ok] at hac
      obtain ⟨v, ⟨_, hv⟩, rfl⟩ := hac
      rw [L.asset] at hv ⊢
      have e0 : (SMap.empty : SMap Int).bal a = 0 := by simp
      rw [e0, add_zero] at hv
      rw [hv]
    refine ⟨.inl rfl, fun b hb => ?_, ?_⟩
    · have hb : b ∈ cache'.toStore := hb
      rw [L.store] at hb
      simp only [List.mem_singleton] at hb
      refine ⟨r', ?_⟩
      rw [hb]
      simp [Cache.put, hra]
    · have hbal : 0 ≤ w.balance a dst := hr.base.balances a dst
      exact out_live (auth := auth) (a := a) (out := out) rfl (by rw [hact]) (by rw [hact]) hdst p3 (fun hE => hl.funds hE _ L.data _ p4 p5)
        fun hE => ⟨hbal, by have := (hl.sizes hE).2.2.2; omega⟩

theorem withdrawColl_live (hr : Reachable w) (hp : w.poolAddr p = true) {auth : List Address} {sender spender dst : Address} {n : Int}
    (hauth : ∀ x ∈ auth, ¬ w.isProtocol x) (h1 : sender ∈ auth) (h2 : spender ∈ auth) (hs : sender ≠ p) (hsp : spender ≠ p) (hdst : dst ≠ p)
    (hi : (w.pools p).inst = some i) (hc : (w.pools p).resConfig a = some c) (hd : (w.pools p).resData a = some d)
    (hempty : (getPositions (w.pools p) sender).liabilities.isEmpty = true)
    (hcur : 0 < (getPositions (w.pools p) sender).collateral.bal c.index) (hn : 0 < n)
    (hl : WithdrawLive E w p a dst c d i ((getPositions (w.pools p) sender).collateral.bal c.index) n) :
    NoErr E (step w (.pool p auth (.submit sender spender dst [⟨3, a, n⟩]))) := by
  have cfg := hr.base.cfg p
  have hv := cfg.valid a c hc
  have hok := (hr.pinv hp).dataOk cfg hd
  obtain ⟨s1, s2, _, s4, _⟩ := shares_le hr hp hc hd sender
  have hsz : E .overflow = true → d.bSupply ≤ 10 ^ 35 := fun hE => by
    have h1 := (hl.sizes hE).1.value
    have h2 := hok.bSupply
    have h3 := hok.bRate
    nlinarith
  refine one_live hr hp hauth h1 h2 hs hsp hdst hi (.inr (.inr (.inl rfl))) (fun cache hca => ?_) fun cache s hca hst => ?_
  · unfold processRequest requireNonneg requireActionAllowed
    refine NoErr.bind (NoErr.req ?_) fun _ _ => NoErr.bind (NoErr.req (by simp)) fun _ _ => ?_
    · simpa using hn.le
    dsimp only
    unfold reqWithdrawColl
    dsimp only [startState]
    refine NoErr.bind (loadReserve_live hr hp hi hc hd (fun hE => (hl.sizes hE).1) hca) fun x hx => ?_
    obtain ⟨r, cache'⟩ := x
    have L := loadReserve_now hi hc hd hca hx
    dsimp only
    have hr1 := (L.rates hr hp hi hc hd).1
    have hsup := (accrue_supplies L.data).1
    simp only [User.load, L.index]
    refine NoErr.bind (withdrawAmounts_live hr1 s1 hn fun hE => ⟨(hl.sizes hE).2.2.1, ?_⟩) fun x hx => ?_
    · have h1 := (accrue_le hv hok (hl.sizes hE).1 L.data).2
      rw [hsup] at h1
      refine le_trans (mul_le_mul_of_nonneg_right ?_ (by omega)) h1
      omega
    obtain ⟨burn, out⟩ := x
    obtain ⟨p1, p2, p3, p4, p5⟩ := withdrawAmounts_paid hr1 hcur hn hx
    dsimp only
    refine NoErr.bind ?_ fun x _ => NoErr.bind (NoErr.bind (NoErr.chk fun hE => ?_) fun _ _ => NoErr.pure) fun _ _ => NoErr.pure
    · unfold removeCollateral User.totalSupply requireNonneg
      dsimp only
      rw [L.index]
      refine NoErr.bind (NoErr.req (by omega)) fun _ _ => NoErr.bind (NoErr.chk fun hE => inI (by omega) ?_) fun tot ht => ?_
      · have := hsz hE; omega
      rw [chk_ok] at ht
      rw [ht.2]
      refine NoErr.bind (bEmis_live hr hp hc hd (fun hE => (hl.sizes hE).2.1) L sender) fun _ _ => ?_
      refine NoErr.bind (NoErr.chk fun hE => inI (by omega) (by have := hsz hE; omega)) fun nb hnb => ?_
      rw [chk_ok] at hnb
      refine NoErr.bind (NoErr.req (by omega)) fun _ _ => NoErr.bind (NoErr.chk fun hE => inI (by omega) ?_) fun _ _ => NoErr.pure
      have := hsz hE; omega
    · have e0 : (SMap.empty : SMap Int).bal r.asset = 0 := by simp
      rw [e0]
      exact inI (by omega) (by have := (hl.sizes hE).2.2.1; omega)
  · unfold processRequest at hst
    simp only [bind_ok] at hst
    obtain ⟨_, _, _, _, hst⟩ := hst
    unfold reqWithdrawColl at hst
    simp only [bind_ok, Prod.exists, pure_ok, startState] at hst
    obtain ⟨r, cache', hx, burn, out, hwa, ps', u', r', hrm, acts, hac, rfl⟩ := hst
    have L := loadReserve_now hi hc hd hca hx
    have hr1 := (L.rates hr hp hi hc hd).1
    simp only [User.load, L.index] at hwa
    obtain ⟨p1, p2, p3, p4, p5⟩ := withdrawAmounts_paid hr1 hcur hn hwa
    have hra : r'.asset = a := by
      unfold removeCollateral at hrm
      simp only [bind_ok, pure_ok, Prod.mk.injEq] at hrm
      obtain ⟨_, _, _, _, _, _, _, _, _, _, _, _, _, _, rfl⟩ := hrm
      exact L.asset
    have hliab : u'.pos.liabilities.isEmpty = true := by
      unfold removeCollateral at hrm
      simp only [bind_ok, pure_ok, Prod.mk.injEq] at hrm
      obtain ⟨_, _, _, _, _, _, _, _, _, _, _, _, _, rfl, _⟩ := hrm
      exact hempty
    have hact : acts = ⟨.empty, SMap.empty.set a out⟩ := by
      unfold Actions.addPool at hac
      simp only [bind_ok, chk_ok, pure_ok] at hac
      obtain ⟨v, ⟨_, hv⟩, rfl⟩ := hac
      rw [L.asset] at hv ⊢
      have e0 : (SMap.empty : SMap Int).bal a = 0 := by simp
      rw [e0, add_zero] at hv
      rw [hv]
    refine ⟨.inr hliab, fun b hb => ?_, ?_⟩
    · have hb : b ∈ cache'.toStore := hb
      rw [L.store] at hb
      simp only [List.mem_singleton] at hb
      refine ⟨r', ?_⟩
      rw [hb]
      simp [Cache.put, hra]
    · have hbal : 0 ≤ w.balance a dst := hr.base.balances a dst
      exact out_live (auth := auth) (a := a) (out := out) rfl (by rw [hact]) (by rw [hact]) hdst p3 (fun hE => hl.funds hE _ L.data _ p4 p5)
        fun hE => ⟨hbal, by have := (hl.sizes hE).2.2.2; omega⟩

/-- the conditions of a repayment of `n` tokens -/
structure RepayLive (E : Err → Bool) (w : World) (p a spender dst : Address) (c : ReserveConfig) (d : ReserveData) (n : Int) : Prop where
  sizes : E .overflow = true → Moderate c d w.time ∧ ModerateEmissions (w.pools p) (c.index * 2) ∧ n ≤ 10 ^ 29 ∧
    w.balance a dst + n ≤ 10 ^ 38 ∧ w.balance a p + n ≤ 10 ^ 38
  funds : E .token = true → n ≤ w.balance a spender

/-- what happens after a request that brings tokens in and maybe refunds some -/
theorem in_live {spender dst : Address} {s : SubmitState} {n out : Int} {ps' : PoolState} (hr : Reachable w)
    (hw : s.fl.w = w.setPool p ps') (hsp : s.actions.spender = SMap.empty.set a n)
    (hpl : s.actions.pool = .empty ∨ s.actions.pool = SMap.empty.set a out)
    (hdst : dst ≠ p) (hspe : spender ≠ p) (h0 : 0 ≤ out) (hon : out ≤ n) (hb : E .token = true → n ≤ w.balance a spender)
    (hB : E .overflow = true → w.balance a dst + n ≤ 10 ^ 38 ∧ w.balance a p + n ≤ 10 ^ 38) :
    NoErr E (s.actions.spender.toList.foldlM (fun w kv => transfer w kv.1 spender p kv.2) s.fl.w) ∧
      ∀ w1 w2, s.actions.spender.toList.foldlM (fun w kv => transfer w kv.1 spender p kv.2) s.fl.w = .ok w1 →
        (∀ t x, w2.balance t x = w1.balance t x) →
        NoErr E (s.actions.pool.toList.foldlM (fun w kv => transfer w kv.1 p dst kv.2) w2) := by
  have hbal := hr.base.balances a
  have hwb : ∀ t x, (w.setPool p ps').balance t x = w.balance t x := fun _ _ => rfl
  rw [hsp, setL_nil_toList, hw]
  simp only [List.foldlM_cons, List.foldlM_nil]
  refine ⟨NoErr.bind (transfer_live (by omega) (Ne.symm hspe) ?_ ?_) fun _ _ => NoErr.pure, fun w1 w2 h1 h2 => ?_⟩
  · rw [hwb]; exact hb
  · rw [hwb]; exact fun hE => ⟨hbal p, (hB hE).2⟩
  · simp only [bind_ok, pure_ok] at h1
    obtain ⟨_, h1, rfl⟩ := h1
    have hres := transfer_res h1
    rcases hpl with hpl | hpl
    · rw [hpl]; exact NoErr.pure
    · rw [hpl, setL_nil_toList, List.foldlM_cons]
      have hb1 := h2 a p
      have hb2 := h2 a dst
      rw [hres.bal, hwb] at hb1 hb2
      simp only [moved, true_and, if_true, if_neg (Ne.symm hspe), if_neg hdst] at hb1 hb2
      have := hbal p
      have := hbal dst
      have hen := hres.enough
      rw [hwb] at hen
      refine NoErr.bind (transfer_live h0 hdst (fun _ => ?_) fun hE => ?_) fun _ _ => NoErr.pure
      · rw [hb1]; omega
      · have := hB hE
        rw [hb2]
        split
        · rename_i e
          rw [← e] at hen
          omega
        · omega

theorem repay_live (hr : Reachable w) (hp : w.poolAddr p = true) {auth : List Address} {sender spender dst : Address} {n : Int}
    (hauth : ∀ x ∈ auth, ¬ w.isProtocol x) (h1 : sender ∈ auth) (h2 : spender ∈ auth) (hs : sender ≠ p) (hsp : spender ≠ p) (hdst : dst ≠ p)
    (hi : (w.pools p).inst = some i) (hc : (w.pools p).resConfig a = some c) (hd : (w.pools p).resData a = some d)
    (hcur : 0 < (getPositions (w.pools p) sender).liabilities.bal c.index)
    (hn : ∀ d', accrue c i.config.bstopRate w.time d = .ok d' → d'.dRate ≤ n * 1000000000)
    (hl : RepayLive E w p a spender dst c d n) (hn0 : 0 < n) :
    NoErr E (step w (.pool p auth (.submit sender spender dst [⟨5, a, n⟩]))) := by
  have cfg := hr.base.cfg p
  have hv := cfg.valid a c hc
  have hok := (hr.pinv hp).dataOk cfg hd
  obtain ⟨_, _, s3, _, s5⟩ := shares_le hr hp hc hd sender
  have e9 : SCALAR_9 = 1000000000 := rfl
  have hsz : E .overflow = true → d.dSupply ≤ 10 ^ 35 := fun hE => by
    have h1 := (hl.sizes hE).1.debt
    have h2 := hok.dSupply
    have h3 := hok.dRate
    nlinarith
  have e0 : ∀ x, (SMap.empty : SMap Int).bal x = 0 := by simp
  -- the arithmetic shared by both parts
  have burnt_pos : ∀ {d' : ReserveData} {b : Int}, accrue c i.config.bstopRate w.time d = .ok d' → 1000000000 ≤ d'.dRate →
      d'.toDDown n = .ok b → 0 < b := by
    intro d' b h1 h2 h3
    have := (mulDivFloor_spec h3 (by omega)).2
    have := hn d' h1
    rw [e9] at *
    by_contra hb
    have : b * d'.dRate ≤ 0 := mul_nonpos_of_nonpos_of_nonneg (by omega) (by omega)
    nlinarith
  have owed_le : ∀ {d' : ReserveData} {b o : Int}, 1000000000 ≤ d'.dRate → d'.toDDown n = .ok b →
      (getPositions (w.pools p) sender).liabilities.bal c.index < b →
      d'.toAssetFromD ((getPositions (w.pools p) sender).liabilities.bal c.index) = .ok o → 0 ≤ o ∧ o ≤ n := by
    intro d' b o h2 h3 h4 h5
    have k1 := (mulDivFloor_spec h3 (by omega)).1
    have k2 := mulDivCeil_spec h5 (by decide)
    rw [e9] at *
    have k3 : ((getPositions (w.pools p) sender).liabilities.bal c.index + 1) * d'.dRate ≤ b * d'.dRate :=
      mul_le_mul_of_nonneg_right (by omega) (by omega)
    have k4 : 0 ≤ (getPositions (w.pools p) sender).liabilities.bal c.index * d'.dRate := mul_nonneg s3 (by omega)
    constructor <;> nlinarith
  refine one_live hr hp hauth h1 h2 hs hsp hdst hi (.inr (.inr (.inr (.inl rfl)))) (fun cache hca => ?_) fun cache s hca hst => ?_
  · unfold processRequest requireNonneg requireActionAllowed
    refine NoErr.bind (NoErr.req ?_) fun _ _ => NoErr.bind (NoErr.req (by simp)) fun _ _ => ?_
    · simpa using hn0.le
    dsimp only
    unfold reqRepay
    dsimp only [startState]
    refine NoErr.bind (loadReserve_live hr hp hi hc hd (fun hE => (hl.sizes hE).1) hca) fun x hx => ?_
    obtain ⟨r, cache'⟩ := x
    have L := loadReserve_now hi hc hd hca hx
    dsimp only
    have hr1 := (L.rates hr hp hi hc hd).2
    have hsup := (accrue_supplies L.data).2
    simp only [User.load, L.index]
    refine NoErr.bind (NoErr.mulDivFloor (by omega) fun hE => ?_) fun burnt hb => ?_
    · have := (hl.sizes hE).2.2.1
      rw [e9]
      exact inI (by omega) (by omega)
    have hbp := burnt_pos L.data hr1 hb
    refine NoErr.bind (NoErr.bind (NoErr.chk fun hE => ?_) fun _ _ => NoErr.pure) fun acts hacts => ?_
    · have := (hl.sizes hE).2.2.1
      rw [e0]
      exact inI (by omega) (by omega)
    have hremove : ∀ amt : Int, 0 < amt → amt ≤ (getPositions (w.pools p) sender).liabilities.bal c.index →
        NoErr E (removeLiabilities (w.pools p) w.time ⟨sender, getPositions (w.pools p) sender⟩ r amt) := by
      intro amt ha1 ha2
      unfold removeLiabilities requireNonneg
      dsimp only
      rw [L.index]
      refine NoErr.bind (NoErr.req (by omega)) fun _ _ => ?_
      refine NoErr.bind (dEmis_live hr hp hc hd (fun hE => (hl.sizes hE).2.1) L sender) fun _ _ => ?_
      refine NoErr.bind (NoErr.chk fun hE => inI (by omega) (by have := hsz hE; omega)) fun nb hnb => ?_
      rw [chk_ok] at hnb
      refine NoErr.bind (NoErr.req (by omega)) fun _ _ => NoErr.bind (NoErr.chk fun hE => inI (by omega) ?_) fun _ _ => NoErr.pure
      have := hsz hE; omega
    split
    · rename_i hlt
      refine NoErr.bind (NoErr.mulDivCeil (by decide) fun hE => ?_) fun owed ho => ?_
      · have h1 := (accrue_le hv hok (hl.sizes hE).1 L.data).1
        rw [hsup] at h1
        have h2 : (getPositions (w.pools p) sender).liabilities.bal c.index * r.data.dRate ≤ d.dSupply * r.data.dRate :=
          mul_le_mul_of_nonneg_right s5 (by omega)
        have h3 : 0 ≤ (getPositions (w.pools p) sender).liabilities.bal c.index * r.data.dRate := mul_nonneg s3 (by omega)
        omega
      obtain ⟨o1, o2⟩ := owed_le hr1 hb hlt ho
      refine NoErr.bind (NoErr.chk fun hE => inI (by omega) (by have := (hl.sizes hE).2.2.1; omega)) fun rf hrf => ?_
      rw [chk_ok] at hrf
      unfold requireNonneg
      refine NoErr.bind (NoErr.req (by omega)) fun _ _ => NoErr.bind (hremove _ hcur (le_refl _)) fun _ _ => ?_
      refine NoErr.bind (NoErr.bind (NoErr.chk fun hE => ?_) fun _ _ => NoErr.pure) fun _ _ => NoErr.pure
      have : acts.pool = .empty := by
        unfold Actions.addSpender at hacts
        simp only [bind_ok, pure_ok] at hacts
        obtain ⟨_, _, rfl⟩ := hacts
        rfl
      rw [this, e0]
      exact inI (by omega) (by have := (hl.sizes hE).2.2.1; omega)
    · exact NoErr.bind (hremove _ hbp (by omega)) fun _ _ => NoErr.pure
  · unfold processRequest at hst
    simp only [bind_ok] at hst
    obtain ⟨_, _, _, _, hst⟩ := hst
    unfold reqRepay at hst
    simp only [bind_ok, Prod.exists, startState] at hst
    obtain ⟨r, cache', hx, burnt, hb, acts, hac, hst⟩ := hst
    have L := loadReserve_now hi hc hd hca hx
    have hr1 := (L.rates hr hp hi hc hd).2
    simp only [User.load, L.index] at hst
    have hact : acts = ⟨SMap.empty.set a n, .empty⟩ := by
      unfold Actions.addSpender at hac
      simp only [bind_ok, chk_ok, pure_ok] at hac
      obtain ⟨v, ⟨_, hv⟩, rfl⟩ := hac
      rw [L.asset] at hv ⊢
      rw [e0, add_zero] at hv
      rw [hv]
    have hasset : ∀ {amt : Int} {ps' u' r'}, removeLiabilities (w.pools p) w.time ⟨sender, getPositions (w.pools p) sender⟩ r amt = .ok (ps', u', r') →
        r'.asset = a := by
      intro amt ps' u' r' hrm
      unfold removeLiabilities at hrm
      simp only [bind_ok, pure_ok, Prod.mk.injEq] at hrm
      obtain ⟨_, _, _, _, _, _, _, _, _, _, _, _, rfl⟩ := hrm
      exact L.asset
    have hstore : ∀ {r' : Reserve}, r'.asset = a → ∀ b ∈ (cache'.put r').toStore, ∃ x, (cache'.put r').reserves.get b = some x := by
      intro r' hra b hb
      have hb : b ∈ cache'.toStore := hb
      rw [L.store] at hb
      simp only [List.mem_singleton] at hb
      refine ⟨r', ?_⟩
      rw [hb]
      simp [Cache.put, hra]
    split at hst
    · rename_i hlt
      simp only [bind_ok, Prod.exists, pure_ok, chk_ok] at hst
      obtain ⟨owed, ho, rf, ⟨_, rfl⟩, _, hnn, ps', u', r', hrm, acts', hac', rfl⟩ := hst
      obtain ⟨o1, o2⟩ := owed_le hr1 hb hlt ho
      have hact' : acts' = ⟨SMap.empty.set a n, SMap.empty.set a (n - owed)⟩ := by
        unfold Actions.addPool at hac'
        simp only [bind_ok, chk_ok, pure_ok] at hac'
        obtain ⟨v, ⟨_, hv⟩, rfl⟩ := hac'
        rw [hact, L.asset] at *
        rw [e0, add_zero] at hv
        rw [hv]
      refine ⟨.inl rfl, hstore (hasset hrm), ?_⟩
      exact in_live (a := a) (n := n) (out := n - owed) hr rfl (by rw [hact']) (.inr (by rw [hact'])) hdst hsp (by omega) (by omega) hl.funds
        fun hE => (hl.sizes hE).2.2.2
    · simp only [bind_ok, Prod.exists, pure_ok] at hst
      obtain ⟨ps', u', r', hrm, rfl⟩ := hst
      refine ⟨.inl rfl, hstore (hasset hrm), ?_⟩
      exact in_live (a := a) (n := n) (out := 0) hr rfl (by rw [hact]) (.inl (by rw [hact])) hdst hsp (by omega) (by omega) hl.funds
        fun hE => (hl.sizes hE).2.2.2

end Pool
end Blend
