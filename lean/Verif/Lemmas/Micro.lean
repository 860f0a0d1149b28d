import Verif.Lemmas.Interest
/-
  A layer between the model and the invariants: every pool entry point is a sequence of small steps on
  the *virtual* pool storage, that is the storage overlaid with the reserves that are cached and the
  users that are in flight. Invariants are then checked per small step.
-/

namespace Blend
namespace Pool

/-- the three kinds of shares -/
inductive Kind
  | liab | coll | supp
deriving DecidableEq

namespace Kind
/-- the share map of the kind -/
def map : Kind → Positions → SMap Int
  | liab, p => p.liabilities
  | coll, p => p.collateral
  | supp, p => p.supply
/-- replace the share map of the kind -/
def put : Kind → Positions → SMap Int → Positions
  | liab, p, m => { p with liabilities := m }
  | coll, p, m => { p with collateral := m }
  | supp, p, m => { p with supply := m }
/-- reserve token id -/
def id : Kind → Nat → Nat
  | liab, i => i * 2
  | _, i => i * 2 + 1
/-- total supply of the token -/
def supply : Kind → ReserveData → Int
  | liab, d => d.dSupply
  | _, d => d.bSupply
/-- change the total supply of the token -/
def addSupply : Kind → ReserveData → Int → ReserveData
  | liab, d, x => { d with dSupply := d.dSupply + x }
  | _, d, x => { d with bSupply := d.bSupply + x }
/-- the balance of the token that earns emissions -/
def emisBal : Kind → Positions → Nat → Int
  | liab, p, i => p.liabilities.bal i
  | _, p, i => p.collateral.bal i + p.supply.bal i
end Kind

/-- rates and share balances are positive -/
structure PosOk (V : PoolState) : Prop where
  rates : ∀ a d, V.resData a = some d → 0 < d.dRate ∧ 0 < d.bRate
  bals : ∀ u pos (k : Kind) i v, V.positions.get u = some pos → (k.map pos).get i = some v → 0 < v

/-- What the small steps work on. -/
structure VS where
  /-- the virtual storage: storage overlaid with cached reserves and users in flight -/
  ps : PoolState
  /-- the pool's token balances, with the pending transfers of the submit applied -/
  vb : Address → Int
  /-- supply shares taken from one user and not yet given to another -/
  pb : Address → Int
  /-- debt shares taken from one user and not yet given to another -/
  pd : Address → Int

/-- ceiling of `x * rate / 10^9` -/
def ceil9 (x rate : Int) : Int := -(Int.fdiv (-(x * rate)) SCALAR_9)

/-- the pool's gain of `y` tokens pays for the change `δ` of shares -/
def PaidOk : Kind → ReserveData → Int → Int → Prop
  | .liab, d, δ, y => -(y * SCALAR_9) ≤ δ * d.dRate
  | _, d, δ, y => δ * d.bRate ≤ y * SCALAR_9

/-- How a change `δ` of a user's shares of reserve `a` is balanced: by tokens, rounded against the
user, or by shares in transit. -/
inductive Coupled (k : Kind) (a : Address) (d : ReserveData) (δ : Int) (S : VS) :
    (Address → Int) → (Address → Int) → (Address → Int) → Prop
  | paid (y : Int) :
      (PosOk S.ps → PaidOk k d δ y) →
      Coupled k a d δ S (upd S.vb a (S.vb a + y)) S.pb S.pd
  | transitB : k ≠ .liab → Coupled k a d δ S S.vb (upd S.pb a (S.pb a - δ)) S.pd
  | transitD : k = .liab → Coupled k a d δ S S.vb S.pb (upd S.pd a (S.pd a - δ))

/-- One small step at ledger time `now`; only positions and emissions of users in `U` change. -/
inductive PMicro (now : Nat) (U : Address → Prop) : VS → VS → Prop
  | touch (S : VS) (u) : U u → PMicro now U S { S with ps := setPositions S.ps u (getPositions S.ps u) }
  | accrue (S : VS) (a c d d' i) : S.ps.resConfig a = some c → S.ps.resData a = some d →
      S.ps.inst = some i → accrue c i.config.bstopRate now d = .ok d' →
      PMicro now U S { S with ps := { S.ps with resData := upd S.ps.resData a (some d') } }
  | share (S : VS) (V1 : PoolState) (k : Kind) (a u c d δ x m' vb' pb' pd') : U u →
      S.ps.resConfig a = some c → S.ps.resData a = some d → d.lastTime = now →
      updateEmissions S.ps now (k.id c.index) (k.supply d) (10 ^ c.decimals) u
        (k.emisBal (getPositions S.ps u) c.index) false = .ok (x, V1) →
      (PosOk S.ps →
        (0 < (k.map (getPositions S.ps u)).bal c.index + δ ∧
          m' = (k.map (getPositions S.ps u)).set c.index
            ((k.map (getPositions S.ps u)).bal c.index + δ)) ∨
        (0 ≤ (k.map (getPositions S.ps u)).bal c.index + δ ∧
          m' = setBal (k.map (getPositions S.ps u)) c.index
            ((k.map (getPositions S.ps u)).bal c.index + δ))) →
      Coupled k a d δ S vb' pb' pd' →
      PMicro now U S ⟨{ V1 with
        positions := V1.positions.set u (k.put (getPositions S.ps u) m')
        resData := upd V1.resData a (some (k.addSupply d δ)) }, vb', pb', pd'⟩
  | credit (S : VS) (a d x) : S.ps.resData a = some d → d.lastTime = now →
      PMicro now U S { S with
        ps := { S.ps with
          resData := upd S.ps.resData a (some { d with backstopCredit := d.backstopCredit - x }) }
        vb := upd S.vb a (S.vb a - x) }
  | auction (S : VS) (t u x) : PMicro now U S { S with ps := setAuction S.ps t u x }
  | emis (S : VS) (V1 : PoolState) (k : Kind) (a u c d i claim amt) : U u →
      S.ps.resConfig a = some c → S.ps.resData a = some d →
      (S.ps.resList[i]? = some a ∨ i = c.index) →
      updateEmissions S.ps now (k.id i) (k.supply d) (10 ^ c.decimals) u
        (k.emisBal (getPositions S.ps u) i) claim = .ok (amt, V1) →
      PMicro now U S { S with
        ps := { V1 with claimed := upd V1.claimed (k.id i) (V1.claimed (k.id i) + amt) } }
  | gulp (S : VS) (V' : PoolState) (a id n) : S.ps.resList[id / 2]? = some a → 0 ≤ n →
      updateReserveEmisConfig S.ps now a id n = .ok V' → PMicro now U S { S with ps := V' }
  | setInst (S : VS) (i') :
      (i'.config.bstopRate < 10000000 ∨
        ∃ i, S.ps.inst = some i ∧ i'.config.bstopRate = i.config.bstopRate) →
      (∀ i, S.ps.inst = some i → i'.backstop = i.backstop ∧ i'.blnd = i.blnd) →
      PMicro now U S { S with ps := { S.ps with inst := some i' } }
  | queueReserve (S : VS) (V' : PoolState) (a c) : queueSetReserve S.ps now a c = .ok V' →
      PMicro now U S { S with ps := V' }
  | unqueue (S : VS) (a) :
      PMicro now U S { S with ps := { S.ps with resInit := upd S.ps.resInit a none } }
  | setReserve (S : VS) (V' : PoolState) (a) : Pool.setReserve S.ps now a = .ok V' →
      PMicro now U S { S with ps := V' }
  | poolEmis (S : VS) (V' : PoolState) (l) : setPoolEmissions S.ps l = .ok V' →
      PMicro now U S { S with ps := V' }
  | writeOff (S : VS) (f) :
      (∀ a, (S.pd a = 0 ∧ f a = S.ps.writtenOff a) ∨
        ∃ d, S.ps.resData a = some d ∧ f a = S.ps.writtenOff a + ceil9 (S.pd a) d.dRate) →
      PMicro now U S { S with ps := { S.ps with writtenOff := f }, pd := fun _ => 0 }
  | gain (S : VS) (vb') : (∀ a, S.vb a ≤ vb' a) → PMicro now U S { S with vb := vb' }

/-- any number of small steps -/
inductive PMicros (now : Nat) (U : Address → Prop) : VS → VS → Prop
  | refl (V) : PMicros now U V V
  | tail {V V' V''} : PMicros now U V V' → PMicro now U V' V'' → PMicros now U V V''

theorem PMicros.trans {now : Nat} {U : Address → Prop} {a b c : VS} (h1 : PMicros now U a b)
    (h2 : PMicros now U b c) : PMicros now U a c := by
  induction h2 with
  | refl => exact h1
  | tail _ hs ih => exact .tail ih hs

theorem PMicros.one {now : Nat} {U : Address → Prop} {a b : VS} (h : PMicro now U a b) :
    PMicros now U a b :=
  .tail (.refl _) h

/-- the cached reserve data, or the stored one -/
def overlayData (ps : PoolState) (cache : Cache) (a : Address) : Option ReserveData :=
  match cache.reserves.get a with
  | some r => some r.data
  | none => ps.resData a

/-- the storage as it would be if everything cached or in flight were stored now -/
def overlay (ps : PoolState) (cache : Cache) (us : List User) : PoolState :=
  { ps with
    resData := overlayData ps cache
    positions := us.foldl (fun m u => m.set u.addr u.pos) ps.positions }

/-- the cached reserve agrees with the configuration -/
structure ResMatch (ps : PoolState) (now : Nat) (a : Address) (r : Reserve) : Prop where
  asset : r.asset = a
  time : r.data.lastTime = now
  cfg : ∃ c, ps.resConfig a = some c ∧ r.index = c.index ∧ r.scalar = 10 ^ c.decimals ∧
    r.lFactor = c.lFactor ∧ r.cFactor = c.cFactor ∧ r.maxUtil = c.maxUtil

/-- the cache agrees with the storage it was loaded from -/
structure CacheOk (ps : PoolState) (now : Nat) (cache : Cache) : Prop where
  res : ∀ a r, cache.reserves.get a = some r → ResMatch ps now a r
  store : ∀ a, a ∈ cache.toStore ↔ (cache.reserves.get a).isSome
  config : ∃ i, ps.inst = some i ∧ i.config = cache.config

/-- parts of the storage that no user operation changes -/
structure SameConfig (ps ps' : PoolState) : Prop where
  inst : ps'.inst = ps.inst
  resConfig : ps'.resConfig = ps.resConfig
  resInit : ps'.resInit = ps.resInit
  resData : ps'.resData = ps.resData
  resList : ps'.resList = ps.resList
  emisConfig : ps'.emisConfig = ps.emisConfig
  poolEmis : ps'.poolEmis = ps.poolEmis
  claimed : ps'.claimed = ps.claimed
  received : ps'.received = ps.received

/-- like `SameConfig`, but claims are counted -/
structure SameCfg (ps ps' : PoolState) : Prop where
  inst : ps'.inst = ps.inst
  resConfig : ps'.resConfig = ps.resConfig
  resInit : ps'.resInit = ps.resInit
  resData : ps'.resData = ps.resData
  resList : ps'.resList = ps.resList
  emisConfig : ps'.emisConfig = ps.emisConfig
  poolEmis : ps'.poolEmis = ps.poolEmis

theorem SameConfig.cfg {ps ps' : PoolState} (h : SameConfig ps ps') : SameCfg ps ps' :=
  ⟨h.inst, h.resConfig, h.resInit, h.resData, h.resList, h.emisConfig, h.poolEmis⟩

theorem SameCfg.refl (ps : PoolState) : SameCfg ps ps := ⟨rfl, rfl, rfl, rfl, rfl, rfl, rfl⟩
theorem SameCfg.trans {a b c : PoolState} (h : SameCfg a b) (h' : SameCfg b c) : SameCfg a c :=
  ⟨h'.inst.trans h.inst, h'.resConfig.trans h.resConfig, h'.resInit.trans h.resInit,
   h'.resData.trans h.resData, h'.resList.trans h.resList, h'.emisConfig.trans h.emisConfig, h'.poolEmis.trans h.poolEmis⟩

theorem SameConfig.refl (ps : PoolState) : SameConfig ps ps := ⟨rfl, rfl, rfl, rfl, rfl, rfl, rfl, rfl, rfl⟩
theorem SameConfig.trans {a b c : PoolState} (h : SameConfig a b) (h' : SameConfig b c) :
    SameConfig a c :=
  ⟨h'.inst.trans h.inst, h'.resConfig.trans h.resConfig, h'.resInit.trans h.resInit,
   h'.resData.trans h.resData, h'.resList.trans h.resList, h'.emisConfig.trans h.emisConfig, h'.poolEmis.trans h.poolEmis,
   h'.claimed.trans h.claimed, h'.received.trans h.received⟩

theorem CacheOk.same {ps ps' : PoolState} {now : Nat} {cache : Cache} (h : CacheOk ps now cache)
    (hs : SameConfig ps ps') : CacheOk ps' now cache := by
  refine ⟨fun a r hr => ?_, h.store, ?_⟩
  · obtain ⟨h1, h2, h3⟩ := h.res a r hr
    exact ⟨h1, h2, by rw [hs.resConfig]; exact h3⟩
  · rw [hs.inst]; exact h.config

/-! ### emissions -/

/-- An emission update changes only the emission bookkeeping and does not look at positions and
reserve data in storage. -/
theorem updateEmissions_frame {ps ps' : PoolState} {now id : Nat} {supply scalar : Int} {u : Address}
    {bal x : Int} {claim : Bool}
    (h : updateEmissions ps now id supply scalar u bal claim = .ok (x, ps')) :
    ∃ ed ue, ps' = { ps with emisData := ed, userEmis := ue } ∧
      ∀ rd pos, updateEmissions { ps with resData := rd, positions := pos } now id supply scalar u bal
        claim = .ok (x, { ps with resData := rd, positions := pos, emisData := ed, userEmis := ue }) := by
  unfold updateEmissions at h ⊢
  simp only [bind_ok, Prod.exists] at h
  obtain ⟨od, ps1, h1, h2⟩ := h
  have key1 : ∃ ed, ps1 = { ps with emisData := ed } ∧
      ∀ rd pos, updateEmisData { ps with resData := rd, positions := pos } now id supply scalar =
        .ok (od, { ps with resData := rd, positions := pos, emisData := ed }) := by
    unfold updateEmisData at h1 ⊢
    cases hc : ps.emisConfig id with
    | none =>
      simp only [hc, pure_ok, Prod.mk.injEq] at h1
      obtain ⟨rfl, rfl⟩ := h1
      exact ⟨ps.emisData, rfl, fun rd pos => by simp only [hc]; rfl⟩
    | some cfg =>
      simp only [hc, bind_ok, Prod.exists, pure_ok, Prod.mk.injEq] at h1
      obtain ⟨d, psx, hx, rfl, rfl⟩ := h1
      unfold updateEmisDataWith at hx ⊢
      simp only [bind_ok, ite_ok, unwrap_ok, pure_ok, Prod.mk.injEq] at hx
      obtain ⟨d0, hd0, ⟨hcond, rfl, rfl⟩ | ⟨hcond, dt, hdt, num, hnum, add, hadd, idx, hidx, rfl, rfl⟩⟩ := hx
      · refine ⟨ps.emisData, rfl, fun rd pos => ?_⟩
        simp only [hc, hd0, unwrap, bind, Except.bind, if_pos hcond, pure, Except.pure]
      · refine ⟨_, rfl, fun rd pos => ?_⟩
        simp only [hc, hd0, unwrap, bind, Except.bind, if_neg hcond, hdt, hnum, hadd, hidx, pure, Except.pure]
  obtain ⟨ed, rfl, hk⟩ := key1
  cases od with
  | none =>
    simp only [pure_ok, Prod.mk.injEq] at h2
    obtain ⟨rfl, rfl⟩ := h2
    exact ⟨ed, ps.userEmis, rfl, fun rd pos => by simp [hk, bind, Except.bind, pure, Except.pure]⟩
  | some d =>
    simp only at h2
    have key2 : ∃ ue, ps' = { ps with emisData := ed, userEmis := ue } ∧
        ∀ rd pos, updateUserEmis { ps with resData := rd, positions := pos, emisData := ed } d id
          scalar u bal claim =
          .ok (x, { ps with resData := rd, positions := pos, emisData := ed, userEmis := ue }) := by
      unfold updateUserEmis at h2 ⊢
      have hset : ∀ (rd : Address → Option ReserveData) (pos : SMap Positions) (ix ac : Int),
          setUserEmis { ps with emisData := ed } u id ix ac claim = (x, ps') →
          setUserEmis { ps with resData := rd, positions := pos, emisData := ed } u id ix ac claim =
            (x, { ps with resData := rd, positions := pos, emisData := ed, userEmis := ps'.userEmis }) ∧
          ps' = { ps with emisData := ed, userEmis := ps'.userEmis } := by
        intro rd pos ix ac hh
        unfold setUserEmis at hh ⊢
        split at hh <;>
        · simp only [Prod.mk.injEq] at hh
          obtain ⟨rfl, rfl⟩ := hh
          rename_i hcl
          simp [hcl]
      simp only at h2
      split at h2
      · rename_i ud hud
        simp only [ite_ok, bind_ok, pure_ok, chk_ok] at h2
        rcases h2 with ⟨hc, h2⟩ | ⟨hc, h2⟩
        · rcases h2 with ⟨hb, dl, ⟨hdl, rfl⟩, _, hn, acc, hacc, ac, ⟨hac, rfl⟩, h2⟩ | ⟨hb, ac, rfl, h2⟩
          · refine ⟨ps'.userEmis, (hset ps.resData ps.positions _ _ h2).2, fun rd pos => ?_⟩
            rw [hud]
            simp only [if_pos hc, if_pos hb, bind, Except.bind, chk, if_pos hdl, hn, hacc, if_pos hac,
              (hset rd pos _ _ h2).1, pure, Except.pure]
          · refine ⟨ps'.userEmis, (hset ps.resData ps.positions _ _ h2).2, fun rd pos => ?_⟩
            rw [hud]
            simp only [if_pos hc, if_neg hb, bind, Except.bind,
              (hset rd pos _ _ h2).1, pure, Except.pure]
        · simp only [Prod.mk.injEq] at h2
          obtain ⟨rfl, rfl⟩ := h2
          refine ⟨ps.userEmis, rfl, fun rd pos => ?_⟩
          rw [hud]
          simp only [if_neg hc, pure, Except.pure]
      · rename_i hud
        simp only [ite_ok, bind_ok, pure_ok] at h2
        rcases h2 with ⟨hc, h2⟩ | ⟨hc, acc, hacc, h2⟩
        · refine ⟨ps'.userEmis, (hset ps.resData ps.positions _ _ h2).2, fun rd pos => ?_⟩
          rw [hud]
          simp only [if_pos hc, (hset rd pos _ _ h2).1, pure, Except.pure]
        · refine ⟨ps'.userEmis, (hset ps.resData ps.positions _ _ h2).2, fun rd pos => ?_⟩
          rw [hud]
          simp only [if_neg hc, bind, Except.bind, hacc, (hset rd pos _ _ h2).1, pure, Except.pure]
    obtain ⟨ue, rfl, hk2⟩ := key2
    exact ⟨ed, ue, rfl, fun rd pos => by simp [hk, hk2, bind, Except.bind]⟩

end Pool
end Blend
