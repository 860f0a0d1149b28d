import Verif.Lemmas.PoolInv
import Verif.Lemmas.EmisCore
/-
  Pool emissions: what users are entitled to never exceeds what was allotted.
-/

namespace Blend
theorem upd_upd {β : Type} (f : Nat → β) (k : Nat) (x y : β) : upd (upd f k x) k y = upd f k y := by
  funext j; simp only [upd_apply]; split <;> rfl

namespace Pool
open Spec

/-- the balance of reserve token `id` in a position: even ids are debt, odd ids supply -/
def posBal (pos : Positions) (id : Nat) : Int :=
  if id % 2 = 0 then pos.liabilities.bal (id / 2)
  else pos.collateral.bal (id / 2) + pos.supply.bal (id / 2)

/-- a user's balance of reserve token `id` -/
def ebal (ps : PoolState) (id : Nat) (u : Address) : Int := posBal (getPositions ps u) id
/-- all users' balances of reserve token `id` -/
def etot (ps : PoolState) (id : Nat) : Int := ps.positions.sum fun _ pos => posBal pos id

theorem emisBal_eq (ps : PoolState) (k : Kind) (i : Nat) (u : Address) :
    k.emisBal (getPositions ps u) i = ebal ps (k.id i) u := by
  unfold ebal posBal
  cases k
  · simp [Kind.emisBal, Kind.id]
  · have h1 : (i * 2 + 1) % 2 = 1 := by omega
    have h2 : (i * 2 + 1) / 2 = i := by omega
    simp [Kind.emisBal, Kind.id, h1, h2]
  · have h1 : (i * 2 + 1) % 2 = 1 := by omega
    have h2 : (i * 2 + 1) / 2 = i := by omega
    simp [Kind.emisBal, Kind.id, h1, h2]

theorem kind_id_div (k : Kind) (i : Nat) : k.id i / 2 = i := by
  cases k <;> simp only [Kind.id] <;> omega

theorem etot_eq (ps : PoolState) (k : Kind) (i : Nat) :
    etot ps (k.id i) = if k = .liab then tot ps .liab i else tot ps .coll i + tot ps .supp i := by
  unfold etot posBal
  have h1 : (i * 2 + 1) % 2 = 1 := by omega
  have h2 : (i * 2 + 1) / 2 = i := by omega
  cases k
  · simp [Kind.id, tot, Kind.map]
  · simp only [Kind.id, h1, h2, Nat.one_ne_zero, if_false, reduceCtorEq]
    rw [SMap.sum_add]; rfl
  · simp only [Kind.id, h1, h2, Nat.one_ne_zero, if_false, reduceCtorEq]
    rw [SMap.sum_add]; rfl

theorem PInv.supply_eq {now : Nat} {S : VS} (h : PInv now S) {a : Address} {c : ReserveConfig} {d : ReserveData}
    (hc : S.ps.resConfig a = some c) (hd : S.ps.resData a = some d) (k : Kind) :
    k.supply d = etot S.ps (k.id c.index) := by
  rw [etot_eq]
  cases k
  · exact h.dsum a c d hc hd
  · exact h.bsum a c d hc hd
  · exact h.bsum a c d hc hd

theorem PInv.posBal_nonneg {now : Nat} {S : VS} (h : PInv now S) {u : Address} {pos : Positions}
    (hp : S.ps.positions.get u = some pos) (id : Nat) : 0 ≤ posBal pos id := by
  unfold posBal
  split
  · exact h.bal_nonneg .liab u pos _ hp
  · have := h.bal_nonneg .coll u pos (id / 2) hp
    have := h.bal_nonneg .supp u pos (id / 2) hp
    simp only [Kind.map] at *
    omega

theorem posBal_default (id : Nat) : posBal Positions.default id = 0 := by
  unfold posBal Positions.default; simp

theorem PInv.ebal_nonneg {now : Nat} {S : VS} (h : PInv now S) (id : Nat) (u : Address) :
    0 ≤ ebal S.ps id u := by
  unfold ebal getPositions
  cases hp : S.ps.positions.get u with
  | none => simp [posBal_default]
  | some pos => exact h.posBal_nonneg hp id

theorem PInv.etot_nonneg {now : Nat} {S : VS} (h : PInv now S) (id : Nat) : 0 ≤ etot S.ps id :=
  SMap.sum_nonneg fun _ _ hp => h.posBal_nonneg hp id

theorem PInv.sum_ebal_le {now : Nat} {S : VS} (h : PInv now S) (id : Nat) (ue : SMap UserEmis) :
    ue.sum (fun u _ => ebal S.ps id u) ≤ etot S.ps id := by
  have h1 := SMap.sum_keys_le (m := ue) (m' := S.ps.positions) (g := ebal S.ps id) (h.ebal_nonneg id)
    (fun u hu => by unfold ebal getPositions; rw [hu]; simp [posBal_default])
  have h2 : S.ps.positions.sum (fun u _ => ebal S.ps id u) = etot S.ps id :=
    SMap.sum_congr fun u pos hp => by unfold ebal getPositions; rw [hp]; rfl
  omega

/-- the positions of one user are replaced -/
theorem etot_set (ps ps' : PoolState) (u : Address) (pos : Positions) (id : Nat)
    (h : ps'.positions = ps.positions.set u pos) :
    etot ps' id = etot ps id + (posBal pos id - ebal ps id u) := by
  unfold etot ebal getPositions
  rw [h, SMap.sum_set]
  cases hp : ps.positions.get u with
  | none => simp [posBal_default]
  | some q => simp; ring

theorem ebal_set (ps ps' : PoolState) (u : Address) (pos : Positions) (id : Nat)
    (h : ps'.positions = ps.positions.set u pos) (v : Address) :
    ebal ps' id v = if v = u then posBal pos id else ebal ps id v := by
  unfold ebal getPositions
  rw [h, SMap.get_set]
  split <;> rfl

/-- emission bookkeeping of one reserve token -/
structure EmisOk (now : Nat) (ps : PoolState) (id : Nat) : Prop where
  unset : ps.emisConfig id = none → ps.emisData id = none ∧ ps.userEmis id = .empty ∧ ps.received id = 0 ∧
    ps.claimed id = 0
  isSet : ∀ cfg, ps.emisConfig id = some cfg → ∃ a c ed, ps.resList[id / 2]? = some a ∧
    ps.resConfig a = some c ∧ ps.emisData id = some ed ∧ ed.lastTime ≤ now ∧ 0 ≤ ed.index ∧
    UserOk ed.index (ps.userEmis id) ∧
    phi (10 ^ c.decimals) (ebal ps id) (etot ps id) ed.index (ps.userEmis id) +
      10 ^ c.decimals * ps.claimed id + 10 ^ c.decimals * ((cfg.eps : Int) * ((cfg.expiration - ed.lastTime : Nat) : Int)) ≤
      10 ^ c.decimals * ps.received id

theorem EmisOk.same {now : Nat} {ps ps' : PoolState} {id : Nat} (h : EmisOk now ps id)
    (h1 : ps'.emisConfig id = ps.emisConfig id) (h2 : ps'.emisData id = ps.emisData id)
    (h3 : ps'.userEmis id = ps.userEmis id) (h4 : ps'.received id = ps.received id)
    (h5 : ps'.claimed id = ps.claimed id) (hx : CfgExt ps ps') (hb : ∀ u, ebal ps' id u = ebal ps id u)
    (ht : etot ps' id = etot ps id) : EmisOk now ps' id := by
  refine ⟨fun hn => ?_, fun cfg hc => ?_⟩
  · rw [h2, h3, h4, h5]; exact h.unset (h1 ▸ hn)
  · obtain ⟨a, c, ed, e1, e2, e3, e4, e5, e6, e7⟩ := h.isSet cfg (h1 ▸ hc)
    obtain ⟨c', f1, _, f3⟩ := hx.cfg a c e2
    obtain ⟨l, hl⟩ := hx.list
    refine ⟨a, c', ed, ?_, f1, by rw [h2]; exact e3, e4, e5, by rw [h3]; exact e6, ?_⟩
    · rw [hl, List.getElem?_append_left]
      · exact e1
      · rw [List.getElem?_eq_some_iff] at e1; exact e1.1
    · rw [h3, h4, h5, f3, ht]
      have : ebal ps' id = ebal ps id := funext hb
      rw [this]; exact e7

/-- `update_emission_data_with_config` -/
theorem dataUpdate_ok {ps ps' : PoolState} {now id : Nat} {supply s : Int} {cfg : EmisConfig}
    {ed d : EmisData} (h : updateEmisDataWith ps now id supply s cfg = .ok (d, ps'))
    (he : ps.emisData id = some ed) (hl : ed.lastTime ≤ now) (hs : 0 < s) (hsup : 0 ≤ supply) :
    ps' = { ps with emisData := upd ps.emisData id (some d) } ∧ ed.index ≤ d.index ∧
    ed.lastTime ≤ d.lastTime ∧ d.lastTime ≤ now ∧
    (d.index - ed.index) * supply + s * ((cfg.eps : Int) * ((cfg.expiration - d.lastTime : Nat) : Int)) ≤
      s * ((cfg.eps : Int) * ((cfg.expiration - ed.lastTime : Nat) : Int)) ∧
    (d.lastTime ≤ cfg.expiration ∨ d = ed) := by
  unfold updateEmisDataWith at h
  simp only [bind_ok, ite_ok, unwrap_ok, pure_ok, Prod.mk.injEq, chk_ok] at h
  obtain ⟨d0, hd0, h⟩ := h
  rw [he] at hd0; cases hd0
  have hself : ps = { ps with emisData := upd ps.emisData id (some ed) } := by
    have : upd ps.emisData id (some ed) = ps.emisData := by
      funext x; rw [upd_apply]; split
      · subst x; exact he.symm
      · rfl
    rw [this]
  rcases h with ⟨_, rfl, rfl⟩ | ⟨hc, dt, hdt, num, ⟨_, rfl⟩, add, hadd, idx, ⟨_, rfl⟩, rfl, rfl⟩
  · exact ⟨hself, le_refl _, le_refl _, hl, by simp, .inr rfl⟩
  · push Not at hc
    obtain ⟨c1, c2, c3, c4⟩ := hc
    obtain ⟨k1, rfl⟩ := subU_ok.1 hdt
    have hpos : 0 < supply := lt_of_le_of_ne hsup (Ne.symm c4)
    have ha := (mulDivFloor_spec hadd hpos).1
    set t := if now > cfg.expiration then cfg.expiration else now with ht
    have htle : t ≤ now ∧ t ≤ cfg.expiration := by
      rw [ht]; split <;> omega
    have hadd0 : 0 ≤ add := mulDivFloor_nonneg hadd hpos (by positivity)
    refine ⟨rfl, by show ed.index ≤ add + ed.index; omega, k1, htle.1, ?_, .inl htle.2⟩
    show (add + ed.index - ed.index) * supply + _ ≤ _
    have e1 : ((cfg.expiration - ed.lastTime : Nat) : Int) =
        ((cfg.expiration - t : Nat) : Int) + ((t - ed.lastTime : Nat) : Int) := by omega
    rw [e1]
    nlinarith

/-- `update_user_emissions` -/
theorem userUpdate_ok {ps ps' : PoolState} {d : EmisData} {id : Nat} {s : Int} {u : Address} {bal amt : Int}
    {claim : Bool} (h : updateUserEmis ps d id s u bal claim = .ok (amt, ps')) (hs : 0 < s) (hb : 0 ≤ bal)
    (hok : UserOk d.index (ps.userEmis id)) (hi : 0 ≤ d.index) :
    ∃ x, ps' = { ps with userEmis := upd ps.userEmis id ((ps.userEmis id).set u x) } ∧ x.index = d.index ∧
      0 ≤ x.accrued ∧ 0 ≤ amt ∧ (claim = false → amt = 0) ∧
      s * (amt + x.accrued) ≤ s * (userEntry (ps.userEmis id) u).accrued +
        bal * (d.index - (userEntry (ps.userEmis id) u).index) := by
  have hset : ∀ {acc : Int}, 0 ≤ acc →
      s * acc ≤ s * (userEntry (ps.userEmis id) u).accrued +
        bal * (d.index - (userEntry (ps.userEmis id) u).index) →
      setUserEmis ps u id d.index acc claim = (amt, ps') →
      ∃ x, ps' = { ps with userEmis := upd ps.userEmis id ((ps.userEmis id).set u x) } ∧ x.index = d.index ∧
      0 ≤ x.accrued ∧ 0 ≤ amt ∧ (claim = false → amt = 0) ∧
      s * (amt + x.accrued) ≤ s * (userEntry (ps.userEmis id) u).accrued +
        bal * (d.index - (userEntry (ps.userEmis id) u).index) := by
    intro acc h0 hle h
    unfold setUserEmis at h
    split at h
    · rename_i hc
      simp only [Prod.mk.injEq] at h
      obtain ⟨rfl, rfl⟩ := h
      exact ⟨⟨d.index, 0⟩, rfl, rfl, le_refl _, h0, by simp [hc], by simpa using hle⟩
    · simp only [Prod.mk.injEq] at h
      obtain ⟨rfl, rfl⟩ := h
      exact ⟨⟨d.index, acc⟩, rfl, rfl, h0, le_refl _, fun _ => rfl, by simpa using hle⟩
  unfold updateUserEmis at h
  have he := hok.entry hi u
  cases hu : (ps.userEmis id).get u with
  | some ud =>
    have eu : userEntry (ps.userEmis id) u = ud := by unfold userEntry; rw [hu]; rfl
    rw [eu] at he hset ⊢
    simp only [hu, ite_ok, bind_ok, pure_ok, chk_ok] at h
    rcases h with ⟨_, ⟨hb0, dl, ⟨_, rfl⟩, _, _, acc, hacc, ac, ⟨_, rfl⟩, h⟩ | ⟨hb0, ac, rfl, h⟩⟩ | ⟨hc, h⟩
    · obtain ⟨g1, g2⟩ := user_accrual hs hb he hacc
      exact hset (by omega) g2 h
    · push Not at hb0
      exact hset he.2.2 (by rw [hb0]; simp) h
    · simp only [Prod.mk.injEq] at h
      obtain ⟨rfl, rfl⟩ := h
      push Not at hc
      refine ⟨ud, ?_, hc.1, he.2.2, le_refl _, fun _ => rfl, by rw [← hc.1]; simp⟩
      have : upd ps.userEmis id ((ps.userEmis id).set u ud) = ps.userEmis := by
        funext x; rw [upd_apply]; split
        · subst x; exact SMap.set_self hu
        · rfl
      rw [this]
  | none =>
    have eu : userEntry (ps.userEmis id) u = ⟨0, 0⟩ := by unfold userEntry; rw [hu]; rfl
    rw [eu] at hset ⊢
    simp only [hu, ite_ok, bind_ok, pure_ok] at h
    rcases h with ⟨hb0, h⟩ | ⟨hb0, acc, hacc, h⟩
    · exact hset (le_refl _) (by simp [hb0]) h
    · have hacc' : fixedMulFloor bal (d.index - (⟨0, 0⟩ : UserEmis).index) s = .ok acc := by simpa using hacc
      obtain ⟨g1, g2⟩ := user_accrual (old := ⟨0, 0⟩) hs hb ⟨le_refl _, hi, le_refl _⟩ hacc'
      refine hset g1 ?_ h
      simpa using g2

/-- One emission update of a user, possibly with a claim, followed by a change of the user's balance. -/
theorem emisUpdate_ok {now id : Nat} {ps V1 : PoolState} {supply s bal amt : Int} {u : Address} {claim : Bool}
    (h : updateEmissions ps now id supply s u bal claim = .ok (amt, V1))
    (hs : 0 < s) (hb : 0 ≤ bal) (hsup : 0 ≤ supply) :
    (ps.emisConfig id = none ∧ V1 = ps ∧ amt = 0) ∨
    (∀ cfg ed, ps.emisConfig id = some cfg → ps.emisData id = some ed → ed.lastTime ≤ now → 0 ≤ ed.index →
      UserOk ed.index (ps.userEmis id) →
      ∃ d x, V1 = { ps with emisData := upd ps.emisData id (some d),
                            userEmis := upd ps.userEmis id ((ps.userEmis id).set u x) } ∧
        ed.index ≤ d.index ∧ ed.lastTime ≤ d.lastTime ∧ d.lastTime ≤ now ∧
        (d.index - ed.index) * supply + s * ((cfg.eps : Int) * ((cfg.expiration - d.lastTime : Nat) : Int)) ≤
          s * ((cfg.eps : Int) * ((cfg.expiration - ed.lastTime : Nat) : Int)) ∧
        x.index = d.index ∧ 0 ≤ x.accrued ∧ 0 ≤ amt ∧ (claim = false → amt = 0) ∧
        s * (amt + x.accrued) ≤ s * (userEntry (ps.userEmis id) u).accrued +
          bal * (d.index - (userEntry (ps.userEmis id) u).index)) := by
  unfold updateEmissions updateEmisData at h
  cases hc : ps.emisConfig id with
  | none =>
    left
    simp only [hc, bind_ok, Prod.exists, pure_ok, Prod.mk.injEq] at h
    obtain ⟨od, p1, ⟨rfl, rfl⟩, h⟩ := h
    simp only [pure_ok, Prod.mk.injEq] at h
    exact ⟨rfl, h.2.symm, h.1.symm⟩
  | some cfg =>
    right
    intro cfg' ed hcf he hl hi hok
    cases hcf
    simp only [hc, bind_ok, Prod.exists, pure_ok, Prod.mk.injEq] at h
    obtain ⟨od, p1, ⟨d, p2, hd, rfl, rfl⟩, h⟩ := h
    obtain ⟨rfl, k1, k2, k3, k4, _⟩ := dataUpdate_ok hd he hl hs hsup
    simp only at h
    obtain ⟨x, rfl, m1, m2, m3, m4, m5⟩ := userUpdate_ok h hs hb (hok.mono k1) (by omega)
    exact ⟨d, x, rfl, k1, k2, k3, k4, m1, m2, m3, m4, m5⟩

/-- the bookkeeping of `id` after an emission update for `id` and a change of that user's balance -/
theorem EmisOk.update {now id : Nat} {ps V1 V2 : PoolState} {s amt : Int} {u : Address} {claim : Bool}
    {a : Address} {c : ReserveConfig} (hok : EmisOk now ps id) (ha : ps.resList[id / 2]? = some a)
    (hc : ps.resConfig a = some c) (hs : s = 10 ^ c.decimals)
    (h : updateEmissions ps now id (etot ps id) s u (ebal ps id u) claim = .ok (amt, V1))
    (hb : ∀ v, 0 ≤ ebal ps id v) (ht : 0 ≤ etot ps id)
    (h1 : V2.emisConfig = V1.emisConfig) (h2 : V2.emisData = V1.emisData) (h3 : V2.userEmis = V1.userEmis)
    (h4 : V2.received = V1.received) (h5 : V2.claimed id = V1.claimed id + amt)
    (h6 : ∀ v, v ≠ u → ebal V2 id v = ebal ps id v)
    (h7 : etot V2 id = etot ps id + (ebal V2 id u - ebal ps id u))
    (h8 : V2.resList = ps.resList) (h9 : V2.resConfig = ps.resConfig) : EmisOk now V2 id := by
  have hs0 : 0 < s := by rw [hs]; positivity
  cases hcf : ps.emisConfig id with
  | none =>
    obtain ⟨e1, e2, e3, e4⟩ := hok.unset hcf
    rcases emisUpdate_ok h hs0 (hb u) ht with ⟨_, rfl, rfl⟩ | _
    · refine ⟨fun _ => ?_, fun cfg hcf' => ?_⟩
      · rw [h2, h3, h4, h5, e1, e2, e3, e4]; simp
      · rw [h1, hcf] at hcf'; simp at hcf'
    · obtain ⟨o1, _⟩ := updateEmissions_other h
      unfold updateEmissions updateEmisData at h
      simp only [hcf, bind_ok, Prod.exists, pure_ok, Prod.mk.injEq] at h
      obtain ⟨od, p1, ⟨rfl, rfl⟩, h⟩ := h
      simp only [pure_ok, Prod.mk.injEq] at h
      obtain ⟨rfl, rfl⟩ := h
      refine ⟨fun _ => ?_, fun cfg hcf' => ?_⟩
      · rw [h2, h3, h4, h5, e1, e2, e3, e4]; simp
      · rw [h1, hcf] at hcf'; simp at hcf'
  | some cfg =>
    obtain ⟨a', c', ed, e1, e2, e3, e4, e5, e6, e7⟩ := hok.isSet cfg hcf
    rw [ha] at e1; cases e1
    rw [hc] at e2; cases e2
    rw [← hs] at e7
    rcases emisUpdate_ok h hs0 (hb u) ht with ⟨hn, _, _⟩ | hk
    · rw [hcf] at hn; simp at hn
    · obtain ⟨d, x, rfl, k1, k2, k3, k4, k5, k6, k7, k8, k9⟩ := hk cfg ed hcf e3 e4 e5 e6
      simp only at h1 h2 h3 h4 h5
      refine ⟨fun hn => ?_, fun cfg' hcf' => ?_⟩
      · rw [h1, hcf] at hn; simp at hn
      · rw [h1, hcf] at hcf'; cases hcf'
        refine ⟨a, c, d, by rw [h8]; exact ha, by rw [h9]; exact hc, by rw [h2]; simp, k3, by omega, ?_, ?_⟩
        · rw [h3]
          simp only [upd_same]
          exact (e6.mono k1).set ⟨by omega, by omega, k6⟩
        · rw [h3, h4, h5, ← hs]
          simp only [upd_same]
          have p1 := phi_index s (ebal ps id) (etot ps id) ed.index d.index (ps.userEmis id)
          have p2 := phi_user (s := s) (bal := ebal ps id) (bal' := ebal V2 id) (tot' := etot V2 id) (tot := etot ps id) k5
            k9 h6 h7
          rw [mul_add]
          linarith


/-- `update_reserve_emission_config` -/
theorem EmisOk.gulp {now id : Nat} {ps V' : PoolState} {a : Address} {n : Int} {c : ReserveConfig}
    {rd : ReserveData} (hok : EmisOk now ps id)
    (h : updateReserveEmisConfig ps now a id n = .ok V') (hn : 0 ≤ n)
    (ha : ps.resList[id / 2]? = some a) (hc : ps.resConfig a = some c) (hd : ps.resData a = some rd)
    (hsup : (if id % 2 = 0 then rd.dSupply else rd.bSupply) = etot ps id) (ht : 0 ≤ etot ps id) :
    EmisOk now V' id := by
  have heps : ∀ {left : Int} {eps : Nat}, 0 ≤ left → toU64 (Int.tdiv left (7 * 24 * 60 * 60)) = .ok eps →
      (eps : Int) * ((now + 7 * 24 * 60 * 60 - now : Nat) : Int) ≤ left := by
    intro left eps hl he
    have h1 : (eps : Int) = Int.tdiv left (7 * 24 * 60 * 60) := (toU64_ok.1 he).2.2
    rw [h1, Int.tdiv_eq_ediv_of_nonneg hl, Nat.add_sub_cancel_left]
    push_cast
    omega
  have hs0 : (0 : Int) < 10 ^ c.decimals := by positivity
  unfold updateReserveEmisConfig at h
  cases hcf : ps.emisConfig id with
  | none =>
    obtain ⟨e1, e2, e3, e4⟩ := hok.unset hcf
    simp only [hcf, bind_ok, pure_ok, Prod.exists, Prod.mk.injEq] at h
    obtain ⟨left, p1, ⟨rfl, rfl⟩, eps, he, rfl⟩ := h
    refine ⟨fun hx => ?_, fun cfg' hcf' => ?_⟩
    · simp at hx
    · simp only [upd_same, Option.some.injEq] at hcf'
      subst hcf'
      refine ⟨a, c, ⟨0, now⟩, ha, hc, by simp, le_refl _, le_refl _, ?_, ?_⟩
      · simp only [e2]; intro u x hx; simp at hx
      · have := heps hn he
        have := mul_le_mul_of_nonneg_left this (le_of_lt hs0)
        simp only [upd_same, e2, e3, e4]
        unfold phi
        simp only [SMap.sum_empty]
        simpa using this
  | some cfg =>
    obtain ⟨a', c', ed, e1, e2, e3, e4, e5, e6, e7⟩ := hok.isSet cfg hcf
    rw [ha] at e1; cases e1
    rw [hc] at e2; cases e2
    simp only [hcf, hc, hd, bind_ok, unwrap_ok, pow10_ok, Option.some.injEq, Prod.exists] at h
    obtain ⟨_, rfl, _, rfl, _, ⟨_, rfl⟩, d, q1, hq, h⟩ := h
    rw [hsup] at hq
    obtain ⟨rfl, k1, k2, k3, k4, _⟩ := dataUpdate_ok hq e3 e4 hs0 ht
    have key : ∃ d' left eps, d'.index = d.index ∧ d'.lastTime = now ∧ 0 ≤ left ∧
        left ≤ n + (cfg.eps : Int) * ((cfg.expiration - d.lastTime : Nat) : Int) ∧
        toU64 (Int.tdiv left (7 * 24 * 60 * 60)) = .ok eps ∧
        V' = { ps with
          emisData := upd ps.emisData id (some d')
          emisConfig := upd ps.emisConfig id (some ⟨now + 7 * 24 * 60 * 60, eps⟩)
          received := upd ps.received id (ps.received id + n) } := by
      have hl : ∀ {left : Int} {rem : Nat}, rem = cfg.eps * (cfg.expiration - now) → left = n + (rem : Int) →
          0 ≤ left ∧ left ≤ n + (cfg.eps : Int) * ((cfg.expiration - d.lastTime : Nat) : Int) := by
        intro left rem h1 h2
        refine ⟨by omega, ?_⟩
        rw [h2, h1]
        have : cfg.eps * (cfg.expiration - now) ≤ cfg.eps * (cfg.expiration - d.lastTime) :=
          Nat.mul_le_mul_left _ (by omega)
        have : ((cfg.eps * (cfg.expiration - now) : Nat) : Int) ≤
          ((cfg.eps * (cfg.expiration - d.lastTime) : Nat) : Int) := by exact_mod_cast this
        push_cast at this ⊢
        omega
      have hst : ∃ d', d'.index = d.index ∧ d'.lastTime = now ∧
          (if d.lastTime ≠ now then
            { ps with emisData := upd (upd ps.emisData id (some d)) id (some { d with lastTime := now }) }
           else { ps with emisData := upd ps.emisData id (some d) }) =
          { ps with emisData := upd ps.emisData id (some d') } := by
        split
        · exact ⟨{ d with lastTime := now }, rfl, rfl, by rw [upd_upd]⟩
        · rename_i e; push Not at e
          exact ⟨d, rfl, e, rfl⟩
      obtain ⟨d', f1, f2, f3⟩ := hst
      rw [f3] at h
      simp only [ite_ok, bind_ok, pure_ok, chk_ok, chkU64_ok, exists_eq_left] at h
      rcases h with ⟨_, rem, ⟨_, rfl⟩, l, ⟨_, rfl⟩, _, rfl, eps, he, rfl⟩ | ⟨hx, _, rfl, eps, he, rfl⟩
      · obtain ⟨g1, g2⟩ := hl (left := n + ((cfg.eps * (cfg.expiration - now) : Nat) : Int)) rfl rfl
        exact ⟨d', _, eps, f1, f2, g1, g2, he, rfl⟩
      · refine ⟨d', _, eps, f1, f2, hn, ?_, he, rfl⟩
        have : (0:Int) ≤ (cfg.eps : Int) * ((cfg.expiration - d.lastTime : Nat) : Int) := by positivity
        omega
    obtain ⟨d', left, eps, f1, f2, l1, l2, he, rfl⟩ := key
    refine ⟨fun hx => by simp at hx, fun cfg' hcf' => ?_⟩
    simp only [upd_same, Option.some.injEq] at hcf'
    subst hcf'
    refine ⟨a, c, d', ha, hc, by simp, by omega, by omega, by rw [f1]; exact e6.mono k1, ?_⟩
    simp only [upd_same, f1, f2]
    have p1 := phi_index (10 ^ c.decimals) (ebal ps id) (etot ps id) ed.index d.index (ps.userEmis id)
    have p2 := heps l1 he
    have p3 := mul_le_mul_of_nonneg_left (le_trans p2 l2) (le_of_lt hs0)
    show phi (10 ^ c.decimals) (ebal ps id) (etot ps id) d.index (ps.userEmis id) + _ + _ ≤ _
    rw [p1]
    rw [mul_add] at p3 ⊢
    linarith

theorem posBal_put {k : Kind} {pos : Positions} {m' : SMap Int} {i id : Nat}
    (h : ∀ j, j ≠ i → m'.bal j = (k.map pos).bal j) (hid : id ≠ k.id i) :
    posBal (k.put pos m') id = posBal pos id := by
  unfold posBal
  by_cases hj : id / 2 = i
  · cases k
    · have : ¬ id % 2 = 0 := fun e => hid (by simp only [Kind.id]; omega)
      simp [this, Kind.put]
    · have : id % 2 = 0 := by
        by_contra e; exact hid (by simp only [Kind.id]; omega)
      simp [this, Kind.put]
    · have : id % 2 = 0 := by
        by_contra e; exact hid (by simp only [Kind.id]; omega)
      simp [this, Kind.put]
  · have := h _ hj
    cases k <;> simp only [Kind.put, Kind.map] at this ⊢ <;> split <;> simp [this]


theorem CfgOk.list_idx {ps : PoolState} (cfg : CfgOk ps) {a : Address} {c : ReserveConfig}
    (h : ps.resConfig a = some c) (k : Kind) : ps.resList[k.id c.index / 2]? = some a := by
  rw [kind_id_div]; exact cfg.idx a c h

/-- an emission update leaves the bookkeeping of the other reserve tokens alone -/
theorem updateEmissions_otherId {ps V1 : PoolState} {now id id' : Nat} {supply s : Int} {u : Address}
    {bal x : Int} {claim : Bool} (h : updateEmissions ps now id supply s u bal claim = .ok (x, V1))
    (hne : id' ≠ id) : V1.emisData id' = ps.emisData id' ∧ V1.userEmis id' = ps.userEmis id' := by
  have hw : ∀ {ps ps' : PoolState} {s sc : Int} {cfg : EmisConfig} {d : EmisData},
      updateEmisDataWith ps now id s sc cfg = .ok (d, ps') →
      ps'.emisData id' = ps.emisData id' ∧ ps'.userEmis = ps.userEmis := by
    intro ps ps' s sc cfg d h
    unfold updateEmisDataWith at h
    simp only [bind_ok, ite_ok, unwrap_ok, pure_ok, Prod.mk.injEq] at h
    obtain ⟨_, _, ⟨_, _, rfl⟩ | ⟨_, _, _, _, _, _, _, _, _, _, rfl⟩⟩ := h
    · exact ⟨rfl, rfl⟩
    · exact ⟨upd_ne hne, rfl⟩
  have hset : ∀ {ps ps' : PoolState} {ix ac x : Int}, setUserEmis ps u id ix ac claim = (x, ps') →
      ps'.emisData = ps.emisData ∧ ps'.userEmis id' = ps.userEmis id' := by
    intro ps ps' ix ac x h
    unfold setUserEmis at h
    split at h <;> (simp only [Prod.mk.injEq] at h; obtain ⟨_, rfl⟩ := h; exact ⟨rfl, upd_ne hne⟩)
  unfold updateEmissions updateEmisData at h
  cases hc : ps.emisConfig id with
  | none =>
    simp only [hc, bind_ok, Prod.exists, pure_ok, Prod.mk.injEq] at h
    obtain ⟨od, p1, ⟨rfl, rfl⟩, h⟩ := h
    simp only [pure_ok, Prod.mk.injEq] at h
    obtain ⟨_, rfl⟩ := h
    exact ⟨rfl, rfl⟩
  | some cfg =>
    simp only [hc, bind_ok, Prod.exists, pure_ok, Prod.mk.injEq] at h
    obtain ⟨od, p1, ⟨d, p2, hd, rfl, rfl⟩, h⟩ := h
    obtain ⟨g1, g2⟩ := hw hd
    rw [← g1, ← g2]
    simp only at h
    unfold updateUserEmis at h
    split at h
    · simp only [ite_ok, bind_ok, pure_ok] at h
      rcases h with ⟨_, ⟨_, _, _, _, _, _, _, _, _, h⟩ | ⟨_, _, rfl, h⟩⟩ | ⟨_, h⟩
      · obtain ⟨e1, e2⟩ := hset h; exact ⟨by rw [e1], e2⟩
      · obtain ⟨e1, e2⟩ := hset h; exact ⟨by rw [e1], e2⟩
      · simp only [Prod.mk.injEq] at h; rw [h.2]; exact ⟨rfl, rfl⟩
    · simp only [ite_ok, bind_ok, pure_ok] at h
      rcases h with ⟨_, h⟩ | ⟨_, _, _, h⟩
      · obtain ⟨e1, e2⟩ := hset h; exact ⟨by rw [e1], e2⟩
      · obtain ⟨e1, e2⟩ := hset h; exact ⟨by rw [e1], e2⟩

/-- a gulp leaves the bookkeeping of the other reserve tokens alone -/
theorem gulp_otherId {ps V' : PoolState} {now id id' : Nat} {a : Address} {n : Int}
    (h : updateReserveEmisConfig ps now a id n = .ok V') (hne : id' ≠ id) :
    V'.emisData id' = ps.emisData id' ∧ V'.emisConfig id' = ps.emisConfig id' := by
  have hw : ∀ {ps ps' : PoolState} {s sc : Int} {cfg : EmisConfig} {d : EmisData},
      updateEmisDataWith ps now id s sc cfg = .ok (d, ps') →
      ps'.emisData id' = ps.emisData id' ∧ ps'.emisConfig = ps.emisConfig := by
    intro ps ps' s sc cfg d h
    unfold updateEmisDataWith at h
    simp only [bind_ok, ite_ok, unwrap_ok, pure_ok, Prod.mk.injEq] at h
    obtain ⟨_, _, ⟨_, _, rfl⟩ | ⟨_, _, _, _, _, _, _, _, _, _, rfl⟩⟩ := h
    · exact ⟨rfl, rfl⟩
    · exact ⟨upd_ne hne, rfl⟩
  unfold updateReserveEmisConfig at h
  cases hc : ps.emisConfig id with
  | none =>
    simp only [hc, bind_ok, pure_ok, Prod.exists, Prod.mk.injEq] at h
    obtain ⟨left, p1, ⟨rfl, rfl⟩, eps, he, rfl⟩ := h
    exact ⟨upd_ne hne, upd_ne hne⟩
  | some cfg =>
    simp only [hc, bind_ok, unwrap_ok, pow10_ok, Prod.exists, ite_ok, pure_ok, Prod.mk.injEq] at h
    obtain ⟨_, _, _, _, _, _, d, q1, hq, h⟩ := h
    obtain ⟨g1, g2⟩ := hw hq
    rcases h with ⟨_, _, _, _, _, _, _, ⟨_, rfl⟩, eps, _, rfl⟩ | ⟨_, _, _, ⟨_, rfl⟩, eps, _, rfl⟩ <;>
    · simp only [upd_ne hne]
      split <;> simp only [upd_ne hne, g1, g2, and_self]

/-- the emission bookkeeping of a whole pool -/
structure EInv (now : Nat) (S : VS) : Prop where
  inv : PInv now S
  emis : ∀ id, EmisOk now S.ps id

theorem EInv.same {now : Nat} {S S' : VS} (h : EInv now S) (hi : PInv now S') (hx : CfgExt S.ps S'.ps)
    (h1 : S'.ps.emisConfig = S.ps.emisConfig) (h2 : S'.ps.emisData = S.ps.emisData)
    (h3 : S'.ps.userEmis = S.ps.userEmis) (h4 : S'.ps.received = S.ps.received)
    (h5 : S'.ps.claimed = S.ps.claimed) (h6 : S'.ps.positions = S.ps.positions) : EInv now S' :=
  ⟨hi, fun id => (h.emis id).same (by rw [h1]) (by rw [h2]) (by rw [h3]) (by rw [h4]) (by rw [h5]) hx
    (fun u => by unfold ebal getPositions; rw [h6]) (by unfold etot; rw [h6])⟩

theorem micro_emis {now : Nat} {U : Address → Prop} {S S' : VS} (cfg : CfgOk S.ps) (h : PMicro now U S S')
    (inv : EInv now S) : EInv now S' := by
  have hi' := micro_inv cfg h inv.inv
  have hx := (micro_cfg h cfg).2
  cases h with
  | touch u h =>
    refine ⟨hi', fun id => (inv.emis id).same rfl rfl rfl rfl rfl hx (fun v => ?_) ?_⟩
    · rw [ebal_set S.ps _ u _ id rfl]
      split
      · rename_i e; rw [e]; rfl
      · rfl
    · rw [etot_set S.ps _ u _ id rfl]
      unfold ebal; ring
  | accrue a c d d' i h1 h2 h3 h4 => exact inv.same hi' hx rfl rfl rfl rfl rfl rfl
  | share V1 k a u c d δ x m' vb' pb' pd' h0 h1 h2 h3 h4 h5 h6 =>
    obtain ⟨o1, o2, o3, o4, o5, o6⟩ := updateEmissions_other h4
    have hm := h5 inv.inv.pos
    have hbal : ∀ j, j ≠ c.index → m'.bal j = (k.map (getPositions S.ps u)).bal j := by
      intro j hj
      rcases hm with ⟨_, rfl⟩ | ⟨_, rfl⟩
      · rw [SMap.bal_set, if_neg hj]
      · rw [bal_setBal, if_neg hj]
    have h4' := h4
    rw [inv.inv.supply_eq h1 h2, emisBal_eq] at h4
    refine ⟨hi', fun id => ?_⟩
    have hpos : ({ V1 with
        positions := V1.positions.set u (k.put (getPositions S.ps u) m')
        resData := upd V1.resData a (some (k.addSupply d δ)) } : PoolState).positions =
        S.ps.positions.set u (k.put (getPositions S.ps u) m') := by simp only [o2]
    by_cases hid : id = k.id c.index
    · subst hid
      have hx0 : x = 0 := by
        rcases emisUpdate_ok h4 (by positivity) (inv.inv.ebal_nonneg _ _) (inv.inv.etot_nonneg _) with
          ⟨_, _, rfl⟩ | hk
        · rfl
        · cases hcf : S.ps.emisConfig (k.id c.index) with
          | none =>
            unfold updateEmissions updateEmisData at h4
            simp only [hcf, bind_ok, Prod.exists, pure_ok, Prod.mk.injEq] at h4
            obtain ⟨od, p1, ⟨rfl, rfl⟩, h4⟩ := h4
            simp only [pure_ok, Prod.mk.injEq] at h4
            exact h4.1.symm
          | some cf =>
            obtain ⟨_, _, ed, _, _, e3, e4, e5, e6, _⟩ := (inv.emis (k.id c.index)).isSet cf hcf
            obtain ⟨_, _, _, _, _, _, _, _, _, _, hz, _⟩ := hk cf ed hcf e3 e4 e5 e6
            exact hz rfl
      refine (inv.emis (k.id c.index)).update (cfg.list_idx h1 k) h1 rfl h4
        (inv.inv.ebal_nonneg _) (inv.inv.etot_nonneg _) rfl rfl rfl rfl (by rw [hx0]; simp) ?_ ?_
        o1.resList o1.resConfig
      · intro v hv
        rw [ebal_set S.ps _ u _ _ hpos, if_neg hv]
      · rw [etot_set S.ps _ u _ _ hpos, ebal_set S.ps _ u _ _ hpos, if_pos rfl]
    · obtain ⟨q1, q2⟩ := updateEmissions_otherId h4 hid
      have hput := posBal_put (k := k) (pos := getPositions S.ps u) (m' := m') hbal hid
      refine (inv.emis id).same (by show V1.emisConfig id = _; rw [o1.emisConfig]) q1 q2
        (by show V1.received id = _; rw [o5]) (by show V1.claimed id = _; rw [o4]) hx (fun v => ?_) ?_
      · rw [ebal_set S.ps _ u _ _ hpos]
        split
        · rename_i e; rw [hput, e]; rfl
        · rfl
      · rw [etot_set S.ps _ u _ _ hpos, hput]
        unfold ebal; ring
  | credit a d x h1 h2 => exact inv.same hi' hx rfl rfl rfl rfl rfl rfl
  | auction t u x => exact inv.same hi' hx rfl rfl rfl rfl rfl rfl
  | emis V1 k a u c d i claim amt h0 h1 h2 h3 h4 =>
    obtain ⟨o1, o2, o3, o4, o5, o6⟩ := updateEmissions_other h4
    have hi : i = c.index := by
      rcases h3 with h3 | h3
      · exact (cfg.index_list h3 h1).symm
      · exact h3
    subst hi
    rw [inv.inv.supply_eq h1 h2, emisBal_eq] at h4
    refine ⟨hi', fun id => ?_⟩
    have hb : ∀ id v, ebal ({ V1 with claimed := upd V1.claimed (k.id c.index) (V1.claimed (k.id c.index) + amt) }) id v
        = ebal S.ps id v := fun id v => by unfold ebal getPositions; simp only [o2]
    have ht : ∀ id, etot ({ V1 with claimed := upd V1.claimed (k.id c.index) (V1.claimed (k.id c.index) + amt) }) id
        = etot S.ps id := fun id => by unfold etot; simp only [o2]
    by_cases hid : id = k.id c.index
    · subst hid
      exact (inv.emis (k.id c.index)).update (cfg.list_idx h1 k) h1 rfl h4
        (inv.inv.ebal_nonneg _) (inv.inv.etot_nonneg _) rfl rfl rfl rfl (by simp)
        (fun v _ => hb _ v) (by rw [hb, ht]; ring) o1.resList o1.resConfig
    · obtain ⟨q1, q2⟩ := updateEmissions_otherId h4 hid
      exact (inv.emis id).same (by show V1.emisConfig id = _; rw [o1.emisConfig]) q1 q2
        (by show V1.received id = _; rw [o5]) (by show upd V1.claimed _ _ id = _; rw [upd_ne hid, o4]) hx
        (hb id) (ht id)
  | gulp V' a id n h1 h2 h3 =>
    refine ⟨hi', fun id' => ?_⟩
    have h3' := h3
    obtain ⟨ed, ec, rfl⟩ := updateReserveEmisConfig_other h3
    by_cases hid : id' = id
    · subst hid
      have ha : a ∈ S.ps.resList := by
        rw [List.getElem?_eq_some_iff] at h1
        obtain ⟨_, rfl⟩ := h1
        exact List.getElem_mem _
      obtain ⟨c, d, hc, hd⟩ := cfg.list a ha
      have hidx := cfg.index_list h1 hc
      refine (inv.emis id').gulp h3 h2 h1 hc hd ?_ (inv.inv.etot_nonneg _)
      split
      · have := inv.inv.supply_eq hc hd .liab
        rw [show Kind.liab.id c.index = id' by simp only [Kind.id]; omega] at this
        exact this
      · have := inv.inv.supply_eq hc hd .coll
        rw [show Kind.coll.id c.index = id' by simp only [Kind.id]; omega] at this
        exact this
    · obtain ⟨q1, q2⟩ := gulp_otherId h3' hid
      exact (inv.emis id').same q2 q1 rfl (upd_ne hid) rfl hx (fun _ => rfl) rfl
  | setInst i' h1 h2 => exact inv.same hi' hx rfl rfl rfl rfl rfl rfl
  | queueReserve V' a c h =>
    unfold queueSetReserve PoolState.getInst at h
    simp only [bind_ok, require_ok, unwrap_ok, pure_ok] at h
    obtain ⟨_, hn, _, hv, i, hi, rfl⟩ := h
    exact inv.same hi' hx rfl rfl rfl rfl rfl rfl
  | unqueue a => exact inv.same hi' hx rfl rfl rfl rfl rfl rfl
  | setReserve V' a h =>
    obtain ⟨q, hq, _, h⟩ := setReserve_ok h
    rcases h with ⟨old, d, i, r, h1, h2, h3, h4, h5, rfl⟩ | ⟨h1, h2, rfl⟩
    · exact inv.same hi' hx rfl rfl rfl rfl rfl rfl
    · exact inv.same hi' hx rfl rfl rfl rfl rfl rfl
  | poolEmis V' l h =>
    unfold setPoolEmissions at h
    simp only [bind_ok, require_ok, pure_ok, Prod.exists] at h
    obtain ⟨_, _, _, _, _, rfl⟩ := h
    exact inv.same hi' hx rfl rfl rfl rfl rfl rfl
  | writeOff f h => exact inv.same hi' hx rfl rfl rfl rfl rfl rfl
  | gain vb' h => exact inv.same hi' hx rfl rfl rfl rfl rfl rfl

theorem EInv.later {now now' : Nat} {S : VS} (h : EInv now S) (ht : now ≤ now') : EInv now' S :=
  ⟨h.inv.later ht, fun id => ⟨(h.emis id).unset, fun cfg hc => by
    obtain ⟨a, c, ed, e1, e2, e3, e4, e⟩ := (h.emis id).isSet cfg hc
    exact ⟨a, c, ed, e1, e2, e3, by omega, e⟩⟩⟩

end Pool

theorem Reachable.einv {w : World} (h : Reachable w) {p : Address} (hp : w.poolAddr p = true) :
    Pool.EInv w.time (.of w p) :=
  h.pool_inv (I := Pool.EInv)
    (fun now vb hvb => ⟨Pool.PInv.init now vb, fun id => ⟨fun _ => ⟨rfl, rfl, rfl, rfl⟩, by simp⟩⟩)
    (fun ht _ _ hi => hi.later ht)
    (fun cfg hm hi => Pool.micro_emis cfg hm hi) hp

end Blend
