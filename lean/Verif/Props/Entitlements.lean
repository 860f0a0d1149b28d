import Verif.Lemmas.ClaimLoop
import Verif.Lemmas.Claimed
import Verif.Lemmas.Threshold
import Verif.Examples.Demo
/-
  C50: what a user can claim of the emissions of a pool's reserve tokens grows exactly pro rata, and a claim pays exactly that.

  The statements use `Spec.Entitled` (what a user can claim at a given index), `Spec.tokenBalance`, `Spec.tokenSupply` from
  `Verif/Props/PoolEmissions.lean` and `Spec.IsFloor`.
-/

namespace Blend
namespace Pool
open Spec

theorem entitled_iff {ps : PoolState} {id dec : Nat} {J : Int} {u : Address} {e : Int} :
    Entitled ps id dec J u e ↔ e = entAt ps id (10 ^ dec) u J := by
  have h10 : (0 : Int) < 10 ^ dec := by positivity
  unfold Entitled entAt
  rw [emisRecord_eq, tokenBalance_eq]
  have hf := fdiv_spec (a := ebal ps id u * (J - (userEntry (ps.userEmis id) u).index)) h10
  constructor
  · intro h
    have := IsFloor.unique h10 h ⟨hf.1, by linarith [hf.2]⟩
    omega
  · rintro rfl
    rw [add_sub_cancel_left]
    exact ⟨hf.1, by linarith [hf.2]⟩

theorem tokenSupply_etot {w : World} (h : Reachable w) {p : Address} (hp : w.poolAddr p = true) {id : Nat} {asset : Address}
    {c : ReserveConfig} {d : ReserveData} (ha : (w.pools p).resList[id / 2]? = some asset)
    (hc : (w.pools p).resConfig asset = some c) (hd : (w.pools p).resData asset = some d) :
    tokenSupply d id = etot (w.pools p) id := by
  have hidx := (h.base.cfg p).index_list ha hc
  unfold tokenSupply
  split
  · have := (h.einv hp).inv.supply_eq hc hd .liab
    rw [show Kind.liab.id c.index = id by simp only [Kind.id]; omega] at this
    exact this
  · have := (h.einv hp).inv.supply_eq hc hd .coll
    rw [show Kind.coll.id c.index = id by simp only [Kind.id]; omega] at this
    exact this

end Pool

namespace Props
open Spec Pool Demo

/-- **C50** No operation of anyone, other than a claim of the user's own, changes what he can claim of a reserve token, except
through the index: at the index reached after the operation, he can claim after it exactly what his balance and record from before it
give. The one exception is an operation that starts with no supply of the token while emissions are due; then he can claim at least
that much. -/
theorem C50_entitlement_step {w w' : World} {op : Op} (hr : Reachable w) (hs : step w op = .ok w') {p : Address}
    (hp : w.poolAddr p = true) {id : Nat} {asset : Address} {c : ReserveConfig} {d : ReserveData} {cfg : EmisConfig}
    {ed ed' : EmisData} {u : Address} (ha : (w.pools p).resList[id / 2]? = some asset)
    (hc : (w.pools p).resConfig asset = some c) (hd : (w.pools p).resData asset = some d)
    (hcf : (w.pools p).emisConfig id = some cfg) (hed : (w.pools p).emisData id = some ed)
    (hed' : (w'.pools p).emisData id = some ed')
    (hop : ∀ auth ids dst, op ≠ .pool p auth (.claim u ids dst)) {e e' : Int}
    (he : Entitled (w.pools p) id c.decimals ed'.index u e) (he' : Entitled (w'.pools p) id c.decimals ed'.index u e') :
    e ≤ e' ∧ (tokenSupply d id ≠ 0 ∨ cfg.eps = 0 ∨ min w.time cfg.expiration ≤ ed.lastTime → e' = e) := by
  rw [entitled_iff] at he he'
  rw [tokenSupply_etot hr hp ha hc hd]
  have r := step_res hr.base hs
  obtain ⟨P, p0, p1, p2, pn, p3, p4⟩ := micros_entitle (u := u) (hr.base.cfg p) (hr.einv hp) (r.micros p hp) hcf ha hc
  change P ≤ (w'.pools p).claimed id - (w.pools p).claimed id at p1
  have hP : P = 0 := by
    by_cases hcl : ∃ auth s l d, op = .pool p auth (.claim s l d)
    · obtain ⟨auth, s, l, dst, rfl⟩ := hcl
      refine pn fun ht => ?_
      obtain ⟨_, ht⟩ := ht
      exact hop auth l dst (by rw [show u = s from ht])
    · push Not at hcl
      have := step_claimed hr hs (p := p) hcl
      rw [this] at p1
      omega
  subst hP
  have hlow := p3 ed' hed'
  change entAt (w.pools p) id _ u _ ≤ entAt (w'.pools p) id _ u _ + 0 at hlow
  refine ⟨by omega, fun hx => ?_⟩
  obtain ⟨_, _, ed0, _, _, q3, q4, _⟩ := (hr.einv hp).emis id |>.isSet cfg hcf
  change (w.pools p).emisData id = some ed0 at q3
  rw [hed] at q3; cases q3
  have q4 : ed.lastTime ≤ w.time := q4
  rcases p4 with ⟨_, g1, g2, g3⟩ | ⟨_, g2⟩ | ⟨g1, g2⟩
  · rw [he, he']
    unfold entAt
    change userEntry ((w'.pools p).userEmis id) u = userEntry ((w.pools p).userEmis id) u at g1
    change ebal (w'.pools p) id u = ebal (w.pools p) id u at g2
    rw [g1, g2]
  · have := g2 ed' hed'
    change entAt (w'.pools p) id _ u _ + 0 = entAt (w.pools p) id _ u _ at this
    omega
  · rcases hx with hx | hx | hx
    · exact absurd g1 hx
    · exact absurd ⟨cfg, ed, hcf, hed, .inr (.inr hx)⟩ g2
    · refine absurd ⟨cfg, ed, hcf, hed, ?_⟩ g2
      show cfg.expiration ≤ ed.lastTime ∨ ed.lastTime = w.time ∨ cfg.eps = 0
      omega

/-- **C50** In terms of growth: through any operation that is not a claim of his own, what a user can claim grows by his balance
before the operation times the growth of the index, up to rounding. -/
theorem C50_entitlement_growth {w w' : World} {op : Op} (hr : Reachable w) (hs : step w op = .ok w') {p : Address}
    (hp : w.poolAddr p = true) {id : Nat} {asset : Address} {c : ReserveConfig} {d : ReserveData} {cfg : EmisConfig}
    {ed ed' : EmisData} {u : Address} (ha : (w.pools p).resList[id / 2]? = some asset)
    (hc : (w.pools p).resConfig asset = some c) (hd : (w.pools p).resData asset = some d)
    (hcf : (w.pools p).emisConfig id = some cfg) (hed : (w.pools p).emisData id = some ed)
    (hed' : (w'.pools p).emisData id = some ed')
    (hop : ∀ auth ids dst, op ≠ .pool p auth (.claim u ids dst)) (hsup : tokenSupply d id ≠ 0) {e e' g : Int}
    (he : Entitled (w.pools p) id c.decimals ed.index u e) (he' : Entitled (w'.pools p) id c.decimals ed'.index u e')
    (hg : IsFloor g (tokenBalance (w.pools p) id u * (ed'.index - ed.index)) (10 ^ c.decimals)) :
    e + g ≤ e' ∧ e' ≤ e + g + 1 := by
  have h1 := (C50_entitlement_step hr hs hp ha hc hd hcf hed hed' hop (e := entAt (w.pools p) id (10 ^ c.decimals) u ed'.index)
    (entitled_iff.2 rfl) he').2 (.inl hsup)
  have h10 : (0 : Int) < 10 ^ c.decimals := by positivity
  have h2 : Entitled (w.pools p) id c.decimals ed'.index u e' := by rw [h1]; exact entitled_iff.2 rfl
  obtain ⟨a1, a2⟩ := he
  obtain ⟨b1, b2⟩ := h2
  obtain ⟨g1, g2⟩ := hg
  generalize (10 : Int) ^ c.decimals = s at *
  generalize tokenBalance (w.pools p) id u = b at *
  generalize emisRecord ((w.pools p).userEmis id) u = x at *
  have hx : b * (ed'.index - x.index) = b * (ed'.index - ed.index) + b * (ed.index - x.index) := by ring
  rw [hx] at b1 b2
  constructor
  · by_contra hlt
    push Not at hlt
    have : s * (e' - x.accrued + 1) ≤ s * (e - x.accrued + g) := by
      apply Int.mul_le_mul_of_nonneg_left (by omega) (le_of_lt h10)
    nlinarith
  · by_contra hlt
    push Not at hlt
    have : s * (e - x.accrued + g + 2) ≤ s * (e' - x.accrued) := by
      apply Int.mul_le_mul_of_nonneg_left (by omega) (le_of_lt h10)
    nlinarith

/-- **C50** A successful claim brings the index of each of the named reserve tokens up to date, pays exactly what the user can claim
at that index, and leaves nothing to claim of it; it pays nothing for reserve tokens that have no emissions. What it pays is added to the
model's count `claimed` of what was ever paid for the token. The sum, counting a token that is named
twice once, moves from the backstop's BLND to the named receiver, and no other balance of any token changes. -/
theorem C50_claim_exact {w w' : World} (hr : Reachable w) {p : Address} {auth : List Address} {u dst : Address} {ids : List Nat}
    {i : PoolInst} (hi : (w.pools p).inst = some i) (hs : step w (.pool p auth (.claim u ids dst)) = .ok w') :
    ∃ paid : Nat → Int,
      (∀ id, (w'.pools p).claimed id = (w.pools p).claimed id + if id ∈ ids then paid id else 0) ∧
      (∀ id ∈ ids, (w.pools p).emisConfig id = none → paid id = 0) ∧
      (∀ id ∈ ids, ∀ cfg asset c d ed, (w.pools p).emisConfig id = some cfg → (w.pools p).resList[id / 2]? = some asset →
        (w.pools p).resConfig asset = some c → (w.pools p).resData asset = some d → (w.pools p).emisData id = some ed → 0 ≤ paid id ∧
        ∃ ed', (w'.pools p).emisData id = some ed' ∧ UpToDate cfg (10 ^ c.decimals) w.time (tokenSupply d id) ed ed'.index ∧
          Entitled (w.pools p) id c.decimals ed'.index u (paid id) ∧ Entitled (w'.pools p) id c.decimals ed'.index u 0) ∧
      ∀ t x, w'.balance t x = w.balance t x +
        ((if t = i.blnd ∧ x = dst then ∑ id ∈ ids.toFinset, paid id else 0) -
         (if t = i.blnd ∧ x = i.backstop then ∑ id ∈ ids.toFinset, paid id else 0)) := by
  have r := step_res hr.base hs
  simp only [step, bind_ok, require_ok] at hs
  obtain ⟨_, hp, _, hauth, h⟩ := hs
  simp only [call, executeClaim, bind_ok, requireAuth_ok, Prod.exists, pure_ok] at h
  obtain ⟨_, _, n1, w1, ⟨n, ps', hl, h⟩, rfl⟩ := h
  have L := claimLoop_exact _ _ _ _ _ hl
  have htot := L.total
  have hinst : ps'.inst = some i := by rw [L.config.inst, hi]
  have hpools : w1.pools p = ps' := by
    simp only [ite_ok, bind_ok, pure_ok, Prod.mk.injEq] at h
    rcases h with ⟨_, j, hj, w2, ht, rfl, rfl⟩ | ⟨_, rfl, rfl⟩
    · rw [(transferFrom_res ht).frame, pools_setPool]
    · rw [pools_setPool]
  have hpay : ∀ id ∈ ids, ∀ cfg asset c, (w.pools p).emisConfig id = some cfg → (w.pools p).resList[id / 2]? = some asset →
        (w.pools p).resConfig asset = some c → ∃ ed', ps'.emisData id = some ed' ∧
        0 ≤ ps'.claimed id - (w.pools p).claimed id ∧
        Entitled (w.pools p) id c.decimals ed'.index u (ps'.claimed id - (w.pools p).claimed id) ∧
        ∀ q : PoolState, q.userEmis id = ps'.userEmis id → Entitled q id c.decimals ed'.index u 0 := by
    intro id hid cfg asset c hcf ha hc
    obtain ⟨ed', k1, k2, k3⟩ := L.claimed id hid cfg asset c hcf ha hc
    refine ⟨ed', k1, ?_, entitled_iff.2 (by omega), fun q hq => entitled_iff.2 ?_⟩
    · have hrel := (micros_index (hr.base.cfg p) (hr.einv hp) ((r.micros p hp).mono (U' := fun _ => True) fun _ _ => trivial)).1
      obtain ⟨a0, c0, ed, _, _, hed, _, hI, hU, _⟩ := ((hr.einv hp).emis id).isSet cfg hcf
      obtain ⟨_, ed2, _, l2, l3, _⟩ := hrel.rel id cfg ed asset c hcf hed ha hc
      change (w1.pools p).emisData id = some ed2 at l2
      rw [hpools, k1] at l2; cases l2
      obtain ⟨u1, u2, u3⟩ := hU.entry hI u
      have hb : 0 ≤ ebal (w.pools p) id u := (hr.einv hp).inv.ebal_nonneg id u
      change (userEntry ((w.pools p).userEmis id) u).index ≤ ed.index at u2
      change 0 ≤ (userEntry ((w.pools p).userEmis id) u).accrued at u3
      have h10 : (0 : Int) < 10 ^ c.decimals := by positivity
      have : 0 ≤ Int.fdiv (ebal (w.pools p) id u * (ed'.index - (userEntry ((w.pools p).userEmis id) u).index)) (10 ^ c.decimals) :=
        Int.fdiv_nonneg (Int.mul_nonneg hb (by omega)) (le_of_lt h10)
      unfold entAt at k3
      omega
    · unfold entAt userEntry
      rw [hq, k2, SMap.get_set, if_pos rfl]
      simp
  refine ⟨fun id => ps'.claimed id - (w.pools p).claimed id, fun id => ?_, fun id hid hn => ?_, fun id hid cfg asset c d ed hcf ha hc hd hed => ?_, fun t x => ?_⟩
  · rw [hpools]
    by_cases hid : id ∈ ids
    · rw [if_pos hid]; beta_reduce; omega
    · rw [if_neg hid, (L.other id (.inl hid)).2.2, add_zero]
  · have := (L.other id (.inr hn)).2.2
    simp only [this, sub_self]
  · obtain ⟨ed', k1, k2, k3, k4⟩ := hpay id hid cfg asset c hcf ha hc
    rw [hpools]
    exact ⟨k2, ed', k1, L.upToDate id hid cfg asset c d ed ed' hcf ha hc hd hed k1, k3, k4 _ rfl⟩
  · have hn : n = ∑ id ∈ ids.toFinset, (ps'.claimed id - (w.pools p).claimed id) := by rw [htot]; ring
    have hnn : 0 ≤ n := by
      rw [hn]
      refine Finset.sum_nonneg fun id hid => ?_
      cases hcf : (w.pools p).emisConfig id with
      | none => rw [(L.other id (.inr hcf)).2.2]; omega
      | some cfg =>
        obtain ⟨a, c, _, q1, q2, _⟩ := ((hr.einv hp).emis id).isSet cfg hcf
        exact (hpay id (by simpa using hid) cfg a c hcf q1 q2).choose_spec.2.1
    simp only
    rw [← hn]
    simp only [ite_ok, bind_ok, pure_ok, Prod.mk.injEq] at h
    rcases h with ⟨_, j, hj, w2, ht, rfl, rfl⟩ | ⟨h0, rfl, rfl⟩
    · simp only [PoolState.getInst, hinst, unwrap_ok, Option.some.injEq] at hj
      subst hj
      rw [(transferFrom_res ht).bal]
      rfl
    · have : n = 0 := by omega
      subst this
      simp [World.setPool, World.balance]

/-- The hypotheses are met when bob borrows more USDC while alice's and his emissions run: what he can claim of the USDC debt token
grows, and the supply is not 0. -/
example : ∃ w w' op p id asset c d cfg ed ed' u e e', Reachable w ∧ step w op = .ok w' ∧ w.poolAddr p = true ∧
    (w.pools p).resList[id / 2]? = some asset ∧ (w.pools p).resConfig asset = some c ∧
    (w.pools p).resData asset = some d ∧ (w.pools p).emisConfig id = some cfg ∧ (w.pools p).emisData id = some ed ∧
    (w'.pools p).emisData id = some ed' ∧ (∀ auth ids dst, op ≠ .pool p auth (.claim u ids dst)) ∧ tokenSupply d id ≠ 0 ∧
    Entitled (w.pools p) id c.decimals ed.index u e ∧ Entitled (w'.pools p) id c.decimals ed'.index u e' ∧ e < e' := by
  obtain ⟨w, w', _, hr, hs, h⟩ := Demo.reach_step (ops := Demo.setup ++ Demo.trade ++ Demo.emissions)
    (op := .pool poolA [bob] (.submit bob bob bob [⟨4, usdcA, 1000000⟩]))
    (f := fun w w' => w.poolAddr poolA && (decide ((w.pools poolA).resList[0 / 2]? = some usdcA) &&
      (Demo.optAnd ((w.pools poolA).resConfig usdcA) fun c =>
        Demo.optAnd ((w.pools poolA).resData usdcA) fun d =>
        Demo.optAnd ((w.pools poolA).emisConfig 0) fun _ =>
        Demo.optAnd ((w.pools poolA).emisData 0) fun ed =>
        Demo.optAnd ((w'.pools poolA).emisData 0) fun ed' =>
          decide (tokenSupply d 0 ≠ 0 ∧ entAt (w.pools poolA) 0 (10 ^ c.decimals) bob ed.index <
            entAt (w'.pools poolA) 0 (10 ^ c.decimals) bob ed'.index)))) (by decide +kernel)
  simp only [Bool.and_eq_true, decide_eq_true_eq, Demo.optAnd_iff] at h
  obtain ⟨h1, h2, c, h3, d, h4, cfg, h5, ed, h6, ed', h7, h8, h9⟩ := h
  exact ⟨w, w', _, _, 0, _, c, d, cfg, ed, ed', bob, _, _, hr, hs, h1, h2, h3, h4, h5, h6, h7, by simp, h8,
    entitled_iff.2 rfl, entitled_iff.2 rfl, h9⟩

/-- The hypotheses of `C50_claim_exact` are met when bob claims two reserve tokens, naming one of them twice, and BLND is paid. -/
example : ∃ w w' p auth u dst ids i, Reachable w ∧ (w.pools p).inst = some i ∧
    step w (.pool p auth (.claim u ids dst)) = .ok w' ∧ w.balance i.blnd dst < w'.balance i.blnd dst ∧ ids = [0, 3, 0] := by
  obtain ⟨w, w', _, hr, hs, h⟩ := Demo.reach_step (ops := Demo.setup ++ Demo.trade ++ Demo.emissions)
    (op := .pool poolA [bob] (.claim bob [0, 3, 0] dave))
    (f := fun w w' => Demo.optAnd ((w.pools poolA).inst) fun i =>
          decide (w.balance i.blnd dave < w'.balance i.blnd dave)) (by decide +kernel)
  simp only [decide_eq_true_eq, Demo.optAnd_iff] at h
  obtain ⟨i, h1, h2⟩ := h
  exact ⟨w, w', _, _, _, _, _, i, hr, h1, hs, h2, rfl⟩

/-- **C50** The exception is real: emissions that run while nobody holds a reserve token go to whoever supplies first and touches the
pool again before anybody else, here in one submission, although he held nothing while they ran. -/
theorem C50_first_supplier_takes_all : ∃ w w' op p id asset c d cfg ed ed' u e', Reachable w ∧ step w op = .ok w' ∧
    w.poolAddr p = true ∧ (w.pools p).resList[id / 2]? = some asset ∧ (w.pools p).resConfig asset = some c ∧
    (w.pools p).resData asset = some d ∧ (w.pools p).emisConfig id = some cfg ∧ (w.pools p).emisData id = some ed ∧
    (w'.pools p).emisData id = some ed' ∧ tokenSupply d id = 0 ∧
    tokenBalance (w.pools p) id u = 0 ∧ Entitled (w.pools p) id c.decimals ed'.index u 0 ∧
    Entitled (w'.pools p) id c.decimals ed'.index u e' ∧ 0 < e' ∧
    e' = ((w.time - ed.lastTime : Nat) : Int) * cfg.eps := by
  obtain ⟨w, w', _, hr, hs, h⟩ := Demo.reach_step
    (ops := Demo.setup ++ [.backstop [] (.addReward poolA poolA)] ++ Demo.emissions)
    (op := .pool poolA [bob] (.submit bob bob bob [⟨2, xlmA, 10⟩, ⟨2, xlmA, 1⟩]))
    (f := fun w w' => w.poolAddr poolA && (decide ((w.pools poolA).resList[3 / 2]? = some xlmA) &&
      (Demo.optAnd ((w.pools poolA).resConfig xlmA) fun c =>
        Demo.optAnd ((w.pools poolA).resData xlmA) fun d =>
        Demo.optAnd ((w.pools poolA).emisConfig 3) fun cfg =>
        Demo.optAnd ((w.pools poolA).emisData 3) fun ed =>
        Demo.optAnd ((w'.pools poolA).emisData 3) fun ed' =>
          decide (tokenSupply d 3 = 0 ∧ tokenBalance (w.pools poolA) 3 bob = 0 ∧
            0 = entAt (w.pools poolA) 3 (10 ^ c.decimals) bob ed'.index ∧
            0 < entAt (w'.pools poolA) 3 (10 ^ c.decimals) bob ed'.index ∧
            entAt (w'.pools poolA) 3 (10 ^ c.decimals) bob ed'.index = ((w.time - ed.lastTime : Nat) : Int) * cfg.eps)))) (by decide +kernel)
  simp only [Bool.and_eq_true, decide_eq_true_eq, Demo.optAnd_iff] at h
  obtain ⟨h1, h2, c, h3, d, h4, cfg, h5, ed, h6, ed', h7, h8, h9, h10, h11, h12⟩ := h
  exact ⟨w, w', _, _, 3, _, c, d, cfg, ed, ed', bob, _, hr, hs, h1, h2, h3, h4, h5, h6, h7, h8, h9, entitled_iff.2 h10,
    entitled_iff.2 rfl, h11, h12⟩

end Props
end Blend
