import Verif.Lemmas.PoolFund
import Verif.Props.Funding
/-
  C56: what the users of a pool can claim is covered by the allowance of the pool, and by BLND.
-/

namespace Blend
namespace Spec

/-- The index of reserve token `id` of pool `p` brought up to date at time `t`, if nothing else happens until then. -/
def PoolIndexAt (w : World) (p : Address) (id t : Nat) (index : Int) : Prop :=
  ∃ asset c d cfg ed ed', (w.pools p).resList[id / 2]? = some asset ∧ (w.pools p).resConfig asset = some c ∧
    (w.pools p).resData asset = some d ∧ (w.pools p).emisConfig id = some cfg ∧ (w.pools p).emisData id = some ed ∧
    IndexUpdate cfg (10 ^ c.decimals) t (tokenSupply d id) (tokenSupply d id) ed ed' ∧ index = ed'.index

/-- What user `u` of pool `p` can claim of reserve token `id` when its index is `index`. -/
def PoolEntitled (w : World) (p : Address) (id : Nat) (index : Int) (u : Address) (x : Int) : Prop :=
  ∃ asset c, (w.pools p).resList[id / 2]? = some asset ∧ (w.pools p).resConfig asset = some c ∧
    Entitled (w.pools p) id c.decimals index u x

/-- An allowance of pool `p` from the backstop for token `t` has lapsed with something left. -/
def Lapsed (w : World) (t p : Address) : Prop :=
  0 < ((w.tok t).allow w.backstopAddr p).1 ∧ ((w.tok t).allow w.backstopAddr p).2 < w.seq

/-- The operation is a gulp of a pool whose allowance has lapsed with something left. -/
def LapsedGulp (w : World) (op : Op) : Prop :=
  ∃ p auth bi, op = .pool p auth .gulpEmissions ∧ w.backstop.inst = some bi ∧ Lapsed w bi.blnd p

end Spec

namespace Props
open Spec Pool

theorem _root_.Blend.Spec.HistoryW.imp {P Q : World → Op → Prop} {w0 w : World} (h : HistoryW P w0 w) (hPQ : ∀ w op, P w op → Q w op) :
    HistoryW Q w0 w := by
  induction h with
  | refl => exact .refl _
  | tail _ h1 hs ih => exact .tail ih (hPQ _ _ h1) hs

theorem allowance_of_not_lapsed {w : World} {t p : Address} (h : ¬ Lapsed w t p) :
    ((w.tok t).allow w.backstopAddr p).1 ≤ w.allowance t w.backstopAddr p := by
  unfold Lapsed at h
  unfold World.allowance
  simp only
  split
  · rename_i h1
    by_contra h2
    exact h ⟨by omega, h1⟩
  · exact le_refl _

theorem historyW_poolFund {P : World → Op → Prop} {w0 w : World} (hg : Genesis w0) (hh : HistoryW P w0 w)
    (hP : ∀ w op, P w op → ¬ LapsedGulp w op) {p : Address} (hp : w.poolAddr p = true) : Reachable w ∧ PoolFund w p := by
  induction hh with
  | refl => exact ⟨⟨_, hg, .refl _⟩, .genesis hg p⟩
  | @tail w' w'' op h0 h1 hs ih =>
    have hr' : Reachable w' := ⟨_, hg, h0.steps⟩
    have hp' : w'.poolAddr p = true := by rw [← (step_res hr'.base hs).poolAddr]; exact hp
    obtain ⟨hr, k⟩ := ih hp'
    refine ⟨hr.step hs, k.step hr hp' hs fun auth bi e hb => allowance_of_not_lapsed fun hl => ?_⟩
    exact hP _ _ h1 ⟨p, auth, bi, e, hb, hl⟩

/-- what users can claim of a reserve token at any later time is at most what is allotted and not yet paid -/
theorem pool_pot_at {w : World} (hr : Reachable w) {p : Address} (hp : w.poolAddr p = true) {id t : Nat} {index : Int}
    (users : Finset Address) (hidx : users.Nonempty → PoolIndexAt w p id t index) {x : Address → Int}
    (hx : ∀ u ∈ users, PoolEntitled w p id index u (x u)) :
    ∑ u ∈ users, x u ≤ (w.pools p).received id - (w.pools p).claimed id := by
  have ei := hr.einv hp
  have ok := ei.emis id
  have hb : ∀ u, 0 ≤ ebal (w.pools p) id u := ei.inv.ebal_nonneg id
  have ht : ∀ F : Finset Nat, ∑ u ∈ F, ebal (w.pools p) id u ≤ etot (w.pools p) id := by
    intro F
    have h1 := SMap.finset_le (m := (w.pools p).positions) (g := ebal (w.pools p) id) hb
      (fun u hu => by unfold ebal getPositions; rw [hu]; exact posBal_default id) F
    have h2 : (w.pools p).positions.sum (fun u _ => ebal (w.pools p) id u) = etot (w.pools p) id :=
      SMap.sum_congr fun u pos hp => by unfold ebal getPositions; rw [hp]; rfl
    omega
  cases hcf : (w.pools p).emisConfig id with
  | none =>
    have hne : users = ∅ := by
      by_contra h
      obtain ⟨_, _, _, cfg, _, _, _, _, _, h1, _⟩ := hidx (Finset.nonempty_iff_ne_empty.2 h)
      rw [hcf] at h1; cases h1
    obtain ⟨_, _, h3, h4⟩ := ok.unset hcf
    change (w.pools p).received id = 0 at h3
    change (w.pools p).claimed id = 0 at h4
    rw [hne, h3, h4]; simp
  | some cfg =>
    obtain ⟨a, c, ed, e1, e2, e3, e4, e5, e6, e7⟩ := ok.isSet cfg hcf
    change (w.pools p).resList[id / 2]? = some a at e1
    change (w.pools p).resConfig a = some c at e2
    change (w.pools p).emisData id = some ed at e3
    change UserOk ed.index ((w.pools p).userEmis id) at e6
    change phi (10 ^ c.decimals) (ebal (w.pools p) id) (etot (w.pools p) id) ed.index ((w.pools p).userEmis id) +
      10 ^ c.decimals * (w.pools p).claimed id + _ ≤ 10 ^ c.decimals * (w.pools p).received id at e7
    set s : Int := 10 ^ c.decimals with hs
    have hs0 : 0 < s := by positivity
    have hz : (0 : Int) ≤ s * ((cfg.eps : Int) * ((cfg.expiration - ed.lastTime : Nat) : Int)) := by positivity
    have key : ∃ J, (users.Nonempty → J = index) ∧ ed.index ≤ J ∧
        (J - ed.index) * etot (w.pools p) id ≤ s * ((cfg.eps : Int) * ((cfg.expiration - ed.lastTime : Nat) : Int)) := by
      by_cases hne : users.Nonempty
      · obtain ⟨a', c', d, cfg', ed', ed'', h1, h2, h3, h4, h5, h6, rfl⟩ := hidx hne
        rw [e1] at h1; cases h1
        rw [e2] at h2; cases h2
        rw [hcf] at h4; cases h4
        rw [e3] at h5; cases h5
        have hsup : tokenSupply d id = etot (w.pools p) id := by
          have hi := (hr.base.cfg p).index_list e1 e2
          unfold tokenSupply
          split
          · have := ei.inv.supply_eq e2 h3 .liab
            rw [show Kind.liab.id c.index = id by simp only [Kind.id]; omega] at this
            exact this
          · have := ei.inv.supply_eq e2 h3 .coll
            rw [show Kind.coll.id c.index = id by simp only [Kind.id]; omega] at this
            exact this
        rw [hsup] at h6
        refine ⟨ed''.index, fun _ => rfl, ?_⟩
        rcases h6 with ⟨rfl, _⟩ | ⟨k1, k2, k3, sp, k4, k5, k6⟩
        · exact ⟨le_refl _, by simpa using hz⟩
        · have k7 := k6.nonneg k4 (by positivity)
          refine ⟨by omega, ?_⟩
          rcases k5 with k5 | k5
          · rw [k5]
            refine le_trans k6.1 ?_
            have h7 : ((ed''.lastTime - ed.lastTime : Nat) : Int) ≤ ((cfg.expiration - ed.lastTime : Nat) : Int) := by
              have : ed''.lastTime - ed.lastTime ≤ cfg.expiration - ed.lastTime := by omega
              exact_mod_cast this
            have h8 := mul_le_mul_of_nonneg_left h7 (show (0 : Int) ≤ s * (cfg.eps : Int) by positivity)
            rw [← hs]
            linarith
          · rw [k5]; simpa using hz
      · exact ⟨ed.index, fun h => absurd h hne, le_refl _, by simpa using hz⟩
    obtain ⟨J, hJ, hJ1, hJ2⟩ := key
    have hok : UserOk J ((w.pools p).userEmis id) := fun u y hy => by
      obtain ⟨a, b, c⟩ := e6 u y hy
      exact ⟨a, b.trans hJ1, c⟩
    have h1 := phi_ge_finset (le_of_lt hs0) (e5.trans hJ1) hok hb ht users
    rw [phi_index _ _ _ ed.index J] at h1
    have h2 : s * ∑ u ∈ users, x u ≤ ∑ u ∈ users,
        (s * (userEntry ((w.pools p).userEmis id) u).accrued +
          ebal (w.pools p) id u * (J - (userEntry ((w.pools p).userEmis id) u).index)) := by
      rw [Finset.mul_sum]
      refine Finset.sum_le_sum fun u hu => ?_
      obtain ⟨a', c', f1, f2, f3⟩ := hx u hu
      rw [e1] at f1; cases f1
      rw [e2] at f2; cases f2
      have := f3.1
      rw [emisRecord_eq, tokenBalance_eq, ← hJ ⟨u, hu⟩, ← hs] at this
      linarith
    have h4 : s * ∑ u ∈ users, x u ≤ s * ((w.pools p).received id - (w.pools p).claimed id) := by
      rw [mul_sub]
      linarith
    exact le_of_mul_le_mul_left h4 hs0

/-- **C56** In every history in which no pool gulps while an allowance of it has lapsed: as long as the allowance
of a pool has not lapsed, it covers everything that any of its users could claim of any of its reserve tokens, all at once, at any
time `t` from now on if nothing else happens (`index id` is the index of reserve token `id` brought up to date at `t`). -/
theorem C56_allowance_covers {w0 w : World} (hg : Genesis w0) (hh : HistoryW (fun w op => ¬ LapsedGulp w op) w0 w)
    {p : Address} (hp : w.poolAddr p = true) {i : PoolInst} {bi : BackstopInst} (hi : (w.pools p).inst = some i)
    (hbi : w.backstop.inst = some bi) (hbk : i.backstop = w.backstopAddr) (hbl : i.blnd = bi.blnd) (hnl : ¬ Lapsed w i.blnd p)
    (t : Nat) (ids : Finset Nat) (users : Nat → Finset Address) (index : Nat → Int) (x : Nat → Address → Int)
    (hidx : ∀ id ∈ ids, (users id).Nonempty → PoolIndexAt w p id t (index id))
    (hx : ∀ id ∈ ids, ∀ u ∈ users id, PoolEntitled w p id (index id) u (x id u)) :
    ∑ id ∈ ids, ∑ u ∈ users id, x id u ≤ w.allowance i.blnd i.backstop p := by
  obtain ⟨hr, k⟩ := historyW_poolFund hg hh (fun _ _ h => h) hp
  obtain ⟨S, hS⟩ := k i.blnd (fun j hj => by rw [hi] at hj; cases hj; exact ⟨hbk, rfl⟩)
    (fun j hj => by rw [hbi] at hj; cases hj; exact hbl.symm)
  have h1 := hS (S ∪ ids) Finset.subset_union_left
  have hpot : ∀ id, 0 ≤ (w.pools p).received id - (w.pools p).claimed id := fun id => by
    have := pool_pot_at hr hp (id := id) (t := 0) (index := 0) (x := fun _ => 0) ∅ (by simp) (by simp)
    simpa using this
  have h2 : ∑ id ∈ ids, ((w.pools p).received id - (w.pools p).claimed id) ≤
      ∑ id ∈ S ∪ ids, ((w.pools p).received id - (w.pools p).claimed id) :=
    Finset.sum_le_sum_of_subset_of_nonneg Finset.subset_union_right fun id _ _ => hpot id
  have h3 : ∑ id ∈ ids, ∑ u ∈ users id, x id u ≤ ∑ id ∈ ids, ((w.pools p).received id - (w.pools p).claimed id) :=
    Finset.sum_le_sum fun id hid => pool_pot_at hr hp (users id) (hidx id hid) (hx id hid)
  have h4 := allowance_of_not_lapsed hnl
  rw [hbk]
  linarith

/-- **C56** In every history with own claims only, without return swaps and without gulps after a lapse, all BLND
emissions promised to anybody are there: for any set of pools (deployed with this backstop and its BLND, their allowances not
lapsed) the backstop's BLND covers at once what the depositors of these pools in the backstop could claim, what the users of
these pools could claim, each at any time `t` from now on if nothing else happens, and the emissions that wait for these pools. -/
theorem C56_all_backed {w0 w : World} (hg : Genesis w0)
    (hh : HistoryW (fun w op => (OwnClaim op ∧ ¬ ReturnSwap w op) ∧ ¬ LapsedGulp w op) w0 w) {bi : BackstopInst} {ei : EmitterInst}
    (hbi : w.backstop.inst = some bi) (hei : w.emitter.inst = some ei) (hbl : ei.blnd = bi.blnd) (hne : bi.blnd ≠ bi.backstopToken)
    (t : Nat) (pools : Finset Address)
    (hpool : ∀ p ∈ pools, w.poolAddr p = true ∧ ¬ Lapsed w bi.blnd p ∧
      ∃ i, (w.pools p).inst = some i ∧ i.backstop = w.backstopAddr ∧ i.blnd = bi.blnd)
    (depositors : Address → Finset Address) (bindex : Address → Int) (y : Address → Address → Int)
    (hbidx : ∀ p ∈ pools, (depositors p).Nonempty → IndexAt w p t (bindex p))
    (hy : ∀ p ∈ pools, ∀ u ∈ depositors p, BEntitled w p (bindex p) u (y p u))
    (ids : Address → Finset Nat) (users : Address → Nat → Finset Address) (index : Address → Nat → Int) (x : Address → Nat → Address → Int)
    (hidx : ∀ p ∈ pools, ∀ id ∈ ids p, (users p id).Nonempty → PoolIndexAt w p id t (index p id))
    (hx : ∀ p ∈ pools, ∀ id ∈ ids p, ∀ u ∈ users p id, PoolEntitled w p id (index p id) u (x p id u)) :
    ∑ p ∈ pools, (∑ u ∈ depositors p, y p u + ∑ id ∈ ids p, ∑ u ∈ users p id, x p id u + w.backstop.poolEmis p) ≤
      w.balance bi.blnd w.backstopAddr := by
  obtain ⟨last, _, h1, h2⟩ := C55_emissions_funded hg (hh.imp fun _ _ h => h.1) hbi hei hbl hne t pools depositors bindex y hbidx hy
  have h3 : ∑ p ∈ pools, (∑ u ∈ depositors p, y p u + ∑ id ∈ ids p, ∑ u ∈ users p id, x p id u + w.backstop.poolEmis p) ≤
      ∑ p ∈ pools, (∑ u ∈ depositors p, y p u + w.backstop.poolEmis p + w.allowance bi.blnd w.backstopAddr p) := by
    refine Finset.sum_le_sum fun p hp => ?_
    obtain ⟨k1, k2, i, k3, k4, k5⟩ := hpool p hp
    have := C56_allowance_covers hg (hh.imp fun _ _ h => h.2) k1 k3 hbi k4 k5 (by rw [k5]; exact k2) t (ids p) (users p) (index p) (x p)
      (hidx p hp) (hx p hp)
    rw [k4, k5] at this
    linarith
  have h4 : 0 ≤ ((last : Int) - w.backstop.lastDistro) * ONE7 := by
    refine mul_nonneg (by omega) (by norm_num [ONE7])
  linarith

/-! ### examples -/

/-- a check of every operation of a run -/
def _root_.Blend.Demo.checks (f : World → Op → Bool) : World → List Op → Bool
  | _, [] => true
  | w, op :: ops => f w op && Demo.okAnd (step w op) fun w' => Demo.checks f w' ops

theorem historyW_of_checks {P : World → Op → Prop} {f : World → Op → Bool} : ∀ {ops : List Op} {w w' : World}, Demo.run w ops = .ok w' →
    Demo.checks f w ops = true → (∀ op ∈ ops, ∀ w, f w op = true → P w op) → ∀ w0, HistoryW P w0 w → HistoryW P w0 w'
  | [], w, w', h, _, _, w0, h0 => by simp only [Demo.run, pure_ok] at h; exact h ▸ h0
  | op :: ops, w, w', h, hc, hP, w0, h0 => by
    simp only [Demo.run, bind_ok] at h
    obtain ⟨w1, h1, h2⟩ := h
    simp only [Demo.checks, Bool.and_eq_true, Demo.okAnd_iff] at hc
    obtain ⟨c1, w2, c2, c3⟩ := hc
    rw [h1] at c2; cases c2
    exact historyW_of_checks h2 c3 (fun o ho => hP o (by simp [ho])) w0 (.tail h0 (hP op (by simp) w c1) h1)

/-- the allowance has not lapsed if this is a gulp -/
def _root_.Blend.Demo.notLapsed (w : World) : Op → Bool
  | .pool p _ .gulpEmissions => match w.backstop.inst with
    | some bi => decide (¬ (0 < ((w.tok bi.blnd).allow w.backstopAddr p).1 ∧ ((w.tok bi.blnd).allow w.backstopAddr p).2 < w.seq))
    | none => true
  | _ => true

/-- two gulps, with a claim of bob in between -/
def _root_.Blend.Demo.twoGulps : List Op := Demo.setup ++ Demo.trade ++ Demo.emissions ++ Demo.claims ++
  [.ledger 5000 1000, .emitter [] .distribute, .backstop [] .gulpEmissions, .pool Demo.poolA [] .gulpEmissions, .ledger 1000 200]

/-- After the demo with two gulps bob is entitled to something for his debt and his collateral, and carol in the backstop. -/
example : ∃ w i bi ei, HistoryW (fun w op => (OwnClaim op ∧ ¬ ReturnSwap w op) ∧ ¬ LapsedGulp w op) Demo.genesis w ∧
    w.backstop.inst = some bi ∧ w.emitter.inst = some ei ∧ ei.blnd = bi.blnd ∧ bi.blnd ≠ bi.backstopToken ∧
    w.poolAddr Demo.poolA = true ∧ ¬ Lapsed w bi.blnd Demo.poolA ∧ (w.pools Demo.poolA).inst = some i ∧ i.backstop = w.backstopAddr ∧
    i.blnd = bi.blnd ∧ ∃ index x, PoolIndexAt w Demo.poolA 0 (w.time + 500) index ∧ PoolEntitled w Demo.poolA 0 index Demo.bob x ∧ 0 < x ∧
    0 < (w.pools Demo.poolA).claimed 0 ∧ x ≤ w.allowance i.blnd i.backstop Demo.poolA := by
  obtain ⟨w, hw, hr, h⟩ := Demo.reach (ops := Demo.twoGulps)
    (f := fun w => (Demo.checks Demo.notLapsed Demo.genesis Demo.twoGulps && (w.poolAddr Demo.poolA &&
      decide ((w.pools Demo.poolA).resList[0 / 2]? = some Demo.usdcA))) &&
      Demo.optAnd w.backstop.inst fun bi => Demo.optAnd w.emitter.inst fun ei => Demo.optAnd (w.pools Demo.poolA).inst fun i =>
      Demo.optAnd ((w.pools Demo.poolA).resConfig Demo.usdcA) fun c => Demo.optAnd ((w.pools Demo.poolA).resData Demo.usdcA) fun d =>
      Demo.optAnd ((w.pools Demo.poolA).emisConfig 0) fun cfg => Demo.optAnd ((w.pools Demo.poolA).emisData 0) fun ed =>
      decide ((ei.blnd = bi.blnd ∧ bi.blnd ≠ bi.backstopToken ∧ i.backstop = w.backstopAddr ∧ i.blnd = bi.blnd ∧
          ¬ (0 < ((w.tok bi.blnd).allow w.backstopAddr Demo.poolA).1 ∧ ((w.tok bi.blnd).allow w.backstopAddr Demo.poolA).2 < w.seq)) ∧
        (ed.lastTime < min (w.time + 500) cfg.expiration ∧ 0 < cfg.eps ∧ 0 < tokenSupply d 0 ∧ 0 < (w.pools Demo.poolA).claimed 0) ∧
        0 < (emisRecord ((w.pools Demo.poolA).userEmis 0) Demo.bob).accrued +
          (tokenBalance (w.pools Demo.poolA) 0 Demo.bob *
            (ed.index + (((min (w.time + 500) cfg.expiration - ed.lastTime : Nat) : Int) * cfg.eps * 10 ^ c.decimals) / tokenSupply d 0 -
              (emisRecord ((w.pools Demo.poolA).userEmis 0) Demo.bob).index)) / 10 ^ c.decimals))
    (by decide +kernel)
  simp only [Bool.and_eq_true, Demo.optAnd_iff, decide_eq_true_eq] at h
  obtain ⟨⟨hc, hp, hl⟩, bi, hbi, ei, hei, i, hi, c, hcf, d, hd, cfg, hcfg, ed, hed, ⟨h1, h2, h3, h4, h5⟩, ⟨h6, h7, h8, h9⟩, h10⟩ := h
  have fl : ∀ a b : Int, 0 < b → IsFloor (a / b) a b := fun a b hb =>
    ⟨Int.ediv_mul_le a (ne_of_gt hb), by have := Int.lt_ediv_add_one_mul_self a hb; linarith⟩
  have hh : HistoryW (fun w op => (OwnClaim op ∧ ¬ ReturnSwap w op) ∧ ¬ LapsedGulp w op) Demo.genesis w := by
    refine historyW_of_checks hw hc (fun op hop w1 hf => ⟨⟨?_, ?_⟩, ?_⟩) _ (.refl _)
    · intro auth s ps d e
      subst e
      simp [Demo.twoGulps, Demo.setup, Demo.trade, Demo.emissions, Demo.claims] at hop
      obtain ⟨_, rfl, _, rfl⟩ := hop
      rfl
    · rintro ⟨auth, s, rfl, _⟩
      simp [Demo.twoGulps, Demo.setup, Demo.trade, Demo.emissions, Demo.claims] at hop
    · rintro ⟨p, auth, b, rfl, hb, hlap⟩
      simp only [Demo.notLapsed, hb, decide_eq_true_eq] at hf
      exact hf hlap
  have hidx : PoolIndexAt w Demo.poolA 0 (w.time + 500)
      (ed.index + (((min (w.time + 500) cfg.expiration - ed.lastTime : Nat) : Int) * cfg.eps * 10 ^ c.decimals) / tokenSupply d 0) :=
    ⟨_, c, d, cfg, ed, ⟨_, min (w.time + 500) cfg.expiration⟩, hl, hcf, hd, hcfg, hed,
      .inr ⟨h6, rfl, h7, tokenSupply d 0, h8, .inl rfl, by simpa using fl _ _ h8⟩, rfl⟩
  have hent : PoolEntitled w Demo.poolA 0
      (ed.index + (((min (w.time + 500) cfg.expiration - ed.lastTime : Nat) : Int) * cfg.eps * 10 ^ c.decimals) / tokenSupply d 0) Demo.bob
      ((emisRecord ((w.pools Demo.poolA).userEmis 0) Demo.bob).accrued +
          (tokenBalance (w.pools Demo.poolA) 0 Demo.bob *
            (ed.index + (((min (w.time + 500) cfg.expiration - ed.lastTime : Nat) : Int) * cfg.eps * 10 ^ c.decimals) / tokenSupply d 0 -
              (emisRecord ((w.pools Demo.poolA).userEmis 0) Demo.bob).index)) / 10 ^ c.decimals) :=
    ⟨_, c, hl, hcf, by unfold Entitled; rw [add_sub_cancel_left]; exact fl _ _ (by positivity)⟩
  refine ⟨w, i, bi, ei, hh, hbi, hei, h1, h2, hp, h5, hi, h3, h4, _, _, hidx, hent, h10, h9, ?_⟩
  have := C56_allowance_covers Demo.genesis_ok (hh.imp fun _ _ h => h.2) hp hi hbi h3 h4 (by rw [h4]; exact h5) (w.time + 500) {0}
    (fun _ => {Demo.bob}) (fun _ => _) (fun _ _ => _) (by simpa using hidx) (by simpa using hent)
  simpa using this

/-- 121 days of emissions are gulped, and 121 days later nobody has claimed -/
def _root_.Blend.Demo.lapse : List Op := Demo.setup ++ Demo.trade ++ [
  .ledger 10454400 2090880, .emitter [] .distribute, .backstop [] .gulpEmissions, .pool Demo.poolA [] .gulpEmissions,
  .ledger 10454400 2090880]

/-- the next gulp, and a week later -/
def _root_.Blend.Demo.lapseGulp : List Op := Demo.lapse ++ [
  .emitter [] .distribute, .backstop [] .gulpEmissions, .pool Demo.poolA [] .gulpEmissions, .ledger 604800 120960]

/-- **The allowance of a pool lapses** (finding): it expires 120 days after the last gulp. Bob's claim of his emissions
then fails, although they have accrued and the backstop holds the BLND. -/
theorem C56_lapse_blocks_claims : ∃ w, HistoryW (fun w op => (OwnClaim op ∧ ¬ ReturnSwap w op) ∧ ¬ LapsedGulp w op) Demo.genesis w ∧
    Lapsed w Demo.blndA Demo.poolA ∧ step w (.pool Demo.poolA [Demo.bob] (.claim Demo.bob [0, 3] Demo.bob)) = .error .token := by
  obtain ⟨w, hw, hr, h⟩ := Demo.reach (ops := Demo.lapse)
    (f := fun w => Demo.checks Demo.notLapsed Demo.genesis Demo.lapse && (
      decide (0 < ((w.tok Demo.blndA).allow w.backstopAddr Demo.poolA).1 ∧ ((w.tok Demo.blndA).allow w.backstopAddr Demo.poolA).2 < w.seq) &&
      Demo.errIs (step w (.pool Demo.poolA [Demo.bob] (.claim Demo.bob [0, 3] Demo.bob))) .token)) (by decide +kernel)
  simp only [Bool.and_eq_true, Demo.errIs_iff, decide_eq_true_eq] at h
  obtain ⟨hc, h1, h2⟩ := h
  refine ⟨w, historyW_of_checks hw hc (fun op hop w1 hf => ⟨⟨?_, ?_⟩, ?_⟩) _ (.refl _), h1, h2⟩
  · intro auth s ps d e
    subst e
    simp [Demo.lapse, Demo.setup, Demo.trade] at hop
  · rintro ⟨auth, s, rfl, _⟩
    simp [Demo.lapse, Demo.setup, Demo.trade] at hop
  · rintro ⟨p, auth, b, rfl, hb, hlap⟩
    simp only [Demo.notLapsed, hb, decide_eq_true_eq] at hf
    exact hf hlap

/-- **C56 is false after a gulp with a lapsed allowance** (finding): the gulp sets the allowance to the new emissions alone; what
was allotted before is lost. A week later bob's claim fails although the allowance has not lapsed. -/
theorem C56_fails_after_lapsed_gulp : ∃ w, HistoryW (fun w op => OwnClaim op ∧ ¬ ReturnSwap w op) Demo.genesis w ∧
    ¬ Lapsed w Demo.blndA Demo.poolA ∧ 0 < w.allowance Demo.blndA w.backstopAddr Demo.poolA ∧
    step w (.pool Demo.poolA [Demo.bob] (.claim Demo.bob [0, 3] Demo.bob)) = .error .token := by
  obtain ⟨w, hw, hr, h⟩ := Demo.reach (ops := Demo.lapseGulp)
    (f := fun w =>
      decide (¬ (0 < ((w.tok Demo.blndA).allow w.backstopAddr Demo.poolA).1 ∧ ((w.tok Demo.blndA).allow w.backstopAddr Demo.poolA).2 < w.seq) ∧
        0 < w.allowance Demo.blndA w.backstopAddr Demo.poolA) &&
      Demo.errIs (step w (.pool Demo.poolA [Demo.bob] (.claim Demo.bob [0, 3] Demo.bob))) .token) (by decide +kernel)
  simp only [Bool.and_eq_true, Demo.errIs_iff, decide_eq_true_eq] at h
  obtain ⟨⟨h1, h3⟩, h2⟩ := h
  refine ⟨w, historyW_of_run hw (fun op hop w1 => ⟨?_, ?_⟩) _ (.refl _), h1, h3, h2⟩
  · intro auth s ps d e
    subst e
    simp [Demo.lapseGulp, Demo.lapse, Demo.setup, Demo.trade] at hop
  · rintro ⟨auth, s, rfl, _⟩
    simp [Demo.lapseGulp, Demo.lapse, Demo.setup, Demo.trade] at hop

end Props
end Blend
