import Verif.Lemmas.LiveClaim
import Verif.Props.PoolFunding
import Verif.Props.Exits
import Verif.Props.Entitlements
/-
  C57: claims of pool emissions cannot be blocked.
-/

namespace Blend
namespace Pool
open Spec Props

variable {E : Err → Bool} {w : World}

/-- a transfer with an allowance fails only for lack of allowance or tokens, or by overflow -/
theorem transferFrom_live {t sp o dst : Address} {n : Int} (hn : 0 ≤ n) (ha : E .token = true → n ≤ w.allowance t o sp)
    (hb : E .token = true → n ≤ w.balance t o) (h0 : 0 ≤ w.balance t dst)
    (hB : E .overflow = true → w.balance t dst + n ≤ 10 ^ 38) : NoErr E (transferFrom w t sp o dst n) := by
  have key : ∀ {c : Prop} [Decidable c], (E .token = true → c) → NoErr E (require c .token) := by
    intro c _ hc
    by_cases h : c
    · exact NoErr.req h
    · exact NoErr.require (by cases hE : E .token with | true => exact absurd (hc hE) h | false => rfl)
  unfold transferFrom transfer
  refine NoErr.bind (NoErr.req hn) fun _ _ => NoErr.bind (key ha) fun _ _ => NoErr.bind (NoErr.req hn) fun _ _ => ?_
  obtain ⟨a1, a2, a3, a4⟩ := setAllowance_res w t o sp (w.allowance t o sp - n) ((w.tok t).allow o sp).2
  refine NoErr.bind (key (by rw [a2]; exact hb)) fun _ _ => NoErr.bind (NoErr.chk fun hE => ?_) fun _ _ => NoErr.pure
  have := hB hE
  rw [balance_setBalance]
  split
  · rename_i h
    have : o = dst := h.2.symm
    subst this
    rw [a2]
    exact inI (by omega) (by omega)
  · rw [a2]
    exact inI (by omega) (by omega)

theorem ids_length {ids : List Nat} {m : Nat} (hnd : ids.Nodup) (h : ∀ id ∈ ids, id < m) : ids.length ≤ m := by
  have h1 : ids.toFinset ⊆ Finset.range m := by
    intro x hx
    simp only [List.mem_toFinset] at hx
    simpa using h x hx
  have h2 := Finset.card_le_card h1
  rwa [List.toFinset_card_of_nodup hnd, Finset.card_range] at h2

/-- a claim pays no more than the reserve tokens have received and not paid -/
theorem claim_total_le (hr : Reachable w) {p : Address} (hp : w.poolAddr p = true) {u : Address} {ids : List Nat} {n : Int} {ps' : PoolState}
    (h : claimLoop w.time u (getPositions (w.pools p) u) ids (0, w.pools p) = .ok (n, ps')) :
    n ≤ ∑ id ∈ ids.toFinset, ((w.pools p).received id - (w.pools p).claimed id) := by
  have L := claimLoop_exact _ _ _ _ _ h
  have ei := hr.einv hp
  have hm := (claim_loop (U := fun _ => True) (vb := (VS.of w p).vb) (pb := (VS.of w p).pb) (pd := (VS.of w p).pd) trivial _ _ _ _ _ h).1
  have ei' := (micros_index (hr.base.cfg p) ei hm).2.1
  rw [L.total, zero_add]
  refine Finset.sum_le_sum fun id _ => ?_
  have := ei'.paid_le id
  change ps'.claimed id ≤ ps'.received id at this
  rw [L.received] at this
  omega

/-- a claim fails only by overflow, or for lack of allowance or BLND -/
theorem claim_live (hr : Reachable w) {p : Address} (hp : w.poolAddr p = true) {i : PoolInst} (hi : (w.pools p).inst = some i)
    {auth : List Address} {u dst : Address} {ids : List Nat} (hau : ∀ x ∈ auth, ¬ w.isProtocol x) (hu : u ∈ auth) (hnd : ids.Nodup)
    (hval : ∀ id ∈ ids, (w.pools p).resList[id / 2]? ≠ none)
    (hB : E .overflow = true → (∀ id ∈ ids, ModerateEmissions (w.pools p) id ∧ etot (w.pools p) id ≤ 10 ^ 38) ∧
      w.balance i.blnd dst ≤ 10 ^ 37)
    (hT : E .token = true → ∀ n ps', claimLoop w.time u (getPositions (w.pools p) u) ids (0, w.pools p) = .ok (n, ps') →
      n ≤ w.allowance i.blnd i.backstop p ∧ n ≤ w.balance i.blnd i.backstop) :
    NoErr E (step w (.pool p auth (.claim u ids dst))) := by
  have cfg := hr.base.cfg p
  have hlen : ids.length ≤ 64 := ids_length hnd fun id hid => by
    have h1 := hval id hid
    rw [ne_eq, List.getElem?_eq_none_iff, not_le] at h1
    have h2 := cfg.len
    omega
  simp only [step]
  refine NoErr.bind (NoErr.req hp) fun _ _ => NoErr.bind (NoErr.req hau) fun _ _ => ?_
  simp only [call]
  refine NoErr.bind (NoErr.req hu) fun _ _ => ?_
  refine NoErr.bind ?_ fun _ _ => NoErr.pure
  unfold executeClaim
  refine NoErr.bind (claimLoop_live ids 0 (w.pools p) (hr.einv hp) cfg (fun id => hr.claimed_nonneg hp id) hnd hval fun hE =>
    ⟨(hB hE).1, le_refl _, ?_⟩) fun x hx => ?_
  · have : (ids.length : Int) ≤ 64 := by exact_mod_cast hlen
    nlinarith
  · obtain ⟨n, ps'⟩ := x
    simp only
    split
    · rename_i hn
      have L := claimLoop_exact _ _ _ _ _ hx
      have inst' : ps'.inst = some i := by rw [L.config.inst, hi]
      refine NoErr.bind (NoErr.unwrap inst') fun j hj => ?_
      rw [PoolState.getInst, unwrap_ok, inst'] at hj
      cases hj
      refine NoErr.bind (transferFrom_live (by omega) (fun hE => (hT hE n ps' hx).1) (fun hE => (hT hE n ps' hx).2) (hr.base.balances _ _)
        fun hE => ?_) fun _ _ => NoErr.pure
      change w.balance i.blnd dst + n ≤ 10 ^ 38
      obtain ⟨h1, h2⟩ := hB hE
      have h3 := claim_total_le hr hp hx
      have h4 : ∑ id ∈ ids.toFinset, ((w.pools p).received id - (w.pools p).claimed id) ≤ ids.toFinset.card • (10 : Int) ^ 18 :=
        Finset.sum_le_card_nsmul _ _ _ fun id hid => by
          have := (h1 id (by simpa using hid)).1.total
          have := hr.claimed_nonneg hp id
          omega
      have h5 : (ids.toFinset.card : Int) ≤ 64 := by
        have := List.toFinset_card_le ids
        exact_mod_cast le_trans this hlen
      rw [nsmul_eq_mul] at h4
      nlinarith
    · exact NoErr.pure

end Pool

namespace Props
open Spec Pool Demo

/-- **C57** A claim of a user's own emissions, for different existing reserve tokens, fails for two reasons only: a number leaves the
range of `i128`, or what the user can claim at the up-to-date indexes exceeds the pool's allowance for the backstop's BLND, or the
BLND of the backstop. Neither the status of the pool, nor the oracle, nor debts, nor anything the admin can set, is a reason. -/
theorem C57_claim_fails_only {w : World} (hr : Reachable w) {p : Address} (hp : w.poolAddr p = true) {i : PoolInst}
    (hi : (w.pools p).inst = some i) {auth : List Address} {u dst : Address} {ids : List Nat} (hau : ∀ x ∈ auth, ¬ w.isProtocol x)
    (hu : u ∈ auth) (hnd : ids.Nodup) (hval : ∀ id ∈ ids, id / 2 < (w.pools p).resList.length) {e : Err}
    (h : step w (.pool p auth (.claim u ids dst)) = .error e) :
    e = .overflow ∨ (e = .token ∧ ∃ paid : Nat → Int,
      (∀ id ∈ ids, (w.pools p).emisConfig id = none → paid id = 0) ∧
      (∀ id ∈ ids, ∀ cfg asset c d ed, (w.pools p).emisConfig id = some cfg → (w.pools p).resList[id / 2]? = some asset →
        (w.pools p).resConfig asset = some c → (w.pools p).resData asset = some d → (w.pools p).emisData id = some ed →
        ∃ index, UpToDate cfg (10 ^ c.decimals) w.time (tokenSupply d id) ed index ∧
          Entitled (w.pools p) id c.decimals index u (paid id)) ∧
      (w.allowance i.blnd i.backstop p < ∑ id ∈ ids.toFinset, paid id ∨
        w.balance i.blnd i.backstop < ∑ id ∈ ids.toFinset, paid id)) := by
  refine of_unexpected (claim_live hr hp hi hau hu hnd (fun id hid => ?_) (fun hE => ?_) fun hE n ps' hx => ?_) h
  · rw [ne_eq, List.getElem?_eq_none_iff, not_le]; exact hval id hid
  · rw [unexpected_overflow] at hE; cases hE
  · by_contra hlt
    refine unexpected_token hE ?_
    have L := claimLoop_exact _ _ _ _ _ hx
    refine ⟨fun id => ps'.claimed id - (w.pools p).claimed id, fun id hid hn => ?_, fun id hid cfg asset c d ed hcf ha hc hd hed => ?_, ?_⟩
    · simp only [(L.other id (.inr hn)).2.2, sub_self]
    · obtain ⟨ed', k1, k2, k3⟩ := L.claimed id hid cfg asset c hcf ha hc
      exact ⟨ed'.index, L.upToDate id hid cfg asset c d ed ed' hcf ha hc hd hed k1, entitled_iff.2 (by simp only; omega)⟩
    · have := L.total
      simp only
      omega

/-- **C57** In every history with own backstop claims only, without return swaps and without gulps after a lapse: as long as the allowance
of the pool has not lapsed, a user's claim of emissions of ordinary size succeeds. -/
theorem C57_claim_succeeds {w0 w : World} (hg : Genesis w0)
    (hh : HistoryW (fun w op => (OwnClaim op ∧ ¬ ReturnSwap w op) ∧ ¬ LapsedGulp w op) w0 w) {bi : BackstopInst} {ei : EmitterInst}
    (hbi : w.backstop.inst = some bi) (hei : w.emitter.inst = some ei) (hbl : ei.blnd = bi.blnd) (hne : bi.blnd ≠ bi.backstopToken)
    {p : Address} (hp : w.poolAddr p = true) {i : PoolInst} (hi : (w.pools p).inst = some i) (hbk : i.backstop = w.backstopAddr)
    (hpb : i.blnd = bi.blnd) (hnl : ¬ Lapsed w bi.blnd p)
    {auth : List Address} {u dst : Address} {ids : List Nat} (hau : ∀ x ∈ auth, ¬ w.isProtocol x) (hu : u ∈ auth)
    (hnd : ids.Nodup) (hval : ∀ id ∈ ids, id / 2 < (w.pools p).resList.length)
    (hm : ∀ id ∈ ids, ModerateEmissions (w.pools p) id)
    (hs : ∀ id ∈ ids, ∀ asset d, (w.pools p).resList[id / 2]? = some asset → (w.pools p).resData asset = some d →
      tokenSupply d id ≤ 10 ^ 38)
    (hdst : w.balance bi.blnd dst ≤ 10 ^ 37) :
    ∃ w', step w (.pool p auth (.claim u ids dst)) = .ok w' := by
  obtain ⟨hr, k⟩ := historyW_poolFund hg hh (fun _ _ h => h.2) hp
  have cfg := hr.base.cfg p
  have hval' : ∀ id ∈ ids, (w.pools p).resList[id / 2]? ≠ none := fun id hid => by
    rw [ne_eq, List.getElem?_eq_none_iff, not_le]; exact hval id hid
  refine ok_of_noErr (claim_live hr hp hi hau hu hnd hval' (fun _ => ⟨fun id hid => ⟨hm id hid, ?_⟩, by rw [hpb]; exact hdst⟩)
    fun _ n ps' hx => ?_)
  · obtain ⟨a, ha⟩ := Option.ne_none_iff_exists'.1 (hval' id hid)
    obtain ⟨c, d, hc, hd⟩ := cfg.list a (List.mem_of_getElem? ha)
    rw [← tokenSupply_etot hr hp ha hc hd]
    exact hs id hid a d ha hd
  · have h1 := claim_total_le hr hp hx
    obtain ⟨S, hS⟩ := k bi.blnd (fun j hj => by rw [hi] at hj; cases hj; exact ⟨hbk, hpb⟩)
      (fun j hj => by rw [hbi] at hj; cases hj; rfl)
    have h2 := hS (S ∪ ids.toFinset) Finset.subset_union_left
    have h3 : ∑ id ∈ ids.toFinset, ((w.pools p).received id - (w.pools p).claimed id) ≤
        ∑ id ∈ S ∪ ids.toFinset, ((w.pools p).received id - (w.pools p).claimed id) :=
      Finset.sum_le_sum_of_subset_of_nonneg Finset.subset_union_right fun id _ _ => by
        have := (hr.einv hp).paid_le id
        change (w.pools p).claimed id ≤ (w.pools p).received id at this
        omega
    have h4 := allowance_of_not_lapsed hnl
    obtain ⟨last, _, g1, g2⟩ := C55_emissions_funded hg (hh.imp fun _ _ h => h.1) hbi hei hbl hne 0 {p} (fun _ => ∅) (fun _ => 0)
      (fun _ _ => 0) (by simp) (by simp)
    simp only [Finset.sum_singleton, Finset.sum_empty, zero_add] at g2
    have g3 : 0 ≤ ((last : Int) - w.backstop.lastDistro) * ONE7 := mul_nonneg (by omega) (by norm_num [ONE7])
    have g4 := poolEmis_nonneg hr p
    rw [hbk, hpb]
    constructor <;> linarith

/-- The hypotheses are met after two gulps and a claim in between, when bob claims for his debt and his collateral; he is paid
something. (A claim that fails for lack of allowance: `C56_lapse_blocks_claims`.) -/
example : ∃ w i bi ei, HistoryW (fun w op => (OwnClaim op ∧ ¬ ReturnSwap w op) ∧ ¬ LapsedGulp w op) Demo.genesis w ∧
    w.backstop.inst = some bi ∧ w.emitter.inst = some ei ∧ ei.blnd = bi.blnd ∧ bi.blnd ≠ bi.backstopToken ∧
    w.poolAddr poolA = true ∧ (w.pools poolA).inst = some i ∧ i.backstop = w.backstopAddr ∧ i.blnd = bi.blnd ∧ ¬ Lapsed w bi.blnd poolA ∧
    (∀ x ∈ [bob], ¬ w.isProtocol x) ∧ (∀ id ∈ [0, 3], id / 2 < (w.pools poolA).resList.length) ∧
    (∀ id ∈ [0, 3], ModerateEmissions (w.pools poolA) id) ∧
    (∀ id ∈ [0, 3], ∀ asset d, (w.pools poolA).resList[id / 2]? = some asset → (w.pools poolA).resData asset = some d →
      tokenSupply d id ≤ 10 ^ 38) ∧ w.balance bi.blnd bob ≤ 10 ^ 37 ∧
    ∃ w', step w (.pool poolA [bob] (.claim bob [0, 3] bob)) = .ok w' ∧ w.balance bi.blnd bob < w'.balance bi.blnd bob := by
  obtain ⟨w, hw, hr, h⟩ := Demo.reach (ops := Demo.twoGulps)
    (f := fun w => (Demo.checks Demo.notLapsed Demo.genesis Demo.twoGulps && (w.poolAddr poolA &&
      (decide ((w.pools poolA).resList[0]? = some usdcA ∧ (w.pools poolA).resList[1]? = some xlmA ∧
        1 < (w.pools poolA).resList.length) && decide (∀ x ∈ [bob], ¬ w.isProtocol x)))) &&
      Demo.optAnd w.backstop.inst fun bi => Demo.optAnd w.emitter.inst fun ei => Demo.optAnd (w.pools poolA).inst fun i =>
      Demo.optAnd ((w.pools poolA).resData usdcA) fun d => Demo.optAnd ((w.pools poolA).resData xlmA) fun d1 =>
      Demo.optAnd ((w.pools poolA).emisData 0) fun e0 => Demo.optAnd ((w.pools poolA).emisData 3) fun e3 =>
      decide ((ei.blnd = bi.blnd ∧ bi.blnd ≠ bi.backstopToken ∧ i.backstop = w.backstopAddr ∧ i.blnd = bi.blnd ∧
          ¬ (0 < ((w.tok bi.blnd).allow w.backstopAddr poolA).1 ∧ ((w.tok bi.blnd).allow w.backstopAddr poolA).2 < w.seq)) ∧
        d.dSupply ≤ 10 ^ 38 ∧ d1.bSupply ≤ 10 ^ 38 ∧ e0.index ≤ 10 ^ 37 ∧ e3.index ≤ 10 ^ 37 ∧ (w.pools poolA).received 0 ≤ 10 ^ 18 ∧
        (w.pools poolA).received 3 ≤ 10 ^ 18 ∧ w.balance bi.blnd bob ≤ 10 ^ 37) &&
      Demo.okAnd (step w (.pool poolA [bob] (.claim bob [0, 3] bob))) fun w' =>
        decide (w.balance bi.blnd bob < w'.balance bi.blnd bob))
    (by decide +kernel)
  simp only [Bool.and_eq_true, Demo.optAnd_iff, Demo.okAnd_iff, decide_eq_true_eq] at h
  obtain ⟨⟨hc, hp, ⟨hl0, hl1, hlen⟩, hau⟩, bi, hbi, ei, hei, i, hi, d, hd, d1, hd1, e0, he0, e3, he3,
    ⟨⟨h1, h2, h3, h4, h5⟩, g1, g2, g3, g4, g5, g6, g7⟩, w', hs, hlt⟩ := h
  have hh : HistoryW (fun w op => (OwnClaim op ∧ ¬ ReturnSwap w op) ∧ ¬ LapsedGulp w op) Demo.genesis w := by
    refine historyW_of_checks hw hc (fun op hop w1 hf => ⟨⟨?_, ?_⟩, ?_⟩) _ (.refl _)
    · intro auth s ps d e
      subst e
      simp [Demo.twoGulps, Demo.setup, Demo.trade, Demo.emissions, Demo.claims] at hop
      obtain ⟨_, rfl, _, rfl⟩ := hop
      rfl
    · rintro ⟨auth, s, rfl, _⟩
      simp [Demo.twoGulps, Demo.setup, Demo.trade, Demo.emissions, Demo.claims] at hop
    · rintro ⟨p, auth, b, rfl, hb, hlap⟩
      simp only [Demo.notLapsed, hb, decide_eq_true_eq] at hf
      exact hf hlap
  refine ⟨w, i, bi, ei, hh, hbi, hei, h1, h2, hp, hi, h3, h4, h5, hau, ?_, ?_, ?_, g7, w', hs, hlt⟩
  · intro id hid
    simp at hid
    rcases hid with rfl | rfl <;> simp <;> omega
  · intro id hid
    simp only [List.mem_cons, List.not_mem_nil, or_false] at hid
    rcases hid with rfl | rfl
    · exact ⟨g5, fun e he => by rw [he0] at he; cases he; exact g3⟩
    · exact ⟨g6, fun e he => by rw [he3] at he; cases he; exact g4⟩
  · intro id hid a dd ha hdd
    simp only [List.mem_cons, List.not_mem_nil, or_false] at hid
    rcases hid with rfl | rfl
    · simp only [Nat.zero_div] at ha
      rw [hl0] at ha; cases ha
      rw [hd] at hdd; cases hdd
      exact g1
    · rw [show 3 / 2 = 1 from rfl, hl1] at ha; cases ha
      rw [hd1] at hdd; cases hdd
      exact g2

end Props
end Blend
