import Verif.Lemmas.Entitle
/-
  What a claim of a pool's emissions pays, exactly.
-/

namespace Blend
namespace Pool
open Spec

/-- an update of the emission data of `id` changes nothing at this time -/
def Stable (now : Nat) (ps : PoolState) (id : Nat) : Prop :=
  ∃ cfg ed a d, ps.emisConfig id = some cfg ∧ ps.emisData id = some ed ∧ ps.resList[id / 2]? = some a ∧ ps.resData a = some d ∧
    (cfg.expiration ≤ ed.lastTime ∨ now = ed.lastTime ∨ cfg.eps = 0 ∨ (if id % 2 = 0 then d.dSupply else d.bSupply) = 0)

/-- what the claims of `ids` by `u` do -/
structure LoopRes (now : Nat) (u : Address) (ids : List Nat) (ps ps' : PoolState) (n n' : Int) : Prop where
  config : SameCfg ps ps'
  positions : ps'.positions = ps.positions
  auctions : ps'.auctions = ps.auctions
  resData : ps'.resData = ps.resData
  other : ∀ id, id ∉ ids ∨ ps.emisConfig id = none →
    ps'.emisData id = ps.emisData id ∧ ps'.userEmis id = ps.userEmis id ∧ ps'.claimed id = ps.claimed id
  claimed : ∀ id ∈ ids, ∀ cfg a c, ps.emisConfig id = some cfg → ps.resList[id / 2]? = some a → ps.resConfig a = some c →
    ∃ ed', ps'.emisData id = some ed' ∧ ps'.userEmis id = (ps.userEmis id).set u ⟨ed'.index, 0⟩ ∧
      ps'.claimed id = ps.claimed id + entAt ps id (10 ^ c.decimals) u ed'.index
  stable : ∀ id, Stable now ps id → ps'.emisData id = ps.emisData id
  total : n' = n + ∑ id ∈ ids.toFinset, (ps'.claimed id - ps.claimed id)
  upToDate : ∀ id ∈ ids, ∀ cfg a c d ed ed', ps.emisConfig id = some cfg → ps.resList[id / 2]? = some a → ps.resConfig a = some c →
    ps.resData a = some d → ps.emisData id = some ed → ps'.emisData id = some ed' →
    UpToDate cfg (10 ^ c.decimals) now (tokenSupply d id) ed ed'.index
  received : ps'.received = ps.received

theorem updateEmissions_upToDate {ps V1 : PoolState} {now id : Nat} {s amt bal supply : Int} {u : Address} {claim : Bool}
    {cfg : EmisConfig} {ed ed' : EmisData} (hc : ps.emisConfig id = some cfg) (he : ps.emisData id = some ed)
    (h : updateEmissions ps now id supply s u bal claim = .ok (amt, V1)) (hs : 0 < s) (he' : V1.emisData id = some ed') :
    UpToDate cfg s now supply ed ed'.index := by
  unfold updateEmissions updateEmisData at h
  simp only [hc, bind_ok, Prod.exists, pure_ok, Prod.mk.injEq] at h
  obtain ⟨od, p1, ⟨d1, p2, hd1, rfl, rfl⟩, h⟩ := h
  simp only at h
  obtain ⟨x, rfl, _⟩ := userUpdate_exact h hs
  have := dataUpdate_upToDate hd1 he
  have hd : p2.emisData id = some d1 := by
    unfold updateEmisDataWith at hd1
    simp only [he, unwrap_ok, bind_ok, Option.some.injEq, ite_ok, pure_ok, Prod.mk.injEq] at hd1
    obtain ⟨_, rfl, ⟨_, rfl, rfl⟩ | ⟨_, _, _, _, _, _, _, _, _, rfl, rfl⟩⟩ := hd1
    · exact he
    · simp
  change p2.emisData id = some ed' at he'
  rw [hd] at he'; cases he'
  exact this

theorem updateEmissions_resData {ps ps' : PoolState} {now id : Nat} {supply scalar : Int} {u : Address} {bal x : Int} {claim : Bool}
    (h : updateEmissions ps now id supply scalar u bal claim = .ok (x, ps')) : ps'.resData = ps.resData := by
  obtain ⟨ed, ue, rfl, _⟩ := updateEmissions_frame h
  rfl

theorem entAt_congr {ps ps' : PoolState} {id : Nat} {s : Int} {u : Address} {J : Int} (h1 : ps'.userEmis id = ps.userEmis id)
    (h2 : ps'.positions = ps.positions) : entAt ps' id s u J = entAt ps id s u J := by
  unfold entAt ebal getPositions
  rw [h1, h2]

/-- an update with a claim leaves the data unchanged if it is stable, and stable -/
theorem updateEmissions_stable {ps V1 : PoolState} {now id : Nat} {s amt bal : Int} {u : Address} {claim : Bool} {a : Address}
    {d : ReserveData} {cfg : EmisConfig} (hc : ps.emisConfig id = some cfg) (ha : ps.resList[id / 2]? = some a)
    (hd : ps.resData a = some d)
    (h : updateEmissions ps now id (if id % 2 = 0 then d.dSupply else d.bSupply) s u bal claim = .ok (amt, V1)) (hs : 0 < s) :
    (Stable now ps id → V1.emisData id = ps.emisData id) ∧ Stable now V1 id := by
  obtain ⟨o1, _⟩ := updateEmissions_other h
  have o3 := updateEmissions_resData h
  obtain ⟨dd, x, e1, _, _, _, _, _, e7⟩ := updateEmissions_entitle h hs hc
  constructor
  · rintro ⟨cfg', ed, a', d', k1, k2, k3, k4, k5⟩
    rw [hc] at k1; cases k1
    rw [ha] at k3; cases k3
    rw [hd] at k4; cases k4
    unfold updateEmissions updateEmisData at h
    simp only [hc, bind_ok, Prod.exists, pure_ok, Prod.mk.injEq] at h
    obtain ⟨od, p1, ⟨d1, p2, hd1, rfl, rfl⟩, h⟩ := h
    simp only at h
    obtain ⟨x, rfl, _⟩ := userUpdate_exact h hs
    unfold updateEmisDataWith at hd1
    simp only [k2, unwrap_ok, bind_ok, Option.some.injEq, ite_ok, pure_ok, Prod.mk.injEq] at hd1
    obtain ⟨_, rfl, ⟨_, _, rfl⟩ | ⟨hn, _⟩⟩ := hd1
    · rfl
    · exact absurd k5 hn
  · refine ⟨cfg, dd, a, d, by rw [o1.emisConfig, hc], e1, by rw [o1.resList, ha], by rw [o3, hd], ?_⟩
    by_cases h0 : (if id % 2 = 0 then d.dSupply else d.bSupply) = 0
    · exact .inr (.inr (.inr h0))
    · rcases e7 h0 with h | h | h
      · exact .inl h
      · exact .inr (.inl h.symm)
      · exact .inr (.inr (.inl h))

theorem claimLoop_exact {now : Nat} {u : Address} :
    ∀ (l : List Nat) (n n' : Int) (ps ps' : PoolState),
    claimLoop now u (getPositions ps u) l (n, ps) = .ok (n', ps') → LoopRes now u l ps ps' n n' := by
  intro l
  induction l with
  | nil =>
    intro n n' ps ps' h
    simp only [claimLoop, pure_ok, Prod.mk.injEq] at h
    obtain ⟨rfl, rfl⟩ := h
    exact ⟨.refl _, rfl, rfl, rfl, fun _ _ => ⟨rfl, rfl, rfl⟩, by simp, fun _ _ => rfl, by simp, by simp, rfl⟩
  | cons id l ih =>
    intro n n' ps ps' h
    simp only [claimLoop] at h
    cases ha : ps.resList[id / 2]? with
    | none => simp [ha] at h
    | some a =>
    simp only [ha, bind_ok, unwrap_ok, Prod.exists, chk_ok, pow10_ok] at h
    obtain ⟨c, hc, d, hd, h⟩ := h
    have key : ∃ amt V1, updateEmissions ps now id (if id % 2 = 0 then d.dSupply else d.bSupply)
          (10 ^ c.decimals) u (ebal ps id u) true = .ok (amt, V1) ∧
        claimLoop now u (getPositions ps u) l
          (n + amt, { V1 with claimed := upd V1.claimed id (V1.claimed id + amt) }) = .ok (n', ps') := by
      unfold ebal posBal
      split at h
      · rename_i hpar
        simp only [bind_ok, pure_ok, pow10_ok, Prod.exists, chk_ok] at h
        obtain ⟨_, rfl, s, ⟨_, rfl⟩, amt, V1, hu, _, ⟨_, rfl⟩, h⟩ := h
        refine ⟨amt, V1, ?_, h⟩
        rw [if_pos hpar, if_pos hpar]; exact hu
      · rename_i hpar
        simp only [bind_ok, pow10_ok, Prod.exists, chk_ok] at h
        obtain ⟨_, ⟨_, rfl⟩, s, ⟨_, rfl⟩, amt, V1, hu, _, ⟨_, rfl⟩, h⟩ := h
        refine ⟨amt, V1, ?_, h⟩
        rw [if_neg hpar, if_neg hpar]; exact hu
    obtain ⟨amt, V1, hu, h⟩ := key
    have hs : (0 : Int) < 10 ^ c.decimals := by positivity
    obtain ⟨o1, o2, o3, o4, o5, o6⟩ := updateEmissions_other hu
    have o7 := updateEmissions_resData hu
    have hgp : getPositions ps u = getPositions ({ V1 with claimed := upd V1.claimed id (V1.claimed id + amt) } : PoolState) u := by
      unfold getPositions; simp only [o2]
    rw [hgp] at h
    have r := ih _ _ _ _ h
    set W : PoolState := { V1 with claimed := upd V1.claimed id (V1.claimed id + amt) } with hW
    have w1 : W.emisConfig = ps.emisConfig := o1.emisConfig
    have w2 : W.positions = ps.positions := o2
    have w3 : W.resList = ps.resList := o1.resList
    have w4 : W.resConfig = ps.resConfig := o1.resConfig
    have w5 : W.resData = ps.resData := o7
    have wcl : ∀ j, W.claimed j = if j = id then ps.claimed id + amt else ps.claimed j := by
      intro j
      simp only [hW, upd_apply, o4]
    have woth : ∀ j, j ≠ id → W.emisData j = ps.emisData j ∧ W.userEmis j = ps.userEmis j := fun j hj => by
      obtain ⟨q1, q2⟩ := updateEmissions_otherId hu hj
      exact ⟨q1, q2⟩
    have hnone : ps.emisConfig id = none → amt = 0 ∧ V1 = ps := by
      intro hn
      unfold updateEmissions updateEmisData at hu
      simp only [hn, bind_ok, Prod.exists, pure_ok, Prod.mk.injEq] at hu
      obtain ⟨_, _, ⟨rfl, rfl⟩, h⟩ := hu
      simp only [pure_ok, Prod.mk.injEq] at h
      exact ⟨h.1.symm, h.2.symm⟩
    have hstab : ∀ j, Stable now ps j → W.emisData j = ps.emisData j ∧ Stable now W j := by
      intro j hj
      by_cases e : j = id
      · subst e
        cases hcf : ps.emisConfig j with
        | none => obtain ⟨_, _, _, _, k, _⟩ := hj; rw [hcf] at k; cases k
        | some cfg =>
          obtain ⟨q1, q2⟩ := updateEmissions_stable hcf ha hd hu hs
          exact ⟨q1 hj, q2⟩
      · refine ⟨(woth j e).1, ?_⟩
        obtain ⟨cfg', ed, a', d', k1, k2, k3, k4, k5⟩ := hj
        exact ⟨cfg', ed, a', d', by rw [w1, k1], by rw [(woth j e).1, k2], by rw [w3, k3], by rw [w5, k4], k5⟩
    -- the first claim of `id`
    have hfirst : ∀ cfg, ps.emisConfig id = some cfg → ∃ ed, W.emisData id = some ed ∧
        W.userEmis id = (ps.userEmis id).set u ⟨ed.index, 0⟩ ∧ amt = entAt ps id (10 ^ c.decimals) u ed.index ∧ Stable now W id := by
      intro cfg hcf
      obtain ⟨dd, x, e1, e2, e3, _, e5, e6, _⟩ := updateEmissions_entitle hu hs hcf
      obtain ⟨_, q2⟩ := updateEmissions_stable hcf ha hd hu hs
      have hx : x = ⟨dd.index, 0⟩ := by
        have e5' := e5 rfl
        cases x; simp only at e3 e5' ⊢; rw [e3, e5']
      exact ⟨dd, e1, by rw [← hx]; exact e2, by have := e5 rfl; unfold entAt; omega, q2⟩
    have hresult : ∀ cfg, ps.emisConfig id = some cfg → ∃ ed', ps'.emisData id = some ed' ∧
        ps'.userEmis id = (ps.userEmis id).set u ⟨ed'.index, 0⟩ ∧
        ps'.claimed id = ps.claimed id + entAt ps id (10 ^ c.decimals) u ed'.index := by
      intro cfg hcf
      obtain ⟨ed, e1, e2, e3, e4⟩ := hfirst cfg hcf
      have e5 : ps'.emisData id = some ed := by rw [r.stable id e4, e1]
      by_cases hm : id ∈ l
      · obtain ⟨ed', k1, k2, k3⟩ := r.claimed id hm cfg a c (by rw [w1, hcf]) (by rw [w3, ha]) (by rw [w4, hc])
        rw [e5] at k1; cases k1
        refine ⟨_, e5, ?_, ?_⟩
        · rw [k2, e2, SMap.set_self]
          rw [SMap.get_set, if_pos rfl]
        · rw [k3, wcl, if_pos rfl, ← e3]
          have : entAt W id (10 ^ c.decimals) u ed.index = 0 := by
            unfold entAt userEntry
            rw [e2, SMap.get_set, if_pos rfl]
            simp
          omega
      · obtain ⟨_, k2, k3⟩ := r.other id (.inl hm)
        exact ⟨_, e5, by rw [k2, e2], by rw [k3, wcl, if_pos rfl, ← e3]⟩
    refine ⟨SameCfg.trans (b := W) ⟨o1.inst, o1.resConfig, o1.resInit, o1.resData, o1.resList, o1.emisConfig, o1.poolEmis⟩ r.config,
      r.positions.trans w2, r.auctions.trans o3, r.resData.trans w5, ?_, ?_, ?_, ?_, ?_, r.received.trans o1.received⟩
    · intro j hj
      by_cases e : j = id
      · subst e
        have hcf : ps.emisConfig j = none := by
          rcases hj with hj | hj
          · simp at hj
          · exact hj
        obtain ⟨k1, k2, k3⟩ := r.other j (.inr (by rw [w1, hcf]))
        obtain ⟨z, rfl⟩ := hnone hcf
        rw [k1, k2, k3, wcl, if_pos rfl, z]
        exact ⟨rfl, rfl, by omega⟩
      · obtain ⟨k1, k2, k3⟩ := r.other j (by rw [w1]; simpa [e] using hj)
        obtain ⟨q1, q2⟩ := woth j e
        rw [k1, k2, k3, q1, q2, wcl, if_neg e]
        exact ⟨rfl, rfl, rfl⟩
    · intro j hj cfg a' c' hcf ha' hc'
      by_cases e : j = id
      · subst e
        rw [ha] at ha'; cases ha'
        rw [hc] at hc'; cases hc'
        exact hresult cfg hcf
      · obtain ⟨q1, q2⟩ := woth j e
        obtain ⟨ed', k1, k2, k3⟩ := r.claimed j (by simpa [e] using hj) cfg a' c' (by rw [w1, hcf]) (by rw [w3, ha']) (by rw [w4, hc'])
        refine ⟨ed', k1, by rw [k2, q2], ?_⟩
        rw [k3, wcl, if_neg e, entAt_congr q2 w2]
    · intro j hj
      obtain ⟨q1, q2⟩ := hstab j hj
      rw [r.stable j q2, q1]
    · have hd1 : ∀ j, ps'.claimed j - ps.claimed j = (ps'.claimed j - W.claimed j) + if j = id then amt else 0 := by
        intro j
        rw [wcl]
        split
        · rename_i e; subst e; omega
        · omega
      rw [r.total]
      have hz : ∀ j, j ∉ l → ps'.claimed j - W.claimed j = 0 := by
        intro j hj
        rw [(r.other j (.inl hj)).2.2]; omega
      have e1 : ∑ j ∈ (id :: l).toFinset, (ps'.claimed j - W.claimed j) = ∑ j ∈ l.toFinset, (ps'.claimed j - W.claimed j) := by
        symm
        refine Finset.sum_subset (by intro x hx; simp at hx ⊢; exact .inr hx) fun x _ hx => hz x (by simpa using hx)
      have e2 : ∑ j ∈ (id :: l).toFinset, (ps'.claimed j - ps.claimed j) =
          ∑ j ∈ (id :: l).toFinset, (ps'.claimed j - W.claimed j) + amt := by
        rw [Finset.sum_congr rfl fun j _ => hd1 j, Finset.sum_add_distrib, Finset.sum_ite_eq']
        simp
      rw [e2, e1]; ring
    · intro j hj cfg a' c' d' ed0 ed1 hcf ha' hc' hd' he0 he1
      by_cases e : j = id
      · subst e
        rw [ha] at ha'; cases ha'
        rw [hc] at hc'; cases hc'
        rw [hd] at hd'; cases hd'
        obtain ⟨ed, e1, _, _, e4⟩ := hfirst cfg hcf
        have e5 : ps'.emisData j = some ed := by rw [r.stable j e4, e1]
        rw [e5] at he1; cases he1
        exact updateEmissions_upToDate hcf he0 hu hs e1
      · exact r.upToDate j (by simpa [e] using hj) cfg a' c' d' ed0 ed1 (by rw [w1, hcf]) (by rw [w3, ha']) (by rw [w4, hc'])
          (by rw [w5, hd']) (by rw [(woth j e).1, he0]) he1

end Pool
end Blend
