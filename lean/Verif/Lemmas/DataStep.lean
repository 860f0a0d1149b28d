import Verif.Lemmas.RateStep
import Verif.Lemmas.AdminStep
import Verif.Lemmas.InstChange
/-
  How the data of a reserve changes in one operation, and that its rates are fixed within a ledger (C47, C63).
-/

namespace Blend
namespace Pool
open Spec

/-- in any operation the data of a reserve stays as it is, or interest is accrued up to the present first; only a change of the
reserve's parameters may also set the modifier back to 1 -/
theorem data_step {w w' : World} (hr : Reachable w) {op : Op} (h : step w op = .ok w') {p a : Address}
    (hp : w.poolAddr p = true) {d : ReserveData} (hd : (w.pools p).resData a = some d) :
    (∀ auth, op ≠ .pool p auth (.setReserve a)) ∧ (w'.pools p).resData a = some d ∨
    ∃ dA d', Current (w.pools p) w.time a dA ∧ (w'.pools p).resData a = some d' ∧ d'.dRate = dA.dRate ∧ d'.bRate = dA.bRate ∧
      d'.lastTime = dA.lastTime ∧ (d'.irMod = dA.irMod ∨ (∃ auth, op = .pool p auth (.setReserve a)) ∧ d'.irMod = ONE9) := by
  have fr := step_frame hr.base h
  by_cases hop : ∃ auth c, op = .pool p auth c
  · obtain ⟨auth, c, rfl⟩ := hop
    by_cases hk : c.keepsData = true
    · have h' := h
      simp only [step, bind_ok, require_ok] at h'
      obtain ⟨_, _, _, _, h'⟩ := h'
      exact .inl ⟨fun _ e => by cases e; simp [Call.keepsData] at hk, by rw [call_resData hk h']; exact hd⟩
    · cases c with
      | submit sender spender dst reqs =>
        obtain ⟨hp, cache, s, v⟩ := submit_view hr h
        obtain ⟨t0, e0⟩ := track_start (sender := sender) hr v.load
        obtain ⟨run, t⟩ := full_run hr hp v.sender_ne v.load _ [] _ _ (by rw [foldlM_nil]) t0 v.fold
        cases hg : s.fl.cache.reserves.get a with
        | some r =>
          obtain ⟨hm, dA, hcur, e1, e2, e3⟩ := t.cur.cached a r hg
          have ht : dA.lastTime = w.time := by obtain ⟨_, _, _, _, _, _, h4⟩ := hcur; exact accrue_time h4
          refine .inr ⟨dA, r.data, hcur, ?_, e2, e1, by rw [ht]; exact hm.time, .inl e3⟩
          rw [v.pools]; show overlayData _ _ _ = _; simp [overlayData, hg]
        | none =>
          refine .inl ⟨fun _ e => by (cases e), ?_⟩
          rw [v.pools]; show overlayData _ _ _ = _; simp [overlayData, hg, t.cur.rest a hg, hd]
      | badDebt u =>
        have h' := h
        simp only [step, bind_ok, require_ok, call] at h'
        obtain ⟨_, _, _, _, h'⟩ := h'
        rcases (badDebt_moved (hr.base.cfg p) (hr.pinv hp) h').data a with e | ⟨dA, e, hcur⟩
        · exact .inl ⟨fun _ e => by (cases e), by rw [e]; exact hd⟩
        · exact .inr ⟨dA, dA, hcur, e, rfl, rfl, rfl, .inl rfl⟩
      | setReserve b =>
        have h' := h
        simp only [step, bind_ok, require_ok, call, pure_ok] at h'
        obtain ⟨_, _, _, _, ps, hs, rfl⟩ := h'
        rw [pools_setPool] at *
        obtain ⟨q, _, _, hs | hs⟩ := setReserve_ok hs
        · obtain ⟨old, d0, i, r, h1, h2, h3, h4, _, rfl⟩ := hs
          by_cases e : a = b
          · subst e
            refine .inr ⟨_, _, ⟨old, d0, i, h1, h2, h3, h4⟩, by simp only [upd_same]; rfl, ?_, ?_, ?_, ?_⟩
            · split <;> rfl
            · split <;> rfl
            · split <;> rfl
            · split
              · exact .inr ⟨⟨auth, rfl⟩, rfl⟩
              · exact .inl rfl
          · exact .inl ⟨fun _ e' => by cases e'; exact e rfl, by simp only [upd_ne e]; exact hd⟩
        · obtain ⟨h1, _, rfl⟩ := hs
          have e : a ≠ b := by
            rintro rfl
            obtain ⟨c, hc⟩ := (hr.base.cfg p).data a d hd
            rw [h1] at hc; cases hc
          exact .inl ⟨fun _ e' => by cases e'; exact e rfl, by simp only [upd_ne e]; exact hd⟩
      | _ => simp [Call.keepsData] at hk
  · refine .inl ⟨fun auth e => hop ⟨auth, _, e⟩, ?_⟩
    suffices e : (w'.pools p).resData = (w.pools p).resData by rw [e]; exact hd
    by_cases h2 : ∃ auth a s o r n, op = .factory auth (.deploy a s o r n) ∧ w.deployAddr a s = p
    · obtain ⟨auth, b, s, o, r, n, rfl, he⟩ := h2
      have h' := h
      simp only [step, bind_ok, require_ok] at h'
      obtain ⟨_, _, h'⟩ := h'
      rcases factoryCall_ok h' with ⟨m, h', _⟩ | ⟨a', s', o', r', n', m, he', hm, hmt, _, _, _, hi', rfl⟩
      · cases h'
      · cases he'
        subst he
        simp only [World.setPool, upd_same]
    · by_cases h3 : ∃ t u, op = .expireAuction p t u
      · obtain ⟨t, u, rfl⟩ := h3
        simp only [step, pure_ok] at h
        subst h
        rw [pools_setPool]; rfl
      · by_cases h4 : ∃ b, op = .expireQueued p b
        · obtain ⟨b, rfl⟩ := h4
          simp only [step, pure_ok] at h
          subst h
          rw [pools_setPool]
        · rw [fr.pools p (fun auth c e => hop ⟨auth, c, e⟩) (fun auth b s o r n e e' => h2 ⟨auth, b, s, o, r, n, e, e'⟩)
            (fun t u e => h3 ⟨t, u, e⟩) fun b e => h4 ⟨b, e⟩]

end Pool
end Blend
