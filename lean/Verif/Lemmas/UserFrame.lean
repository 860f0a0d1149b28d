import Verif.Lemmas.Reach
/-
  Accounts that an operation does not touch keep their positions and their emission bookkeeping.
-/

namespace Blend
open Pool

/-- nothing that belongs to account `x` changed -/
def SameUser (x : Address) (ps ps' : PoolState) : Prop :=
  ps'.positions.get x = ps.positions.get x ∧ ∀ id, (ps'.userEmis id).get x = (ps.userEmis id).get x

theorem SameUser.refl (x : Address) (ps : PoolState) : SameUser x ps ps := ⟨rfl, fun _ => rfl⟩

theorem SameUser.trans {x : Address} {a b c : PoolState} (h : SameUser x a b) (h' : SameUser x b c) : SameUser x a c :=
  ⟨h'.1.trans h.1, fun id => (h'.2 id).trans (h.2 id)⟩

theorem setUserEmis_user {ps ps' : PoolState} {u id : Nat} {i acc amt : Int} {cl : Bool} {x : Address} (hx : x ≠ u)
    (h : setUserEmis ps u id i acc cl = (amt, ps')) : SameUser x ps ps' := by
  unfold setUserEmis at h
  have key : ∀ v, SameUser x ps { ps with userEmis := upd ps.userEmis id ((ps.userEmis id).set u v) } := by
    intro v
    refine ⟨rfl, fun j => ?_⟩
    by_cases hj : j = id
    · subst hj; simp [SMap.get_set_ne hx]
    · simp [upd_ne hj]
  split at h
  · cases h; exact key _
  · cases h; exact key _

theorem updateEmissions_user {ps ps' : PoolState} {now id : Nat} {supply scalar bal amt : Int} {u : Address} {cl : Bool}
    {x : Address} (hx : x ≠ u) (h : updateEmissions ps now id supply scalar u bal cl = .ok (amt, ps')) :
    SameUser x ps ps' := by
  unfold updateEmissions at h
  simp only [bind_ok, Prod.exists] at h
  obtain ⟨od, ps1, h1, h2⟩ := h
  have e1 : ps1.positions = ps.positions ∧ ps1.userEmis = ps.userEmis := by
    unfold updateEmisData at h1
    split at h1
    · simp only [bind_ok, Prod.exists, pure_ok, Prod.mk.injEq] at h1
      obtain ⟨d, ps2, h1, _, rfl⟩ := h1
      unfold updateEmisDataWith at h1
      simp only [bind_ok, ite_ok, unwrap_ok, pure_ok, Prod.mk.injEq] at h1
      obtain ⟨d0, _, h1⟩ := h1
      rcases h1 with ⟨_, _, rfl⟩ | ⟨_, h1⟩
      · exact ⟨rfl, rfl⟩
      · obtain ⟨_, _, _, _, _, _, _, _, _, rfl⟩ := h1
        exact ⟨rfl, rfl⟩
    · cases h1; exact ⟨rfl, rfl⟩
  refine SameUser.trans (b := ps1) ⟨by rw [e1.1], fun _ => by rw [e1.2]⟩ ?_
  cases od with
  | none => cases h2; exact .refl _ _
  | some d =>
    simp only [updateUserEmis] at h2
    split at h2
    · simp only [ite_ok, bind_ok, pure_ok] at h2
      rcases h2 with ⟨_, ⟨_, _, _, _, _, _, _, _, _, h2⟩ | ⟨_, _, _, h2⟩⟩ | ⟨_, h2⟩
      · exact setUserEmis_user hx h2
      · exact setUserEmis_user hx h2
      · cases h2; exact .refl _ _
    · simp only [ite_ok, bind_ok, pure_ok] at h2
      rcases h2 with ⟨_, h2⟩ | ⟨_, acc, _, h2⟩
      · exact setUserEmis_user hx h2
      · exact setUserEmis_user hx h2

theorem micro_user {now : Nat} {U : Address → Prop} {S S' : VS} (h : PMicro now U S S') {x : Address} (hx : ¬ U x) :
    SameUser x S.ps S'.ps := by
  cases h with
  | touch u hu => exact ⟨SMap.get_set_ne fun e => hx (e ▸ hu), fun _ => rfl⟩
  | accrue => exact .refl _ _
  | share V1 k a u c d δ y m' vb' pb' pd' hu hc hd ht he =>
    have hxu : x ≠ u := fun e => hx (e ▸ hu)
    have := updateEmissions_user hxu he
    exact ⟨by simp only [SMap.get_set_ne hxu]; exact this.1, this.2⟩
  | credit => exact .refl _ _
  | auction => exact .refl _ _
  | emis V1 k a u c d i claim amt hu hc hd hi he =>
    have := updateEmissions_user (x := x) (fun e => hx (e ▸ hu)) he
    exact ⟨this.1, this.2⟩
  | gulp V' a id n ha hn he =>
    obtain ⟨_, _, rfl⟩ := updateReserveEmisConfig_other he
    exact .refl _ _
  | setInst => exact .refl _ _
  | queueReserve V' a c he =>
    simp only [queueSetReserve, bind_ok, pure_ok] at he
    obtain ⟨_, _, _, _, _, _, rfl⟩ := he
    exact .refl _ _
  | unqueue => exact .refl _ _
  | setReserve V' a he =>
    obtain ⟨q, _, _, h | h⟩ := setReserve_ok he
    · obtain ⟨_, _, _, _, _, _, _, _, _, rfl⟩ := h; exact .refl _ _
    · obtain ⟨_, _, rfl⟩ := h; exact .refl _ _
  | poolEmis V' l he =>
    simp only [setPoolEmissions, bind_ok, pure_ok, Prod.exists] at he
    obtain ⟨_, _, _, _, _, rfl⟩ := he
    exact .refl _ _
  | writeOff => exact .refl _ _
  | gain => exact .refl _ _

theorem micros_user {now : Nat} {U : Address → Prop} {S S' : VS} (h : PMicros now U S S') {x : Address} (hx : ¬ U x) :
    SameUser x S.ps S'.ps := by
  induction h with
  | refl => exact .refl _ _
  | tail _ hm ih => exact ih.trans (micro_user hm hx)

theorem step_user {w w' : World} {op : Op} (hb : Base w) (h : step w op = .ok w') {p : Address} (hp : w.poolAddr p = true)
    {x : Address} (hx : ¬ OpTouches w p op x) : SameUser x (w.pools p) (w'.pools p) :=
  micros_user ((step_res hb h).micros p hp) hx

end Blend
