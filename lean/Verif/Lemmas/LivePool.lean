import Verif.Lemmas.LiveArith
import Verif.Lemmas.Entitle
/-
  Which errors the emission updates and share operations of a pool can run into (C52).
-/

namespace Blend
namespace Pool
open Spec

theorem updateEmissions_paid {ps V1 : PoolState} {now id : Nat} {supply s bal amt : Int} {u : Address} {claim : Bool}
    (hok : EmisOk now ps id) (h : updateEmissions ps now id supply s u bal claim = .ok (amt, V1)) (hs : 0 < s) (hb : 0 ≤ bal)
    (hsup : 0 ≤ supply) : 0 ≤ amt := by
  rcases emisUpdate_ok h hs hb hsup with ⟨_, _, rfl⟩ | h
  · exact le_refl _
  · cases hc : ps.emisConfig id with
    | none =>
      unfold updateEmissions updateEmisData at *
      simp only [hc, bind_ok, pure_ok, Prod.exists, Prod.mk.injEq] at *
      rename_i h0
      obtain ⟨_, _, ⟨rfl, rfl⟩, h0⟩ := h0
      simp only [pure_ok, Prod.mk.injEq] at h0
      rw [← h0.1]
    | some cfg =>
      obtain ⟨a, c, ed, e1, e2, e3, e4, e5, e6, e7⟩ := hok.isSet cfg hc
      obtain ⟨d, x, _, _, _, _, _, _, _, h9, _⟩ := h cfg ed hc e3 e4 e5 e6
      exact h9

/-- what was paid never goes down -/
theorem micro_claimed {now : Nat} {U : Address → Prop} {S S' : VS} (cfg : CfgOk S.ps) (inv : EInv now S) (h : PMicro now U S S')
    (id : Nat) : S.ps.claimed id ≤ S'.ps.claimed id := by
  cases h with
  | share V1 k a u c d δ x m' vb' pb' pd' h0 h1 h2 h3 h4 h5 h6 =>
    show _ ≤ V1.claimed id
    rw [(updateEmissions_other h4).1.claimed]
  | emis V1 k a u c d i claim amt h0 h1 h2 h3 h4 =>
    show _ ≤ upd V1.claimed (k.id i) (V1.claimed (k.id i) + amt) id
    have hi : c.index = i := by
      rcases h3 with h3 | h3
      · exact cfg.index_list h3 h1
      · exact h3.symm
    have ha := updateEmissions_paid (inv.emis _) h4 (by positivity) (by rw [emisBal_eq]; exact inv.inv.ebal_nonneg _ _)
      (by have := inv.inv.supply_eq h1 h2 k; rw [this]; exact inv.inv.etot_nonneg _)
    rw [(updateEmissions_other h4).1.claimed, upd_apply]
    split
    · rename_i e; rw [e]; omega
    · exact le_refl _
  | gulp V' a i n h1 h2 h3 => obtain ⟨ed, ec, rfl⟩ := updateReserveEmisConfig_other h3; exact le_refl _
  | queueReserve V' a c h1 =>
    unfold queueSetReserve at h1
    simp only [bind_ok, pure_ok, require_ok] at h1
    obtain ⟨_, _, _, _, i, _, rfl⟩ := h1
    exact le_refl _
  | setReserve V' a h1 => 
    obtain ⟨q, _, _, h | h⟩ := setReserve_ok h1
    · obtain ⟨_, _, _, _, _, _, _, _, _, rfl⟩ := h; exact le_refl _
    · obtain ⟨_, _, rfl⟩ := h; exact le_refl _
  | poolEmis V' l h1 =>
    unfold setPoolEmissions at h1
    simp only [bind_ok, pure_ok, require_ok, Prod.exists] at h1
    obtain ⟨_, _, _, _, _, rfl⟩ := h1
    exact le_refl _
  | _ => exact le_refl _

/-- what a pool has paid in emissions is not negative -/
theorem _root_.Blend.Reachable.claimed_nonneg {w : World} (h : Reachable w) {p : Address} (hp : w.poolAddr p = true) (id : Nat) :
    0 ≤ (w.pools p).claimed id :=
  (h.pool_inv (I := fun now S => EInv now S ∧ ∀ id, 0 ≤ S.ps.claimed id)
    (fun now vb _ => ⟨⟨PInv.init now vb, fun id => ⟨fun _ => ⟨rfl, rfl, rfl, rfl⟩, by simp⟩⟩, fun _ => le_refl _⟩)
    (fun ht _ _ hi => ⟨hi.1.later ht, hi.2⟩)
    (fun cfg hm hi => ⟨micro_emis cfg hm hi.1, fun id => le_trans (hi.2 id) (micro_claimed cfg hi.1 hm id)⟩) hp).2 id

variable {E : Err → Bool} {now : Nat} {S : VS} {id : Nat} {a : Address} {c : ReserveConfig} {u : Address}

/-- what a user can claim at an index is bounded by what the reserve token received -/
theorem entitled_le (inv : EInv now S) {s index R : Int} (hs : 1 ≤ s) (hi : 0 ≤ index) (hU : UserOk index (S.ps.userEmis id))
    (hphi : phi s (ebal S.ps id) (etot S.ps id) index (S.ps.userEmis id) ≤ s * R) (u : Address) :
    s * (userEntry (S.ps.userEmis id) u).accrued + ebal S.ps id u * (index - (userEntry (S.ps.userEmis id) u).index) < s * R + s := by
  generalize hA : s * (userEntry (S.ps.userEmis id) u).accrued + ebal S.ps id u * (index - (userEntry (S.ps.userEmis id) u).index) = A
  have hd : Int.fdiv A s * s ≤ A ∧ A < Int.fdiv A s * s + s := fdiv_spec (a := A) (by omega)
  have h1 := phi_user (s := s) (bal := ebal S.ps id) (bal' := ebal S.ps id) (tot := etot S.ps id) (tot' := etot S.ps id) (index := index)
    (amt := Int.fdiv A s) (ue := S.ps.userEmis id) (u := u) (x := ⟨index, 0⟩) rfl (by rw [hA]; linarith) (fun _ _ => rfl) (by omega)
  have h2 := phi_nonneg (s := s) (bal := ebal S.ps id) (tot := etot S.ps id) (index := index) (ue := (S.ps.userEmis id).set u ⟨index, 0⟩)
    (by omega) hi (hU.set ⟨hi, le_refl _, le_refl _⟩) (inv.inv.ebal_nonneg id) (inv.inv.sum_ebal_le id _)
  have : s * Int.fdiv A s = Int.fdiv A s * s := mul_comm _ _
  omega

/-- an emission update fails only by overflow, and not at all for emissions of ordinary size -/
theorem emissions_live {claim : Bool} (inv : EInv now S) (hcl : 0 ≤ S.ps.claimed id) (ha : S.ps.resList[id / 2]? = some a)
    (hc : S.ps.resConfig a = some c) (hdec : c.decimals ≤ 18) (hB : E .overflow = true → ModerateEmissions S.ps id) :
    NoErr E (updateEmissions S.ps now id (etot S.ps id) (10 ^ c.decimals) u (ebal S.ps id u) claim) := by
  have hs1 : (1 : Int) ≤ 10 ^ c.decimals := one_le_pow₀ (by decide)
  have hs2 : (10 : Int) ^ c.decimals ≤ 10 ^ 18 := pow_le_pow_right₀ (by decide) hdec
  generalize hsd : (10 : Int) ^ c.decimals = s at *
  unfold updateEmissions updateEmisData
  cases hcf : S.ps.emisConfig id with
  | none => exact NoErr.bind NoErr.pure fun x hx => by cases hx; exact NoErr.pure
  | some cfg =>
    obtain ⟨a', c', ed, e1, e2, e3, e4, e5, e6, e7⟩ := (inv.emis id).isSet cfg hcf
    rw [ha] at e1; cases e1
    rw [hc] at e2; cases e2
    rw [hsd] at e7
    have ht := inv.inv.etot_nonneg id
    have hb := inv.inv.ebal_nonneg id u
    have hphi0 := phi_nonneg (s := s) (by omega) e5 e6 (inv.inv.ebal_nonneg id) (inv.inv.sum_ebal_le id (S.ps.userEmis id))
    have hcl0 := mul_nonneg (show 0 ≤ s by omega) hcl
    have hrem0 : 0 ≤ (cfg.eps : Int) * ((cfg.expiration - ed.lastTime : Nat) : Int) := by positivity
    have hrem : (cfg.eps : Int) * ((cfg.expiration - ed.lastTime : Nat) : Int) ≤ S.ps.received id := by
      by_contra hlt
      have : s * (S.ps.received id + 1) ≤ s * ((cfg.eps : Int) * ((cfg.expiration - ed.lastTime : Nat) : Int)) :=
        mul_le_mul_of_nonneg_left (by omega) (by omega)
      nlinarith
    have hdata : NoErr E (updateEmisDataWith S.ps now id (etot S.ps id) s cfg) := by
      unfold updateEmisDataWith
      refine NoErr.bind (NoErr.unwrap e3) fun d hd => ?_
      rw [unwrap_ok, e3] at hd
      cases hd
      split
      · exact NoErr.pure
      rename_i hcond
      push Not at hcond
      dsimp only
      have hle : ed.lastTime ≤ (if now > cfg.expiration then cfg.expiration else now) := by split <;> omega
      refine NoErr.bind (NoErr.subU hle) fun dt hdt => ?_
      rw [subU_ok] at hdt
      have hdt1 : dt ≤ cfg.expiration - ed.lastTime := by rw [hdt.2]; split <;> omega
      have hn0 : 0 ≤ (dt : Int) * (cfg.eps : Int) := by positivity
      have hn1 : (dt : Int) * (cfg.eps : Int) ≤ S.ps.received id := by
        refine le_trans ?_ hrem
        rw [mul_comm]
        exact mul_le_mul_of_nonneg_left (by omega) (by omega)
      refine NoErr.bind (NoErr.chk fun hE => inI hn0 (by have := (hB hE).total; omega)) fun num hnum => ?_
      rw [chk_ok] at hnum
      have hp : E .overflow = true → 0 ≤ num * s ∧ num * s ≤ 10 ^ 18 * 10 ^ 18 := fun hE =>
        prod_le (by omega) (by have := (hB hE).total; omega) (by omega) hs2
      have h0 : 1 ≤ etot S.ps id := by omega
      refine NoErr.bind (NoErr.mulDivFloor h0 fun hE => inI (hp hE).1 (by have := (hp hE).2; omega)) fun add hadd => ?_
      have hadd0 : 0 ≤ add := mulDivFloor_nonneg hadd (by omega) (mul_nonneg (by omega) (by omega))
      have hadd1 : E .overflow = true → add ≤ 10 ^ 36 := fun hE => floor_le h0 hadd (by
        have := (hp hE).2
        nlinarith)
      refine NoErr.bind (NoErr.chk fun hE => inI (by omega) ?_) fun _ _ => NoErr.pure
      have := hadd1 hE
      have := (hB hE).index ed e3
      omega
    refine NoErr.bind (NoErr.bind hdata fun x _ => NoErr.pure) fun od hod => ?_
    simp only [bind_ok, pure_ok, Prod.exists] at hod
    obtain ⟨d, ps1, hd, rfl⟩ := hod
    obtain ⟨rfl, k1, k2, k3, k4, _⟩ := dataUpdate_ok hd e3 e4 (by omega) ht
    dsimp only
    have hU : UserOk d.index (S.ps.userEmis id) := e6.mono k1
    have hd0 : 0 ≤ d.index := by omega
    have hphi : phi s (ebal S.ps id) (etot S.ps id) d.index (S.ps.userEmis id) ≤ s * S.ps.received id := by
      have h1 := phi_index s (ebal S.ps id) (etot S.ps id) ed.index d.index (S.ps.userEmis id)
      have h2 : 0 ≤ s * ((cfg.eps : Int) * ((cfg.expiration - d.lastTime : Nat) : Int)) := by positivity
      omega
    have hA := entitled_le inv hs1 hd0 hU hphi u
    have hent := hU.entry hd0 u
    generalize hx : userEntry (S.ps.userEmis id) u = x at *
    have hA2 : E .overflow = true → s * x.accrued + ebal S.ps id u * (d.index - x.index) ≤ 2 * 10 ^ 36 := fun hE => by
      have h1 : s * S.ps.received id ≤ 10 ^ 18 * 10 ^ 18 := by
        have := (hB hE).total
        have : s * S.ps.received id ≤ s * 10 ^ 18 := mul_le_mul_of_nonneg_left this (by omega)
        omega
      omega
    have hp0 : 0 ≤ ebal S.ps id u * (d.index - x.index) := mul_nonneg hb (by omega)
    have ha0 : x.accrued ≤ s * x.accrued := by nlinarith
    unfold updateUserEmis
    dsimp only
    cases hg : (S.ps.userEmis id).get u with
    | some ud =>
      have : x = ud := by rw [← hx]; unfold userEntry; rw [hg]; rfl
      subst this
      dsimp only
      split
      · split
        · rename_i hne
          have hdelta : d.index - x.index ≤ ebal S.ps id u * (d.index - x.index) := by
            have : 1 * (d.index - x.index) ≤ ebal S.ps id u * (d.index - x.index) := mul_le_mul_of_nonneg_right (by omega) (by omega)
            omega
          refine NoErr.bind (NoErr.chk fun hE => inI (by omega) (by have := hA2 hE; omega)) fun dl hdl => ?_
          rw [chk_ok] at hdl
          refine NoErr.bind (NoErr.req (by omega)) fun _ _ => ?_
          refine NoErr.bind (NoErr.mulDivFloor hs1 fun hE => ?_) fun acc hacc => ?_
          · rw [hdl.2]; exact inI hp0 (by have := hA2 hE; omega)
          have hacc0 : 0 ≤ acc := mulDivFloor_nonneg hacc (by omega) (by rw [hdl.2]; exact hp0)
          have hacc1 : acc ≤ ebal S.ps id u * (d.index - x.index) := floor_le hs1 hacc (by rw [hdl.2]; nlinarith)
          exact NoErr.bind (NoErr.chk fun hE => inI (by omega) (by have := hA2 hE; omega)) fun _ _ => NoErr.pure
        · exact NoErr.pure
      · exact NoErr.pure
    | none =>
      have : x = ⟨0, 0⟩ := by rw [← hx]; unfold userEntry; rw [hg]; rfl
      subst this
      dsimp only
      split
      · exact NoErr.pure
      · refine NoErr.bind (NoErr.mulDivFloor hs1 fun hE => ?_) fun acc hacc => NoErr.pure
        have := hA2 hE
        simp only [sub_zero] at this hp0
        exact inI hp0 (by omega)

end Pool
end Blend
