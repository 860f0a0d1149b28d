import Verif.Lemmas.LiveSubmit
import Verif.Lemmas.ClaimLoop
/-
  A claim of pool emissions fails only by overflow or because the allowance or the BLND is missing.
-/

namespace Blend
namespace Pool
open Spec

variable {E : Err → Bool} {now : Nat} {S : VS} {id : Nat}

/-- a reserve token has not paid more than it received -/
theorem EInv.paid_le (inv : EInv now S) (id : Nat) : S.ps.claimed id ≤ S.ps.received id := by
  cases hcf : S.ps.emisConfig id with
  | none =>
    obtain ⟨_, _, h3, h4⟩ := (inv.emis id).unset hcf
    omega
  | some cfg =>
    obtain ⟨a, c, ed, _, _, _, _, e5, e6, e7⟩ := (inv.emis id).isSet cfg hcf
    have hs1 : (1 : Int) ≤ 10 ^ c.decimals := one_le_pow₀ (by decide)
    have h0 := phi_nonneg (s := 10 ^ c.decimals) (by omega) e5 e6 (inv.inv.ebal_nonneg id) (inv.inv.sum_ebal_le id (S.ps.userEmis id))
    have hz : (0 : Int) ≤ 10 ^ c.decimals * ((cfg.eps : Int) * ((cfg.expiration - ed.lastTime : Nat) : Int)) := by positivity
    have : (10 : Int) ^ c.decimals * S.ps.claimed id ≤ 10 ^ c.decimals * S.ps.received id := by omega
    exact le_of_mul_le_mul_left this (by omega)

/-- the loop of a claim fails only by overflow, and not at all for emissions of ordinary size -/
theorem claimLoop_live {u : Address} {vb pb pd : Address → Int} : ∀ (l : List Nat) (n : Int) (ps : PoolState),
    EInv now ⟨ps, vb, pb, pd⟩ → CfgOk ps → (∀ id, 0 ≤ ps.claimed id) → l.Nodup → (∀ id ∈ l, ps.resList[id / 2]? ≠ none) →
    (E .overflow = true → (∀ id ∈ l, ModerateEmissions ps id ∧ etot ps id ≤ 10 ^ 38) ∧ 0 ≤ n ∧ n + l.length * 10 ^ 18 ≤ 10 ^ 38) →
    NoErr E (claimLoop now u (getPositions ps u) l (n, ps)) := by
  intro l
  induction l with
  | nil => intro n ps _ _ _ _ _ _; unfold claimLoop; exact NoErr.pure
  | cons id l ih =>
    intro n ps inv cfg hcl hnd hval hB
    rw [List.nodup_cons] at hnd
    obtain ⟨a, ha⟩ := Option.ne_none_iff_exists'.1 (hval id (by simp))
    obtain ⟨c, d, hc, hd⟩ := cfg.list a (List.mem_of_getElem? ha)
    have hdec := (cfg.valid a c hc).decimals
    have hix := cfg.index_list ha hc
    have hs1 : (1 : Int) ≤ 10 ^ c.decimals := one_le_pow₀ (by decide)
    have hs2 : (10 : Int) ^ c.decimals ≤ 10 ^ 18 := pow_le_pow_right₀ (by decide) hdec
    have hsup : (if id % 2 = 0 then d.dSupply else d.bSupply) = etot ps id := by
      split
      · rename_i h0
        have := inv.inv.supply_eq hc hd .liab
        rw [show Kind.liab.id c.index = id by simp [Kind.id]; omega] at this
        exact this
      · rename_i h0
        have := inv.inv.supply_eq hc hd .coll
        rw [show Kind.coll.id c.index = id by simp [Kind.id]; omega] at this
        exact this
    have hu := emissions_live (E := E) (S := ⟨ps, vb, pb, pd⟩) (id := id) (a := a) (c := c) (u := u) (claim := true) inv (hcl id) ha hc hdec
      (fun hE => ((hB hE).1 id (by simp)).1)
    unfold claimLoop
    simp only [ha]
    refine NoErr.bind (NoErr.unwrap hc) fun c1 hc1 => ?_
    rw [unwrap_ok, hc] at hc1; cases hc1
    refine NoErr.bind (NoErr.unwrap hd) fun d1 hd1 => ?_
    rw [unwrap_ok, hd] at hd1; cases hd1
    have hbal0 : 0 ≤ ebal ps id u := inv.inv.ebal_nonneg id u
    have hbal1 : ebal ps id u ≤ etot ps id := ebal_le_etot inv.inv id u
    have hrest : NoErr E (do
        let scalar ← pow10 c.decimals
        let (amt, ps') ← updateEmissions ps now id (if id % 2 = 0 then d.dSupply else d.bSupply) scalar u (ebal ps id u) true
        let t ← chk (n + amt)
        claimLoop now u (getPositions ps u) l (t, { ps' with claimed := upd ps'.claimed id (ps'.claimed id + amt) })) := by
      refine NoErr.bind (NoErr.chk fun _ => inI (by omega) (by omega)) fun s hs => ?_
      rw [pow10_ok] at hs
      rw [hs.2, hsup]
      refine NoErr.bind hu fun x hx => ?_
      obtain ⟨amt, ps1⟩ := x
      obtain ⟨o1, o2, o3, o4, _⟩ := updateEmissions_other hx
      have hm : PMicro now (fun _ => True) ⟨ps, vb, pb, pd⟩
          ⟨{ ps1 with claimed := upd ps1.claimed id (ps1.claimed id + amt) }, vb, pb, pd⟩ := by
        by_cases h0 : id % 2 = 0
        · have hid : Kind.liab.id (id / 2) = id := by simp [Kind.id]; omega
          have := PMicro.emis (now := now) (U := fun _ => True) ⟨ps, vb, pb, pd⟩ ps1 .liab a u c d (id / 2) true amt trivial hc hd (.inl ha) (by
            rw [hid, emisBal_eq, hid, show Kind.liab.supply d = etot ps id by rw [← hsup, if_pos h0]; rfl]
            exact hx)
          rw [hid] at this
          exact this
        · have hid : Kind.coll.id (id / 2) = id := by simp [Kind.id]; omega
          have := PMicro.emis (now := now) (U := fun _ => True) ⟨ps, vb, pb, pd⟩ ps1 .coll a u c d (id / 2) true amt trivial hc hd (.inl ha) (by
            rw [hid, emisBal_eq, hid, show Kind.coll.supply d = etot ps id by rw [← hsup, if_neg h0]; rfl]
            exact hx)
          rw [hid] at this
          exact this
      have inv' := micro_emis cfg hm inv
      have cfg' := (micro_cfg hm cfg).1
      have hmono := micro_claimed cfg inv hm id
      have hpaid := inv'.paid_le id
      have ocl : ps1.claimed = ps.claimed := o1.claimed
      have orc : ps1.received = ps.received := o1.received
      simp only [upd_apply, if_true, ocl, orc] at hpaid hmono
      have hcl0 := hcl id
      refine NoErr.bind (NoErr.chk fun hE => ?_) fun t ht => ?_
      · obtain ⟨h1, h2, h3⟩ := hB hE
        have h4 := (h1 id (by simp)).1.total
        simp only [List.length_cons] at h3
        push_cast at h3
        have : (0 : Int) ≤ l.length * 10 ^ 18 := by positivity
        exact inI (by omega) (by linarith)
      · rw [chk_ok] at ht
        have hg : getPositions ps u = getPositions { ps1 with claimed := upd ps1.claimed id (ps1.claimed id + amt) } u := by
          unfold getPositions; simp only [o2]
        rw [hg]
        refine ih _ _ inv' cfg' (fun j => ?_) hnd.2 (fun j hj => ?_) fun hE => ⟨fun j hj => ?_, ?_, ?_⟩
        · exact le_trans (hcl j) (micro_claimed cfg inv hm j)
        · change ps1.resList[j / 2]? ≠ none
          rw [o1.resList]
          exact hval j (by simp [hj])
        · obtain ⟨⟨k1, k2⟩, k3⟩ := (hB hE).1 j (by simp [hj])
          have hne : j ≠ id := fun e => hnd.1 (e ▸ hj)
          refine ⟨⟨?_, fun e he => k2 e ?_⟩, ?_⟩
          · change ps1.received j ≤ _
            rw [orc]; exact k1
          · change ps1.emisData j = some e at he
            rw [← he]
            exact ((updateEmissions_otherId hx hne).1).symm
          · refine le_trans (le_of_eq ?_) k3
            unfold etot
            change ps1.positions.sum _ = ps.positions.sum _
            rw [o2]
        · have := (hB hE).2.1
          omega
        · obtain ⟨h1, h2, h3⟩ := hB hE
          have h4 := (h1 id (by simp)).1.total
          simp only [List.length_cons] at h3
          push_cast at h3
          rw [ht.2]
          linarith
    by_cases h0 : id % 2 = 0
    · have e : ebal ps id u = (getPositions ps u).liabilities.bal (id / 2) := by unfold ebal posBal; rw [if_pos h0]
      rw [e] at hrest
      rw [if_pos h0]
      exact NoErr.bind NoErr.pure fun x hx => by rw [pure_ok] at hx; subst hx; exact hrest
    · have e : ebal ps id u = (getPositions ps u).collateral.bal (id / 2) + (getPositions ps u).supply.bal (id / 2) := by
        unfold ebal posBal; rw [if_neg h0]
      rw [e] at hrest hbal0 hbal1
      rw [if_neg h0]
      refine NoErr.bind (NoErr.chk fun hE => inI hbal0 (le_trans hbal1 ((hB hE).1 id (by simp)).2)) fun x hx => ?_
      rw [chk_ok] at hx
      rw [hx.2]
      exact hrest

end Pool
end Blend
