import Verif.Lemmas.BackstopOps
import Verif.Lemmas.EmisCore
/-
  Emission updates of the backstop: what they do to the bookkeeping.
-/

namespace Blend
namespace Backstop

theorem upd_eq_self {β : Type} {f : Nat → β} {k : Nat} {v : β} (h : f k = v) : upd f k v = f := by
  funext x; rw [upd_apply]; split
  · rename_i e; rw [e, h]
  · rfl

/-- `update_emission_data_with_config` of the backstop -/
theorem dataUpdate_ok {b b' : BackstopState} {now : Nat} {p : Address} {pb : PoolBalance} {cfg : EmisConfig}
    {d : EmisData} (h : updateEmisDataWith b now p pb cfg = .ok (d, b')) :
    ∃ ed, b.emisData p = some ed ∧ b' = { b with emisData := upd b.emisData p (some d) } ∧
    (ed.lastTime ≤ now → 
      ed.index ≤ d.index ∧ ed.lastTime ≤ d.lastTime ∧ d.lastTime ≤ now ∧
      (d.index - ed.index) * (pb.shares - pb.q4w) +
        SCALAR_7 * ((cfg.eps : Int) * ((cfg.expiration - d.lastTime : Nat) : Int)) ≤
      SCALAR_7 * ((cfg.eps : Int) * ((cfg.expiration - ed.lastTime : Nat) : Int))) ∧
    (d = ed ∨ (d.lastTime = now ∧ 0 < pb.shares - pb.q4w ∧ ed.lastTime < cfg.expiration)) ∧
    ((d.lastTime ≥ cfg.expiration ∨ now = d.lastTime ∨ cfg.eps = 0 ∨ pb.shares = 0)) := by
  unfold updateEmisDataWith requireNonneg at h
  simp only [bind_ok, ite_ok, unwrap_ok, pure_ok, Prod.mk.injEq, chk_ok, require_ok] at h
  obtain ⟨ed, he, h⟩ := h
  refine ⟨ed, he, ?_⟩
  rcases h with ⟨hc, rfl, rfl⟩ | ⟨hc, unq, ⟨_, rfl⟩, _, hun, dt, hdt, num, ⟨_, rfl⟩, add, hadd, idx, ⟨_, rfl⟩, rfl, rfl⟩
  · exact ⟨by rw [upd_eq_self he], fun hl => ⟨le_refl _, le_refl _, hl, by simp⟩, .inl rfl, hc⟩
  · push Not at hc
    obtain ⟨c1, c2, c3, c4⟩ := hc
    have hne : pb.shares - pb.q4w ≠ 0 := by
      intro e
      unfold fixedDivFloor mulDivFloor at hadd
      rw [e] at hadd
      simp only [bind_ok, require_ok, ne_eq, not_true_eq_false, false_and, exists_false, and_false] at hadd
    have hpos : 0 < pb.shares - pb.q4w := by omega
    obtain ⟨k1, rfl⟩ := subU_ok.1 hdt
    have ha := (mulDivFloor_spec hadd hpos).1
    set t := if now > cfg.expiration then cfg.expiration else now with ht
    have htle : t ≤ now ∧ t ≤ cfg.expiration ∧ cfg.expiration - now = cfg.expiration - t := by
      rw [ht]; split <;> omega
    have hadd0 : 0 ≤ add := mulDivFloor_nonneg hadd hpos (by unfold SCALAR_7; positivity)
    refine ⟨rfl, fun hl => ⟨by show ed.index ≤ add + ed.index; omega, hl, le_refl _, ?_⟩,
      .inr ⟨rfl, hpos, by omega⟩, .inr (.inl rfl)⟩
    show (add + ed.index - ed.index) * (pb.shares - pb.q4w) + _ ≤ _
    have e1 : ((cfg.expiration - ed.lastTime : Nat) : Int) =
        ((cfg.expiration - now : Nat) : Int) + ((t - ed.lastTime : Nat) : Int) := by omega
    rw [e1]
    unfold SCALAR_7 at *
    nlinarith

/-- `update_user_emissions` of the backstop -/
theorem userUpdate_ok {b b' : BackstopState} {d : EmisData} {p u : Address} {ub : UserBalance} {amt : Int}
    {claim : Bool} (h : updateUserEmis b p u d ub claim = .ok (amt, b')) :
    ∃ x, b' = { b with userEmis := upd b.userEmis p ((b.userEmis p).set u x) } ∧ x.index = d.index ∧
      (claim = false → amt = 0) ∧ (claim = true → x.accrued = 0) ∧
      (0 ≤ ub.shares → UserOk d.index (b.userEmis p) → 0 ≤ d.index → 
        0 ≤ x.accrued ∧ 0 ≤ amt ∧
        SCALAR_7 * (amt + x.accrued) ≤ SCALAR_7 * (userEntry (b.userEmis p) u).accrued +
        ub.shares * (d.index - (userEntry (b.userEmis p) u).index)) ∧
      (∀ y, (b.userEmis p).get u = some y → y.index = d.index → y.accrued = 0 → amt = 0) := by
  have hS : (0 : Int) < SCALAR_7 := by unfold SCALAR_7; norm_num
  have hset : ∀ {acc : Int}, 
      (0 ≤ ub.shares → UserOk d.index (b.userEmis p) → 0 ≤ d.index → 0 ≤ acc ∧
       SCALAR_7 * acc ≤ SCALAR_7 * (userEntry (b.userEmis p) u).accrued +
        ub.shares * (d.index - (userEntry (b.userEmis p) u).index)) →
      (∀ y, (b.userEmis p).get u = some y → y.index = d.index → y.accrued = 0 → acc = 0) →
      setUserEmis b p u d.index acc claim = (amt, b') →
      ∃ x, b' = { b with userEmis := upd b.userEmis p ((b.userEmis p).set u x) } ∧ x.index = d.index ∧
      (claim = false → amt = 0) ∧ (claim = true → x.accrued = 0) ∧
      (0 ≤ ub.shares → UserOk d.index (b.userEmis p) → 0 ≤ d.index → 
        0 ≤ x.accrued ∧ 0 ≤ amt ∧
        SCALAR_7 * (amt + x.accrued) ≤ SCALAR_7 * (userEntry (b.userEmis p) u).accrued +
        ub.shares * (d.index - (userEntry (b.userEmis p) u).index)) ∧
      (∀ y, (b.userEmis p).get u = some y → y.index = d.index → y.accrued = 0 → amt = 0) := by
    intro acc h0 h1 h
    unfold setUserEmis at h
    split at h
    · rename_i hc
      simp only [Prod.mk.injEq] at h
      obtain ⟨rfl, rfl⟩ := h
      exact ⟨⟨d.index, 0⟩, rfl, rfl, by simp [hc], fun _ => rfl, fun a1 a2 a3 => by
        obtain ⟨k1, k2⟩ := h0 a1 a2 a3
        exact ⟨le_refl _, k1, by simpa using k2⟩, h1⟩
    · rename_i hc
      simp only [Prod.mk.injEq] at h
      obtain ⟨rfl, rfl⟩ := h
      exact ⟨⟨d.index, acc⟩, rfl, rfl, fun _ => rfl, fun e => absurd e hc, fun a1 a2 a3 => by
        obtain ⟨k1, k2⟩ := h0 a1 a2 a3
        exact ⟨k1, le_refl _, by simpa using k2⟩, fun _ _ _ _ => rfl⟩
  unfold updateUserEmis requireNonneg at h
  cases hu : (b.userEmis p).get u with
  | some ud =>
    have eu : userEntry (b.userEmis p) u = ud := by unfold userEntry; rw [hu]; rfl
    rw [hu] at hset
    rw [eu] at hset ⊢
    simp only [hu, ite_ok, bind_ok, pure_ok, chk_ok, require_ok] at h
    rcases h with ⟨_, ⟨hb0, dl, ⟨_, rfl⟩, _, _, acc, hacc, ac, ⟨_, rfl⟩, h⟩ | ⟨hb0, ac, rfl, h⟩⟩ | ⟨hc, h⟩
    · refine hset (fun a1 a2 a3 => ?_) (fun y hy h1 h2 => ?_) h
      · have he := a2.entry a3 u
        rw [eu] at he
        obtain ⟨g1, g2⟩ := user_accrual hS a1 he hacc
        exact ⟨by omega, g2⟩
      · cases hy
        have := mulDivFloor_spec hacc hS
        rw [h1, sub_self, mul_zero] at this
        unfold SCALAR_7 at this
        omega
    · push Not at hb0
      refine hset (fun a1 a2 a3 => ?_) (fun y hy h1 h2 => by cases hy; exact h2) h
      have he := a2.entry a3 u
      rw [eu] at he
      exact ⟨he.2.2, by rw [hb0]; simp⟩
    · simp only [Prod.mk.injEq] at h
      obtain ⟨rfl, rfl⟩ := h
      push Not at hc
      refine ⟨ud, ?_, hc.1, fun _ => rfl, fun e => absurd e hc.2, fun a1 a2 a3 => ?_, fun _ _ _ _ => rfl⟩
      · rw [SMap.set_self hu, upd_eq_self rfl]
      · have he := a2.entry a3 u
        rw [eu] at he
        exact ⟨he.2.2, le_refl _, by rw [← hc.1]; simp⟩
  | none =>
    have eu : userEntry (b.userEmis p) u = ⟨0, 0⟩ := by unfold userEntry; rw [hu]; rfl
    rw [hu] at hset
    rw [eu] at hset ⊢
    simp only [hu, ite_ok, bind_ok, pure_ok] at h
    rcases h with ⟨hb0, h⟩ | ⟨hb0, acc, hacc, h⟩
    · exact hset (fun _ _ _ => ⟨le_refl _, by simp [hb0]⟩) (fun _ hy => by simp at hy) h
    · refine hset (fun a1 a2 a3 => ?_) (fun _ hy => by simp at hy) h
      have hacc' : fixedMulFloor ub.shares (d.index - (⟨0, 0⟩ : UserEmis).index) SCALAR_7 = .ok acc := by
        simpa using hacc
      obtain ⟨g1, g2⟩ := user_accrual (old := ⟨0, 0⟩) hS a1 ⟨le_refl _, a3, le_refl _⟩ hacc'
      exact ⟨g1, by simpa using g2⟩

/-- An emission update of a depositor, possibly with a claim. -/
structure EmisRes (b : BackstopState) (now : Nat) (p : Address) (pb : PoolBalance) (u : Address)
    (ub : UserBalance) (claim : Bool) (amt : Int) (b1 : BackstopState) (cfg : EmisConfig) (ed d : EmisData)
    (x : UserEmis) : Prop where
  config : b.emisCfg p = some cfg
  data : b.emisData p = some ed
  eq : b1 = { b with
    emisData := upd b.emisData p (some d)
    userEmis := upd b.userEmis p ((b.userEmis p).set u x) }
  xi : x.index = d.index
  noclaim : claim = false → amt = 0
  claimed : claim = true → x.accrued = 0
  index : ed.lastTime ≤ now → ed.index ≤ d.index ∧ ed.lastTime ≤ d.lastTime ∧ d.lastTime ≤ now ∧
      (d.index - ed.index) * (pb.shares - pb.q4w) +
        SCALAR_7 * ((cfg.eps : Int) * ((cfg.expiration - d.lastTime : Nat) : Int)) ≤
      SCALAR_7 * ((cfg.eps : Int) * ((cfg.expiration - ed.lastTime : Nat) : Int))
  settled : d.lastTime ≥ cfg.expiration ∨ now = d.lastTime ∨ cfg.eps = 0 ∨ pb.shares = 0
  acc : 0 ≤ ub.shares → UserOk d.index (b.userEmis p) → 0 ≤ d.index →
    0 ≤ x.accrued ∧ 0 ≤ amt ∧
    SCALAR_7 * (amt + x.accrued) ≤ SCALAR_7 * (userEntry (b.userEmis p) u).accrued +
      ub.shares * (d.index - (userEntry (b.userEmis p) u).index)

theorem updateEmissions_ok {b b1 : BackstopState} {now : Nat} {p u : Address} {pb : PoolBalance}
    {ub : UserBalance} {claim : Bool} {amt : Int}
    (h : updateEmissions b now p pb u ub claim = .ok (amt, b1)) :
    (b.emisCfg p = none ∧ b1 = b ∧ amt = 0) ∨ ∃ cfg ed d x, EmisRes b now p pb u ub claim amt b1 cfg ed d x := by
  unfold updateEmissions updateEmisData at h
  cases hc : b.emisCfg p with
  | none =>
    left
    simp only [hc, bind_ok, Prod.exists, pure_ok, Prod.mk.injEq] at h
    obtain ⟨od, p1, ⟨rfl, rfl⟩, h⟩ := h
    simp only [pure_ok, Prod.mk.injEq] at h
    exact ⟨rfl, h.2.symm, h.1.symm⟩
  | some cfg =>
    right
    simp only [hc, bind_ok, Prod.exists, pure_ok, Prod.mk.injEq] at h
    obtain ⟨od, b1, ⟨d, b2, hd, rfl, rfl⟩, h⟩ := h
    obtain ⟨ed, he, rfl, k1, k2, k3⟩ := dataUpdate_ok hd
    simp only at h
    obtain ⟨x, rfl, m1, m2, m3, m4, _⟩ := userUpdate_ok h
    exact ⟨cfg, ed, d, x, hc, he, rfl, m1, m2, m3, k1, k3, m4⟩

/-- nothing can be claimed twice at one time -/
theorem updateEmissions_settled {b b1 : BackstopState} {now : Nat} {p u : Address} {pb : PoolBalance}
    {ub : UserBalance} {claim : Bool} {amt : Int}
    (h : updateEmissions b now p pb u ub claim = .ok (amt, b1))
    (hs : ∀ cfg, b.emisCfg p = some cfg → ∃ d x, b.emisData p = some d ∧ (b.userEmis p).get u = some x ∧
      x.index = d.index ∧ x.accrued = 0 ∧
      (d.lastTime ≥ cfg.expiration ∨ now = d.lastTime ∨ cfg.eps = 0 ∨ pb.shares = 0)) : amt = 0 := by
  unfold updateEmissions updateEmisData at h
  cases hc : b.emisCfg p with
  | none =>
    simp only [hc, bind_ok, Prod.exists, pure_ok, Prod.mk.injEq] at h
    obtain ⟨od, p1, ⟨rfl, rfl⟩, h⟩ := h
    simp only [pure_ok, Prod.mk.injEq] at h
    exact h.1.symm
  | some cfg =>
    simp only [hc, bind_ok, Prod.exists, pure_ok, Prod.mk.injEq] at h
    obtain ⟨od, b1, ⟨d, b2, hd, rfl, rfl⟩, h⟩ := h
    obtain ⟨d0, x, h1, h2, h3, h4, h5⟩ := hs cfg hc
    unfold updateEmisDataWith at hd
    simp only [bind_ok, unwrap_ok] at hd
    obtain ⟨d1, he, hd⟩ := hd
    rw [h1] at he; cases he
    rw [if_pos h5] at hd
    simp only [pure_ok, Prod.mk.injEq] at hd
    obtain ⟨rfl, rfl⟩ := hd
    simp only at h
    obtain ⟨_, _, _, _, _, _, hz⟩ := userUpdate_ok h
    exact hz x h2 h3 h4

/-- `set_backstop_emission_config` -/
theorem setEmisConfig_ok {b b' : BackstopState} {now : Nat} {p : Address} {pb : PoolBalance} {n : Int}
    (h : setEmisConfig b now p pb n = .ok b') :
    ∃ d' eps, b' = { b with
        emisData := upd b.emisData p (some d')
        emisCfg := upd b.emisCfg p (some ⟨now + 7 * 24 * 60 * 60, eps⟩)
        received := upd b.received p (b.received p + n) } ∧ d'.lastTime = now ∧
      ((b.emisCfg p = none ∧ d'.index = 0 ∧ (0 ≤ n → (eps : Int) * (7 * 24 * 60 * 60) ≤ n)) ∨
       ∃ cfg ed, b.emisCfg p = some cfg ∧ b.emisData p = some ed ∧ (ed.lastTime ≤ now → ed.index ≤ d'.index ∧
        (0 ≤ n → (d'.index - ed.index) * (pb.shares - pb.q4w) + SCALAR_7 * ((eps : Int) * (7 * 24 * 60 * 60)) ≤
        SCALAR_7 * n + SCALAR_7 * ((cfg.eps : Int) * ((cfg.expiration - ed.lastTime : Nat) : Int))))) := by
  have heps : ∀ {left : Int} {eps : Nat}, 0 ≤ left → toU64 (Int.tdiv left (7 * 24 * 60 * 60)) = .ok eps →
      (eps : Int) * (7 * 24 * 60 * 60) ≤ left := by
    intro left eps hl he
    have h1 : (eps : Int) = Int.tdiv left (7 * 24 * 60 * 60) := (toU64_ok.1 he).2.2
    rw [h1, Int.tdiv_eq_ediv_of_nonneg hl]
    omega
  unfold setEmisConfig at h
  cases hcf : b.emisCfg p with
  | none =>
    simp only [hcf, bind_ok, pure_ok, Prod.exists, Prod.mk.injEq] at h
    obtain ⟨left, b1, ⟨rfl, rfl⟩, eps, he, rfl⟩ := h
    exact ⟨⟨0, now⟩, eps, rfl, rfl, .inl ⟨rfl, rfl, fun hn => heps hn he⟩⟩
  | some cfg =>
    simp only [hcf, bind_ok, Prod.exists] at h
    obtain ⟨d, q1, hq, h⟩ := h
    obtain ⟨ed, he0, rfl, k1, _, _⟩ := dataUpdate_ok hq
    have hst : ∃ d' : EmisData, d'.index = d.index ∧ d'.lastTime = now ∧
        (if d.lastTime ≠ now then
          { b with emisData := upd (upd b.emisData p (some d)) p (some { d with lastTime := now }) }
         else { b with emisData := upd b.emisData p (some d) }) =
        { b with emisData := upd b.emisData p (some d') } := by
      split
      · refine ⟨{ d with lastTime := now }, rfl, rfl, ?_⟩
        congr 1; funext x; simp only [upd_apply]; split <;> rfl
      · rename_i e; push Not at e
        exact ⟨d, rfl, e, rfl⟩
    obtain ⟨d', f1, f2, f3⟩ := hst
    simp only at h
    rw [f3] at h
    have hfin : ∀ {left : Int} {eps : Nat}, (0 ≤ n → 0 ≤ left ∧ left ≤ n + (cfg.eps : Int) * ((cfg.expiration - now : Nat) : Int)) →
        toU64 (Int.tdiv left (7 * 24 * 60 * 60)) = .ok eps → 
        ed.lastTime ≤ now → ed.index ≤ d'.index ∧
        (0 ≤ n → (d'.index - ed.index) * (pb.shares - pb.q4w) + SCALAR_7 * ((eps : Int) * (7 * 24 * 60 * 60)) ≤
        SCALAR_7 * n + SCALAR_7 * ((cfg.eps : Int) * ((cfg.expiration - ed.lastTime : Nat) : Int))) := by
      intro left eps hl he hlt
      obtain ⟨g1, g2, g3, g4⟩ := k1 hlt
      refine ⟨by omega, fun hn => ?_⟩
      obtain ⟨l1, l2⟩ := hl hn
      have e1 := heps l1 he
      have e2 : (cfg.eps : Int) * ((cfg.expiration - now : Nat) : Int) ≤
          (cfg.eps : Int) * ((cfg.expiration - d.lastTime : Nat) : Int) :=
        mul_le_mul_of_nonneg_left (by omega) (by positivity)
      rw [f1]
      unfold SCALAR_7 at *
      linarith
    simp only [ite_ok, bind_ok, pure_ok, chk_ok, chkU64_ok, Prod.mk.injEq] at h
    rcases h with ⟨_, rem, ⟨_, rfl⟩, l, ⟨_, rfl⟩, _, rfl, eps, he, rfl⟩ | ⟨hx, _, rfl, eps, he, rfl⟩
    · refine ⟨d', eps, rfl, f2, .inr ⟨cfg, ed, rfl, he0, hfin (fun hn => ?_) he⟩⟩
      have : (0 : Int) ≤ (cfg.eps : Int) * ((cfg.expiration - now : Nat) : Int) := by positivity
      push_cast
      omega
    · refine ⟨d', eps, rfl, f2, .inr ⟨cfg, ed, rfl, he0, hfin (fun hn => ?_) he⟩⟩
      have : (0 : Int) ≤ (cfg.eps : Int) * ((cfg.expiration - now : Nat) : Int) := by positivity
      omega

end Backstop
end Blend
