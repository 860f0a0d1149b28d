import Verif.Lemmas.BReach
/-
  What a pool call does to the backstop: it changes only the pool's own tokens and its pending emissions.
-/

namespace Blend
namespace Backstop

/-- effect of a call of pool `p` on the backstop -/
structure PoolEff (p : Address) (D : Pool.Eff → Prop) (b b' : BackstopState) : Prop where
  inst : b'.inst = b.inst
  userBal : b'.userBal = b.userBal
  other : ∀ q, q ≠ p → b'.getPoolBal q = b.getPoolBal q
  shares : (b'.getPoolBal p).shares = (b.getPoolBal p).shares
  q4w : (b'.getPoolBal p).q4w = (b.getPoolBal p).q4w
  draw : ¬ D .draw → (b.getPoolBal p).tokens ≤ (b'.getPoolBal p).tokens
  donate : ¬ D .donate → (b'.getPoolBal p).tokens ≤ (b.getPoolBal p).tokens
  lastDistro : b'.lastDistro = b.lastDistro
  rewardZone : b'.rewardZone = b.rewardZone
  lpVal : b'.lpVal = b.lpVal
  dropList : b'.dropList = b.dropList
  emisCfg : b'.emisCfg = b.emisCfg
  emisData : b'.emisData = b.emisData
  userEmis : b'.userEmis = b.userEmis
  received : b'.received = b.received
  claimed : b'.claimed = b.claimed
  poolEmis : ∀ q, q ≠ p → b'.poolEmis q = b.poolEmis q
  gulp : ¬ D .gulp → b'.poolEmis = b.poolEmis
  emis : b'.poolEmis p = b.poolEmis p ∨ b'.poolEmis p = 0

theorem PoolEff.refl (p : Address) (D : Pool.Eff → Prop) (b : BackstopState) : PoolEff p D b b :=
  ⟨rfl, rfl, fun _ _ => rfl, rfl, rfl, fun _ => le_refl _, fun _ => le_refl _, rfl, rfl, rfl, rfl, rfl, rfl, rfl, rfl, rfl,
    fun _ _ => rfl, fun _ => rfl, .inl rfl⟩

theorem PoolEff.trans {p : Address} {D : Pool.Eff → Prop} {a b c : BackstopState} (h : PoolEff p D a b)
    (h' : PoolEff p D b c) : PoolEff p D a c where
  inst := h'.inst.trans h.inst
  userBal := h'.userBal.trans h.userBal
  other q hq := (h'.other q hq).trans (h.other q hq)
  shares := h'.shares.trans h.shares
  q4w := h'.q4w.trans h.q4w
  draw hd := le_trans (h.draw hd) (h'.draw hd)
  donate hd := le_trans (h'.donate hd) (h.donate hd)
  lastDistro := h'.lastDistro.trans h.lastDistro
  rewardZone := h'.rewardZone.trans h.rewardZone
  lpVal := h'.lpVal.trans h.lpVal
  dropList := h'.dropList.trans h.dropList
  emisCfg := h'.emisCfg.trans h.emisCfg
  emisData := h'.emisData.trans h.emisData
  userEmis := h'.userEmis.trans h.userEmis
  received := h'.received.trans h.received
  claimed := h'.claimed.trans h.claimed
  poolEmis q hq := (h'.poolEmis q hq).trans (h.poolEmis q hq)
  gulp hg := (h'.gulp hg).trans (h.gulp hg)
  emis := by
    rcases h'.emis with e | e
    · rw [e]; exact h.emis
    · exact .inr e

theorem getPoolBal_setPoolBal (b : BackstopState) (p q : Address) (pb : PoolBalance) :
    (b.setPoolBal p pb).getPoolBal q = if q = p then pb else b.getPoolBal q := by
  unfold BackstopState.getPoolBal BackstopState.setPoolBal
  simp only [SMap.get_set]
  split <;> rfl

theorem PoolEff.tokens {p : Address} {D : Pool.Eff → Prop} {b : BackstopState} {tk : Int}
    (h1 : ¬ D .draw → (b.getPoolBal p).tokens ≤ tk) (h2 : ¬ D .donate → tk ≤ (b.getPoolBal p).tokens) :
    PoolEff p D b (b.setPoolBal p { b.getPoolBal p with tokens := tk }) :=
  ⟨rfl, rfl, fun q hq => by rw [getPoolBal_setPoolBal, if_neg hq], by rw [getPoolBal_setPoolBal, if_pos rfl],
    by rw [getPoolBal_setPoolBal, if_pos rfl], fun h => by rw [getPoolBal_setPoolBal, if_pos rfl]; exact h1 h,
    fun h => by rw [getPoolBal_setPoolBal, if_pos rfl]; exact h2 h,
    rfl, rfl, rfl, rfl, rfl, rfl, rfl, rfl, rfl, fun _ _ => rfl, fun _ => rfl, .inl rfl⟩

theorem pstep_eff {w w' : World} {p : Address} {auth : List Address} {D : Pool.Eff → Prop}
    (h : Pool.PStep p auth D w w') : PoolEff p D w.backstop w'.backstop := by
  cases h with
  | setPool ps => exact .refl _ _ _
  | transfer hs h => rw [(transfer_res h).frame]; exact .refl _ _ _
  | pull _ hpos h => rw [(transferFrom_res h).frame]; exact .refl _ _ _
  | draw hD h =>
    have r := executeDraw_res h
    obtain ⟨i, _, t⟩ := r.ex
    rw [t.frame]
    exact .tokens (fun hn => absurd hD hn) (fun _ => by have := r.nonneg; omega)
  | donate hD hs h =>
    have r := executeDonate_res h
    obtain ⟨i, w1, _, t, rfl⟩ := r.ex
    exact .tokens (fun _ => by have := r.nonneg; omega) (fun hn => absurd hD hn)
  | gulp hD h =>
    unfold gulpPoolEmissions Backstop.inst at h
    simp only [bind_ok, require_ok, unwrap_ok, pure_ok, Prod.mk.injEq, chk_ok] at h
    obtain ⟨_, _, i, _, _, _, w1, ha, _, rfl⟩ := h
    obtain ⟨_, rfl⟩ := approve_res ha
    exact ⟨rfl, rfl, fun _ _ => rfl, rfl, rfl, fun _ => le_refl _, fun _ => le_refl _, rfl, rfl, rfl, rfl, rfl, rfl, rfl, rfl, rfl,
      fun q hq => upd_ne hq, fun hn => absurd hD hn, .inr upd_same⟩

theorem psteps_eff {w w' : World} {p : Address} {auth : List Address} {D : Pool.Eff → Prop}
    (h : Pool.PSteps p auth D w w') : PoolEff p D w.backstop w'.backstop := by
  induction h with
  | refl => exact .refl _ _ _
  | tail _ h ih => exact ih.trans (pstep_eff h)

theorem poolCall_eff {w w' : World} {p : Address} {auth : List Address} {c : Pool.Call}
    (h : Pool.call w p auth c = .ok w') : PoolEff p (Pool.CallEff c) w.backstop w'.backstop :=
  psteps_eff (Pool.call_psteps h)

/-- operations that do not concern the backstop leave it alone, except for an expired drop list -/
theorem step_other {w w' : World} {op : Op} (h : step w op = .ok w') :
    (∃ p auth c, op = .pool p auth c ∧ PoolEff p (Pool.CallEff c) w.backstop w'.backstop) ∨
    (∃ auth c, op = .backstop auth c ∧ backstopCall w auth c = .ok w') ∨
    w'.backstop = w.backstop ∨ w'.backstop = { w.backstop with dropList := none } := by
  cases op with
  | pool p auth c =>
    simp only [step, bind_ok, require_ok] at h
    obtain ⟨_, hp, _, ha, h⟩ := h
    exact .inl ⟨p, auth, c, rfl, poolCall_eff h⟩
  | backstop auth c =>
    simp only [step, bind_ok, require_ok] at h
    obtain ⟨_, ha, h⟩ := h
    exact .inr (.inl ⟨auth, c, rfl, h⟩)
  | emitter auth c =>
    simp only [step, bind_ok, require_ok] at h
    obtain ⟨_, ha, h⟩ := h
    obtain ⟨h1, _, h2, _⟩ := Emitter.call_wf (L := fun _ => False) (A := fun _ => False) h
    exact .inr (.inr (.inl h2))
  | factory auth c =>
    simp only [step, bind_ok, require_ok] at h
    obtain ⟨_, ha, h⟩ := h
    cases c with
    | «initialize» m =>
      simp only [factoryCall, Factory.init, bind_ok, pure_ok] at h
      obtain ⟨_, _, rfl⟩ := h
      exact .inr (.inr (.inl rfl))
    | deploy a s o r m =>
      simp only [factoryCall, Factory.deploy, bind_ok, pure_ok, Prod.exists, require_ok, requireAuth_ok,
        Prod.mk.injEq] at h
      obtain ⟨x, w1, ⟨_, hm, mt, _, _, hr, _, _, _, hp, _, hi, w2, hc, rfl, rfl⟩, rfl⟩ := h
      simp only [Pool.call, bind_ok, pure_ok] at hc
      obtain ⟨_, _, _, _, rfl⟩ := hc
      exact .inr (.inr (.inl rfl))
  | ledger dt ds => simp only [step, pure_ok] at h; subst h; exact .inr (.inr (.inl rfl))
  | oracles o => simp only [step, pure_ok] at h; subst h; exact .inr (.inr (.inl rfl))
  | comet s o => simp only [step, pure_ok, bind_ok] at h; obtain ⟨_, _, rfl⟩ := h; exact .inr (.inr (.inl rfl))
  | tokenTransfer t s d a =>
    simp only [step, bind_ok, require_ok] at h
    obtain ⟨_, hs, h⟩ := h
    rw [(transfer_res h).frame]; exact .inr (.inr (.inl rfl))
  | tokenMint t d a =>
    simp only [step, bind_ok, require_ok] at h
    obtain ⟨_, hs, h⟩ := h
    rw [(mint_res h).frame]; exact .inr (.inr (.inl rfl))
  | tokenBurn t s a =>
    simp only [step, bind_ok, require_ok, pure_ok] at h
    obtain ⟨_, hs, _, ha, rfl⟩ := h
    exact .inr (.inr (.inl rfl))
  | tokenApprove t o s a e =>
    simp only [step, bind_ok, require_ok] at h
    obtain ⟨_, hs, h⟩ := h
    obtain ⟨_, rfl⟩ := approve_res h
    exact .inr (.inr (.inl rfl))
  | expireAuction p t u => simp only [step, pure_ok] at h; subst h; exact .inr (.inr (.inl rfl))
  | expireQueued p a => simp only [step, pure_ok] at h; subst h; exact .inr (.inr (.inl rfl))
  | expireDropList => simp only [step, pure_ok] at h; subst h; exact .inr (.inr (.inr rfl))

end Backstop
end Blend
