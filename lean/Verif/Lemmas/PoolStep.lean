import Verif.Lemmas.MicroLiq
/-
  What a call of a pool does to the rest of the world: other contracts and the token ledgers.
-/

namespace Blend
namespace Pool

/-- effects of a pool call on the backstop -/
inductive Eff | draw | donate | gulp | pull

/-- One effect of a pool call on the world. `D` says which effects on the backstop are possible. -/
inductive PStep (p : Address) (auth : List Address) (D : Eff → Prop) : World → World → Prop
  | setPool (w : World) (ps : PoolState) : PStep p auth D w (w.setPool p ps)
  | transfer {w w' : World} {t src dst : Address} {amt : Int} : (src = p ∨ src ∈ auth) →
      Blend.transfer w t src dst amt = .ok w' → PStep p auth D w w'
  | pull {w w' : World} {t owner dst : Address} {amt : Int} : D .pull → 0 < amt →
      transferFrom w t p owner dst amt = .ok w' → PStep p auth D w w'
  | draw {w w' : World} {amt : Int} {dst : Address} : D .draw →
      Backstop.executeDraw w p amt dst = .ok w' → PStep p auth D w w'
  | donate {w w' : World} {sender : Address} {amt : Int} : D .donate → sender ∈ auth →
      Backstop.executeDonate w sender p amt = .ok w' → PStep p auth D w w'
  | gulp {w w' : World} {n : Int} : D .gulp →
      Backstop.gulpPoolEmissions w p = .ok (n, w') → PStep p auth D w w'

/-- any number of effects -/
inductive PSteps (p : Address) (auth : List Address) (D : Eff → Prop) : World → World → Prop
  | refl (w) : PSteps p auth D w w
  | tail {w w' w''} : PSteps p auth D w w' → PStep p auth D w' w'' → PSteps p auth D w w''

variable {p : Address} {auth : List Address} {D : Eff → Prop}

theorem PSteps.trans {a b c : World} (h1 : PSteps p auth D a b) (h2 : PSteps p auth D b c) :
    PSteps p auth D a c := by
  induction h2 with
  | refl => exact h1
  | tail _ hs ih => exact .tail ih hs

theorem PSteps.one {a b : World} (h : PStep p auth D a b) : PSteps p auth D a b := .tail (.refl _) h

theorem PSteps.setPool (w : World) (ps : PoolState) : PSteps p auth D w (w.setPool p ps) :=
  .one (.setPool _ _)

theorem transfers_psteps {src dst : Address} (hs : src = p ∨ src ∈ auth) :
    ∀ (l : List (Nat × Int)) (w w' : World),
    l.foldlM (fun w kv => Blend.transfer w kv.1 src dst kv.2) w = .ok w' → PSteps p auth D w w' := by
  intro l
  induction l with
  | nil => intro w w' h; rw [foldlM_nil] at h; subst h; exact .refl _
  | cons kv l ih =>
    intro w w' h
    rw [foldlM_cons] at h
    obtain ⟨w1, h1, h2⟩ := h
    exact (PSteps.one (.transfer hs h1)).trans (ih _ _ h2)

theorem interestLoop_psteps {filler : Address} :
    ∀ (l : List (Nat × Int)) (w w' : World) (cache cache' : Cache),
    fillInterestLoop p filler l (w, cache) = .ok (w', cache') → PSteps p auth D w w' := by
  intro l
  induction l with
  | nil =>
    intro w w' cache cache' h
    simp only [fillInterestLoop, pure_ok, Prod.mk.injEq] at h
    obtain ⟨rfl, rfl⟩ := h; exact .refl _
  | cons kv l ih =>
    intro w w' cache cache' h
    obtain ⟨a, x⟩ := kv
    simp only [fillInterestLoop, bind_ok, Prod.exists, chk_ok] at h
    obtain ⟨r, c1, _, cr, _, w1, ht, h⟩ := h
    exact (PSteps.one (.transfer (.inl rfl) ht)).trans (ih _ _ _ _ h)

theorem fill_psteps {fl fl' : Flight} {t : Nat} {user : Address} {percent : Nat}
    (hD1 : t = 1 → D .draw) (hD2 : t ≠ 0 → t ≠ 1 → D .donate) (h : fill fl p auth t user percent = .ok fl') :
    PSteps p auth D fl.w fl'.w ∧ fl'.user.addr = fl.user.addr := by
  obtain ⟨_, a, f, rem, fl1, _, _, hf, rfl⟩ := fill_ok h
  suffices hk : PSteps p auth D fl.w fl1.w ∧ fl1.user.addr = fl.user.addr from
    ⟨hk.1.trans (.setPool _ _), hk.2⟩
  have hadd : ∀ {now : Nat} {c c' : UCtx} {m l : SMap Int}, addPositions now c m l = .ok c' →
      c'.user.addr = c.user.addr := by
    intro now c c' m l h
    have hap : ∀ {g : ShareOp} {k : Kind} (_ : IsShareOp g k true) (l : List (Nat × Int)) {c c' : UCtx},
        l.foldlM (fun c kv => UCtx.apply now g c kv.1 kv.2) c = .ok c' → c'.user.addr = c.user.addr := by
      intro g k hg l c c' h
      refine foldlM_inv (fun d : UCtx => d.user.addr = c.user.addr) (fun b d kv _ hb hs => ?_) rfl h
      unfold UCtx.apply at hs
      simp only [bind_ok, Prod.exists, pure_ok] at hs
      obtain ⟨r, c1, _, ps', u', r', hs, rfl⟩ := hs
      exact (hg hs).2.2.1.trans hb
    unfold addPositions at h
    simp only [bind_ok] at h
    obtain ⟨c1, h1, h2⟩ := h
    exact (hap isAddLiab _ h2).trans (hap isAddColl _ h1)
  rcases hf with ⟨_, hf⟩ | ⟨ht1, hf⟩ | ⟨hta, htb, hf⟩
  · unfold fillUserLiq at hf
    simp only [bind_ok, pure_ok] at hf
    obtain ⟨c1, _, c2, h2, rfl⟩ := hf
    exact ⟨.setPool _ _, hadd h2⟩
  · unfold fillBadDebt Backstop.draw at hf
    simp only [bind_ok, pure_ok, ite_ok, requireAuth_ok] at hf
    obtain ⟨i, _, _, _, c1, _, c2, h2, tk, _, lot, _, w2, ⟨_, _, hd⟩, hf⟩ := hf
    have k1 : PSteps p auth D fl.w w2 := (PSteps.setPool _ _).trans (.one (.draw (hD1 ht1) hd))
    rcases hf with ⟨_, rfl⟩ | ⟨_, d, _, ⟨_, rm, _, c3, _, rfl⟩ | ⟨_, rfl⟩⟩
    · exact ⟨k1.trans (.setPool _ _), hadd h2⟩
    · exact ⟨k1.trans (.setPool _ _), hadd h2⟩
    · exact ⟨k1.trans (.setPool _ _), hadd h2⟩
  · unfold fillInterest Backstop.donate at hf
    simp only [bind_ok, pure_ok, Prod.exists, requireAuth_ok] at hf
    obtain ⟨i, _, _, _, tk, _, bid, _, w1, ⟨_, ha, _, _, hd⟩, w2, c, hl, rfl⟩ := hf
    have hr := Backstop.executeDonate_res hd
    have hm : fl.user.addr ∈ auth := by
      rcases List.mem_cons.1 ha with ha | ha
      · exact absurd ha hr.ne.1
      · exact ha
    exact ⟨(PSteps.one (.donate (hD2 hta htb) hm hd)).trans (interestLoop_psteps _ _ _ _ _ hl), rfl⟩

theorem request_psteps {s s' : SubmitState} {q : Request} (hD1 : q.type = 7 → D .draw)
    (hD2 : q.type = 8 → D .donate) (h : processRequest p auth s q = .ok s') :
    PSteps p auth D s.fl.w s'.fl.w := by
  obtain ⟨_, _, h⟩ := processRequest_ok h
  rcases h with ⟨_, h⟩ | ⟨_, h⟩ | ⟨_, h⟩ | ⟨_, h⟩ | ⟨_, h⟩ | ⟨_, h⟩ | ⟨hq, h⟩ | ⟨hq, h⟩ | ⟨hq, h⟩ | ⟨_, h⟩
  · unfold reqSupply at h
    simp only [bind_ok, Prod.exists, pure_ok] at h
    obtain ⟨_, _, _, _, _, _, _, _, _, _, _, rfl⟩ := h
    exact .setPool _ _
  · unfold reqWithdraw at h
    simp only [bind_ok, Prod.exists, pure_ok] at h
    obtain ⟨_, _, _, _, _, _, _, _, _, _, _, _, rfl⟩ := h
    exact .setPool _ _
  · unfold reqSupply at h
    simp only [bind_ok, Prod.exists, pure_ok] at h
    obtain ⟨_, _, _, _, _, _, _, _, _, _, _, rfl⟩ := h
    exact .setPool _ _
  · unfold reqWithdrawColl at h
    simp only [bind_ok, Prod.exists, pure_ok] at h
    obtain ⟨_, _, _, _, _, _, _, _, _, _, _, _, rfl⟩ := h
    exact .setPool _ _
  · unfold reqBorrow at h
    simp only [bind_ok, Prod.exists, pure_ok] at h
    obtain ⟨_, _, _, _, _, _, _, _, _, _, _, _, _, rfl⟩ := h
    exact .setPool _ _
  · unfold reqRepay at h
    simp only [bind_ok, Prod.exists, pure_ok, ite_ok] at h
    obtain ⟨_, _, _, _, _, _, _, ⟨_, _, _, _, _, _, _, _, _, _, _, _, _, rfl⟩ | ⟨_, _, _, _, _, rfl⟩⟩ := h
    · exact .setPool _ _
    · exact .setPool _ _
  · obtain ⟨fl, hf, rfl⟩ := reqFill_ok h; exact (fill_psteps (by omega) (by omega) hf).1
  · obtain ⟨fl, hf, rfl⟩ := reqFill_ok h; exact (fill_psteps (fun _ => hD1 hq) (by omega) hf).1
  · obtain ⟨fl, hf, rfl⟩ := reqFill_ok h; exact (fill_psteps (by omega) (fun _ _ => hD2 hq) hf).1
  · unfold reqDelete at h
    simp only [bind_ok, pure_ok] at h
    obtain ⟨_, _, rfl⟩ := h
    exact .setPool _ _

theorem submit_psteps {w w' : World} {sender spender dst : Address} {reqs : List Request}
    {pos : Positions} (hs : spender ∈ auth) (hD1 : (∃ q ∈ reqs, q.type = 7) → D .draw)
    (hD2 : (∃ q ∈ reqs, q.type = 8) → D .donate)
    (h : executeSubmit w p auth sender spender dst reqs = .ok (pos, w')) : PSteps p auth D w w' := by
  obtain ⟨_, cache, s, cache', w1, ps1, _, hf, _, _, ht, _, hp, _⟩ := executeSubmit_ok h
  have k1 : PSteps p auth D w s.fl.w :=
    foldlM_inv (fun s : SubmitState => PSteps p auth D w s.fl.w)
      (fun b c q hm hb hq => hb.trans (request_psteps (fun h => hD1 ⟨q, hm, h⟩) (fun h => hD2 ⟨q, hm, h⟩) hq)) (.refl _) hf
  have k2 := transfers_psteps (p := p) (D := D) (.inr hs) _ _ _ ht
  have k3 := transfers_psteps (p := p) (auth := auth) (D := D) (.inl rfl) _ _ _ hp
  exact ((k1.trans k2).trans (.setPool _ _)).trans k3

/-- which effects on the backstop a pool call can have -/
def CallEff : Call → Eff → Prop
  | .submit _ _ _ reqs => fun
    | .draw => ∃ q ∈ reqs, q.type = 7
    | .donate => ∃ q ∈ reqs, q.type = 8
    | .gulp => False
    | .pull => False
  | .gulpEmissions => fun e => e = .gulp
  | .claim _ _ _ => fun e => e = .pull
  | _ => fun _ => False

theorem call_psteps {w w' : World} {c : Call} (h : call w p auth c = .ok w') : PSteps p auth (CallEff c) w w' := by
  cases c with
  | «initialize» a o r m b l =>
    simp only [call, bind_ok, pure_ok] at h
    obtain ⟨_, _, _, _, rfl⟩ := h; exact .setPool _ _
  | setAdmin a =>
    simp only [call, bind_ok, pure_ok] at h
    obtain ⟨_, _, _, _, _, _, rfl⟩ := h; exact .setPool _ _
  | updatePool r m =>
    simp only [call, bind_ok, pure_ok] at h
    obtain ⟨_, _, _, _, rfl⟩ := h; exact .setPool _ _
  | queueSetReserve a c =>
    simp only [call, bind_ok, pure_ok] at h
    obtain ⟨_, _, _, _, rfl⟩ := h; exact .setPool _ _
  | cancelSetReserve a =>
    simp only [call, bind_ok, pure_ok] at h
    obtain ⟨_, _, rfl⟩ := h; exact .setPool _ _
  | setReserve a =>
    simp only [call, bind_ok, pure_ok] at h
    obtain ⟨_, _, rfl⟩ := h; exact .setPool _ _
  | submit sender spender dst reqs =>
    simp only [call, bind_ok, pure_ok, requireAuth_ok, ite_ok, Prod.exists] at h
    obtain ⟨_, hs, ⟨_, _, _, pos, w1, h, rfl⟩ | ⟨_, pos, w1, h, rfl⟩⟩ := h
    · exact submit_psteps hs id id h
    · exact submit_psteps hs id id h
  | badDebt u =>
    simp only [call, transferBadDebt, bind_ok, pure_ok, Prod.exists] at h
    obtain ⟨_, _, _, _, _, _, _, _, _, _, _, _, _, _, _, rfl⟩ := h; exact .setPool _ _
  | updateStatus =>
    simp only [call, updateStatus, bind_ok, pure_ok] at h
    obtain ⟨_, _, _, _, _, _, rfl⟩ := h; exact .setPool _ _
  | setStatus s =>
    simp only [call, setStatus, bind_ok, pure_ok] at h
    obtain ⟨_, _, _, _, _, _, _, _, rfl⟩ := h; exact .setPool _ _
  | gulpEmissions =>
    simp only [call, gulpEmissions, Backstop.gulpPoolEmissionsAuth, bind_ok, pure_ok, Prod.exists,
      Prod.mk.injEq] at h
    obtain ⟨_, _, ⟨_, _, _, _, n, w1, ⟨_, _, hg⟩, ps, _, rfl, rfl⟩, rfl⟩ := h
    exact .tail (.tail (.refl _) (.gulp (show Eff.gulp = Eff.gulp from rfl) hg)) (.setPool _ _)
  | setEmissionsConfig l =>
    simp only [call, bind_ok, pure_ok] at h
    obtain ⟨_, _, _, _, rfl⟩ := h; exact .setPool _ _
  | claim sender ids dst =>
    simp only [call, executeClaim, bind_ok, pure_ok, Prod.exists, ite_ok, Prod.mk.injEq] at h
    obtain ⟨_, _, n, w1, ⟨n1, ps1, _, h⟩, rfl⟩ := h
    rcases h with ⟨hpos, i, hi, w2, ht, _, rfl⟩ | ⟨_, _, rfl⟩
    · exact (PSteps.setPool _ _).trans (.one (.pull (show Eff.pull = Eff.pull from rfl) hpos ht))
    · exact .setPool _ _
  | newLiquidation u n =>
    simp only [call, createLiquidation, bind_ok, pure_ok, Prod.exists] at h
    obtain ⟨_, _, _, _, _, _, _, rfl⟩ := h; exact .setPool _ _
  | newBadDebt =>
    simp only [call] at h
    obtain ⟨_, _, rfl⟩ := badDebtAuction_micros (U := fun _ => True) h
    exact .setPool _ _
  | newInterest l =>
    simp only [call] at h
    obtain ⟨_, _, rfl⟩ := interestAuction_micros (U := fun _ => True) h
    exact .setPool _ _

end Pool
end Blend
