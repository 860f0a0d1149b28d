import Verif.Spec.Gulp
import Verif.Lemmas.BackstopLive
import Verif.Props.Funding
import Verif.Props.Admin
/-
  The gulps of emissions fail for no other reason than those of the specification, or an overflow.
-/

namespace Blend
namespace Backstop
open Spec Pool
variable {E : Err → Bool}

/-- the distribution time of the backstop changes only with its set-up and with a gulp -/
theorem distro_step {w w' : World} {op : Op} (ba : BAll w) (h : step w op = .ok w') :
    w'.backstop.lastDistro = w.backstop.lastDistro ∨ (∃ auth, op = .backstop auth .gulpEmissions) ∨
      ∃ auth t e u b f l, op = .backstop auth (.initialize t e u b f l) ∧ w.backstop.inst = none ∧ w'.backstop.poolEmis = w.backstop.poolEmis := by
  have same : ∀ {b1 : BackstopState} {p s : Address} {pb : PoolBalance} {ub : UserBalance},
      SameBals w.backstop b1 → w'.backstop = setBal b1 p s pb ub → w'.backstop.lastDistro = w.backstop.lastDistro := by
    intro b1 p s pb ub hs hw
    unfold SameBals at hs
    rw [hw]
    show b1.lastDistro = _; rw [hs]
  rcases step_other h with ⟨p, auth, c, rfl, e⟩ | ⟨auth, c, rfl, hc⟩ | e | e
  · exact .inl e.lastDistro
  · cases call_cases ba.inv hc with
    | @deposit s p a m r =>
      obtain ⟨x, b1, i, w2, hu, _, _, hw⟩ := r.ex
      exact .inl (same (emis_same hu) (congrArg World.backstop hw))
    | @queue s p a r =>
      obtain ⟨x, b1, hu, hw⟩ := r.ex
      exact .inl (same (emis_same hu) (congrArg World.backstop hw))
    | @dequeue s p a r =>
      obtain ⟨x, b1, q', hu, hd, hw⟩ := r.ex
      exact .inl (same (emis_same hu) (congrArg World.backstop hw))
    | @withdraw s p a tk r =>
      obtain ⟨q', i, hi, hd, hw, _⟩ := r.ex
      exact .inl (same (b1 := w.backstop) rfl hw)
    | @claim s ps d r =>
      obtain ⟨b1, hb1, cr⟩ := r.ex
      rw [cr.frame]
      left; show b1.lastDistro = _; rw [hb1]
    | @draw p a d hp r =>
      obtain ⟨i, hi, t⟩ := r.ex
      have hw := congrArg World.backstop t.frame
      rw [hw]; exact .inl rfl
    | @donate s p a hs hp r =>
      obtain ⟨i, w1, hi, t, hw⟩ := r.ex
      have hw := congrArg World.backstop hw
      rw [hw]; exact .inl rfl
    | @reward a r' r => rcases r.ex with ⟨_, rfl⟩ | ⟨_, _, _, _, rfl⟩ <;> exact .inl rfl
    | gulp hne hb hq' => exact .inr (.inl ⟨auth, rfl⟩)
    | init hn hb => exact .inr (.inr ⟨auth, _, _, _, _, _, _, rfl, hn, by rw [hb]⟩)
    | @gulpPool p hp hb => rw [hb]; exact .inl rfl
    | lpVal hb => rw [hb]; exact .inl rfl
    | drop hb => rw [hb]; exact .inl rfl
  · rw [e]; exact .inl rfl
  · rw [e]; exact .inl rfl

/-- no distribution is in the future -/
theorem emitter_past {w w' : World} {op : Op} (hb : Base w) (h : step w op = .ok w')
    (k : ∀ a l, w.emitter.lastDistro a = some l → l ≤ w.time) : ∀ a l, w'.emitter.lastDistro a = some l → l ≤ w'.time := by
  have htm := step_time hb h
  intro a l hl
  rcases emitter_step hb h with ⟨he, _, _⟩ | hc
  · rw [he] at hl; exact (k a l hl).trans htm
  · have key : ∀ (f : Address → Option Nat), (∀ l, f a = some l → l ≤ w'.time) → ∀ b, upd f b (some w.time) a = some l → l ≤ w'.time := by
      intro f hf b hu
      rw [upd_apply] at hu
      split at hu
      · cases hu; exact htm
      · exact hf l hu
    have k' : ∀ l, w.emitter.lastDistro a = some l → l ≤ w'.time := fun l hl => (k a l hl).trans htm
    cases hc with
    | init auth b s t w' _ e => subst e; exact key _ k' _ hl
    | distribute auth i last w' _ _ _ r => rw [r.frame] at hl; exact key _ k' _ hl
    | queue auth i b t w' _ _ _ e => subst e; exact k' l hl
    | cancel auth i s w' _ _ _ e => subst e; exact k' l hl
    | swap auth i s last w1 w' _ _ _ _ _ _ r e =>
      have hl' : upd (upd w.emitter.lastDistro i.backstop (some w.time)) s.newBackstop (some w.time) a = some l := by rw [e] at hl; exact hl
      rw [upd_apply] at hl'
      split at hl'
      · cases hl'; exact htm
      · exact key _ k' _ hl'
    | drop op i l' w1 w' _ _ _ _ _ e =>
      rw [e] at hl; exact k' l hl

/-- the clock of the emissions -/
structure Clock (w : World) : Prop where
  past : ∀ a l, w.emitter.lastDistro a = some l → l ≤ w.time
  unset : w.backstop.inst = none → ∀ p, w.backstop.poolEmis p = 0
  waiting : ∀ p, w.backstop.poolEmis p ≤ 3000000 * (w.backstop.lastDistro : Int)
  now : w.backstop.lastDistro ≤ w.time

theorem _root_.Blend.Reachable.clock {w : World} (hr : Reachable w) : Clock w := by
  obtain ⟨w0, h0, hs⟩ := hr
  have : Reachable w ∧ Clock w := by
    induction hs with
    | refl =>
      exact ⟨⟨_, h0, .refl _⟩, fun a l h => (by rw [h0.emitter] at h; cases h), fun _ p => (by rw [h0.backstop]), fun p => (by rw [h0.backstop]; simp),
        (by rw [h0.backstop]; simp)⟩
    | @tail a b hs hst ih =>
      obtain ⟨op, hop⟩ := hst
      obtain ⟨hr, k⟩ := ih
      have htm := step_time hr.base hop
      have hold : ∀ j, a.backstop.inst = some j → b.backstop.inst = some j := fun j hj => inst_keep hr (.tail (.refl _) ⟨op, hop⟩) hj
      refine ⟨hr.step hop, emitter_past hr.base hop k.past, fun hn p => ?_, fun p => ?_, ?_⟩
      · have hna : a.backstop.inst = none := by
          cases e : a.backstop.inst with
          | none => rfl
          | some j => rw [hold j e] at hn; cases hn
        by_cases hg : ∃ auth, op = .backstop auth .gulpEmissions
        · obtain ⟨auth, rfl⟩ := hg
          simp only [step, bind_ok, require_ok, backstopCall, gulpEmissions, inst, unwrap_ok, hna] at hop
          obtain ⟨_, _, _, ⟨_, _, _, h, _⟩, _⟩ := hop
          cases h
        · push Not at hg
          rcases (Props.C37_only_gulp hr hop hg p).2.2 with e | e
          · rw [e]; exact k.unset hna p
          · exact e
      · by_cases hg : ∃ auth, op = .backstop auth .gulpEmissions
        · obtain ⟨auth, rfl⟩ := hg
          obtain ⟨secs, x, _, _, h0, h1, h2, h3, h4, _, h6⟩ := Props.C37_gulp hr hop
          have hw := k.waiting p
          by_cases hp : p ∈ a.backstop.rewardZone
          · have hle : b.backstop.poolEmis p - a.backstop.poolEmis p ≤
                (a.backstop.rewardZone.map fun p => b.backstop.poolEmis p - a.backstop.poolEmis p).sum := by
              refine List.single_le_sum ?_ _ (List.mem_map.2 ⟨p, hp, rfl⟩)
              intro y hy
              obtain ⟨q, hq, rfl⟩ := List.mem_map.1 hy
              obtain ⟨s, s1, _, s2, _⟩ := h3 q hq
              have hs0 : 0 ≤ s := s1.nonneg h2 (by have := (h1 q hq).2; unfold ONE7; positivity)
              exact s2.nonneg (by norm_num [ONE7]) (by positivity)
            rw [h0]; push_cast; linarith
          · rw [(h4 p hp).2.1, h0]; push_cast; linarith
        · have hw := k.waiting p
          push Not at hg
          rcases distro_step hr.ball hop with e | ⟨auth, e⟩ | ⟨_, _, _, _, _, _, _, _, hn, e⟩
          · rw [e]
            rcases (Props.C37_only_gulp hr hop hg p).2.2 with e | e <;> rw [e]
            · exact hw
            · positivity
          · exact absurd e (hg auth)
          · rw [e, k.unset hn]; positivity
      · rcases distro_step hr.ball hop with e | ⟨auth, rfl⟩ | ⟨auth, _, _, _, _, _, _, rfl, hn, e⟩
        · rw [e]; exact k.now.trans htm
        · obtain ⟨secs, x, _, h1, h0, _⟩ := Props.C37_gulp hr hop
          rw [h0]; exact (k.past _ _ h1).trans htm
        · simp only [step, bind_ok, require_ok, backstopCall, Backstop.init, pure_ok, Emitter.getLastDistro, unwrap_ok] at hop
          obtain ⟨_, _, _, _, _, _, ld, hld, rfl⟩ := hop
          exact k.past _ _ hld
  exact this.2

theorem toU64_live {left : Int} (h0 : 0 ≤ left) (h : left < 2 ^ 64 * 604800) : NoErr E (toU64 (Int.tdiv left (7 * 24 * 60 * 60))) := by
  have h1 : Int.tdiv left (7 * 24 * 60 * 60) = left / 604800 := by rw [Int.tdiv_eq_ediv_of_nonneg h0]; rfl
  have h2 : 0 ≤ left / 604800 ∧ left / 604800 < 2 ^ 64 := by omega
  unfold toU64
  rw [h1, if_pos ⟨h2.1, by unfold InU64; omega⟩]
  exact NoErr.ok

theorem setEmis_live (hov : E .overflow = false) {b : BackstopState} {now : Nat} {pb : PoolBalance} {p : Address} {n : Int}
    (s : 0 ≤ pb.q4w ∧ pb.q4w ≤ pb.shares)
    (hset : ∀ cfg, b.emisCfg p = some cfg → ∃ d, b.emisData p = some d ∧ d.lastTime ≤ now)
    (hq : ∀ cfg d, b.emisCfg p = some cfg → b.emisData p = some d → pb.q4w = pb.shares → pb.shares ≠ 0 → cfg.eps ≠ 0 →
      d.lastTime < cfg.expiration → d.lastTime = now) (h0 : 0 ≤ n) (hn : n ≤ 10 ^ 25) : NoErr E (setEmisConfig b now p pb n) := by
  unfold setEmisConfig
  cases hc : b.emisCfg p with
  | none =>
    refine NoErr.bind NoErr.pure fun x hx => ?_
    simp only [pure_ok] at hx
    subst hx
    exact NoErr.bind (toU64_live h0 (by omega)) fun _ _ => NoErr.pure
  | some cfg =>
    obtain ⟨d, hd, ht⟩ := hset cfg hc
    simp only
    refine NoErr.bind (emisData_local hov s hd ht fun f1 f2 f3 f4 => hq cfg d hc hd f1 f2 f3 f4) ?_
    rintro ⟨d', b1⟩ _
    simp only
    split
    · refine NoErr.bind (NoErr.chkU64 fun h => by rw [hov] at h; cases h) fun rem hrem => NoErr.bind (chk_live hov) fun l hl => ?_
      simp only [chkU64_ok, chk_ok] at hrem hl
      obtain ⟨h1, rfl⟩ := hrem
      obtain ⟨_, rfl⟩ := hl
      refine NoErr.bind NoErr.pure fun x hx => ?_
      simp only [pure_ok] at hx
      subst hx
      refine NoErr.bind (toU64_live (by positivity) ?_) fun _ _ => NoErr.pure
      unfold InU64 at h1
      omega
    · refine NoErr.bind NoErr.pure fun x hx => ?_
      simp only [pure_ok] at hx
      subst hx
      exact NoErr.bind (toU64_live h0 (by omega)) fun _ _ => NoErr.pure

theorem nonQueued_live (hov : E .overflow = false) {b : BackstopState} {now : Nat} {p : Address} (inv : BInv now b) :
    NoErr E (nonQueuedTokens (b.getPoolBal p)) := by
  have s := inv.shares_nonneg p
  unfold nonQueuedTokens toTokens
  refine NoErr.bind ?_ fun _ _ => chk_live hov
  split
  · exact NoErr.pure
  · rename_i h
    exact mulDiv_live hov (by omega)

theorem totalNonQueued_live (hov : E .overflow = false) {b : BackstopState} {now : Nat} (inv : BInv now b) : ∀ (l : List Address) (t : Int),
    NoErr E (l.foldlM (fun acc p => do
      let t ← nonQueuedTokens (b.getPoolBal p)
      chk (acc + t)) t) := by
  intro l
  induction l with
  | nil => intro t; exact NoErr.pure
  | cons p l ih =>
    intro t
    rw [List.foldlM_cons]
    exact NoErr.bind (NoErr.bind (nonQueued_live hov inv) fun _ _ => chk_live hov) fun t' _ => ih t'

theorem totalNonQueued_le {b : BackstopState} {now : Nat} (inv : BInv now b) {l : List Address} {t : Int} (h : totalNonQueued b l = .ok t) :
    ∀ p ∈ l, ∀ x, nonQueuedTokens (b.getPoolBal p) = .ok x → x ≤ t := by
  intro p hp x hx
  let f : Address → Int := fun p => match nonQueuedTokens (b.getPoolBal p) with | .ok y => y | .error _ => 0
  have hf : ∀ p y, nonQueuedTokens (b.getPoolBal p) = .ok y → f p = y := by
    intro p y hy; show (match nonQueuedTokens (b.getPoolBal p) with | .ok y => y | .error _ => 0) = y
    rw [hy]
  have := totalNonQueued_sum (x := f) h (fun p _ y hy => hf p y hy)
  rw [this, zero_add, ← hf p x hx]
  refine List.single_le_sum ?_ _ (List.mem_map.2 ⟨p, hp, rfl⟩)
  intro y hy
  obtain ⟨q, hq, rfl⟩ := List.mem_map.1 hy
  obtain ⟨z, hz⟩ := totalNonQueued_some h q hq
  rw [hf q z hz]
  exact nonQueued_nonneg inv hz

theorem _root_.Blend.Spec.Unqueued.unique {w : World} (inv : BInv w.time w.backstop) {p : Address} {x y : Int} (hx : Unqueued w p x)
    (hy : Unqueued w p y) : x = y := by
  obtain ⟨q, a1, a2, rfl⟩ := hx
  obtain ⟨q', b1, b2, rfl⟩ := hy
  have s := inv.shares_nonneg p
  by_cases hz : (w.backstop.getPoolBal p).shares = 0
  · rw [a1 hz, b1 hz]
  · rw [(a2 hz).unique (by omega) (b2 hz)]

theorem RawOk.same {w w' : World} (k : RawOk w) (ha : w'.backstopAddr = w.backstopAddr)
    (h : ∀ t s, (w'.tok t).allow w.backstopAddr s = (w.tok t).allow w.backstopAddr s) : RawOk w' := by
  intro t s
  rw [ha, h]; exact k t s

theorem raw_call {w w' : World} {auth : List Address} {c : BackstopCall} (hr : Reachable w) (k : RawOk w)
    (h : backstopCall w auth c = .ok w') (hd : c ≠ .drop) : RawOk w' := by
  cases call_cases hr.ball.inv h with
  | @deposit s p a m r =>
    obtain ⟨x, b1, i, w2, hu, hi, t, rfl⟩ := r.ex
    exact k.same (by show w2.backstopAddr = _; rw [t.frame]; rfl) fun t' s' => by show (w2.tok t').allow _ _ = _; rw [t.allow]; rfl
  | @queue s p a r => obtain ⟨x, b1, hu, rfl⟩ := r.ex; exact k.same rfl fun _ _ => rfl
  | @dequeue s p a r => obtain ⟨x, b1, q', hu, _, rfl⟩ := r.ex; exact k.same rfl fun _ _ => rfl
  | @withdraw s p a tk r =>
    obtain ⟨q', i, hi, _, e, t⟩ := r.ex
    exact k.same (by rw [t.frame]; rfl) fun t' s' => by rw [t.allow]; rfl
  | @claim s ps d r =>
    simp only [backstopCall, claim, executeClaim, cometDeposit, bind_ok, pure_ok, Prod.exists, ite_ok, inst, unwrap_ok, requireAuth_ok,
      Prod.mk.injEq, chk_ok] at h
    obtain ⟨n, _, ⟨_, hm, _, _, c, cl, b1, hl, h⟩, rfl⟩ := h
    rcases h with ⟨_, i, hi, out, w5, ⟨w3, h3, w4, h4, _, _, _, rfl⟩, b2, _, _, rfl⟩ | ⟨_, _, rfl⟩
    · have r3 := transfer_res h3
      have r4 := mint_res h4
      exact k.same (by show w4.backstopAddr = _; rw [r4.frame]; show w3.backstopAddr = _; rw [r3.frame]; rfl) fun t s => by
        show (w4.tok t).allow _ _ = _; rw [r4.allow, r3.allow]; rfl
    · exact k.same rfl fun _ _ => rfl
  | @draw p a d hp r =>
    obtain ⟨i, hi, t⟩ := r.ex
    exact k.same (by rw [t.frame]; rfl) fun t' s' => by rw [t.allow]; rfl
  | @donate s p a hs hp r =>
    obtain ⟨i, w1, hi, t, rfl⟩ := r.ex
    exact k.same (by show w1.backstopAddr = _; rw [t.frame]) fun t' s' => by show (w1.tok t').allow _ _ = _; rw [t.allow]
  | @reward a r' r => rcases r.ex with ⟨_, rfl⟩ | ⟨_, _, _, _, rfl⟩ <;> exact k.same rfl fun _ _ => rfl
  | gulp hne hb hq =>
    simp only [backstopCall, gulpEmissions, bind_ok, pure_ok, Prod.exists, Prod.mk.injEq] at h
    obtain ⟨_, _, ⟨_, _, _, _, _, _, _, _, _, _, _, _, _, _, _, _, _, _, b1, _, _, rfl⟩, rfl⟩ := h
    exact k.same rfl fun _ _ => rfl
  | @init t e u b f l hn hb =>
    simp only [backstopCall, Backstop.init, bind_ok, pure_ok, Emitter.getLastDistro, unwrap_ok] at h
    obtain ⟨_, _, _, _, ld, hld, rfl⟩ := h
    exact k.same rfl fun _ _ => rfl
  | @gulpPool p hp hb =>
    simp only [backstopCall, gulpPoolEmissionsAuth, bind_ok, pure_ok, Prod.exists] at h
    obtain ⟨n, _, ⟨_, _, h⟩, rfl⟩ := h
    exact (gulpPool_keep (P := fun _ => False) (K := 0) h ⟨k, fun _ _ h => h.2.elim⟩).raw
  | lpVal hb =>
    simp only [backstopCall, updateTknVal, bind_ok, pure_ok] at h
    obtain ⟨_, _, _, _, _, _, rfl⟩ := h
    exact k.same rfl fun _ _ => rfl
  | drop => exact absurd rfl hd

theorem raw_step {w w' : World} {op : Op} (hr : Reachable w) (k : RawOk w) (h : step w op = .ok w') : RawOk w' := by
  have hprot : w.isProtocol w.backstopAddr := .inr (.inl rfl)
  rcases emitter_step hr.base h with ⟨he, ho, hd⟩ | hc
  · cases op with
    | pool p auth c =>
      simp only [Blend.step, bind_ok, require_ok] at h
      obtain ⟨_, hp, _, hau, h⟩ := h
      exact (psteps_keep (P := fun _ => False) (K := 0) (hr.base.pool_ne hp) (fun hm => hau _ hm hprot) ⟨k, fun _ _ h => h.2.elim⟩
        (Pool.call_psteps h)).1.raw
    | backstop auth c =>
      simp only [Blend.step, bind_ok, require_ok] at h
      obtain ⟨_, hau, h⟩ := h
      exact raw_call hr k h fun e => hd auth (by rw [e])
    | emitter auth c => exact absurd rfl (ho auth c)
    | factory auth c =>
      simp only [Blend.step, bind_ok, require_ok] at h
      obtain ⟨_, hau, h⟩ := h
      cases c with
      | «initialize» m =>
        simp only [factoryCall, Factory.init, bind_ok, pure_ok] at h
        obtain ⟨_, _, rfl⟩ := h
        exact k.same rfl fun _ _ => rfl
      | deploy a s o r m =>
        simp only [factoryCall, Factory.deploy, bind_ok, pure_ok, Prod.exists, require_ok, requireAuth_ok,
          Prod.mk.injEq] at h
        obtain ⟨x, w1, ⟨_, hm, mt, _, _, hr', _, _, _, hp, _, hi, w2, hc, rfl, rfl⟩, rfl⟩ := h
        simp only [Pool.call, bind_ok, pure_ok] at hc
        obtain ⟨_, _, _, _, rfl⟩ := hc
        exact k.same rfl fun _ _ => rfl
    | tokenTransfer t s d a =>
      simp only [Blend.step, bind_ok, require_ok] at h
      obtain ⟨_, hs, h⟩ := h
      have r := transfer_res h
      exact k.same (by rw [r.frame]) fun _ _ => by rw [r.allow]
    | tokenMint t d a =>
      simp only [Blend.step, bind_ok, require_ok] at h
      obtain ⟨_, hs, h⟩ := h
      have r := mint_res h
      exact k.same (by rw [r.frame]) fun _ _ => by rw [r.allow]
    | tokenBurn t s a =>
      simp only [Blend.step, bind_ok, require_ok, pure_ok] at h
      obtain ⟨_, hs, _, ha, rfl⟩ := h
      exact k.same rfl fun _ _ => by rw [allow_setBalance]
    | tokenApprove t o s a e =>
      simp only [Blend.step, bind_ok, require_ok] at h
      obtain ⟨_, hs, h⟩ := h
      obtain ⟨_, rfl⟩ := approve_res h
      have hne : w.backstopAddr ≠ o := by rintro rfl; exact hs hprot
      obtain ⟨_, hb, hal, _⟩ := setAllowance_res w t o s a e
      exact k.same rfl fun _ _ => by rw [hal, if_neg (by simp [hne])]
    | comet s o =>
      simp only [Blend.step, pure_ok, bind_ok] at h
      obtain ⟨_, _, rfl⟩ := h
      exact k.same rfl fun _ _ => rfl
    | _ =>
      simp only [Blend.step, pure_ok] at h
      subst h
      exact k.same rfl fun _ _ => rfl
  · cases hc with
    | init auth b s t w' hn e => subst e; exact k
    | distribute auth ei l w' hei hl hle r => exact k.same (by rw [r.frame]) fun _ _ => by rw [r.allow]
    | queue auth ei b t w' hei hs hlt e => subst e; exact k
    | cancel auth ei s w' hei hs hlt e => subst e; exact k
    | swap auth ei s l w1 w' hei hs hu hlt hl hle r e =>
      subst e
      exact k.same (by show w1.backstopAddr = _; rw [r.frame]) fun t _ => by show (w1.tok t).allow _ _ = _; rw [r.allow]
    | drop op ei l w1 w' hei ho hd hsum hf e =>
      subst e
      obtain ⟨hfr, hbal⟩ := mints_frame hf
      have hal : ∀ (l : List (Address × Int)) (w w1 : World), l.foldlM (fun w x => mint w ei.blnd x.1 x.2) w = .ok w1 →
          (∀ t, (w1.tok t).allow = (w.tok t).allow) := by
        intro l
        induction l with
        | nil => intro w w1 h; rw [foldlM_nil] at h; subst h; exact fun _ => rfl
        | cons y l ih =>
          intro w w1 h
          rw [foldlM_cons] at h
          obtain ⟨w2, h1, h2⟩ := h
          exact fun t => by rw [ih _ _ h2, (mint_res h1).allow]
      exact k.same (by show w1.backstopAddr = _; rw [hfr]) fun t _ => by show (w1.tok t).allow _ _ = _; rw [hal _ _ _ hf]

theorem _root_.Blend.Reachable.raw {w : World} (hr : Reachable w) : RawOk w := by
  obtain ⟨w0, h0, hs⟩ := hr
  have : Reachable w ∧ RawOk w := by
    induction hs with
    | refl => exact ⟨⟨_, h0, .refl _⟩, fun t s => by rw [h0.allowances _ _ _ (.inr (.inl rfl))]⟩
    | @tail a b hs hst ih => obtain ⟨op, hop⟩ := hst; exact ⟨ih.1.step hop, raw_step ih.1 ih.2 hop⟩
  exact this.2

theorem gulpPool_live (hov : E .overflow = false) {b b0 : BackstopState} {now : Nat} {p : Address} {tn tp tb : Int} (inv : BInv now b0)
    (hb : b.getPoolBal p = b0.getPoolBal p)
    (htn : 0 < tn) (hle : ∀ x, nonQueuedTokens (b.getPoolBal p) = .ok x → x ≤ tn) (htb0 : 0 ≤ tb) (htb : tb ≤ 10 ^ 25)
    (hset : ∀ cfg, b.emisCfg p = some cfg → ∃ d, b.emisData p = some d ∧ d.lastTime ≤ now)
    (hq : ∀ cfg d, b.emisCfg p = some cfg → b.emisData p = some d → (b.getPoolBal p).q4w = (b.getPoolBal p).shares →
      (b.getPoolBal p).shares ≠ 0 → cfg.eps ≠ 0 → d.lastTime < cfg.expiration → d.lastTime = now) :
    NoErr E (gulpPool now tn tp tb b p) := by
  rw [hb] at hle hq
  have s := inv.shares_nonneg p
  have h7 : (1 : Int) ≤ SCALAR_7 := by norm_num [SCALAR_7]
  have hs7 : (0 : Int) < SCALAR_7 := by norm_num [SCALAR_7]
  unfold gulpPool
  simp only [hb]
  refine NoErr.bind (nonQueued_live hov inv) fun nq hnq => ?_
  refine NoErr.bind (mulDiv_live hov (by omega)) fun share hsh => ?_
  refine NoErr.bind (mulDiv_live hov h7) fun np _ => NoErr.bind (chk_live hov) fun e _ => NoErr.bind (mulDiv_live hov h7) fun nb hnb => ?_
  have hnq0 := nonQueued_nonneg inv hnq
  have hs0 := mulDivFloor_nonneg hsh htn (mul_nonneg hnq0 hs7.le)
  have f1 := isFloor_of_mulDiv hsh htn
  have f2 := isFloor_of_mulDiv hnb hs7
  have hs1 : share ≤ SCALAR_7 := by
    have := hle nq hnq
    have := f1.1
    by_contra hc
    nlinarith
  have hnb0 := mulDivFloor_nonneg hnb hs7 (mul_nonneg hs0 htb0)
  refine setEmis_live hov s hset hq hnb0 ?_
  have := f2.1
  have hm : share * tb ≤ SCALAR_7 * tb := mul_le_mul_of_nonneg_right hs1 htb0
  have : nb ≤ tb := by
    by_contra hc
    nlinarith
  omega

theorem gulpFold_live (hov : E .overflow = false) {w : World} (hr : Reachable w) {tn tp tb : Int} (htn : 0 < tn) (htb0 : 0 ≤ tb) (htb : tb ≤ 10 ^ 25) :
    ∀ (l : List Address) (b : BackstopState), l.Nodup → (∀ p ∈ l, ¬ AllQueued w p) →
    (∀ p ∈ l, ∀ x, nonQueuedTokens (w.backstop.getPoolBal p) = .ok x → x ≤ tn) →
    (∀ p ∈ l, b.emisCfg p = w.backstop.emisCfg p ∧ b.emisData p = w.backstop.emisData p) →
    (∀ p, b.getPoolBal p = w.backstop.getPoolBal p) → NoErr E (l.foldlM (gulpPool w.time tn tp tb) b) := by
  intro l
  induction l with
  | nil => intro b _ _ _ _ _; exact NoErr.pure
  | cons p l ih =>
    intro b hnd hq hle hs hb
    obtain ⟨hp, hnd⟩ := List.nodup_cons.1 hnd
    obtain ⟨s1, s2⟩ := hs p List.mem_cons_self
    rw [List.foldlM_cons]
    refine NoErr.bind (gulpPool_live hov hr.ball.inv (hb p) htn ?_ htb0 htb ?_ ?_) fun b1 h1 => ?_
    · rw [hb]; exact hle p List.mem_cons_self
    · rw [s1, s2]; intro cfg hc
      obtain ⟨d, h1, h2, _⟩ := hr.ball.inv.isSet p cfg hc
      exact ⟨d, h1, h2⟩
    · rw [s1, s2, hb]
      intro cfg d h1 h2 h3 h4 h5 h6
      by_contra h7
      exact hq p List.mem_cons_self ⟨h3, h4, cfg, d, h1, h2, h5, h6, h7⟩
    · obtain ⟨g1, g2⟩ := gulpPool_same h1
      refine ih b1 hnd (fun q h => hq q (List.mem_cons_of_mem _ h)) (fun q h => hle q (List.mem_cons_of_mem _ h)) (fun q h => ?_) fun q => ?_
      · have hne : q ≠ p := by rintro rfl; exact hp h
        obtain ⟨_, e1, e2, _⟩ := g2 q hne
        rw [e1, e2]; exact hs q (List.mem_cons_of_mem _ h)
      · rw [← hb q, g1]; rfl

end Backstop
end Blend

namespace Blend
namespace Pool
open Spec
variable {E : Err → Bool}

/-- a reserve can take emissions -/
structure TakesEmis (now : Nat) (ps : PoolState) (id : Nat) : Prop where
  res : ∃ a c d, ps.resList[id / 2]? = some a ∧ ps.resConfig a = some c ∧ ps.resData a = some d ∧ 0 ≤ d.dSupply ∧ 0 ≤ d.bSupply
  data : ∀ cfg, ps.emisConfig id = some cfg → ∃ ed, ps.emisData id = some ed ∧ ed.lastTime ≤ now

theorem takesEmis {w : World} (hr : Reachable w) {p : Address} (hp : w.poolAddr p = true) {id : Nat} (hid : id < 2 * (w.pools p).resList.length) :
    TakesEmis w.time (w.pools p) id := by
  have hlt : id / 2 < (w.pools p).resList.length := by omega
  have hb := (hr.einv hp).inv
  refine ⟨?_, fun cfg hc => ?_⟩
  · obtain ⟨c, d, hc, hd⟩ := (hr.base.cfg p).list _ (List.getElem_mem hlt)
    refine ⟨_, c, d, List.getElem?_eq_getElem hlt, hc, hd, ?_, ?_⟩
    · rw [hb.dsum _ c d hc hd]; exact hb.tot_nonneg _ _
    · rw [hb.bsum _ c d hc hd]; exact add_nonneg (hb.tot_nonneg _ _) (hb.tot_nonneg _ _)
  · obtain ⟨_, _, ed, _, _, h1, h2, _⟩ := ((hr.einv hp).emis id).isSet cfg hc
    exact ⟨ed, h1, h2⟩

theorem reserveEmis_live (hov : E .overflow = false) {ps : PoolState} {now id : Nat} {a : Address} {n : Int} (t : TakesEmis now ps id)
    (ha : ps.resList[id / 2]? = some a) (h0 : 0 ≤ n) (hn : n ≤ 10 ^ 25) : NoErr E (updateReserveEmisConfig ps now a id n) := by
  obtain ⟨a', c, d, e1, e2, e3, e4, e5⟩ := t.res
  rw [ha] at e1; cases e1
  unfold updateReserveEmisConfig
  cases hc : ps.emisConfig id with
  | none =>
    simp only
    refine NoErr.bind NoErr.pure fun x hx => ?_
    simp only [pure_ok] at hx
    subst hx
    exact NoErr.bind (Backstop.toU64_live h0 (by omega)) fun _ _ => NoErr.pure
  | some cfg =>
    obtain ⟨ed, hd, ht⟩ := t.data cfg hc
    simp only
    refine NoErr.bind (NoErr.unwrap e2) fun c' _ => NoErr.bind (NoErr.unwrap e3) fun d' hd' => ?_
    simp only [e3, unwrap_ok, Option.some.injEq] at hd'
    subst hd'
    have hsup : 0 ≤ if id % 2 = 0 then d.dSupply else d.bSupply := by split <;> assumption
    generalize (if id % 2 = 0 then d.dSupply else d.bSupply) = S at hsup
    refine NoErr.bind (Backstop.chk_live hov) fun sc _ => NoErr.bind ?_ ?_
    · unfold updateEmisDataWith
      refine NoErr.bind (NoErr.unwrap hd) fun ed' h1 => ?_
      simp only [hd, unwrap_ok, Option.some.injEq] at h1
      subst h1
      split
      · exact NoErr.pure
      · rename_i hcond
        push Not at hcond
        refine NoErr.bind (NoErr.subU (by split <;> omega)) fun dt _ => NoErr.bind (Backstop.chk_live hov) fun _ _ =>
          NoErr.bind (Backstop.mulDiv_live hov ?_) fun _ _ => NoErr.bind (Backstop.chk_live hov) fun _ _ => NoErr.pure
        obtain ⟨_, _, _, h⟩ := hcond
        omega
    rintro ⟨d', b1⟩ _
    simp only
    split
    · refine NoErr.bind (NoErr.chkU64 fun h => by rw [hov] at h; cases h) fun rem hrem => NoErr.bind (Backstop.chk_live hov) fun l hl => ?_
      simp only [chkU64_ok, chk_ok] at hrem hl
      obtain ⟨h1, rfl⟩ := hrem
      obtain ⟨_, rfl⟩ := hl
      refine NoErr.bind NoErr.pure fun x hx => ?_
      simp only [pure_ok] at hx
      subst hx
      refine NoErr.bind (Backstop.toU64_live (by positivity) ?_) fun _ _ => NoErr.pure
      unfold InU64 at h1
      omega
    · refine NoErr.bind NoErr.pure fun x hx => ?_
      simp only [pure_ok] at hx
      subst hx
      exact NoErr.bind (Backstop.toU64_live h0 (by omega)) fun _ _ => NoErr.pure

/-- the schedule after a gulp -/
theorem reserveEmis_eps {ps ps' : PoolState} {now id : Nat} {a : Address} {n : Int} (hn : 0 ≤ n)
    (h : updateReserveEmisConfig ps now a id n = .ok ps') :
    ∃ eps : Nat, ps'.emisConfig id = some ⟨now + 604800, eps⟩ ∧ IsFloor eps (n + remaining (ps.emisConfig id) now) 604800 ∧
      ps'.received id = ps.received id + n := by
  have heps : ∀ {left : Int} {eps : Nat}, 0 ≤ left → toU64 (Int.tdiv left (7 * 24 * 60 * 60)) = .ok eps →
      IsFloor eps left 604800 := by
    intro left eps hl he
    have h1 : (eps : Int) = Int.tdiv left (7 * 24 * 60 * 60) := (toU64_ok.1 he).2.2
    rw [h1]
    exact Backstop.tdiv_floor hl (by norm_num)
  obtain ⟨_, _, e⟩ := updateReserveEmisConfig_other h
  have hrec : ps'.received id = ps.received id + n := by rw [e]; exact upd_same
  unfold updateReserveEmisConfig at h
  cases hcf : ps.emisConfig id with
  | none =>
    simp only [hcf, bind_ok, pure_ok, Prod.exists, Prod.mk.injEq] at h
    obtain ⟨left, p1, ⟨rfl, rfl⟩, eps, he, rfl⟩ := h
    refine ⟨eps, upd_same, ?_, hrec⟩
    have := heps hn he
    simpa [remaining] using this
  | some cfg =>
    simp only [hcf, bind_ok, Prod.exists] at h
    obtain ⟨_, _, _, _, _, _, d, p2, _, h⟩ := h
    generalize (if d.lastTime ≠ now then
          { p2 with emisData := upd p2.emisData id (some { d with lastTime := now }) }
        else p2) = p3 at h
    simp only [ite_ok, bind_ok, pure_ok, chk_ok, chkU64_ok, Prod.mk.injEq] at h
    rcases h with ⟨_, rem, ⟨_, rfl⟩, l, ⟨_, rfl⟩, _, rfl, eps, he, rfl⟩ | ⟨hx, _, rfl, eps, he, rfl⟩
    · refine ⟨eps, upd_same, ?_, hrec⟩
      have := heps (by positivity) he
      push_cast at this
      exact this
    · refine ⟨eps, upd_same, ?_, hrec⟩
      have := heps hn he
      have e : cfg.expiration - now = 0 := by omega
      simpa [remaining, e] using this

theorem poolFold_live (hov : E .overflow = false) {now : Nat} {n : Int} (h0 : 0 ≤ n) (hn : n ≤ 10 ^ 25) : ∀ (l : List (Nat × Nat)) (ps : PoolState),
    (l.map (·.1)).Nodup → (∀ kv ∈ l, TakesEmis now ps kv.1 ∧ kv.2 ≤ 10000000) →
    NoErr E (l.foldlM (fun ps kv => do
      let asset ← unwrap (ps.resList[kv.1 / 2]?)
      let n ← fixedMulFloor (kv.2 : Int) n SCALAR_7
      updateReserveEmisConfig ps now asset kv.1 n) ps) := by
  intro l
  induction l with
  | nil => intro ps _ _; exact NoErr.pure
  | cons kv l ih =>
    intro ps hnd ht
    rw [List.map_cons] at hnd
    obtain ⟨hk, hnd⟩ := List.nodup_cons.1 hnd
    obtain ⟨t, hle⟩ := ht kv List.mem_cons_self
    obtain ⟨a, c, d, e1, e2, e3, e4, e5⟩ := t.res
    have hs7 : (0 : Int) < SCALAR_7 := by norm_num [SCALAR_7]
    rw [List.foldlM_cons]
    refine NoErr.bind (NoErr.bind (NoErr.unwrap e1) fun a' ha' => ?_) fun ps1 h1 => ?_
    · simp only [e1, unwrap_ok, Option.some.injEq] at ha'
      subst ha'
      refine NoErr.bind (Backstop.mulDiv_live hov (by norm_num [SCALAR_7])) fun m hm => ?_
      have hm0 := mulDivFloor_nonneg hm hs7 (mul_nonneg (by positivity) h0)
      refine reserveEmis_live hov t e1 hm0 (le_trans ?_ hn)
      have f := (Backstop.isFloor_of_mulDiv hm hs7).1
      have hle' : (kv.2 : Int) * n ≤ 10000000 * n := mul_le_mul_of_nonneg_right (by omega) h0
      unfold SCALAR_7 at f
      omega
    · simp only [bind_ok, unwrap_ok] at h1
      obtain ⟨a', _, m, _, h1⟩ := h1
      refine ih ps1 hnd fun kv' h => ?_
      obtain ⟨t', hle'⟩ := ht kv' (List.mem_cons_of_mem _ h)
      have hne : kv'.1 ≠ kv.1 := fun e => hk (by rw [← e]; exact List.mem_map_of_mem h)
      obtain ⟨g1, g2⟩ := gulp_otherId h1 hne
      obtain ⟨_, _, e⟩ := updateReserveEmisConfig_other h1
      refine ⟨⟨?_, ?_⟩, hle'⟩
      · have := t'.res
        rw [e]; exact this
      · rw [g1, g2]; exact t'.data

/-- what a gulp of `n` tokens does with the split `l` -/
theorem poolFold_exact {now : Nat} {n : Int} (h0 : 0 ≤ n) : ∀ (l : List (Nat × Nat)) (ps ps' : PoolState), (l.map (·.1)).Nodup →
    l.foldlM (fun ps kv => do
      let asset ← unwrap (ps.resList[kv.1 / 2]?)
      let n ← fixedMulFloor (kv.2 : Int) n SCALAR_7
      updateReserveEmisConfig ps now asset kv.1 n) ps = .ok ps' →
    (∀ kv ∈ l, ∃ (m : Int) (eps : Nat), IsFloor m ((kv.2 : Int) * n) SCALAR_7 ∧ ps'.received kv.1 = ps.received kv.1 + m ∧
      ps'.emisConfig kv.1 = some ⟨now + 604800, eps⟩ ∧ IsFloor eps (m + remaining (ps.emisConfig kv.1) now) 604800) ∧
    ∀ id, id ∉ l.map (·.1) → ps'.received id = ps.received id ∧ ps'.emisConfig id = ps.emisConfig id ∧ ps'.emisData id = ps.emisData id := by
  intro l
  induction l with
  | nil => intro ps ps' _ h; rw [foldlM_nil] at h; subst h; exact ⟨by simp, fun _ _ => ⟨rfl, rfl, rfl⟩⟩
  | cons kv l ih =>
    intro ps ps' hnd h
    rw [List.map_cons] at hnd
    obtain ⟨hk, hnd⟩ := List.nodup_cons.1 hnd
    have hs7 : (0 : Int) < SCALAR_7 := by norm_num [SCALAR_7]
    rw [foldlM_cons] at h
    obtain ⟨ps1, h1, h2⟩ := h
    simp only [bind_ok, unwrap_ok] at h1
    obtain ⟨a, _, m, hm, h1⟩ := h1
    obtain ⟨i1, i2⟩ := ih ps1 ps' hnd h2
    have hm0 := mulDivFloor_nonneg hm hs7 (mul_nonneg (by positivity) h0)
    obtain ⟨eps, k1, k2, k3⟩ := reserveEmis_eps hm0 h1
    obtain ⟨ed, ec, e⟩ := updateReserveEmisConfig_other h1
    have hrec : ∀ id, id ≠ kv.1 → ps1.received id = ps.received id := fun id h => by rw [e]; exact upd_ne h
    refine ⟨fun kv' h' => ?_, fun id hid => ?_⟩
    · rcases List.mem_cons.1 h' with rfl | h'
      · obtain ⟨j1, j2, _⟩ := i2 kv'.1 hk
        exact ⟨m, eps, Backstop.isFloor_of_mulDiv hm hs7, by rw [j1, k3], by rw [j2, k1], k2⟩
      · have hne : kv'.1 ≠ kv.1 := fun e => hk (by rw [← e]; exact List.mem_map_of_mem h')
        obtain ⟨g1, g2⟩ := gulp_otherId h1 hne
        obtain ⟨m', eps', l1, l2, l3, l4⟩ := i1 kv' h'
        rw [hrec _ hne] at l2
        rw [g2] at l4
        exact ⟨m', eps', l1, l2, l3, l4⟩
    · rw [List.map_cons, List.mem_cons, not_or] at hid
      obtain ⟨g1, g2⟩ := gulp_otherId h1 hid.1
      obtain ⟨j1, j2, j3⟩ := i2 id hid.2
      exact ⟨by rw [j1, hrec _ hid.1], by rw [j2, g2], by rw [j3, g1]⟩

end Pool
end Blend
