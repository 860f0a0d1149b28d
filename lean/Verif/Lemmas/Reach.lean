import Verif.Lemmas.WorldStep
/-
  Every operation is, for every pool, a sequence of small steps; the basic invariant is reachable.
-/

namespace Blend
open Pool

/-- the accounts whose positions or emissions in pool `q` the operation may touch -/
def OpTouches (w : World) (q : Address) : Op → Address → Prop
  | .pool p _ c => fun x => p = q ∧ CallTouches (w.pools q) c x
  | _ => fun _ => False

/-- what one operation does, as far as pools are concerned -/
structure StepRes (w : World) (op : Op) (w' : World) : Prop where
  base : Base w'
  emitterAddr : w'.emitterAddr = w.emitterAddr
  backstopAddr : w'.backstopAddr = w.backstopAddr
  factoryAddr : w'.factoryAddr = w.factoryAddr
  poolAddr : w'.poolAddr = w.poolAddr
  time : w.time ≤ w'.time
  micros : ∀ q, w.poolAddr q = true →
    PMicros w.time (OpTouches w q op) (.of w q) (.of w' q)

theorem vs_gain {now : Nat} {U : Address → Prop} {w w' : World} {q : Address}
    (h1 : w'.pools q = w.pools q) (h2 : ∀ t, w.balance t q ≤ w'.balance t q) :
    PMicros now U (.of w q) (.of w' q) := by
  have : VS.of w' q = { VS.of w q with vb := fun t => w'.balance t q } := by
    unfold VS.of; simp [h1]
  rw [this]
  exact .one (.gain _ _ h2)

theorem protocol_pool {w : World} {q : Address} (h : w.poolAddr q = true) : w.isProtocol q :=
  .inr (.inr (.inr h))

theorem StepRes.of_wf {w w' : World} {op : Op} {L : Address → Prop} (hb : Base w)
    (h : WF L w.approver w w') (hL : ∀ q, w.poolAddr q = true → ¬ L q) (hp : w'.pools = w.pools) :
    StepRes w op w' :=
  ⟨hb.wf h (by rw [hp]; exact hb.cfg), h.emitterAddr, h.backstopAddr, h.factoryAddr, h.poolAddr,
    le_of_eq h.time.symm, fun q hq => vs_gain (by rw [hp]) fun t => h.bal t q (hL q hq)⟩

theorem pool_step {w w' : World} {p : Address} {auth : List Address} {c : Call} (hb : Base w)
    (hp : w.poolAddr p = true) (hauth : ∀ a ∈ auth, ¬ w.isProtocol a) (h : call w p auth c = .ok w') :
    StepRes w (.pool p auth c) w' ∧ WF (w.payer p) w.approver w w' ∧
      (∀ q, q ≠ p → w'.pools q = w.pools q) ∧ w'.emitter = w.emitter ∧ w'.factory = w.factory := by
  obtain ⟨h1, h2, h3, h4⟩ := psteps_wf hb hauth (call_psteps h)
  have hm := call_micros (hb.cfg p) (hb.pool_allow hp) (hb.pool_ne hp) h
  refine ⟨⟨hb.wf h1 fun q => ?_, h1.emitterAddr, h1.backstopAddr, h1.factoryAddr, h1.poolAddr,
    le_of_eq h1.time.symm, fun q hq => ?_⟩, h1, h2, h3, h4⟩
  · by_cases hq : q = p
    · subst hq; exact (micros_cfg hm (hb.cfg q)).1
    · rw [h2 q hq]; exact hb.cfg q
  · by_cases e : q = p
    · subst e
      exact hm.mono fun x hx => ⟨rfl, hx⟩
    · refine vs_gain (h2 q e) fun t => h1.bal t q ?_
      rintro (h | h | h)
      · exact e h
      · exact hb.pool_ne hq h
      · exact h (protocol_pool hq)

theorem not_bpayer {w : World} (hb : Base w) {q : Address} (hq : w.poolAddr q = true) : ¬ w.bpayer q := by
  rintro (h | h)
  · exact hb.pool_ne hq h
  · exact h (protocol_pool hq)

theorem step_res {w w' : World} {op : Op} (hb : Base w) (h : step w op = .ok w') : StepRes w op w' := by
  have nofor : ∀ q, w.poolAddr q = true → ¬ (fun x => ¬ w.isProtocol x) q := fun q hq hn => hn (protocol_pool hq)
  cases op with
  | pool p auth c =>
    simp only [step, bind_ok, require_ok] at h
    obtain ⟨_, hp, _, ha, h⟩ := h
    exact (pool_step hb hp ha h).1
  | backstop auth c =>
    simp only [step, bind_ok, require_ok] at h
    obtain ⟨_, ha, h⟩ := h
    obtain ⟨h1, h2, _⟩ := Backstop.call_wf ha h
    exact .of_wf hb h1 (fun q hq => not_bpayer hb hq) h2
  | emitter auth c =>
    simp only [step, bind_ok, require_ok] at h
    obtain ⟨_, ha, h⟩ := h
    obtain ⟨h1, h2, _⟩ := Emitter.call_wf (L := fun _ => False) (A := w.approver) h
    exact .of_wf hb h1 (fun q hq => id) h2
  | factory auth c =>
    simp only [step, bind_ok, require_ok] at h
    obtain ⟨_, ha, h⟩ := h
    cases c with
    | «initialize» m =>
      simp only [factoryCall, Factory.init, bind_ok, pure_ok] at h
      obtain ⟨_, _, rfl⟩ := h
      exact .of_wf (L := fun _ => False) hb (.of_eq rfl rfl rfl rfl rfl rfl rfl rfl) (fun _ _ => id) rfl
    | deploy a s o r m =>
      simp only [factoryCall, Factory.deploy, bind_ok, pure_ok, Prod.exists, require_ok, requireAuth_ok,
        Prod.mk.injEq] at h
      obtain ⟨x, w1, ⟨_, hm, mt, _, _, hr, _, _, _, hp, _, hi, w2, hc, rfl, rfl⟩, rfl⟩ := h
      obtain ⟨⟨hb1, k1, k2, k3, k4, k5, k6⟩, hw, k7⟩ := pool_step hb hp (auth := [a])
        (by intro x hx; simp only [List.mem_singleton] at hx; subst hx; exact ha _ hm) hc
      refine ⟨⟨hb1.1, hb1.2, hb1.3, hb1.4, hb1.5, hb1.6, hb1.7, hb1.8, hb1.9⟩, k1, k2, k3, k4, k5, ?_⟩
      intro q hq
      exact (k6 q hq).mono fun x hx => hx.2.elim
  | ledger dt ds =>
    simp only [step, pure_ok] at h
    subst h
    exact ⟨⟨hb.1, hb.2, hb.3, hb.4, hb.5, hb.6, hb.7, hb.8, hb.9⟩, rfl, rfl, rfl, rfl,
      Nat.le_add_right _ _, fun q _ => .refl _⟩
  | oracles o =>
    simp only [step, pure_ok] at h
    subst h
    exact .of_wf (L := fun _ => False) hb (.of_eq rfl rfl rfl rfl rfl rfl rfl rfl) (fun _ _ => id) rfl
  | comet s o =>
    simp only [step, pure_ok, bind_ok] at h
    obtain ⟨_, _, rfl⟩ := h
    exact .of_wf (L := fun _ => False) hb (.of_eq rfl rfl rfl rfl rfl rfl rfl rfl) (fun _ _ => id) rfl
  | tokenTransfer t s d a =>
    simp only [step, bind_ok, require_ok] at h
    obtain ⟨_, hs, h⟩ := h
    have r := transfer_res h
    exact .of_wf hb (.transfer (L := fun x => ¬ w.isProtocol x) hs r) nofor (by rw [r.frame])
  | tokenMint t d a =>
    simp only [step, bind_ok, require_ok] at h
    obtain ⟨_, hs, h⟩ := h
    have r := mint_res h
    exact .of_wf hb (.mint (L := fun x => ¬ w.isProtocol x) r) nofor (by rw [r.frame])
  | tokenBurn t s a =>
    simp only [step, bind_ok, require_ok, pure_ok] at h
    obtain ⟨_, hs, _, ha, rfl⟩ := h
    refine .of_wf (L := fun x => ¬ w.isProtocol x) hb ?_ nofor rfl
    refine ⟨rfl, rfl, rfl, rfl, rfl, rfl, rfl, fun t' x hx => ?_, fun hn t' x => ?_, fun t' o s _ => ?_⟩
    · rw [balance_setBalance, if_neg]
      rintro ⟨_, rfl⟩; exact hx hs
    · rw [balance_setBalance]; split
      · omega
      · exact hn t' x
    · rw [allow_setBalance]
  | tokenApprove t o s a e =>
    simp only [step, bind_ok, require_ok] at h
    obtain ⟨_, hs, h⟩ := h
    obtain ⟨_, rfl⟩ := approve_res h
    exact .of_wf hb (.setAllowance (L := fun x => ¬ w.isProtocol x) _ (.inr hs)) nofor rfl
  | expireAuction p t u =>
    simp only [step, pure_ok] at h
    subst h
    have hm : ∀ q, PMicros w.time (fun _ => False) (.of w q)
        (.of (w.setPool p (setAuction (w.pools p) t u none)) q) := by
      intro q
      by_cases e : q = p
      · subst e; rw [vs_setPool]; exact .one (.auction (.of w q) _ _ _)
      · exact vs_gain (pools_setPool_ne _ _ _ _ e) fun _ => le_refl _
    exact ⟨hb.wf (L := fun _ => False) (.setPool _ _ _) fun q => (micros_cfg (hm q) (hb.cfg q)).1, rfl, rfl, rfl, rfl, le_refl _, fun q _ => hm q⟩
  | expireQueued p a =>
    simp only [step, pure_ok] at h
    subst h
    have hm : ∀ q, PMicros w.time (fun _ => False) (.of w q)
        (.of (w.setPool p { (w.pools p) with resInit := upd (w.pools p).resInit a none }) q) := by
      intro q
      by_cases e : q = p
      · subst e; rw [vs_setPool]; exact .one (.unqueue (.of w q) _)
      · exact vs_gain (pools_setPool_ne _ _ _ _ e) fun _ => le_refl _
    exact ⟨hb.wf (L := fun _ => False) (.setPool _ _ _) fun q => (micros_cfg (hm q) (hb.cfg q)).1, rfl, rfl, rfl, rfl, le_refl _, fun q _ => hm q⟩
  | expireDropList =>
    simp only [step, pure_ok] at h
    subst h
    exact .of_wf (L := fun _ => False) hb (.setBackstop _ _) (fun _ _ => id) rfl

/-- induction over histories -/
theorem Steps.inv {P : World → Prop} {w w' : World} (hs : ∀ a b op, P a → step a op = .ok b → P b)
    (h0 : P w) (h : Steps w w') : P w' := by
  induction h with
  | refl => exact h0
  | tail _ hst ih => obtain ⟨op, h⟩ := hst; exact hs _ _ op ih h

theorem Steps.base {w w' : World} (hb : Base w) (h : Steps w w') : Base w' :=
  h.inv (fun _ _ _ hb hs => (step_res hb hs).base) hb

theorem Reachable.base {w : World} (h : Reachable w) : Base w := by
  obtain ⟨w0, h0, hs⟩ := h
  exact hs.base (.of_genesis h0)

theorem Reachable.step {w w' : World} {op : Op} (h : Reachable w) (hs : step w op = .ok w') :
    Reachable w' := by
  obtain ⟨w0, h0, h⟩ := h
  exact ⟨w0, h0, .tail h ⟨op, hs⟩⟩

theorem Reachable.steps {w w' : World} (h : Reachable w) (hs : Steps w w') : Reachable w' := by
  induction hs with
  | refl => exact h
  | tail _ hst ih => obtain ⟨op, hs⟩ := hst; exact ih.step hs

/-- An invariant of the small steps of every pool holds in every reachable world: it may mention the
ledger time if it is monotone in it. -/
theorem Reachable.pool_inv {I : Nat → VS → Prop}
    (h0 : ∀ now vb, (∀ a, 0 ≤ vb a) → I now ⟨{}, vb, fun _ => 0, fun _ => 0⟩)
    (ht : ∀ {now now' S}, now ≤ now' → (∀ a, S.pb a = 0) → (∀ a, S.pd a = 0) → I now S → I now' S)
    (hm : ∀ {now S S'}, CfgOk S.ps → PMicro now (fun _ => True) S S' → I now S → I now S')
    {w : World} (h : Reachable w) {p : Address} (hp : w.poolAddr p = true) : I w.time (.of w p) := by
  obtain ⟨w0, hg, hs⟩ := h
  have key : Base w ∧ (w.poolAddr p = true → I w.time (.of w p)) := by
    refine hs.inv (P := fun w => Base w ∧ (w.poolAddr p = true → I w.time (.of w p))) ?_ ⟨.of_genesis hg, ?_⟩
    · rintro a b op ⟨hb, hi⟩ hst
      have r := step_res hb hst
      refine ⟨r.base, fun hp => ?_⟩
      rw [r.poolAddr] at hp
      have hms := (r.micros p hp).mono (U' := fun _ => True) (fun _ _ => trivial)
      refine ht r.time (fun _ => rfl) (fun _ => rfl) ?_
      have : ∀ {S S'}, PMicros a.time (fun _ => True) S S' → CfgOk S.ps → I a.time S → I a.time S' := by
        intro S S' h
        induction h with
        | refl => exact fun _ h => h
        | tail h1 h2 ih => exact fun hc h => hm (micros_cfg h1 hc).1 h2 (ih hc h)
      exact this hms (hb.cfg p) (hi hp)
    · intro _
      have e : VS.of w0 p = ⟨{}, fun t => w0.balance t p, fun _ => 0, fun _ => 0⟩ := by
        unfold VS.of; rw [hg.pools p]
      rw [e]
      exact h0 _ _ (fun a => hg.balances a p)
  exact key.2 hp

/-- A relation that every small step of a pool respects relates any two worlds of a history. -/
theorem Reachable.pool_rel {I : Nat → VS → Prop} {Rel : VS → VS → Prop}
    (hI : ∀ {w : World} {p}, Reachable w → w.poolAddr p = true → I w.time (.of w p))
    (hIm : ∀ {now S S'}, CfgOk S.ps → PMicro now (fun _ => True) S S' → I now S → I now S')
    (hrefl : ∀ S, Rel S S) (htrans : ∀ {a b c}, Rel a b → Rel b c → Rel a c)
    (hm : ∀ {now S S'}, CfgOk S.ps → I now S → PMicro now (fun _ => True) S S' → Rel S S')
    {w w' : World} (h : Reachable w) (hs : Steps w w') {p : Address} (hp : w.poolAddr p = true) :
    Rel (.of w p) (.of w' p) := by
  have key : Reachable w' ∧ w'.poolAddr = w.poolAddr ∧ Rel (.of w p) (.of w' p) := by
    induction hs with
    | refl => exact ⟨h, rfl, hrefl _⟩
    | @tail a b hab hst ih =>
      obtain ⟨h1, h2, h3⟩ := ih
      obtain ⟨op, hst⟩ := hst
      have r := step_res h1.base hst
      refine ⟨h1.step hst, r.poolAddr.trans h2, htrans h3 ?_⟩
      have hms := (r.micros p (h2 ▸ hp)).mono (U' := fun _ => True) (fun _ _ => trivial)
      have : ∀ {S S'}, PMicros a.time (fun _ => True) S S' → CfgOk S.ps → I a.time S →
          I a.time S' ∧ Rel S S' := by
        intro S S' h
        induction h with
        | refl => exact fun _ h => ⟨h, hrefl _⟩
        | tail h1 h2 ih =>
          intro hc hi
          obtain ⟨k1, k2⟩ := ih hc hi
          have hc' := (micros_cfg h1 hc).1
          exact ⟨hIm hc' h2 k1, htrans k2 (hm hc' k1 h2)⟩
      exact (this hms (h1.base.cfg p) (hI h1 (h2 ▸ hp))).2
  exact key.2.2

/-- the addresses of the protocol are the same in a whole history -/
theorem Steps.poolAddr {w w' : World} (hb : Base w) (hs : Steps w w') :
    w'.poolAddr = w.poolAddr ∧ w'.backstopAddr = w.backstopAddr ∧ w'.emitterAddr = w.emitterAddr ∧
      w'.factoryAddr = w.factoryAddr ∧ w.time ≤ w'.time := by
  induction hs with
  | refl => exact ⟨rfl, rfl, rfl, rfl, le_refl _⟩
  | tail hab hst ih =>
    obtain ⟨h1, h2, h3, h4, h5⟩ := ih
    obtain ⟨op, hst⟩ := hst
    have r := step_res (Steps.base hb hab) hst
    exact ⟨r.poolAddr.trans h1, r.backstopAddr.trans h2, r.emitterAddr.trans h3, r.factoryAddr.trans h4,
      le_trans h5 r.time⟩

end Blend
