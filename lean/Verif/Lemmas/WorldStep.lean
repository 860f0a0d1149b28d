import Verif.Lemmas.CfgInv
import Verif.Model.System
/-
  What each operation does to the world: who can lose tokens, what stays constant; and for every pool
  its small steps.
-/

namespace Blend

/-- Effects on the environment that the invariants of the pools rely on: only accounts in `L` lose
tokens, only owners in `A` change their allowances. -/
structure WF (L A : Address → Prop) (w w' : World) : Prop where
  emitterAddr : w'.emitterAddr = w.emitterAddr
  backstopAddr : w'.backstopAddr = w.backstopAddr
  factoryAddr : w'.factoryAddr = w.factoryAddr
  poolAddr : w'.poolAddr = w.poolAddr
  deployAddr : w'.deployAddr = w.deployAddr
  time : w'.time = w.time
  seq : w'.seq = w.seq
  bal : ∀ t x, ¬ L x → w.balance t x ≤ w'.balance t x
  nonneg : (∀ t x, 0 ≤ w.balance t x) → ∀ t x, 0 ≤ w'.balance t x
  allow : ∀ t o s, ¬ A o → (w'.tok t).allow o s = (w.tok t).allow o s

namespace WF
variable {L A : Address → Prop}

theorem refl (w : World) : WF L A w w :=
  ⟨rfl, rfl, rfl, rfl, rfl, rfl, rfl, fun _ _ _ => le_refl _, id, fun _ _ _ _ => rfl⟩

theorem trans {a b c : World} (h : WF L A a b) (h' : WF L A b c) : WF L A a c :=
  ⟨h'.emitterAddr.trans h.emitterAddr, h'.backstopAddr.trans h.backstopAddr,
   h'.factoryAddr.trans h.factoryAddr, h'.poolAddr.trans h.poolAddr, h'.deployAddr.trans h.deployAddr,
   h'.time.trans h.time, h'.seq.trans h.seq,
   fun t x hx => le_trans (h.bal t x hx) (h'.bal t x hx), fun hn => h'.nonneg (h.nonneg hn),
   fun t o s ho => (h'.allow t o s ho).trans (h.allow t o s ho)⟩

theorem setPool (w : World) (p : Address) (ps : PoolState) : WF L A w (w.setPool p ps) :=
  ⟨rfl, rfl, rfl, rfl, rfl, rfl, rfl, fun _ _ _ => le_refl _, id, fun _ _ _ _ => rfl⟩

theorem setBackstop (w : World) (b : BackstopState) : WF L A w (w.setBackstop b) :=
  ⟨rfl, rfl, rfl, rfl, rfl, rfl, rfl, fun _ _ _ => le_refl _, id, fun _ _ _ _ => rfl⟩

theorem mono {L' A' : Address → Prop} (hL : ∀ x, L x → L' x) (hA : ∀ x, A x → A' x) {a b : World}
    (h : WF L A a b) : WF L' A' a b :=
  ⟨h.emitterAddr, h.backstopAddr, h.factoryAddr, h.poolAddr, h.deployAddr, h.time, h.seq,
   fun t x hx => h.bal t x (fun hl => hx (hL x hl)), h.nonneg,
   fun t o s ho => h.allow t o s (fun ha => ho (hA o ha))⟩

theorem moved_nonneg {t s d : Address} {amt : Int} (h : 0 ≤ amt) {t' x : Address} (hx : x ≠ s) :
    0 ≤ moved t s d amt t' x := by
  unfold moved
  simp only [hx, and_false, if_false, sub_zero]
  split
  · exact h
  · exact le_refl _

theorem moved_all {w : World} {t s d : Address} {amt : Int} (h : 0 ≤ amt) (he : amt ≤ w.balance t s)
    (hn : ∀ t x, 0 ≤ w.balance t x) (t' x : Address) : 0 ≤ w.balance t' x + moved t s d amt t' x := by
  have h1 := hn t' x
  unfold moved
  by_cases hx : t' = t ∧ x = s
  · obtain ⟨rfl, rfl⟩ := hx
    simp only [and_self, if_true]
    split
    · omega
    · omega
  · rw [if_neg hx]
    split
    · omega
    · omega

theorem transfer {w w' : World} {t s d : Address} {amt : Int} (hs : L s)
    (h : TransferRes w t s d amt w') : WF L A w w' := by
  have hf := h.frame
  refine ⟨by rw [hf], by rw [hf], by rw [hf], by rw [hf], by rw [hf], by rw [hf], by rw [hf],
    fun t' x hx => ?_, fun hn t' x => ?_, fun t' o s _ => by rw [h.allow]⟩
  · rw [h.bal]
    have : x ≠ s := fun e => hx (e ▸ hs)
    have := moved_nonneg (t := t) (d := d) h.nonneg (t' := t') this
    omega
  · rw [h.bal]; exact moved_all h.nonneg h.enough hn t' x

theorem mint {w w' : World} {t d : Address} {amt : Int} (h : MintRes w t d amt w') : WF L A w w' := by
  have hf := h.frame
  refine ⟨by rw [hf], by rw [hf], by rw [hf], by rw [hf], by rw [hf], by rw [hf], by rw [hf],
    fun t' x hx => ?_, fun hn t' x => ?_, fun t' o s _ => by rw [h.allow]⟩
  · rw [h.bal]; have := h.nonneg; split <;> omega
  · rw [h.bal]; have := h.nonneg; have := hn t' x; split <;> omega

theorem transferFrom {w w' : World} {t sp o d : Address} {amt : Int} (ho : L o) (ha : A o)
    (h : TransferFromRes w t sp o d amt w') : WF L A w w' := by
  have hf := h.frame
  refine ⟨by rw [hf], by rw [hf], by rw [hf], by rw [hf], by rw [hf], by rw [hf], by rw [hf],
    fun t' x hx => ?_, fun hn t' x => ?_, fun t' o' s hA => ?_⟩
  · rw [h.bal]
    have : x ≠ o := fun e => hx (e ▸ ho)
    have := moved_nonneg (t := t) (d := d) h.nonneg (t' := t') this
    omega
  · rw [h.bal]; exact moved_all h.nonneg h.enough hn t' x
  · rw [h.allow, if_neg]
    rintro ⟨_, rfl, _⟩; exact hA ha

theorem setAllowance (w : World) {t o s : Address} {amt : Int} {e : Nat} (ha : A o) :
    WF L A w (w.setAllowance t o s amt e) := by
  obtain ⟨hf, hb, hal, _⟩ := setAllowance_res w t o s amt e
  refine ⟨rfl, rfl, rfl, rfl, rfl, rfl, rfl, fun t' x _ => le_of_eq (hb t' x).symm,
    fun hn t' x => by rw [hb]; exact hn t' x, fun t' o' s' hA => ?_⟩
  rw [hal, if_neg]
  rintro ⟨_, rfl, _⟩; exact hA ha

/-- changes of contract storage other than tokens -/
theorem of_eq {w w' : World} (h1 : w'.emitterAddr = w.emitterAddr) (h2 : w'.backstopAddr = w.backstopAddr)
    (h3 : w'.factoryAddr = w.factoryAddr) (h4 : w'.poolAddr = w.poolAddr)
    (h5 : w'.deployAddr = w.deployAddr) (h6 : w'.time = w.time) (h8 : w'.seq = w.seq)
    (h7 : w'.tok = w.tok) : WF L A w w' :=
  ⟨h1, h2, h3, h4, h5, h6, h8, fun t x _ => by unfold World.balance; rw [h7],
    fun hn t x => by unfold World.balance at *; rw [h7]; exact hn t x, fun t o s _ => by rw [h7]⟩

end WF

/-- contract addresses are distinct; configurations are well formed; the pools, the emitter and the
factory grant no allowances -/
structure Base (w : World) : Prop where
  emitter_ne_backstop : w.emitterAddr ≠ w.backstopAddr
  emitter_ne_factory : w.emitterAddr ≠ w.factoryAddr
  backstop_ne_factory : w.backstopAddr ≠ w.factoryAddr
  emitter_not_pool : w.poolAddr w.emitterAddr = false
  backstop_not_pool : w.poolAddr w.backstopAddr = false
  factory_not_pool : w.poolAddr w.factoryAddr = false
  balances : ∀ t a, 0 ≤ w.balance t a
  cfg : ∀ p, Pool.CfgOk (w.pools p)
  allow : ∀ t o s, w.isProtocol o → o ≠ w.backstopAddr → (w.tok t).allow o s = (0, 0)

theorem Base.of_genesis {w : World} (h : Genesis w) : Base w :=
  ⟨h.emitter_ne_backstop, h.emitter_ne_factory, h.backstop_ne_factory, h.emitter_not_pool,
   h.backstop_not_pool, h.factory_not_pool, h.balances, fun p => by rw [h.pools p]; exact .empty,
   fun t o s ho _ => h.allowances t o s ho⟩

theorem Base.pool_ne {w : World} (h : Base w) {p : Address} (hp : w.poolAddr p = true) :
    p ≠ w.backstopAddr := by
  rintro rfl; rw [h.backstop_not_pool] at hp; simp at hp

theorem Base.pool_allow {w : World} (h : Base w) {p : Address} (hp : w.poolAddr p = true) (t s : Address) :
    (w.tok t).allow p s = (0, 0) :=
  h.allow t p s (.inr (.inr (.inr hp))) (h.pool_ne hp)

/-- who may change allowances: the backstop and accounts outside of the protocol -/
def World.approver (w : World) (x : Address) : Prop := x = w.backstopAddr ∨ ¬ w.isProtocol x
/-- who may lose tokens in a call of pool `p` -/
def World.payer (w : World) (p x : Address) : Prop := x = p ∨ x = w.backstopAddr ∨ ¬ w.isProtocol x

theorem Base.wf {w w' : World} {L : Address → Prop} (hb : Base w) (h : WF L w.approver w w')
    (hc : ∀ p, Pool.CfgOk (w'.pools p)) : Base w' := by
  refine ⟨?_, ?_, ?_, ?_, ?_, ?_, h.nonneg hb.balances, hc, fun t o s ho hne => ?_⟩
  · rw [h.emitterAddr, h.backstopAddr]; exact hb.emitter_ne_backstop
  · rw [h.emitterAddr, h.factoryAddr]; exact hb.emitter_ne_factory
  · rw [h.backstopAddr, h.factoryAddr]; exact hb.backstop_ne_factory
  · rw [h.emitterAddr, h.poolAddr]; exact hb.emitter_not_pool
  · rw [h.backstopAddr, h.poolAddr]; exact hb.backstop_not_pool
  · rw [h.factoryAddr, h.poolAddr]; exact hb.factory_not_pool
  · have ho' : w.isProtocol o := by
      unfold World.isProtocol at ho ⊢
      rwa [h.emitterAddr, h.backstopAddr, h.factoryAddr, h.poolAddr] at ho
    rw [h.backstopAddr] at hne
    rw [h.allow t o s, hb.allow t o s ho' hne]
    rintro (h1 | h1)
    · exact hne h1
    · exact h1 ho'

namespace Pool

/-- An effect of a pool call on the environment. Allowances of protocol contracts other than the
backstop being zero, a pull takes from the backstop or from a foreign account. -/
theorem pstep_wf {w0 w w' : World} {p : Address} {auth : List Address} {D : Eff → Prop} (hb : Base w0)
    (h0 : WF (w0.payer p) w0.approver w0 w) (hauth : ∀ a ∈ auth, ¬ w0.isProtocol a)
    (h : PStep p auth D w w') :
    WF (w0.payer p) w0.approver w w' ∧ (∀ q, q ≠ p → w'.pools q = w.pools q) ∧
      w'.emitter = w.emitter ∧ w'.factory = w.factory := by
  cases h with
  | setPool ps => exact ⟨.setPool _ _ _, fun q hq => pools_setPool_ne _ _ _ _ hq, rfl, rfl⟩
  | transfer hs h =>
    have r := transfer_res h
    refine ⟨.transfer ?_ r, fun q _ => by rw [r.frame], by rw [r.frame], by rw [r.frame]⟩
    rcases hs with rfl | hs
    · exact .inl rfl
    · exact .inr (.inr (hauth _ hs))
  | @pull _ t owner dst amt _ hpos h =>
    have r := transferFrom_res h
    have ha : w0.approver owner := by
      by_contra hn
      have hn' := hn
      unfold World.approver at hn
      push Not at hn
      have h1 := hb.allow t owner p hn.2 hn.1
      have h2 := h0.allow t owner p hn'
      rw [h1] at h2
      have := r.allowed
      unfold World.allowance at this
      simp only [h2] at this
      split at this <;> omega
    refine ⟨.transferFrom ?_ ha r, fun q _ => by rw [r.frame], by rw [r.frame], by rw [r.frame]⟩
    rcases ha with h | h
    · exact .inr (.inl h)
    · exact .inr (.inr h)
  | draw _ h =>
    obtain ⟨i, _, r⟩ := (Backstop.executeDraw_res h).ex
    refine ⟨(WF.setBackstop _ _).trans (.transfer (.inr (.inl h0.backstopAddr)) r), fun q _ => by rw [r.frame]; rfl,
      by rw [r.frame]; rfl, by rw [r.frame]; rfl⟩
  | @donate _ sender _ _ hs h =>
    obtain ⟨i, w1, _, r, rfl⟩ := (Backstop.executeDonate_res h).ex
    exact ⟨(WF.transfer (.inr (.inr (hauth _ hs))) r).trans (.setBackstop _ _),
      fun q _ => by show w1.pools q = _; rw [r.frame], by show w1.emitter = _; rw [r.frame],
      by show w1.factory = _; rw [r.frame]⟩
  | gulp _ h =>
    unfold Backstop.gulpPoolEmissions Backstop.inst at h
    simp only [bind_ok, require_ok, unwrap_ok, pure_ok, Prod.mk.injEq, chk_ok] at h
    obtain ⟨_, _, i, _, _, _, w1, ha, _, rfl⟩ := h
    obtain ⟨_, rfl⟩ := approve_res ha
    exact ⟨(WF.setAllowance _ (.inl h0.backstopAddr)).trans (.setBackstop _ _), fun q _ => rfl, rfl, rfl⟩

theorem psteps_wf {w w' : World} {p : Address} {auth : List Address} {D : Eff → Prop} (hb : Base w)
    (hauth : ∀ a ∈ auth, ¬ w.isProtocol a) (h : PSteps p auth D w w') :
    WF (w.payer p) w.approver w w' ∧ (∀ q, q ≠ p → w'.pools q = w.pools q) ∧
      w'.emitter = w.emitter ∧ w'.factory = w.factory := by
  induction h with
  | refl => exact ⟨.refl _, fun _ _ => rfl, rfl, rfl⟩
  | tail _ hs ih =>
    obtain ⟨h1, h2, h3, h4⟩ := ih
    obtain ⟨h5, h6, h7, h8⟩ := pstep_wf hb h1 hauth hs
    exact ⟨h1.trans h5, fun q hq => (h6 q hq).trans (h2 q hq), h7.trans h3, h8.trans h4⟩

end Pool

namespace Emitter

theorem distribute_ok {w w' : World} {b : Address} {n : Int} (h : executeDistribute w b = .ok (n, w')) :
    ∃ last i, w.emitter.lastDistro b = some last ∧ last ≤ w.time ∧ w.emitter.inst = some i ∧
      n = ((w.time - last : Nat) : Int) * SCALAR_7 ∧
      MintRes { w with emitter := { w.emitter with
        lastDistro := upd w.emitter.lastDistro b (some w.time) } } i.blnd b n w' := by
  unfold executeDistribute inst at h
  simp only [bind_ok, unwrap_ok, chk_ok, pure_ok, Prod.mk.injEq] at h
  obtain ⟨last, hl, secs, hs, _, ⟨_, rfl⟩, i, hi, w2, hm, rfl, rfl⟩ := h
  obtain ⟨h1, rfl⟩ := subU_ok.1 hs
  exact ⟨last, i, hl, h1, hi, rfl, mint_res hm⟩

theorem mints_wf {L A : Address → Prop} {t : Address} (l : List (Address × Int)) :
    ∀ (w w' : World), l.foldlM (fun w x => mint w t x.1 x.2) w = .ok w' →
    WF L A w w' ∧ w' = { w with tok := w'.tok } := by
  induction l with
  | nil => intro w w' h; rw [foldlM_nil] at h; subst h; exact ⟨.refl _, rfl⟩
  | cons x l ih =>
    intro w w' h
    rw [foldlM_cons] at h
    obtain ⟨w1, h1, h2⟩ := h
    have r := mint_res h1
    obtain ⟨h3, h4⟩ := ih _ _ h2
    exact ⟨(WF.mint r).trans h3, by rw [h4, r.frame]⟩

theorem drop_ok {L A : Address → Prop} {w w' : World} {auth : List Address} {l : List (Address × Int)}
    (h : drop w auth l = .ok w') :
    WF L A w w' ∧ w'.pools = w.pools ∧ w'.backstop = w.backstop ∧ w'.factory = w.factory ∧
    ∃ i w1, w.emitter.inst = some i ∧ i.backstop ∈ auth ∧ w.emitter.dropped i.backstop = false ∧
      l.foldlM (fun w x => mint w i.blnd x.1 x.2) w = .ok w1 ∧
      w' = { w1 with emitter := { w.emitter with dropped := upd w.emitter.dropped i.backstop true } } := by
  unfold drop inst at h
  simp only [bind_ok, unwrap_ok, requireAuth_ok, require_ok, pure_ok] at h
  obtain ⟨i, hi, _, ha, _, hd, tot, ht, _, hle, w1, hm, rfl⟩ := h
  obtain ⟨h1, h2⟩ := mints_wf (L := L) (A := A) l _ _ hm
  have he : w1.emitter = w.emitter := by rw [h2]
  refine ⟨h1.trans (.of_eq rfl rfl rfl rfl rfl rfl rfl rfl), by show w1.pools = _; rw [h2],
    by show w1.backstop = _; rw [h2], by show w1.factory = _; rw [h2], i, w1, hi, ha, hd, hm, by rw [he]⟩

theorem call_wf {L A : Address → Prop} {w w' : World} {auth : List Address} {c : EmitterCall}
    (h : emitterCall w auth c = .ok w') :
    WF L A w w' ∧ w'.pools = w.pools ∧ w'.backstop = w.backstop ∧ w'.factory = w.factory := by
  have hd : ∀ {w w' : World} {b : Address} {n : Int}, executeDistribute w b = .ok (n, w') →
      WF L A w w' ∧ w'.pools = w.pools ∧ w'.backstop = w.backstop ∧ w'.factory = w.factory := by
    intro w w' b n h
    obtain ⟨last, i, _, _, _, _, r⟩ := distribute_ok h
    exact ⟨WF.trans (b := { w with emitter := { w.emitter with
        lastDistro := upd w.emitter.lastDistro b (some w.time) } })
      (.of_eq rfl rfl rfl rfl rfl rfl rfl rfl) (.mint r), by rw [r.frame], by rw [r.frame],
      by rw [r.frame]⟩
  have hs : ∀ e, WF L A w { w with emitter := e } := fun e => .of_eq rfl rfl rfl rfl rfl rfl rfl rfl
  cases c with
  | «initialize» b s t =>
    simp only [emitterCall, init, bind_ok, pure_ok] at h
    obtain ⟨_, _, rfl⟩ := h; exact ⟨hs _, rfl, rfl, rfl⟩
  | distribute =>
    simp only [emitterCall, distribute, bind_ok, pure_ok, Prod.exists] at h
    obtain ⟨n, w1, ⟨_, _, h⟩, rfl⟩ := h
    exact hd h
  | queueSwap b t =>
    simp only [emitterCall, queueSwap, bind_ok, pure_ok] at h
    obtain ⟨_, _, _, _, _, _, rfl⟩ := h; exact ⟨hs _, rfl, rfl, rfl⟩
  | cancelSwap =>
    simp only [emitterCall, cancelSwap, bind_ok, pure_ok] at h
    obtain ⟨_, _, _, _, _, _, rfl⟩ := h; exact ⟨hs _, rfl, rfl, rfl⟩
  | swapBackstop =>
    simp only [emitterCall, swapBackstop, bind_ok, pure_ok, Prod.exists] at h
    obtain ⟨s, _, _, _, i, _, _, _, n, w1, hx, rfl⟩ := h
    obtain ⟨h1, h2, h3, h4⟩ := hd hx
    exact ⟨h1.trans (.of_eq rfl rfl rfl rfl rfl rfl rfl rfl), h2, h3, h4⟩
  | drop l =>
    obtain ⟨h1, h2, h3, h4, _⟩ := drop_ok (L := L) (A := A) h
    exact ⟨h1, h2, h3, h4⟩

end Emitter

namespace Backstop

/-- who may lose tokens in a call of the backstop -/
def _root_.Blend.World.bpayer (w : World) (x : Address) : Prop := x = w.backstopAddr ∨ ¬ w.isProtocol x

/-- only the backstop and accounts that authorized the call lose tokens; only the backstop grants allowances -/
theorem call_wf_auth {w w' : World} {auth : List Address} {c : BackstopCall}
    (h : backstopCall w auth c = .ok w') :
    WF (fun x => x = w.backstopAddr ∨ x ∈ auth) (fun x => x = w.backstopAddr) w w' ∧ w'.pools = w.pools ∧ w'.factory = w.factory := by
  have hs : ∀ b, WF (fun x => x = w.backstopAddr ∨ x ∈ auth) (fun x => x = w.backstopAddr) w (w.setBackstop b) := fun b => .setBackstop _ _
  cases c with
  | «initialize» t e u b f l =>
    simp only [backstopCall, init, bind_ok, pure_ok] at h
    obtain ⟨_, _, _, _, _, _, rfl⟩ := h; exact ⟨hs _, rfl, rfl⟩
  | deposit s p a =>
    simp only [backstopCall, deposit, executeDeposit, bind_ok, pure_ok, Prod.exists, requireAuth_ok,
      Prod.mk.injEq] at h
    obtain ⟨_, _, ⟨_, hm, _, _, _, _, _, _, _, b1, _, i, _, w2, ht, _, _, _, _, _, _, _, _, _, rfl⟩, rfl⟩ := h
    have r := transfer_res ht
    refine ⟨((hs b1).trans (.transfer (.inr hm) r)).trans (.setBackstop _ _), ?_, ?_⟩
    · show w2.pools = _; rw [r.frame]; rfl
    · show w2.factory = _; rw [r.frame]; rfl
  | queueWithdrawal s p a =>
    simp only [backstopCall, queueWithdrawal, executeQueue, bind_ok, pure_ok, Prod.exists] at h
    obtain ⟨_, _, _, _, _, _, _, _, _, _, _, rfl⟩ := h; exact ⟨hs _, rfl, rfl⟩
  | dequeueWithdrawal s p a =>
    simp only [backstopCall, dequeueWithdrawal, executeDequeue, bind_ok, pure_ok, Prod.exists] at h
    obtain ⟨_, _, _, _, _, _, _, _, _, _, _, _, _, rfl⟩ := h; exact ⟨hs _, rfl, rfl⟩
  | withdraw s p a =>
    simp only [backstopCall, withdraw, executeWithdraw, bind_ok, pure_ok, Prod.exists, Prod.mk.injEq] at h
    obtain ⟨_, _, ⟨_, _, _, _, _, _, _, _, _, _, pb', _, i, _, w2, ht, _, rfl⟩, rfl⟩ := h
    have r := transfer_res ht
    refine ⟨(hs _).trans (.transfer (.inl rfl) r), ?_, ?_⟩
    · rw [r.frame]; rfl
    · rw [r.frame]; rfl
  | gulpEmissions =>
    simp only [backstopCall, gulpEmissions, bind_ok, pure_ok, Prod.exists, Prod.mk.injEq] at h
    obtain ⟨_, _, ⟨_, _, _, _, _, _, _, _, _, _, _, _, _, _, _, _, _, _, b1, _, _, rfl⟩, rfl⟩ := h
    exact ⟨hs _, rfl, rfl⟩
  | addReward a r =>
    simp only [backstopCall, addReward, bind_ok, pure_ok, Prod.exists, ite_ok] at h
    obtain ⟨_, _, _, _, _, _, ⟨_, _, _, rfl⟩ | ⟨_, _, _, _, _, _, _, _, _, _, _, rfl⟩⟩ := h <;>
      exact ⟨hs _, rfl, rfl⟩
  | gulpPoolEmissions p =>
    simp only [backstopCall, gulpPoolEmissionsAuth, gulpPoolEmissions, bind_ok, pure_ok, Prod.exists,
      Prod.mk.injEq] at h
    obtain ⟨_, _, ⟨_, _, _, _, i, _, _, _, w1, ha, _, rfl⟩, rfl⟩ := h
    obtain ⟨_, rfl⟩ := approve_res ha
    exact ⟨(WF.setAllowance (A := fun x => x = w.backstopAddr) _ rfl).trans (.setBackstop _ _), rfl, rfl⟩
  | claim s ps d =>
    simp only [backstopCall, claim, executeClaim, cometDeposit, bind_ok, pure_ok, Prod.exists, ite_ok,
      Prod.mk.injEq] at h
    obtain ⟨_, _, ⟨_, _, _, _, n, cl, b1, _, ⟨_, i, _, lp, w2, ⟨w3, ht, w4, hm, s, _, rfl, rfl⟩, b2, _, _, rfl⟩ |
      ⟨_, _, rfl⟩⟩, rfl⟩ := h
    · have r := transfer_res ht
      have m := mint_res hm
      refine ⟨(((hs _).trans (.transfer (.inl rfl) r)).trans (.mint m)).trans
        (WF.trans (b := { w4 with cometShares := s }) (.of_eq rfl rfl rfl rfl rfl rfl rfl rfl) (.setBackstop _ _)), ?_, ?_⟩
      · show w4.pools = _; rw [m.frame, r.frame]; rfl
      · show w4.factory = _; rw [m.frame, r.frame]; rfl
    · exact ⟨hs _, rfl, rfl⟩
  | drop =>
    simp only [backstopCall, drop, bind_ok] at h
    obtain ⟨_, _, _, _, _, _, h⟩ := h
    obtain ⟨h1, h2, _, h3, _⟩ := Emitter.drop_ok  h
    exact ⟨h1, h2, h3⟩
  | draw p a d =>
    simp only [backstopCall, draw, bind_ok] at h
    obtain ⟨_, _, h⟩ := h
    obtain ⟨i, _, r⟩ := (executeDraw_res h).ex
    exact ⟨(hs _).trans (.transfer (.inl rfl) r), by rw [r.frame]; rfl, by rw [r.frame]; rfl⟩
  | donate s p a =>
    simp only [backstopCall, donate, bind_ok, requireAuth_ok] at h
    obtain ⟨_, hm, _, _, h⟩ := h
    obtain ⟨i, w1, _, r, rfl⟩ := (executeDonate_res h).ex
    exact ⟨(WF.transfer (.inr hm) r).trans (.setBackstop _ _),
      by show w1.pools = _; rw [r.frame], by show w1.factory = _; rw [r.frame]⟩
  | updateTknVal =>
    simp only [backstopCall, updateTknVal, bind_ok, pure_ok] at h
    obtain ⟨_, _, _, _, _, _, rfl⟩ := h; exact ⟨hs _, rfl, rfl⟩

theorem call_wf {w w' : World} {auth : List Address} {c : BackstopCall}
    (hauth : ∀ a ∈ auth, ¬ w.isProtocol a) (h : backstopCall w auth c = .ok w') :
    WF w.bpayer w.approver w w' ∧ w'.pools = w.pools ∧ w'.factory = w.factory := by
  obtain ⟨h1, h2⟩ := call_wf_auth h
  exact ⟨h1.mono (fun x hx => hx.imp_right (hauth x)) fun x hx => .inl hx, h2⟩

end Backstop
end Blend
