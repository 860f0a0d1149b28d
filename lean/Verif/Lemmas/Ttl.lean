import Verif.Spec.Ttl
import Verif.Props.Auctions
import Verif.Props.Admin
import Verif.Lemmas.BOps
/-
  Proofs about the times to live (C81).
-/

namespace Blend
open Spec

theorem step_seq {w w' : World} (hr : Reachable w) {op : Op} (h : step w op = .ok w') : w.seq ≤ w'.seq := by
  by_cases hl : ∃ dt ds, op = .ledger dt ds
  · obtain ⟨dt, ds, rfl⟩ := hl
    simp only [step, pure_ok] at h
    subst h
    exact Nat.le_add_right _ _
  · push Not at hl
    exact (((step_frame hr.base h).time hl).2).ge

namespace TReach

theorem step {T T' : TWorld} {op : Op} (h : TReach T) (hs : TStep T op T') : TReach T' := by
  obtain ⟨T0, l, g, hh⟩ := h
  exact ⟨T0, l ++ [op], g, .snoc hh hs⟩

theorem history {T T' : TWorld} {l : List Op} (h : TReach T) (hs : THistory T l T') : TReach T' := by
  induction hs with
  | nil => exact h
  | snoc _ hs ih => exact ih.step hs

theorem steps {T T' : TWorld} {l : List Op} (hs : THistory T l T') : Steps T.world T'.world := by
  induction hs with
  | nil => exact .refl _
  | snoc _ hs ih =>
    cases hs with
    | mk h _ => exact .tail ih ⟨_, h⟩

theorem reachable {T : TWorld} (h : TReach T) : Reachable T.world := by
  obtain ⟨T0, l, g, hh⟩ := h
  exact ⟨_, g, steps hh⟩

end TReach

theorem TStep.seq {T T' : TWorld} {op : Op} (h : TReach T) (hs : TStep T op T') : T.world.seq ≤ T'.world.seq := by
  cases hs with
  | mk hs _ => exact step_seq h.reachable hs

theorem le_extendTtl (seq live : Nat) (k : TKey) : live ≤ extendTtl seq live (ttlArgs k) := by
  unfold extendTtl
  split
  · rename_i h
    cases k <;> simp only [ttlArgs, oneDayLedgers] at h ⊢ <;> omega
  · exact le_refl _

theorem extendTtl_ge (seq live : Nat) (k : TKey) : seq + (ttlArgs k).1 ≤ extendTtl seq live (ttlArgs k) := by
  unfold extendTtl
  split
  · cases k <;> simp only [ttlArgs, oneDayLedgers] <;> omega
  · omega

/-- a time to live never becomes shorter while the entry exists -/
theorem TStep.live {T T' : TWorld} {op : Op} (hs : TStep T op T') {k : TKey} (hk : T.world.stored k = true) : T.live k ≤ T'.live k := by
  cases hs with
  | mk hs _ =>
    simp only [liveAfter]
    rw [if_pos hk]
    split
    · exact le_extendTtl _ _ _
    · exact le_refl _

/-- an entry that was just written has at least the threshold to live -/
theorem TStep.written {T T' : TWorld} {op : Op} (hs : TStep T op T') {k : TKey} (hw : T.world.writes op k = true)
    (hk : T'.world.stored k = true) : T.world.seq + (ttlArgs k).1 ≤ T'.live k := by
  cases hs with
  | mk hs _ =>
    simp only [liveAfter]
    rw [if_pos ⟨hw, hk⟩]
    exact extendTtl_ge _ _ _

namespace Pool

/-- how a queued change of a reserve comes and goes -/
theorem queued_step {w w' : World} (hr : Reachable w) {op : Op} (h : step w op = .ok w') (p x : Address) :
    (w'.pools p).resInit x = (w.pools p).resInit x ∨ op = .expireQueued p x ∨ SettlesQueued p x op ∨
    ∃ auth c i, op = .pool p auth (.queueSetReserve x c) ∧ (w.pools p).inst = some i ∧ (w.pools p).resInit x = none ∧
      (w'.pools p).resInit x = some ⟨c, if i.config.status = 6 then w.time else w.time + 7 * 24 * 60 * 60⟩ := by
  rcases admin_step hr.base h p with h | h
  · exact .inl (by rw [h.resInit])
  · generalize w'.pools p = ps' at h
    cases h with
    | inst => exact .inl rfl
    | queue auth i a c hi _ hn _ =>
      by_cases hx : x = a
      · subst hx
        refine .inr (.inr (.inr ⟨auth, c, i, rfl, hi, hn, ?_⟩))
        simp only [upd_same]
        by_cases h6 : i.config.status = 6 <;> simp [h6]
      · exact .inl (upd_ne hx)
    | cancel auth i a =>
      by_cases hx : x = a
      · subst hx; exact .inr (.inr (.inl ⟨auth, .inl rfl⟩))
      · exact .inl (upd_ne hx)
    | setReserve auth a q _ _ _ r =>
      by_cases hx : x = a
      · subst hx; exact .inr (.inr (.inl ⟨auth, .inr rfl⟩))
      · left; rw [r.resInit]; exact upd_ne hx
    | emis auth i l _ _ _ hl =>
      left
      simp only [setPoolEmissions, bind_ok, pure_ok, require_ok, Prod.exists] at hl
      obtain ⟨_, _, _, _, _, rfl⟩ := hl
      rfl
    | expire a =>
      by_cases hx : x = a
      · subst hx; exact .inr (.inl rfl)
      · exact .inl (upd_ne hx)

end Pool

namespace Backstop

/-- the drop list is written when the backstop is set up, and removed only by the ledger -/
theorem dropList_step {w w' : World} (hr : Reachable w) {op : Op} (h : step w op = .ok w') :
    w'.backstop.dropList = w.backstop.dropList ∨ (op = .expireDropList ∧ w'.backstop.dropList = none) ∨
    ∃ auth t e u b f l, op = .backstop auth (.initialize t e u b f l) ∧ w.backstop.inst = none ∧ w'.backstop.dropList = some l := by
  by_cases hx : op = .expireDropList
  · subst hx
    simp only [step, pure_ok] at h
    subst h
    exact .inr (.inl ⟨rfl, rfl⟩)
  by_cases hb : ∃ auth c, op = .backstop auth c
  · obtain ⟨auth, c, rfl⟩ := hb
    simp only [step, bind_ok, require_ok] at h
    obtain ⟨_, ha, h⟩ := h
    have sb : ∀ {b b1 : BackstopState}, SameBals b b1 → b1.dropList = b.dropList := fun e => by unfold SameBals at e; rw [e]
    cases call_cases hr.ball.inv h with
    | deposit r =>
      obtain ⟨x, b1, i, w2, h1, h2, h3, h4⟩ := r.ex
      exact .inl (by rw [h4]; exact (sb (emis_same h1) :))
    | queue r =>
      obtain ⟨x, b1, h1, h2⟩ := r.ex
      exact .inl (by rw [h2]; exact (sb (emis_same h1) :))
    | dequeue r =>
      obtain ⟨x, b1, q, h1, h2, h3⟩ := r.ex
      exact .inl (by rw [h3]; exact (sb (emis_same h1) :))
    | withdraw r =>
      obtain ⟨q, i, h1, h2, h3, h4⟩ := r.ex
      left; rw [h3]; rfl
    | claim r =>
      obtain ⟨b1, h1, h2⟩ := r.ex
      left; rw [h2.frame]
      change b1.dropList = _
      rw [h1]
    | draw _ r =>
      obtain ⟨i, h1, h2⟩ := r.ex
      left; rw [h2.frame]; rfl
    | donate _ _ r =>
      obtain ⟨i, w1, h1, h2, h3⟩ := r.ex
      left; rw [h3]; rfl
    | reward r =>
      left
      rcases r.ex with ⟨_, h⟩ | ⟨_, _, _, _, h⟩ <;> rw [h] <;> rfl
    | gulp _ h1 => left; rw [h1]
    | init h1 h2 => exact .inr (.inr ⟨_, _, _, _, _, _, _, rfl, h1, by rw [h2]⟩)
    | gulpPool _ h1 => left; rw [h1]
    | lpVal h1 => left; rw [h1]
    | drop h1 => left; rw [h1]
  · cases op with
    | pool p auth c =>
      simp only [step, bind_ok, require_ok] at h
      obtain ⟨_, hp, _, ha, h⟩ := h
      exact .inl (poolCall_eff h).dropList
    | backstop auth c => exact absurd ⟨auth, c, rfl⟩ hb
    | emitter auth c =>
      simp only [step, bind_ok, require_ok] at h
      obtain ⟨_, ha, h⟩ := h
      obtain ⟨h1, _, h2, _⟩ := Emitter.call_wf (L := fun _ => False) (A := fun _ => False) h
      exact .inl (by rw [h2])
    | factory auth c =>
      simp only [step, bind_ok, require_ok] at h
      obtain ⟨_, ha, h⟩ := h
      cases c with
      | «initialize» m =>
        simp only [factoryCall, Factory.init, bind_ok, pure_ok] at h
        obtain ⟨_, _, rfl⟩ := h
        exact .inl rfl
      | deploy a s o r m =>
        simp only [factoryCall, Factory.deploy, bind_ok, pure_ok, Prod.exists, require_ok, requireAuth_ok,
          Prod.mk.injEq] at h
        obtain ⟨x, w1, ⟨_, hm, mt, _, _, hr, _, _, _, hp, _, hi, w2, hc, rfl, rfl⟩, rfl⟩ := h
        simp only [Pool.call, bind_ok, pure_ok] at hc
        obtain ⟨_, _, _, _, rfl⟩ := hc
        exact .inl rfl
    | ledger dt ds => simp only [step, pure_ok] at h; subst h; exact .inl rfl
    | oracles o => simp only [step, pure_ok] at h; subst h; exact .inl rfl
    | comet s o => simp only [step, pure_ok, bind_ok] at h; obtain ⟨_, _, rfl⟩ := h; exact .inl rfl
    | tokenTransfer t s d a =>
      simp only [step, bind_ok, require_ok] at h
      obtain ⟨_, hs, h⟩ := h
      rw [(transfer_res h).frame]; exact .inl rfl
    | tokenMint t d a =>
      simp only [step, bind_ok, require_ok] at h
      obtain ⟨_, hs, h⟩ := h
      rw [(mint_res h).frame]; exact .inl rfl
    | tokenBurn t s a =>
      simp only [step, bind_ok, require_ok, pure_ok] at h
      obtain ⟨_, hs, _, ha, rfl⟩ := h
      exact .inl rfl
    | tokenApprove t o s a e =>
      simp only [step, bind_ok, require_ok] at h
      obtain ⟨_, hs, h⟩ := h
      obtain ⟨_, rfl⟩ := approve_res h
      exact .inl rfl
    | expireAuction p t u => simp only [step, pure_ok] at h; subst h; exact .inl rfl
    | expireQueued p a => simp only [step, pure_ok] at h; subst h; exact .inl rfl
    | expireDropList => simp only [step, pure_ok] at h; subst h; exact absurd rfl hx

end Backstop
end Blend
