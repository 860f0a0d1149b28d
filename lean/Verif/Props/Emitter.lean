import Verif.Lemmas.EmitterInv
import Verif.Props.BackstopEmissions
import Verif.Examples.Demo
/-
  C39, C40, C41: the emitter.
-/

namespace Blend
namespace Props
open Spec Demo

/-- **C39.** In any history the BLND minted is one token for every second by which the last
distribution of the current backstop moved forward, plus what drops minted; this does not depend on how often
or when `distribute` was called, nor on swaps of the backstop in between.
(`ht`: BLND is not the LP token, which Comet mints.) -/
theorem C39_emission {w w' : World} {D : Int} {i : EmitterInst} (hr : Reachable w) (hs : DropHistory w w' D)
    (hi : w.emitter.inst = some i) (ht : ∀ j, w'.backstop.inst = some j → j.backstopToken ≠ i.blnd) :
    ∃ i' last last', w'.emitter.inst = some i' ∧ i'.blnd = i.blnd ∧ w.emitter.lastDistro i.backstop = some last ∧
      w'.emitter.lastDistro i'.backstop = some last' ∧ last ≤ last' ∧ last' ≤ w'.time ∧
      minted w' i.blnd - minted w i.blnd = ((last' : Int) - last) * ONE7 + D := by
  induction hs with
  | refl =>
    obtain ⟨l, hl, hle⟩ := hr.eminv i hi
    exact ⟨i, l, l, hi, rfl, hl, hl, le_refl _, hle, by ring⟩
  | @tail a b op D h1 h2 ih =>
    have hra := hr.steps h1.steps
    obtain ⟨i1, l, l1, e1, e2, e3, e4, e5, e6, e7⟩ := ih fun j hj => ht j (Backstop.inst_keep hra (.tail (.refl _) ⟨op, h2⟩) hj)
    obtain ⟨i2, l2, l3, f1, f2, f3, f4, f5, f6, f7⟩ := emission_step hra.base h2 hra.eminv e1 fun j hj => by
      rw [e2]; exact ht j (Backstop.inst_keep hra (.tail (.refl _) ⟨op, h2⟩) hj)
    rw [e4] at f3; cases f3
    rw [e2] at f2 f7
    exact ⟨i2, l, l3, f1, f2, e3, f4, e5.trans f5, f6, by rw [f7]; linarith⟩

/-- **C39.** A successful `distribute` (or the distribution in a swap) mints one token for each second since
the last distribution, all of it to the backstop that was current before; nobody else's balance changes. -/
theorem C39_distribute {w w' : World} {op : Op} (hr : Reachable w)
    (ho : ∃ auth, op = .emitter auth .distribute ∨ op = .emitter auth .swapBackstop) (h : step w op = .ok w') :
    ∃ i last i', w.emitter.inst = some i ∧ w.emitter.lastDistro i.backstop = some last ∧ last ≤ w.time ∧
      w'.emitter.inst = some i' ∧ w'.emitter.lastDistro i'.backstop = some w.time ∧
      (∀ t x, w'.balance t x = w.balance t x +
        if t = i.blnd ∧ x = i.backstop then ((w.time : Int) - last) * ONE7 else 0) ∧
      ∀ t, minted w' t = minted w t + if t = i.blnd then ((w.time : Int) - last) * ONE7 else 0 := by
  rcases emitter_step hr.base h with ⟨_, h2, _⟩ | hc
  · obtain ⟨auth, rfl | rfl⟩ := ho <;> exact absurd rfl (h2 _ _)
  · cases hc with
    | distribute auth i last w' hi hl hle r =>
      have e1 := congrArg World.emitter r.frame
      simp only at e1
      have hx : (((w.time - last : Nat) : Int)) * SCALAR_7 = ((w.time : Int) - last) * ONE7 := by
        rw [Nat.cast_sub hle]; rfl
      rw [hx] at r
      refine ⟨i, last, i, hi, hl, hle, by rw [e1]; exact hi, by rw [e1]; simp [upd], r.bal, r.minted⟩
    | swap auth i s last w1 w' hi hs hu hlt hl hle r e =>
      subst e
      have hx : (((w.time - last : Nat) : Int)) * SCALAR_7 = ((w.time : Int) - last) * ONE7 := by
        rw [Nat.cast_sub hle]; rfl
      rw [hx] at r
      exact ⟨i, last, _, hi, hl, hle, rfl, by simp [upd], r.bal, r.minted⟩
    | init => obtain ⟨_, h | h⟩ := ho <;> cases h
    | queue => obtain ⟨_, h | h⟩ := ho <;> cases h
    | cancel => obtain ⟨_, h | h⟩ := ho <;> cases h
    | drop op i l w1 w' hi h =>
      exfalso
      obtain ⟨_, rfl | rfl⟩ := ho
      · obtain ⟨_, ⟨h, _⟩ | ⟨h, _⟩⟩ := h <;> cases h
      · obtain ⟨_, ⟨h, _⟩ | ⟨h, _⟩⟩ := h <;> cases h

/-- **C39.** From the moment a backstop is installed (by initialization or by a swap) to any later
`distribute` or swap, exactly one token per second is minted, plus the drops. -/
theorem C39_per_second {w w1 w2 w3 : World} {op op' : Op} {D : Int} {i : EmitterInst} (hr : Reachable w)
    (ho : (∃ auth b s t, op = .emitter auth (.initialize b s t)) ∨ ∃ auth, op = .emitter auth .swapBackstop)
    (h1 : step w op = .ok w1) (h2 : DropHistory w1 w2 D)
    (ho' : ∃ auth, op' = .emitter auth .distribute ∨ op' = .emitter auth .swapBackstop) (h3 : step w2 op' = .ok w3)
    (hi : w1.emitter.inst = some i) (ht : ∀ j, w2.backstop.inst = some j → j.backstopToken ≠ i.blnd) :
    minted w3 i.blnd - minted w1 i.blnd = ((w3.time : Int) - w1.time) * ONE7 + D := by
  have hr1 : Reachable w1 := hr.step h1
  have hr2 := hr1.steps h2.steps
  obtain ⟨i2, l, l2, a1, a2, a3, a4, a5, a6, a7⟩ := C39_emission hr1 h2 hi ht
  obtain ⟨j, last, j', b1, b2, b3, b4, b5, b6, b7⟩ := C39_distribute hr2 ho' h3
  rw [a1] at b1; cases b1
  rw [a4] at b2; cases b2
  have hl : l = w1.time := by
    have hm : w1.time = w.time := ((step_frame hr.base h1).time (by
      intro dt ds; rcases ho with ⟨_, _, _, _, rfl⟩ | ⟨_, rfl⟩ <;> simp)).1
    rcases emitter_step hr.base h1 with ⟨_, h2, _⟩ | hc
    · rcases ho with ⟨_, _, _, _, rfl⟩ | ⟨_, rfl⟩ <;> exact absurd rfl (h2 _ _)
    · cases hc with
      | init auth b s t w' hn e =>
        subst e
        simp only [Option.some.injEq] at hi; subst hi
        simp only [upd, if_true, Option.some.injEq] at a3
        omega
      | swap auth k s last w1 w' hk hs hu hlt hl hle r e =>
        subst e
        simp only [Option.some.injEq] at hi; subst hi
        simp only [upd, if_true, Option.some.injEq] at a3
        omega
      | distribute => rcases ho with ⟨_, _, _, _, h⟩ | ⟨_, h⟩ <;> cases h
      | queue => rcases ho with ⟨_, _, _, _, h⟩ | ⟨_, h⟩ <;> cases h
      | cancel => rcases ho with ⟨_, _, _, _, h⟩ | ⟨_, h⟩ <;> cases h
      | drop op k l w1 w' hk h =>
        exfalso
        obtain ⟨_, ⟨rfl, _⟩ | ⟨rfl, _⟩⟩ := h <;> rcases ho with ⟨_, _, _, _, h⟩ | ⟨_, h⟩ <;> cases h
  have hm : w3.time = w2.time := ((step_frame hr2.base h3).time (by
      intro dt ds; obtain ⟨_, rfl | rfl⟩ := ho' <;> simp)).1
  rw [b7, if_pos a2.symm]
  rw [hm, ← hl]
  linarith

/-- **C40.** A drop succeeds only for the current backstop, with its authorization, mints exactly the listed
amounts, at most 50 million tokens in total. (Only the modelled backstop can call `drop` as a contract of the
protocol, and then it passes its list.) -/
theorem C40_drop {w w' : World} {op : Op} {l : List (Address × Int)} (hr : Reachable w) (ho : IsDrop w op l)
    (h : step w op = .ok w') : ∃ i, w.emitter.inst = some i ∧
      ((∃ auth, op = .emitter auth (.drop l) ∧ i.backstop ∈ auth) ∨
        (∃ auth, op = .backstop auth .drop ∧ i.backstop = w.backstopAddr)) ∧
      (l.map (·.2)).sum ≤ 50000000 * ONE7 ∧
      (∀ t x, w'.balance t x = w.balance t x + if t = i.blnd then paidTo l x else 0) := by
  rcases emitter_step hr.base h with ⟨_, h2, h3⟩ | hc
  · rcases ho with ⟨_, rfl⟩ | ⟨_, rfl, _⟩
    · exact absurd rfl (h2 _ _)
    · exact absurd rfl (h3 _)
  · cases hc with
    | init => rcases ho with ⟨_, h⟩ | ⟨_, h, _⟩ <;> cases h
    | distribute => rcases ho with ⟨_, h⟩ | ⟨_, h, _⟩ <;> cases h
    | queue => rcases ho with ⟨_, h⟩ | ⟨_, h, _⟩ <;> cases h
    | cancel => rcases ho with ⟨_, h⟩ | ⟨_, h, _⟩ <;> cases h
    | swap => rcases ho with ⟨_, h⟩ | ⟨_, h, _⟩ <;> cases h
    | drop op i l' w1 w' hi hop hd hsum hf e =>
      subst e
      have hll : l' = l := by
        obtain ⟨_, ⟨rfl, _⟩ | ⟨rfl, h, _⟩⟩ := hop <;> rcases ho with ⟨_, h'⟩ | ⟨_, h', hl⟩
        · cases h'; rfl
        · cases h'
        · cases h'
        · rw [h] at hl; cases hl; rfl
      subst hll
      refine ⟨i, hi, ?_, hsum, (mints_frame hf).2⟩
      obtain ⟨auth, ⟨rfl, h'⟩ | ⟨rfl, _, h'⟩⟩ := hop
      · exact .inl ⟨auth, rfl, h'⟩
      · exact .inr ⟨auth, rfl, h'⟩

/-- a dropped backstop stays dropped -/
theorem dropped_steps {w w' : World} (hb : Base w) (hs : Steps w w') {a : Address} (h : w.emitter.dropped a = true) :
    w'.emitter.dropped a = true := by
  have : Base w' ∧ w'.emitter.dropped a = true := hs.inv (P := fun w => Base w ∧ w.emitter.dropped a = true) (fun x y op hx hst => by
    refine ⟨(step_res hx.1 hst).base, ?_⟩
    rcases emitter_step hx.1 hst with ⟨h1, _⟩ | hc
    · rw [h1]; exact hx.2
    · cases hc with
      | init auth b s t w' hn e => subst e; exact hx.2
      | distribute auth i last w' hi hl hle r =>
        have e1 := congrArg World.emitter r.frame
        simp only at e1
        rw [e1]; exact hx.2
      | queue _ _ _ _ _ _ _ _ e => subst e; exact hx.2
      | cancel _ _ _ _ _ _ _ e => subst e; exact hx.2
      | swap _ _ _ _ _ _ _ _ _ _ _ _ _ e => subst e; exact hx.2
      | drop op i l' w1 w' hi hop hd hsum hf e =>
        subst e
        simp only [upd]
        split
        · rfl
        · exact hx.2) ⟨hb, h⟩
  exact this.2

/-- **C40.** Two drops in one history are always made for different backstops. -/
theorem C40_once {w w1 w2 w3 : World} {op op' : Op} {l l' : List (Address × Int)} {i i' : EmitterInst} (hr : Reachable w)
    (ho : IsDrop w op l) (h1 : step w op = .ok w1) (h2 : Steps w1 w2) (ho' : IsDrop w2 op' l') (h3 : step w2 op' = .ok w3)
    (hi : w.emitter.inst = some i) (hi' : w2.emitter.inst = some i') : i'.backstop ≠ i.backstop := by
  have key : ∀ {w w' : World} {op : Op} {l : List (Address × Int)} {i : EmitterInst}, Base w → IsDrop w op l → step w op = .ok w' →
      w.emitter.inst = some i → w.emitter.dropped i.backstop = false ∧ w'.emitter.dropped i.backstop = true := by
    intro w w' op l i hb ho h hi
    rcases emitter_step hb h with ⟨_, h2, h3⟩ | hc
    · rcases ho with ⟨_, rfl⟩ | ⟨_, rfl, _⟩
      · exact absurd rfl (h2 _ _)
      · exact absurd rfl (h3 _)
    · cases hc with
      | init => rcases ho with ⟨_, h⟩ | ⟨_, h, _⟩ <;> cases h
      | distribute => rcases ho with ⟨_, h⟩ | ⟨_, h, _⟩ <;> cases h
      | queue => rcases ho with ⟨_, h⟩ | ⟨_, h, _⟩ <;> cases h
      | cancel => rcases ho with ⟨_, h⟩ | ⟨_, h, _⟩ <;> cases h
      | swap => rcases ho with ⟨_, h⟩ | ⟨_, h, _⟩ <;> cases h
      | drop op j l' w1 w' hj hop hd hsum hf e =>
        subst e
        rw [hi] at hj; cases hj
        exact ⟨hd, by simp [upd]⟩
  have hr1 : Reachable w1 := hr.step h1
  have a := dropped_steps hr1.base h2 (key hr.base ho h1 hi).2
  have b := (key (hr1.steps h2).base ho' h3 hi').1
  intro e
  rw [e, a] at b
  cases b

/-- a queued swap was queued as described in C41 -/
def SwapQueued (w : World) (s : Swap) : Prop :=
  ∃ (a a' : World) (auth : List Address) (i : EmitterInst), Reachable a ∧
    step a (.emitter auth (.queueSwap s.newBackstop s.newBackstopToken)) = .ok a' ∧
    History KeepsSwap a' w ∧ s.unlockTime = a.time + 31 * 24 * 60 * 60 ∧ a.emitter.inst = some i ∧
    w.emitter.inst = some i ∧
    a.balance i.backstopToken i.backstop < a.balance i.backstopToken s.newBackstop

theorem swapQueued_step {w w' : World} {op : Op} (hr : Reachable w) (h : step w op = .ok w')
    (hq : ∀ s, w.emitter.swap = some s → SwapQueued w s) : ∀ s, w'.emitter.swap = some s → SwapQueued w' s := by
  intro s hs
  have keep : w.emitter.swap = some s → KeepsSwap op → w'.emitter.inst = w.emitter.inst → SwapQueued w' s := by
    intro h1 h2 h3
    obtain ⟨a, a', auth, i, b1, b2, b3, b4, b5, b6, b7⟩ := hq s h1
    exact ⟨a, a', auth, i, b1, b2, .tail b3 h2 h, b4, b5, by rw [h3, b6], b7⟩
  rcases emitter_step hr.base h with ⟨h1, h2, h3⟩ | hc
  · exact keep (by rw [← h1]; exact hs) (fun auth => ⟨h2 _ _, h2 _ _⟩) (by rw [h1])
  · cases hc with
    | init auth b s' t w' hn e =>
      subst e
      obtain ⟨a, a', auth', i, b1, b2, b3, b4, b5, b6, b7⟩ := hq s hs
      rw [hn] at b6; cases b6
    | distribute auth i last w' hi hl hle r =>
      have e1 := congrArg World.emitter r.frame
      simp only at e1
      rw [e1] at hs
      exact keep hs (fun _ => ⟨by simp, by simp⟩) (by rw [e1])
    | queue auth i b t w' hi hn hlt e =>
      subst e
      simp only [Option.some.injEq] at hs; subst hs
      exact ⟨w, _, auth, i, hr, h, .refl _, rfl, hi, hi, hlt⟩
    | cancel _ _ _ _ _ _ _ e => subst e; cases hs
    | swap _ _ _ _ _ _ _ _ _ _ _ _ _ e => subst e; cases hs
    | drop op i l' w1 w' hi hop hd hsum hf e =>
      subst e
      refine keep hs ?_ rfl
      obtain ⟨_, ⟨rfl, _⟩ | ⟨rfl, _⟩⟩ := hop <;> exact fun _ => ⟨by simp, by simp⟩

theorem _root_.Blend.Reachable.swapQueued {w : World} (hr : Reachable w) : ∀ s, w.emitter.swap = some s → SwapQueued w s := by
  have hr' := hr
  obtain ⟨w0, h0, hs⟩ := hr
  have : Reachable w ∧ ∀ s, w.emitter.swap = some s → SwapQueued w s :=
    hs.inv (P := fun w => Reachable w ∧ ∀ s, w.emitter.swap = some s → SwapQueued w s)
      (fun a b op ha hst => ⟨ha.1.step hst, swapQueued_step ha.1 hst ha.2⟩)
      ⟨⟨w0, h0, .refl _⟩, fun s hs => by rw [h0.emitter] at hs; cases hs⟩
  exact this.2

/-- **C41.** If an operation changes the emitter's initialized record, it is an execution of a swap that was
queued at least 31 days before and neither cancelled nor executed since; the new backstop held more backstop
tokens than the current one when it was queued, and does so now. BLND stays the same. -/
theorem C41_swap {w w' : World} {op : Op} {i : EmitterInst} (hr : Reachable w) (h : step w op = .ok w')
    (hi : w.emitter.inst = some i) (hne : w'.emitter.inst ≠ some i) :
    ∃ (auth auth' : List Address) (b t : Address) (a a' : World), op = .emitter auth .swapBackstop ∧
      w'.emitter.inst = some ⟨i.blnd, b, t⟩ ∧ Reachable a ∧ step a (.emitter auth' (.queueSwap b t)) = .ok a' ∧
      History KeepsSwap a' w ∧ a.time + 31 * 24 * 60 * 60 ≤ w.time ∧ a.emitter.inst = some i ∧
      a.balance i.backstopToken i.backstop < a.balance i.backstopToken b ∧
      w.balance i.backstopToken i.backstop < w.balance i.backstopToken b ∧ w'.emitter.swap = none := by
  rcases emitter_step hr.base h with ⟨h1, h2, h3⟩ | hc
  · rw [h1] at hne; exact absurd hi hne
  · cases hc with
    | init auth b s' t w' hn e => rw [hi] at hn; cases hn
    | distribute auth i last w' hi' hl hle r =>
      have e1 := congrArg World.emitter r.frame
      simp only at e1
      rw [e1] at hne
      exact absurd hi hne
    | queue _ _ _ _ _ _ _ _ e => subst e; exact absurd hi hne
    | cancel _ _ _ _ _ _ _ e => subst e; exact absurd hi hne
    | drop op j l' w1 w' hj hop hd hsum hf e => subst e; exact absurd hi hne
    | swap auth j s last w1 w' hj hs hu hlt hl hle r e =>
      subst e
      rw [hi] at hj; cases hj
      obtain ⟨a, a', auth', k, b1, b2, b3, b4, b5, b6, b7⟩ := hr.swapQueued s hs
      rw [hi] at b6; cases b6
      exact ⟨auth, auth', s.newBackstop, s.newBackstopToken, a, a', rfl, rfl, b1, b2, b3, by omega, b5, b7, hlt, rfl⟩

/-- **C41.** At most one swap is queued: queueing while one is queued reverts. -/
theorem C41_one {w : World} {auth : List Address} {b t : Address} {s : Swap} (hs : w.emitter.swap = some s) (w' : World) :
    step w (.emitter auth (.queueSwap b t)) ≠ .ok w' := by
  intro h
  simp only [step, emitterCall, Emitter.queueSwap, bind_ok, require_ok] at h
  obtain ⟨_, _, _, h, _⟩ := h
  rw [hs] at h; cases h

/-- **C41.** A queued swap disappears only by being executed, or by a cancellation at a time when the new backstop
does not hold more backstop tokens than the current one. -/
theorem C41_cancel {w w' : World} {op : Op} {s : Swap} {i : EmitterInst} (hr : Reachable w) (h : step w op = .ok w')
    (hs : w.emitter.swap = some s) (hi : w.emitter.inst = some i) (hne : w'.emitter.swap ≠ some s) :
    w'.emitter.swap = none ∧ ((∃ auth, op = .emitter auth .swapBackstop) ∨
      (∃ auth, op = .emitter auth .cancelSwap) ∧
        w.balance i.backstopToken s.newBackstop ≤ w.balance i.backstopToken i.backstop) := by
  rcases emitter_step hr.base h with ⟨h1, h2, h3⟩ | hc
  · rw [h1] at hne; exact absurd hs hne
  · cases hc with
    | init auth b s' t w' hn e => rw [hi] at hn; cases hn
    | distribute auth i last w' hi' hl hle r =>
      have e1 := congrArg World.emitter r.frame
      simp only at e1
      rw [e1] at hne
      exact absurd hs hne
    | queue _ _ _ _ _ _ hn _ e => rw [hs] at hn; cases hn
    | cancel auth j s' _ hj hs' hle e =>
      subst e
      rw [hi] at hj; cases hj
      rw [hs] at hs'; cases hs'
      exact ⟨rfl, .inr ⟨⟨auth, rfl⟩, hle⟩⟩
    | drop op j l' w1 w' hj hop hd hsum hf e => subst e; exact absurd hs hne
    | swap auth j s last w1 w' hj hs hu hlt hl hle r e =>
      subst e
      exact ⟨rfl, .inl ⟨auth, rfl⟩⟩

/-- carol (as a backstop contract) takes over from the original backstop -/
def swapOps : List Op := [
  .emitter [] (.initialize blndA backstopA lpA),
  .backstop [] (.initialize lpA emitterA usdcA blndA factoryA [(carol, 70000000), (bob, 5), (carol, 1)]),
  .ledger 100 20,
  .backstop [] .drop,
  .emitter [] (.queueSwap carol lpA),
  .ledger 2678400 535680]

/-- The hypotheses of `C39_emission`, `C39_distribute`, `C39_per_second` and `C40_drop` are met: a drop, a swap of the
backstop and distributions to both backstops happen, and BLND is not the LP token. -/
example : ∃ w w', Reachable w ∧ run w [.emitter [] .swapBackstop, .ledger 50 10, .emitter [] .distribute] = .ok w' ∧
    ((w.emitter.inst = some ⟨blndA, backstopA, lpA⟩ ∧ w'.emitter.inst = some ⟨blndA, carol, lpA⟩ ∧
      w'.emitter.lastDistro carol = some w'.time ∧ minted w' blndA = 2678550 * ONE7 + 70000006 ∧
      w'.balance blndA backstopA = 2678500 * ONE7 ∧ w'.balance blndA carol = 50 * ONE7 + 70000001) ∧
      w'.backstop.inst.map (·.backstopToken) = some lpA) := by
  obtain ⟨w, w', hr, hs, h⟩ := Demo.reach_runs (ops := swapOps)
    (ops' := [.emitter [] .swapBackstop, .ledger 50 10, .emitter [] .distribute])
    (f := fun w w' => decide ((w.emitter.inst = some ⟨blndA, backstopA, lpA⟩ ∧ w'.emitter.inst = some ⟨blndA, carol, lpA⟩ ∧
      w'.emitter.lastDistro carol = some w'.time ∧ minted w' blndA = 2678550 * ONE7 + 70000006 ∧
      w'.balance blndA backstopA = 2678500 * ONE7 ∧ w'.balance blndA carol = 50 * ONE7 + 70000001) ∧
      w'.backstop.inst.map (·.backstopToken) = some lpA)) (by decide +kernel)
  exact ⟨w, w', hr, hs, of_decide_eq_true h⟩

/-- The hypotheses of `C40_once` and `C41_swap` are met: after the swap the new backstop makes its own drop. -/
example : ∃ w w', Reachable w ∧ run w [.emitter [] .swapBackstop, .emitter [carol] (.drop [(dave, 3)])] = .ok w' ∧
    ((w.emitter.inst ≠ w'.emitter.inst) ∧ w'.balance blndA dave = 3) := by
  obtain ⟨w, w', hr, hs, h⟩ := Demo.reach_runs (ops := swapOps)
    (ops' := [.emitter [] .swapBackstop, .emitter [carol] (.drop [(dave, 3)])])
    (f := fun w w' => decide ((w.emitter.inst ≠ w'.emitter.inst) ∧ w'.balance blndA dave = 3)) (by decide +kernel)
  exact ⟨w, w', hr, hs, of_decide_eq_true h⟩

/-- The hypotheses of `C41_cancel` are met: the would-be backstop gives its tokens away and the swap is cancelled. -/
example : ∃ w w', Reachable w ∧ step w (.emitter [] .cancelSwap) = .ok w' ∧
    (w.emitter.swap = some ⟨carol, lpA, w.time⟩ ∧ w'.emitter.swap = none) := by
  obtain ⟨w, w', _, hr, hs, h⟩ := Demo.reach_step (ops := swapOps ++ [.tokenTransfer lpA carol dave 600000000000])
    (op := .emitter [] .cancelSwap)
    (f := fun w w' => decide (w.emitter.swap = some ⟨carol, lpA, w.time⟩ ∧ w'.emitter.swap = none)) (by decide +kernel)
  exact ⟨w, w', hr, hs, of_decide_eq_true h⟩

end Props
end Blend
