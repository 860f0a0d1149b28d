import Verif.Spec.FollowManage
import Verif.Lemmas.FollowStep
import Verif.Props.Manage
import Verif.Props.BackstopManage
import Verif.Props.Gulp
import Verif.Props.RewardZone
/-
  Lemmas for C80: every operation and its log keep the notes of the observer of the management right.
-/

namespace Blend
open Spec Pool

/-- an event that does not concern the management of anything -/
def Plain : Event → Prop
  | .supply .. | .withdraw .. | .supplyCollateral .. | .withdrawCollateral .. | .borrow .. | .repay .. | .fillAuction ..
  | .deleteLiquidation .. | .badDebt .. | .newLiquidation .. | .newAuction .. | .updateEmissions .. | .claim .. | .deposit ..
  | .queueWithdrawal .. | .dequeueWithdrawal .. | .backstopWithdraw .. | .gulpEmissions .. | .backstopClaim .. | .draw ..
  | .donate .. | .drop .. => True
  | _ => False

theorem Plain.setup {p : Address} {F : SetupNotes} {t : Nat} {e : Event} (h : Plain e) : F.see p (t, e) = F ∧ F.Agrees p (t, e) := by
  cases e <;> first | exact ⟨rfl, trivial⟩ | exact h.elim

theorem Plain.system {F : SystemNotes} {t : Nat} {e : Event} (h : Plain e) : F.see (t, e) = F ∧ F.Agrees (t, e) := by
  cases e <;> first | exact ⟨rfl, trivial⟩ | exact h.elim

theorem badDebtEvents_plain {p u : Address} {rl : List Address} : ∀ {l : List (Nat × Int)} {ev : List Event},
    badDebtEvents p u rl l = .ok ev → ∀ e ∈ ev, Plain e := by
  intro l
  induction l with
  | nil => intro ev h; simp only [badDebtEvents, pure_ok] at h; subst h; simp
  | cons kv t ih =>
    obtain ⟨i, b⟩ := kv
    intro ev h
    simp only [badDebtEvents, bind_ok, pure_ok] at h
    obtain ⟨a, _, l, hl, rfl⟩ := h
    intro e he
    rcases List.mem_cons.1 he with rfl | he
    · trivial
    · exact ih hl e he

theorem fillLog_plain {fl : Flight} {p u : Address} {t : Nat} {n : Int} {ev : List Event} (h : fillLog fl p t u n = .ok ev) :
    ∀ e ∈ ev, Plain e := by
  simp only [fillLog, bind_ok, Prod.exists] at h
  obtain ⟨a, _, x, y, _, h⟩ := h
  have fin : ∀ l : List Event, (∀ e ∈ l, Plain e) → ∀ e ∈ l ++ [Event.fillAuction p u t fl.user.addr n], Plain e := by
    intro l hl e he
    rcases List.mem_append.1 he with he | he
    · exact hl e he
    · simp only [List.mem_singleton] at he; subst he; trivial
  split at h
  · simp only [bind_ok, pure_ok] at h; obtain ⟨_, rfl, rfl⟩ := h; exact fin _ (by simp)
  · split at h
    · simp only [bind_ok, pure_ok] at h
      obtain ⟨l, hl, rfl⟩ := h
      refine fin _ ?_
      simp only [fillBadDebtLog, bind_ok] at hl
      obtain ⟨i, _, c1, _, c2, _, tk, _, lot, _, w2, _, hl⟩ := hl
      split at hl
      · simp only [pure_ok] at hl; subst hl; simp [Plain]
      · simp only [bind_ok] at hl
        obtain ⟨d, _, hl⟩ := hl
        split at hl
        · simp only [bind_ok, pure_ok] at hl
          obtain ⟨l', hl', rfl⟩ := hl
          intro e he
          rcases List.mem_cons.1 he with rfl | he
          · trivial
          · exact badDebtEvents_plain hl' e he
        · simp only [pure_ok] at hl; subst hl; simp [Plain]
    · simp only [bind_ok, pure_ok] at h
      obtain ⟨l, hl, rfl⟩ := h
      refine fin _ ?_
      simp only [fillInterestLog, bind_ok, pure_ok] at hl
      obtain ⟨_, _, _, _, rfl⟩ := hl
      simp [Plain]

theorem requestLog_plain {p : Address} {s : SubmitState} {q : Request} {ev : List Event} (h : requestLog p s q = .ok ev) :
    ∀ e ∈ ev, Plain e := by
  unfold requestLog at h
  dsimp only at h
  split at h
  · simp only [bind_ok, Prod.exists, pure_ok] at h; obtain ⟨_, _, _, _, _, rfl⟩ := h; simp [Plain]
  · simp only [bind_ok, Prod.exists, pure_ok] at h; obtain ⟨_, _, _, _, _, _, rfl⟩ := h; simp [Plain]
  · simp only [bind_ok, Prod.exists, pure_ok] at h; obtain ⟨_, _, _, _, _, rfl⟩ := h; simp [Plain]
  · simp only [bind_ok, Prod.exists, pure_ok] at h; obtain ⟨_, _, _, _, _, _, rfl⟩ := h; simp [Plain]
  · simp only [bind_ok, Prod.exists, pure_ok] at h; obtain ⟨_, _, _, _, _, rfl⟩ := h; simp [Plain]
  · simp only [bind_ok, Prod.exists, pure_ok] at h
    obtain ⟨_, _, _, _, _, h⟩ := h
    split at h
    · simp only [bind_ok, pure_ok] at h; obtain ⟨_, _, _, _, _, _, rfl⟩ := h; simp [Plain]
    · simp only [pure_ok] at h; subst h; simp [Plain]
  · exact fillLog_plain h
  · exact fillLog_plain h
  · exact fillLog_plain h
  · simp only [pure_ok] at h; subst h; simp [Plain]
  · cases h

theorem requestsLog_plain {p : Address} {auth : List Address} : ∀ {l : List Request} {s : SubmitState} {ev : List Event},
    requestsLog p auth l s = .ok ev → ∀ e ∈ ev, Plain e := by
  intro l
  induction l with
  | nil => intro s ev h; simp only [requestsLog, pure_ok] at h; subst h; simp
  | cons q l ih =>
    intro s ev h
    simp only [requestsLog, bind_ok, pure_ok] at h
    obtain ⟨e1, h1, s', _, e2, h2, rfl⟩ := h
    intro e he
    rcases List.mem_append.1 he with he | he
    · exact requestLog_plain h1 e he
    · exact ih h2 e he

theorem claimDepositLog_plain {lp n : Int} {claims : SMap Int} {d : Address} : ∀ {ps : List Address} {b : BackstopState} {ev : List Event},
    Backstop.claimDepositLog lp n claims d ps b = .ok ev → ∀ e ∈ ev, Plain e := by
  intro ps
  induction ps with
  | nil => intro b ev h; simp only [Backstop.claimDepositLog, pure_ok] at h; subst h; simp
  | cons p t ih =>
    intro b ev h
    simp only [Backstop.claimDepositLog, bind_ok, pure_ok] at h
    obtain ⟨a, ha, dep, hd, m, hm, pb, hpb, ub, hub, l, hl, rfl⟩ := h
    intro e he
    rcases List.mem_cons.1 he with rfl | he
    · trivial
    · exact ih hl e he

/-- the events of the calls of a pool that do not manage it -/
theorem callLog_plain {w : World} {p : Address} {auth : List Address} {c : Call} (hu : c.isUser = true) (hg : c ≠ .gulpEmissions)
    {ev : List Event} (h : callLog w p auth c = .ok ev) : ∀ e ∈ ev, Plain e := by
  cases c with
  | submit s sp d l =>
    simp only [callLog, bind_ok] at h
    obtain ⟨_, _, h⟩ := h
    exact requestsLog_plain h
  | badDebt u => exact badDebtEvents_plain h
  | gulpEmissions => exact absurd rfl hg
  | claim s l d => simp only [callLog, bind_ok, Prod.exists, pure_ok] at h; obtain ⟨_, _, _, rfl⟩ := h; simp [Plain]
  | newLiquidation u n => simp only [callLog, bind_ok, Prod.exists, pure_ok] at h; obtain ⟨_, _, _, rfl⟩ := h; simp [Plain]
  | newBadDebt => simp only [callLog, bind_ok, Prod.exists, pure_ok] at h; obtain ⟨_, _, _, _, rfl⟩ := h; simp [Plain]
  | newInterest l => simp only [callLog, bind_ok, Prod.exists, pure_ok] at h; obtain ⟨_, _, _, _, rfl⟩ := h; simp [Plain]
  | _ => simp [Call.isUser] at hu

/-- the emission schedules change in a gulp only -/
theorem call_emis {w w' : World} {p : Address} {auth : List Address} {c : Call} (hpb : p ≠ w.backstopAddr)
    (hu : c.isUser = true) (hg : c ≠ .gulpEmissions) (h : call w p auth c = .ok w') :
    (w'.pools p).emisConfig = (w.pools p).emisConfig := by
  cases c with
  | submit sender spender dst reqs =>
    have key : ∀ {pos}, executeSubmit w p auth sender spender dst reqs = .ok (pos, w') →
        (w'.pools p).emisConfig = (w.pools p).emisConfig := by
      intro pos h
      obtain ⟨s, d, _, hs, _, _, e⟩ := submit_flight hpb h
      rw [e]
      exact hs.cfg.emisConfig
    simp only [call, bind_ok, pure_ok, requireAuth_ok, ite_ok, Prod.exists] at h
    obtain ⟨_, hs, ⟨_, _, _, pos, w1, h, rfl⟩ | ⟨_, pos, w1, h, rfl⟩⟩ := h
    · exact key h
    · exact key h
  | badDebt u =>
    simp only [call, transferBadDebt, PoolState.getInst, bind_ok, unwrap_ok, require_ok, Prod.exists, pure_ok] at h
    obtain ⟨i, hi, _, hne, _, hc, cache, hcl, ps1, cache', bs', u', hl, ps2, hst, rfl⟩ := h
    obtain ⟨a1, _⟩ := badDebtLoop_same _ _ _ _ _ _ _ _ _ hl
    have hd := storeAll_data hst
    rw [pools_setPool, hd]
    exact a1.cfg.emisConfig
  | gulpEmissions => exact absurd rfl hg
  | claim sender ids dst =>
    simp only [call, executeClaim, PoolState.getInst, bind_ok, Prod.exists, ite_ok, unwrap_ok, pure_ok, Prod.mk.injEq] at h
    obtain ⟨_, _, _, _, ⟨n1, ps1, hl, h⟩, rfl⟩ := h
    obtain ⟨m, sc⟩ := claim_loop (U := fun x => x = sender) (vb := fun a => w.balance a p)
      (pb := fun _ => 0) (pd := fun _ => 0) rfl _ _ _ _ _ hl
    rcases h with ⟨hpos, i, hi, w2, ht, _, rfl⟩ | ⟨_, _, rfl⟩
    · rw [(transferFrom_res ht).frame]
      show ((w.setPool p ps1).pools p).emisConfig = _
      rw [pools_setPool]; exact sc.emisConfig
    · rw [pools_setPool]; exact sc.emisConfig
  | newLiquidation u n =>
    simp only [call, createLiquidation, createUserLiq, bind_ok, require_ok, Prod.exists, pure_ok, ite_ok, Prod.mk.injEq] at h
    obtain ⟨i, hi, _, _, a, ps, h, rfl⟩ := h
    rw [pools_setPool]
    show ps.emisConfig = _
    obtain ⟨_, _, _, _, blk, _, cache, hc, pd, cache1, hpd, _, _, pct, wd, sh, _, lot, _, bid, _,
      ⟨_, _, _, rfl, rfl⟩ | ⟨_, c, hrm, nd, _, _, _, _, _, _, _, _, _, _, rfl, rfl⟩⟩ := h
    · rfl
    · exact (rmPositions_same hrm).1.cfg.emisConfig
  | newBadDebt =>
    simp only [call, createBadDebt, bind_ok, pure_ok] at h
    obtain ⟨i, hi, a, _, rfl⟩ := h
    rw [pools_setPool]; rfl
  | newInterest l =>
    simp only [call, createInterest, bind_ok, pure_ok] at h
    obtain ⟨i, hi, a, _, rfl⟩ := h
    rw [pools_setPool]; rfl
  | _ => simp [Call.isUser] at hu

/-- after seeing `ev`, published at time `t`, the notes are `F'`, and every event agreed with the notes before it -/
def Followed (p : Address) (t : Nat) (F : SetupNotes) (ev : List Event) (F' : SetupNotes) : Prop :=
  (ev.map fun e => (t, e)).foldl (SetupNotes.see p) F = F' ∧
  ∀ l1 e l2, ev = l1 ++ e :: l2 → ((l1.map fun e => (t, e)).foldl (SetupNotes.see p) F).Agrees p (t, e)

theorem Followed.nil {p : Address} {t : Nat} {F : SetupNotes} : Followed p t F [] F :=
  ⟨rfl, fun l1 e l2 h => by simp at h⟩

theorem Followed.cons {p : Address} {t : Nat} {F F' : SetupNotes} {e : Event} {l : List Event} (h1 : F.Agrees p (t, e))
    (h2 : Followed p t (F.see p (t, e)) l F') : Followed p t F (e :: l) F' := by
  refine ⟨h2.1, fun l1 e1 l2 h => ?_⟩
  cases l1 with
  | nil => simp only [List.nil_append, List.cons.injEq] at h; obtain ⟨rfl, rfl⟩ := h; exact h1
  | cons x l1 =>
    simp only [List.cons_append, List.cons.injEq] at h
    obtain ⟨rfl, h⟩ := h
    exact h2.2 l1 e1 l2 h

theorem Followed.one {p : Address} {t : Nat} {F : SetupNotes} {e : Event} (h1 : F.Agrees p (t, e)) :
    Followed p t F [e] (F.see p (t, e)) := .cons h1 .nil

theorem Followed.quiet {p : Address} {t : Nat} {F : SetupNotes} : ∀ {ev : List Event},
    (∀ e ∈ ev, F.see p (t, e) = F ∧ F.Agrees p (t, e)) → Followed p t F ev F := by
  intro ev
  induction ev with
  | nil => intro _; exact .nil
  | cons e l ih =>
    intro h
    obtain ⟨h1, h2⟩ := h e (List.mem_cons_self ..)
    exact .cons h2 (by rw [h1]; exact ih fun x hx => h x (List.mem_cons_of_mem _ hx))

theorem Followed.append {p : Address} {t : Nat} : ∀ {a b : List Event} {F F' F'' : SetupNotes},
    Followed p t F a F' → Followed p t F' b F'' → Followed p t F (a ++ b) F'' := by
  intro a
  induction a with
  | nil => intro b F F' F'' h h'; obtain rfl := h.1; exact h'
  | cons e l ih =>
    intro b F F' F'' h h'
    exact .cons (h.2 [] e l rfl) (ih ⟨h.1, fun l1 e1 l2 hh => h.2 (e :: l1) e1 l2 (by rw [hh]; rfl)⟩ h')

/-- the notes stay right if nothing the observer notes changes -/
theorem _root_.Blend.Spec.SetupNotes.Right.same {ps ps' : PoolState} {F : SetupNotes} (h : F.Right ps) (a : SameAdmin ps ps')
    (e : ps'.emisConfig = ps.emisConfig) : F.Right ps' := by
  obtain ⟨h1, h2, h3, h4, h5⟩ := h
  exact ⟨by rw [a.inst]; exact h1, by rw [a.resInit]; exact h2, by rw [a.resList]; exact h3, by rw [a.resConfig]; exact h4,
    by rw [e]; exact h5⟩

/-- the events of a gulp tell the new schedules -/
theorem gulp_follow {p : Address} {now : Nat} {n : Int} (h0 : 0 ≤ n) : ∀ {l : List (Nat × Nat)} {ps ps' : PoolState} {ev : List Event}
    {F : SetupNotes}, l.foldlM (fun ps kv => do
      let asset ← unwrap (ps.resList[kv.1 / 2]?)
      let n ← fixedMulFloor (kv.2 : Int) n SCALAR_7
      updateReserveEmisConfig ps now asset kv.1 n) ps = .ok ps' → gulpLog p now n l ps = .ok ev → F.Right ps →
    ∃ F', Followed p now F ev F' ∧ F'.Right ps' := by
  intro l
  induction l with
  | nil =>
    intro ps ps' ev F h hev hF
    rw [foldlM_nil] at h
    simp only [gulpLog, pure_ok] at hev
    subst h; subst hev
    exact ⟨F, .nil, hF⟩
  | cons kv t ih =>
    intro ps ps' ev F h hev hF
    rw [foldlM_cons] at h
    obtain ⟨ps1, h1, h⟩ := h
    obtain ⟨id, share⟩ := kv
    simp only [gulpLog, bind_ok, pure_ok] at hev
    obtain ⟨a, ha, x, hx, ps2, h2, c, hc, l', hl', rfl⟩ := hev
    have e : ps2 = ps1 := by
      simp only [bind_ok] at h1
      obtain ⟨a', ha', x', hx', h1⟩ := h1
      rw [ha] at ha'; cases ha'
      rw [hx] at hx'; cases hx'
      rw [h2] at h1; cases h1; rfl
    subst e
    have hother : ∀ j, j ≠ id → ps2.emisConfig j = ps.emisConfig j := by
      intro j hj
      refine ((poolFold_exact (now := now) h0 [(id, share)] ps ps2 (by simp) ?_).2 j (by simpa using hj)).2.1
      rw [foldlM_cons]
      exact ⟨ps2, h1, by rw [foldlM_nil]⟩
    obtain ⟨ed, ec, e⟩ := updateReserveEmisConfig_other h2
    have hF1 : (F.see p (now, .reserveEmission p id c.eps c.expiration)).Right ps2 := by
      simp only [SetupNotes.see, if_true]
      refine ⟨?_, ?_, ?_, ?_, fun j => ?_⟩
      · rw [e]; exact hF.inst
      · rw [e]; exact hF.queued
      · rw [e]; exact hF.reserves
      · rw [e]; exact hF.config
      · simp only [upd_apply]
        split
        · rename_i hj; subst hj
          rw [unwrap_ok.1 hc]; rfl
        · rename_i hj
          rw [hother j hj]; exact hF.emissions j
    obtain ⟨F', g1, g2⟩ := ih h hl' hF1
    exact ⟨F', .cons trivial g1, g2⟩

/-- a call that manages the pool `q` publishes events of `q` only -/
def About (q : Address) : Event → Prop
  | .setAdmin p .. | .updatePool p .. | .queueSetReserve p .. | .cancelSetReserve p .. | .setReserve p .. | .setStatus p ..
  | .reserveEmission p .. => p = q
  | e => Plain e

theorem About.quiet {p q : Address} (hpq : q ≠ p) {F : SetupNotes} {t : Nat} {e : Event} (h : About q e) :
    F.see p (t, e) = F ∧ F.Agrees p (t, e) := by
  cases e <;> simp only [About] at h <;> first
    | exact h.setup
    | (subst h
       first
       | exact ⟨by simp [SetupNotes.see, hpq], fun h => absurd h hpq⟩
       | exact ⟨by simp [SetupNotes.see, hpq], trivial⟩
       | (rename_i s _; cases s
          · exact ⟨by simp [SetupNotes.see, hpq], trivial⟩
          · exact ⟨by simp [SetupNotes.see, hpq], fun h => absurd h hpq⟩))

theorem Plain.about {q : Address} {e : Event} (h : Plain e) : About q e := by
  cases e <;> first | exact h | exact h.elim

theorem gulpLog_about {p : Address} {now : Nat} {n : Int} : ∀ {l : List (Nat × Nat)} {ps : PoolState} {ev : List Event},
    gulpLog p now n l ps = .ok ev → ∀ e ∈ ev, About p e := by
  intro l
  induction l with
  | nil => intro ps ev h; simp only [gulpLog, pure_ok] at h; subst h; simp
  | cons kv t ih =>
    obtain ⟨id, sh⟩ := kv
    intro ps ev h
    simp only [gulpLog, bind_ok, pure_ok] at h
    obtain ⟨_, _, _, _, _, _, _, _, l, hl, rfl⟩ := h
    intro e he
    rcases List.mem_cons.1 he with rfl | he
    · rfl
    · exact ih hl e he

theorem callLog_about {w : World} {p : Address} {auth : List Address} {c : Call} {ev : List Event} (h : callLog w p auth c = .ok ev) :
    ∀ e ∈ ev, About p e := by
  by_cases hu : c.isUser = true
  · by_cases hg : c = .gulpEmissions
    · subst hg
      simp only [callLog, bind_ok, Prod.exists, pure_ok] at h
      obtain ⟨n, w1, _, l, hl, rfl⟩ := h
      intro e he
      rcases List.mem_append.1 he with he | he
      · exact gulpLog_about hl e he
      · simp only [List.mem_singleton] at he; subst he; trivial
    · exact fun e he => (callLog_plain hu hg h e he).about
  · cases c <;> simp only [Call.isUser, not_true_eq_false] at hu <;> simp only [callLog, bind_ok, Prod.exists, pure_ok] at h
    · subst h; simp
    · obtain ⟨_, _, rfl⟩ := h; simp [About]
    · obtain ⟨_, _, rfl⟩ := h; simp [About]
    · obtain ⟨_, _, rfl⟩ := h; simp [About]
    · obtain ⟨_, _, rfl⟩ := h; simp [About]
    · obtain ⟨_, _, _, rfl⟩ := h; simp [About]
    · obtain ⟨_, _, _, _, _, _, rfl⟩ := h; simp [About]
    · obtain ⟨_, _, rfl⟩ := h; simp [About]
    · subst h; simp

theorem loaded_index {ps : PoolState} {now : Nat} {cache cache' : Cache} {a : Address} {st : Bool} {r : Reserve} {k : ReserveConfig}
    (he : cache.reserves = .empty) (hk : ps.resConfig a = some k) (h : cache.loadReserve ps now a st = .ok (r, cache')) :
    r.index = k.index := by
  have : (if st = true ∧ a ∉ cache.toStore then { cache with toStore := cache.toStore ++ [a] } else cache).reserves.get a = none := by
    split <;> simp only [he] <;> rfl
  simp only [Cache.loadReserve, this, bind_ok, pure_ok, Prod.mk.injEq, Reserve.load, unwrap_ok] at h
  obtain ⟨_, ⟨c, hc, d, _, _, _, _, _, rfl⟩, rfl, _⟩ := h
  rw [hk] at hc; cases hc; rfl

theorem plain_list {ev : List Event} (h : ∀ e ∈ ev, Plain e) {p : Address} {t : Nat} {F : SetupNotes} : Followed p t F ev F :=
  .quiet fun e he => (h e he).setup

/-- an operation that is not a call of the pool says nothing about its management -/
theorem other_setup {w : World} {op : Op} {p : Address} (hop : ∀ auth c, op ≠ .pool p auth c) {ev : List Event}
    (hev : logOf w op = .ok ev) {t : Nat} {F : SetupNotes} : Followed p t F ev F := by
  refine .quiet fun e he => ?_
  cases op with
  | pool q auth c =>
    have hq : q ≠ p := fun h => hop auth c (by rw [h])
    exact (callLog_about hev e he).quiet hq
  | backstop auth c =>
    cases c <;> simp only [logOf, backstopLog, bind_ok, Prod.exists, pure_ok] at hev
    case claim s ps d =>
      simp only [Backstop.claimLog, bind_ok, Prod.exists] at hev
      obtain ⟨n, cl, b, _, hev⟩ := hev
      split at hev
      · simp only [bind_ok, Prod.exists, pure_ok] at hev
        obtain ⟨_, _, _, _, _, l, hl, rfl⟩ := hev
        rcases List.mem_append.1 he with he | he
        · exact (claimDepositLog_plain hl e he).setup
        · simp only [List.mem_singleton] at he; subst he; exact ⟨rfl, trivial⟩
      · simp only [pure_ok] at hev; subst hev
        simp only [List.mem_singleton] at he; subst he; exact ⟨rfl, trivial⟩
    all_goals
      first
      | (subst hev; simp only [List.mem_singleton, List.not_mem_nil] at he; subst he; exact ⟨rfl, trivial⟩)
      | (obtain ⟨_, _, rfl⟩ := hev; simp only [List.mem_singleton] at he; subst he; exact ⟨rfl, trivial⟩)
      | (obtain ⟨_, _, _, rfl⟩ := hev; simp only [List.mem_singleton] at he; subst he; exact ⟨rfl, trivial⟩)
      | (subst hev; simp at he)
  | emitter auth c =>
    cases c <;> simp only [logOf, emitterLog, bind_ok, Prod.exists, pure_ok] at hev
    all_goals
      first
      | (subst hev; simp only [List.mem_singleton, List.not_mem_nil] at he; subst he; exact ⟨rfl, trivial⟩)
      | (obtain ⟨_, _, rfl⟩ := hev; simp only [List.mem_singleton] at he; subst he; exact ⟨rfl, trivial⟩)
      | (obtain ⟨_, _, _, _, rfl⟩ := hev; simp only [List.mem_singleton] at he; subst he; exact ⟨rfl, trivial⟩)
      | (obtain ⟨_, _, _, _, _, rfl⟩ := hev; simp only [List.mem_singleton] at he; subst he; exact ⟨rfl, trivial⟩)
      | (subst hev; simp at he)
  | factory auth c =>
    cases c <;> simp only [logOf, factoryLog, bind_ok, Prod.exists, pure_ok] at hev
    · subst hev; simp at he
    · obtain ⟨_, _, _, rfl⟩ := hev; simp only [List.mem_singleton] at he; subst he; exact ⟨rfl, trivial⟩
  | _ => simp only [logOf, pure_ok] at hev; subst hev; simp at he

/-- the pool is initialized, so only its own calls and expiry change what the observer notes -/
theorem other_right {w w' : World} (hr : Reachable w) {op : Op} (hs : step w op = .ok w') {p : Address}
    (hop : ∀ auth c, op ≠ .pool p auth c) {F : SetupNotes} (hF : F.Right (w.pools p)) : F.Right (w'.pools p) := by
  obtain ⟨i, hi, _⟩ := hF.inst
  by_cases h1 : ∃ t u, op = .expireAuction p t u
  · obtain ⟨t, u, rfl⟩ := h1
    simp only [step, pure_ok] at hs
    subst hs
    rw [pools_setPool]
    exact ⟨hF.inst, hF.queued, hF.reserves, hF.config, hF.emissions⟩
  by_cases h2 : ∃ a, op = .expireQueued p a
  · obtain ⟨a, rfl⟩ := h2
    simp only [step, pure_ok] at hs
    subst hs
    rw [pools_setPool]
    refine ⟨hF.inst, fun b q hq => ?_, hF.reserves, hF.config, hF.emissions⟩
    simp only [upd_apply] at hq
    split at hq
    · cases hq
    · exact hF.queued b q hq
  by_cases h3 : ∃ auth a s o r m, op = .factory auth (.deploy a s o r m) ∧ w.deployAddr a s = p
  · obtain ⟨auth, a, s, o, r, m, rfl, rfl⟩ := h3
    simp only [step, bind_ok, require_ok] at hs
    obtain ⟨_, _, hs⟩ := hs
    rcases factoryCall_ok hs with ⟨m, h, _⟩ | ⟨_, _, _, _, _, _, h, _, _, _, _, _, hn, _⟩
    · cases h
    · cases h; rw [hi] at hn; cases hn
  rw [(step_frame hr.base hs).pools p hop (fun auth a s o r m e e' => h3 ⟨auth, a, s, o, r, m, e, e'⟩)
    (fun t u e => h1 ⟨t, u, e⟩) fun a e => h2 ⟨a, e⟩]
  exact hF

/-- **one operation** and its events keep the notes of the observer of the pool right -/
theorem setup_step {w w' : World} (hr : Reachable w) {op : Op} (hs : step w op = .ok w') {ev : List Event} (hev : logOf w op = .ok ev)
    {p : Address} {F : SetupNotes} (hF : F.Right (w.pools p)) : ∃ F', Followed p w.time F ev F' ∧ F'.Right (w'.pools p) := by
  by_cases hop : ∀ auth c, op ≠ .pool p auth c
  · exact ⟨F, other_setup hop hev, other_right hr hs hop hF⟩
  push Not at hop
  obtain ⟨auth, c, rfl⟩ := hop
  obtain ⟨i, hi, e1, e2, e3, e4⟩ := hF.inst
  have hs0 := hs
  simp only [step, bind_ok, require_ok] at hs
  obtain ⟨_, hp, _, ha, hs⟩ := hs
  change callLog w p auth c = .ok ev at hev
  by_cases hu : c.isUser = true
  · by_cases hg : c = .gulpEmissions
    · subst hg
      simp only [callLog, bind_ok, Prod.exists, pure_ok] at hev
      obtain ⟨n, w1, hgp, l, hl, rfl⟩ := hev
      simp only [call, gulpEmissions, doGulp, PoolState.getInst, bind_ok, unwrap_ok, require_ok, Prod.exists, pure_ok,
        Prod.mk.injEq] at hs
      obtain ⟨n', w2, ⟨_, _, _, _, n1, w1', hg', ps, ⟨_, hn, hfold⟩, rfl, rfl⟩, rfl⟩ := hs
      rw [hgp] at hg'
      obtain ⟨rfl, rfl⟩ : n = n1 ∧ w1 = w1' := by
        have := Except.ok.inj hg'
        exact Prod.mk.inj this
      obtain ⟨_, _, _, bi, _, hw1⟩ := gulpPoolAuth_frame hgp
      have hF1 : F.Right (w1.pools p) := by rw [hw1]; exact hF
      have ht : w1.time = w.time := by rw [hw1]; rfl
      obtain ⟨F', g1, g2⟩ := gulp_follow (by have := S7_pos; omega) hfold hl hF1
      rw [pools_setPool]
      rw [ht] at g1
      exact ⟨F', g1.append (.cons trivial .nil), g2⟩
    · exact ⟨F, plain_list (callLog_plain hu hg hev),
        hF.same (call_admin (hr.base.pool_ne hp) hu hs) (call_emis (hr.base.pool_ne hp) hu hg hs)⟩
  · by_cases hm : ManageCall c
    · obtain ⟨j, ps, hj, hman, rfl⟩ := Props.C68_only_if hr hm hs0
      rw [hi] at hj; cases hj
      rw [pools_setPool]
      cases hman with
      | setAdmin h1 h2 =>
        simp only [callLog, PoolState.getInst, bind_ok, unwrap_ok, pure_ok] at hev
        obtain ⟨j, hj, rfl⟩ := hev
        rw [hi] at hj; cases hj
        refine ⟨_, .one fun _ => e1.symm, ?_⟩
        simp only [SetupNotes.see, if_true]
        exact ⟨⟨_, rfl, rfl, e2, e3, e4⟩, hF.queued, hF.reserves, hF.config, hF.emissions⟩
      | updatePool h1 h2 =>
        simp only [callLog, PoolState.getInst, bind_ok, unwrap_ok, pure_ok] at hev
        obtain ⟨j, hj, rfl⟩ := hev
        rw [hi] at hj; cases hj
        refine ⟨_, .one fun _ => e1.symm, ?_⟩
        simp only [SetupNotes.see, if_true]
        exact ⟨⟨_, rfl, e1, rfl, rfl, e4⟩, hF.queued, hF.reserves, hF.config, hF.emissions⟩
      | @queue a k h1 h2 h3 =>
        simp only [callLog, PoolState.getInst, bind_ok, unwrap_ok, pure_ok] at hev
        obtain ⟨j, hj, rfl⟩ := hev
        rw [hi] at hj; cases hj
        refine ⟨_, .one fun _ => e1.symm, ?_⟩
        simp only [SetupNotes.see, if_true]
        refine ⟨⟨_, hi, e1, e2, e3, e4⟩, fun b q hq => ?_, hF.reserves, hF.config, hF.emissions⟩
        simp only [upd_apply] at hq ⊢
        split at hq
        · rename_i hb
          rw [if_pos hb, e4]
          cases hq
          rfl
        · rename_i hb
          rw [if_neg hb]; exact hF.queued b q hq
      | @cancel a h1 =>
        simp only [callLog, PoolState.getInst, bind_ok, unwrap_ok, pure_ok] at hev
        obtain ⟨j, hj, rfl⟩ := hev
        rw [hi] at hj; cases hj
        refine ⟨_, .one fun _ => e1.symm, ?_⟩
        simp only [SetupNotes.see, if_true]
        refine ⟨⟨_, hi, e1, e2, e3, e4⟩, fun b q hq => ?_, hF.reserves, hF.config, hF.emissions⟩
        simp only [upd_apply] at hq ⊢
        split at hq
        · cases hq
        · rename_i hb
          rw [if_neg hb]; exact hF.queued b q hq
      | @newReserve a q h1 h2 h3 h4 =>
        simp only [callLog, bind_ok, Prod.exists, pure_ok] at hev
        obtain ⟨n, ps', hx, rfl⟩ := hev
        have hn : n = (w.pools p).resList.length := by
          simp only [setReserveRet, bind_ok, unwrap_ok, require_ok, initReserveRet] at hx
          obtain ⟨q', _, _, _, hx⟩ := hx
          rw [h3] at hx
          simp only [bind_ok, pure_ok, Prod.mk.injEq] at hx
          obtain ⟨_, _, rfl, _⟩ := hx
          rfl
        have hq := hF.queued a q h1
        refine ⟨_, .one fun _ => ⟨⟨_, _, hq, h2⟩, .inl ⟨by rw [hF.config, h3], by rw [hF.reserves, hn]⟩⟩, ?_⟩
        simp only [SetupNotes.see, if_true]
        refine ⟨⟨_, hi, e1, e2, e3, e4⟩, fun b q' hq' => ?_, ?_, fun b => ?_, hF.emissions⟩
        · simp only [upd_apply] at hq' ⊢
          split at hq'
          · cases hq'
          · rename_i hb
            rw [if_neg hb]; exact hF.queued b q' hq'
        · rw [hF.reserves, if_pos hn]
        · simp only [upd_apply]
          split
          · rw [hq, hn]; rfl
          · exact hF.config b
      | @changeReserve a q k d h1 h2 h3 h4 h5 m h6 h7 =>
        simp only [callLog, bind_ok, Prod.exists, pure_ok] at hev
        obtain ⟨n, ps', hx, rfl⟩ := hev
        have hn : n = k.index := by
          simp only [setReserveRet, bind_ok, unwrap_ok, require_ok, initReserveRet] at hx
          obtain ⟨q', _, _, _, hx⟩ := hx
          rw [h3] at hx
          simp only [bind_ok, pure_ok, Prod.mk.injEq, Prod.exists] at hx
          obtain ⟨cache, hc, r, c', hl, _, _, rfl, _⟩ := hx
          obtain ⟨_, hr0, _, _⟩ := load_ok (now := w.time) hc
          exact loaded_index hr0 h3 hl
        have hq := hF.queued a q h1
        have hidx : (w.pools p).resList[k.index]? = some a := (hr.base.cfg p).idx a k h3
        have hlt : k.index < (w.pools p).resList.length := (List.getElem?_eq_some_iff.1 hidx).1
        refine ⟨_, .one fun _ => ⟨⟨_, _, hq, h2⟩, .inr ⟨k, by rw [hF.config, h3], hn, by rw [hF.reserves, hn]; exact hidx⟩⟩, ?_⟩
        simp only [SetupNotes.see, if_true]
        refine ⟨⟨_, hi, e1, e2, e3, e4⟩, fun b q' hq' => ?_, ?_, fun b => ?_, hF.emissions⟩
        · simp only [upd_apply] at hq' ⊢
          split at hq'
          · cases hq'
          · rename_i hb
            rw [if_neg hb]; exact hF.queued b q' hq'
        · rw [hF.reserves, if_neg (by rw [hn]; omega)]
        · simp only [upd_apply]
          split
          · rw [hq, hn]; rfl
          · exact hF.config b
      | emissions h1 h2 =>
        simp only [callLog, pure_ok] at hev
        subst hev
        exact ⟨F, .nil, ⟨⟨_, hi, e1, e2, e3, e4⟩, hF.queued, hF.reserves, hF.config, hF.emissions⟩⟩
      | @updateStatus s h1 h2 h3 =>
        have hst : ev = [.setStatus p none s] := by
          simp only [callLog, PoolState.getInst, bind_ok, unwrap_ok, pure_ok] at hev
          obtain ⟨j, hj, d, hd, s1, hs1, rfl⟩ := hev
          simp only [call, updateStatus, PoolState.getInst, bind_ok, unwrap_ok, pure_ok] at hs
          obtain ⟨j', hj', d', hd', s2, hs2, hs⟩ := hs
          rw [hj] at hj'; cases hj'
          rw [hd] at hd'; cases hd'
          rw [hs1] at hs2; cases hs2
          have := congrArg (fun w : World => (w.pools p).inst) hs
          simp only [pools_setPool, Option.some.injEq] at this
          have := congrArg (fun i : PoolInst => i.config.status) this
          simp only at this
          rw [this]
        subst hst
        refine ⟨_, .one trivial, ?_⟩
        simp only [SetupNotes.see, if_true]
        exact ⟨⟨_, rfl, e1, e2, e3, rfl⟩, hF.queued, hF.reserves, hF.config, hF.emissions⟩
      | @setStatus s h1 h2 h3 h4 =>
        simp only [callLog, PoolState.getInst, bind_ok, unwrap_ok, pure_ok] at hev
        obtain ⟨j, hj, rfl⟩ := hev
        rw [hi] at hj; cases hj
        refine ⟨_, .one fun _ => e1.symm, ?_⟩
        simp only [SetupNotes.see, if_true]
        exact ⟨⟨_, rfl, e1, e2, e3, rfl⟩, hF.queued, hF.reserves, hF.config, hF.emissions⟩
    · -- only `initialize` is left, and it fails
      exfalso
      cases c with
      | «initialize» a o r m b l =>
        simp only [call, executeInit, bind_ok, pure_ok, require_ok, requireAuth_ok] at hs
        obtain ⟨_, _, _, ⟨_, hn, _⟩, _⟩ := hs
        rw [hi] at hn; simp at hn
      | setAdmin a => exact hm (.inl ⟨_, rfl⟩)
      | updatePool r m => exact hm (.inr (.inl ⟨_, _, rfl⟩))
      | queueSetReserve a c => exact hm (.inr (.inr (.inl ⟨_, _, rfl⟩)))
      | cancelSetReserve a => exact hm (.inr (.inr (.inr (.inl ⟨_, rfl⟩))))
      | setReserve a => exact hm (.inr (.inr (.inr (.inr (.inl ⟨_, rfl⟩)))))
      | setEmissionsConfig l => exact hm (.inr (.inr (.inr (.inr (.inr (.inl ⟨_, rfl⟩))))))
      | updateStatus => exact hm (.inr (.inr (.inr (.inr (.inr (.inr (.inl rfl)))))))
      | setStatus s => exact hm (.inr (.inr (.inr (.inr (.inr (.inr (.inr ⟨_, rfl⟩)))))))
      | _ => exact hu rfl

/-! The other contracts -/

/-- as `Followed`, for the observer of the other contracts -/
def FollowedS (t : Nat) (F : SystemNotes) (ev : List Event) (F' : SystemNotes) : Prop :=
  (ev.map fun e => (t, e)).foldl SystemNotes.see F = F' ∧
  ∀ l1 e l2, ev = l1 ++ e :: l2 → ((l1.map fun e => (t, e)).foldl SystemNotes.see F).Agrees (t, e)

theorem FollowedS.nil {t : Nat} {F : SystemNotes} : FollowedS t F [] F := ⟨rfl, fun l1 e l2 h => by simp at h⟩

theorem FollowedS.cons {t : Nat} {F F' : SystemNotes} {e : Event} {l : List Event} (h1 : F.Agrees (t, e))
    (h2 : FollowedS t (F.see (t, e)) l F') : FollowedS t F (e :: l) F' := by
  refine ⟨h2.1, fun l1 e1 l2 h => ?_⟩
  cases l1 with
  | nil => simp only [List.nil_append, List.cons.injEq] at h; obtain ⟨rfl, rfl⟩ := h; exact h1
  | cons x l1 =>
    simp only [List.cons_append, List.cons.injEq] at h
    obtain ⟨rfl, h⟩ := h
    exact h2.2 l1 e1 l2 h

theorem FollowedS.one {t : Nat} {F : SystemNotes} {e : Event} (h1 : F.Agrees (t, e)) : FollowedS t F [e] (F.see (t, e)) := .cons h1 .nil

theorem FollowedS.quiet {t : Nat} {F : SystemNotes} : ∀ {ev : List Event},
    (∀ e ∈ ev, F.see (t, e) = F ∧ F.Agrees (t, e)) → FollowedS t F ev F := by
  intro ev
  induction ev with
  | nil => intro _; exact .nil
  | cons e l ih =>
    intro h
    obtain ⟨h1, h2⟩ := h e (List.mem_cons_self ..)
    exact .cons h2 (by rw [h1]; exact ih fun x hx => h x (List.mem_cons_of_mem _ hx))

theorem About.system {q : Address} {F : SystemNotes} {t : Nat} {e : Event} (h : About q e) : F.see (t, e) = F ∧ F.Agrees (t, e) := by
  cases e <;> first | exact ⟨rfl, trivial⟩ | exact h.elim

/-- the events of the calls of the backstop, but for changes of the reward zone -/
theorem backstopLog_plain {w : World} {auth : List Address} {c : BackstopCall} (hc : ∀ a r, c ≠ .addReward a r) {ev : List Event}
    (hev : backstopLog w auth c = .ok ev) : ∀ e ∈ ev, Plain e := by
  intro e he
  cases c <;> simp only [backstopLog, bind_ok, Prod.exists, pure_ok] at hev
  case addReward a r => exact absurd rfl (hc a r)
  case claim s ps d =>
    simp only [Backstop.claimLog, bind_ok, Prod.exists] at hev
    obtain ⟨n, cl, b, _, hev⟩ := hev
    split at hev
    · simp only [bind_ok, Prod.exists, pure_ok] at hev
      obtain ⟨_, _, _, _, _, l, hl, rfl⟩ := hev
      rcases List.mem_append.1 he with he | he
      · exact claimDepositLog_plain hl e he
      · simp only [List.mem_singleton] at he; subst he; trivial
    · simp only [pure_ok] at hev; subst hev
      simp only [List.mem_singleton] at he; subst he; trivial
  all_goals
    first
    | (subst hev; simp only [List.mem_singleton] at he; subst he; trivial)
    | (obtain ⟨_, _, rfl⟩ := hev; simp only [List.mem_singleton] at he; subst he; trivial)
    | (obtain ⟨_, _, _, rfl⟩ := hev; simp only [List.mem_singleton] at he; subst he; trivial)
    | (subst hev; simp at he)

theorem zone_see {F : SystemNotes} {t : Nat} {a r : Address} : F.see (t, .rewardZone a r) =
    { F with zone := if F.zone.length < rewardZoneMax t then a :: F.zone else F.zone.map fun x => if x = r then a else x } := by
  simp only [SystemNotes.see]

/-- **one operation** and its events keep the notes of the observer of the other contracts right -/
theorem system_step {w w' : World} (hr : Reachable w) {op : Op} (hs : step w op = .ok w') {ev : List Event} (hev : logOf w op = .ok ev)
    {F : SystemNotes} (hF : F.Right w) : ∃ F', FollowedS w.time F ev F' ∧ F'.Right w' := by
  obtain ⟨i, hi, e1, e2⟩ := hF.emitter
  have fr := step_frame hr.base hs
  have zone : (∀ auth a r, op ≠ .backstop auth (.addReward a r)) → F.zone = w'.backstop.rewardZone := by
    intro h
    rcases Backstop.rewardZone_step hr.ball hs with h1 | ⟨auth, a, r, h1, _⟩
    · rw [h1]; exact hF.zone
    · exact absurd h1 (h auth a r)
  -- nothing the observer notes changes
  have same : (∀ auth c, op ≠ .factory auth c) → (∀ auth c, op ≠ .emitter auth c) → (∀ auth, op ≠ .backstop auth .drop) →
      (∀ auth a r, op ≠ .backstop auth (.addReward a r)) → F.Right w' := by
    intro h1 h2 h3 h4
    refine ⟨zone h4, ?_, ?_, ?_⟩
    · rw [fr.emitter h2 h3]; exact hF.emitter
    · rw [fr.emitter h2 h3]; exact hF.swap
    · rw [fr.factory h1]; exact hF.pools
  cases op with
  | pool p auth c =>
    exact ⟨F, .quiet fun e he => (callLog_about hev e he).system, same (by simp) (by simp) (by simp) (by simp)⟩
  | backstop auth c =>
    by_cases hc : ∃ a r, c = .addReward a r
    · obtain ⟨a, r, rfl⟩ := hc
      simp only [logOf, backstopLog, pure_ok] at hev
      subst hev
      have hs' := hs
      simp only [step, bind_ok, require_ok, backstopCall] at hs'
      obtain ⟨_, _, hs'⟩ := hs'
      have rr := Backstop.addReward_res hs'
      have hn : a ∉ F.zone := by rw [hF.zone]; exact rr.new
      refine ⟨_, .one hn, ?_⟩
      rw [zone_see]
      rcases rr.ex with ⟨hl, rfl⟩ | ⟨hl, _, _, _, rfl⟩
      · refine ⟨?_, hF.emitter, hF.swap, hF.pools⟩
        rw [Backstop.maxRzLen_eq, ← hF.zone] at hl
        rw [if_pos hl, hF.zone]; rfl
      · refine ⟨?_, hF.emitter, hF.swap, hF.pools⟩
        rw [Backstop.maxRzLen_eq, ← hF.zone] at hl
        rw [if_neg (Nat.not_lt.2 hl)]
        show _ = Backstop.replaceFirst w.backstop.rewardZone r a
        rw [Backstop.replaceFirst_map _ _ (Props.C36_reward_zone hr).1, hF.zone]
    · push Not at hc
      refine ⟨F, .quiet fun e he => (backstopLog_plain hc hev e he).system, ?_⟩
      by_cases hd : c = .drop
      · subst hd
        rcases emitter_step hr.base hs with ⟨_, _, h⟩ | h
        · exact absurd rfl (h auth)
        · cases h with
          | drop _ i' l w1 _ hi' _ _ _ _ e =>
            refine ⟨zone (by simp), ?_, ?_, by rw [fr.factory (by simp)]; exact hF.pools⟩
            · rw [e]; exact hF.emitter
            · rw [e]; exact hF.swap
      · exact same (by simp) (by simp) (by rintro _ h; cases h; exact hd rfl) (by rintro _ a r h; cases h; exact hc a r rfl)
  | emitter auth c =>
    have hz := zone (by simp)
    have hfac : ∀ p, F.pools p ↔ w'.factory.deployed p = true := by rw [fr.factory (by simp)]; exact hF.pools
    rcases emitter_step hr.base hs with ⟨_, h, _⟩ | h
    · exact absurd rfl (h auth c)
    cases h with
    | init _ b s t _ h e => rw [hi] at h; cases h
    | distribute _ j last _ hj hl hle m =>
      rw [hi] at hj; cases hj
      simp only [logOf, emitterLog, Emitter.inst, bind_ok, unwrap_ok, Prod.exists, pure_ok] at hev
      obtain ⟨j, hj, n, _, _, rfl⟩ := hev
      rw [hi] at hj; cases hj
      refine ⟨F, .one (F := F) e1.symm, hz, ?_, ?_, hfac⟩
      · rw [m.frame]; exact hF.emitter
      · rw [m.frame]; exact hF.swap
    | queue _ j b t _ hj hn hlt e =>
      simp only [logOf, emitterLog, Emitter.queueSwap, Emitter.queuedSwap, bind_ok, require_ok, pure_ok, -Nat.reduceMul] at hev
      obtain ⟨_, ⟨_, _, _, _, _, _, rfl⟩, s, hq, rfl⟩ := hev
      obtain rfl := Except.ok.inj hq
      have hag : F.Agrees (w.time, .queueSwap ⟨b, t, w.time + 31 * 24 * 60 * 60⟩) := by
        exact ⟨by rw [hF.swap, hn], rfl⟩
      refine ⟨_, .one hag, hz, ?_, ?_, hfac⟩
      · rw [e]; exact hF.emitter
      · rw [e]; simp only [SystemNotes.see]
    | cancel _ j s _ hj hq hle e =>
      simp only [logOf, emitterLog, Emitter.queuedSwap, hq, bind_ok, pure_ok, Except.ok.injEq] at hev
      obtain ⟨_, rfl, rfl⟩ := hev
      refine ⟨_, .one (by rw [SystemNotes.Agrees, hF.swap, hq]), hz, ?_, ?_, hfac⟩
      · rw [e]; exact hF.emitter
      · rw [e]; rfl
    | swap _ j s last w1 _ hj hq hun hlt hl hle m e =>
      simp only [logOf, emitterLog, Emitter.queuedSwap, hq, bind_ok, pure_ok, Except.ok.injEq] at hev
      obtain ⟨_, rfl, rfl⟩ := hev
      refine ⟨_, .one ⟨by rw [hF.swap, hq], hun⟩, hz, ?_, ?_, hfac⟩
      · rw [e]; exact ⟨_, rfl, rfl, rfl⟩
      · rw [e]; rfl
    | drop _ j l w1 _ hj ho _ _ _ e =>
      obtain ⟨_, ⟨ho, _⟩ | ⟨ho, _⟩⟩ := ho
      · cases ho
        simp only [logOf, emitterLog, pure_ok] at hev
        subst hev
        refine ⟨F, .one (F := F) trivial, hz, ?_, ?_, hfac⟩
        · rw [e]; exact hF.emitter
        · rw [e]; exact hF.swap
      · cases ho
  | factory auth c =>
    have hz := zone (by simp)
    have hem : w'.emitter = w.emitter := fr.emitter (by simp) (by simp)
    have hs' := hs
    simp only [step, bind_ok, require_ok] at hs'
    obtain ⟨_, _, hs'⟩ := hs'
    rcases factoryCall_ok hs' with ⟨m, rfl, hn, e⟩ | ⟨a, s, o, r, n, m, rfl, _, hm, _, _, hp, hn, e⟩
    · simp only [logOf, factoryLog, pure_ok] at hev
      subst hev
      refine ⟨F, .nil, hz, by rw [hem]; exact hF.emitter, by rw [hem]; exact hF.swap, ?_⟩
      rw [e]; exact hF.pools
    · simp only [logOf, factoryLog, bind_ok, Prod.exists, pure_ok] at hev
      obtain ⟨x, w2, hx, rfl⟩ := hev
      have hxa : x = w.deployAddr a s := by
        simp only [Factory.deploy, bind_ok, pure_ok, Prod.exists, require_ok, requireAuth_ok, Prod.mk.injEq] at hx
        obtain ⟨_, _, _, _, _, _, _, _, _, _, _, _, _, _, rfl, _⟩ := hx
        rfl
      subst hxa
      refine ⟨_, .one (fun hd => ?_), hz, by rw [hem]; exact hF.emitter, by rw [hem]; exact hF.swap, fun p => ?_⟩
      · obtain ⟨_, _, j, _, hj, _⟩ := hr.dep.pool _ ((hF.pools _).1 hd)
        rw [hn] at hj; cases hj
      · rw [e]
        simp only [SystemNotes.see, upd_apply]
        split
        · simp
        · exact hF.pools p
  | _ =>
    simp only [logOf, pure_ok] at hev
    subst hev
    exact ⟨F, .nil, same (by simp) (by simp) (by simp) (by simp)⟩

end Blend
