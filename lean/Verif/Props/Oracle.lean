import Verif.Spec.Oracle
import Verif.Lemmas.OracExec
import Verif.Lemmas.CfgFrame
import Verif.Examples.Demo
/-
  C85: how far an oracle reaches.
-/

namespace Blend.Props
open Spec Pool

variable {w g : World}

private theorem other_told (h : OtherOracles w g) : g = w.told g.oracle := h

private theorem told_other (o : Address → Oracle) (w : World) : OtherOracles w (w.told o) := rfl

private theorem reports_op {op : Op} (h : reports op = true) : ∃ o, op = .oracles o := by
  cases op with
  | oracles o => exact ⟨o, rfl⟩
  | _ => cases h

/-- C85: an operation that asks no oracle goes the same way whatever the oracles say, and fails with the same error. -/
theorem C85_independent (h : OtherOracles w g) {op : Op} (ha : ¬ Asks op) (hr : reports op = false) :
    (∀ r w', exec w op = .ok (r, w') → ∃ g', exec g op = .ok (r, g') ∧ OtherOracles w' g') ∧
    (∀ e, exec w op = .error e → exec g op = .error e) := by
  rw [other_told h]
  have hs := orac_exec g.oracle w op ha hr
  constructor
  · intro r w' hw
    exact ⟨_, hs.ok hw, told_other _ _⟩
  · intro e he
    rw [Same] at hs
    rw [hs, he]; rfl

/-- C85: ... and publishes the same. -/
theorem C85_same_events (h : OtherOracles w g) {op : Op} (ha : ¬ Asks op) {ev : List Event} (hs : logOf w op = .ok ev) :
    logOf g op = .ok ev := by
  rw [other_told h]
  exact (orac_log g.oracle w op (.inr ha)).ok hs

/-- C85: histories that ask no oracle are the same whatever the oracles report meanwhile. -/
theorem C85_history (h : OtherOracles w g) {l l' : List Op} {w' : World} (hh : Played (fun _ op => ¬ Asks op) w l w')
    (hl : l'.filter (fun op => ! reports op) = l.filter (fun op => ! reports op)) :
    ∃ g', Played (fun _ _ => True) g l' g' ∧ OtherOracles w' g' := by
  -- without the reports
  have h1 : ∀ {l : List Op} {w w' : World}, Played (fun _ op => ¬ Asks op) w l w' → ∀ {g : World}, OtherOracles w g →
      ∃ g', Played (fun _ _ => True) g (l.filter (fun op => ! reports op)) g' ∧ OtherOracles w' g' := by
    intro l w w' hh
    induction hh with
    | nil w => intro g h; exact ⟨g, .nil _, h⟩
    | @cons w w1 w2 op l hq hs _ ih =>
      intro g h
      cases hr : reports op with
      | true =>
        rw [List.filter_cons_of_neg (by simp [hr])]
        refine ih ?_
        obtain ⟨o, rfl⟩ := reports_op hr
        simp only [step, pure_ok] at hs
        subst hs
        rw [OtherOracles, h]
      | false =>
        rw [List.filter_cons_of_pos (by simp [hr])]
        have hs' := (orac_step g.oracle w op hq hr).ok hs
        rw [← other_told h] at hs'
        obtain ⟨g', h2, h3⟩ := ih (told_other g.oracle w1)
        exact ⟨g', .cons trivial hs' h2, h3⟩
  -- and with others
  have h2 : ∀ (l' : List Op) {g g' : World}, Played (fun _ _ => True) g (l'.filter (fun op => ! reports op)) g' →
      (∀ op ∈ l', ¬ Asks op) → ∀ {f : World}, OtherOracles g f → ∃ f', Played (fun _ _ => True) f l' f' ∧ OtherOracles g' f' := by
    intro l'
    induction l' with
    | nil => intro g g' hp _ f hf; cases hp; exact ⟨f, .nil _, hf⟩
    | cons op l ih =>
      intro g g' hp ha f hf
      cases hr : reports op with
      | true =>
        rw [List.filter_cons_of_neg (by simp [hr])] at hp
        obtain ⟨o, rfl⟩ := reports_op hr
        obtain ⟨f', h3, h4⟩ := ih hp (fun x hx => ha x (by simp [hx])) (f := f.told o) (by
          rw [OtherOracles, hf]; rfl)
        exact ⟨f', .cons trivial rfl h3, h4⟩
      | false =>
        rw [List.filter_cons_of_pos (by simp [hr])] at hp
        cases hp with
        | cons _ hs hp =>
          have hs' := (orac_step f.oracle g op (ha op (by simp)) hr).ok hs
          rw [← other_told hf] at hs'
          obtain ⟨f', h3, h4⟩ := ih hp (fun x hx => ha x (by simp [hx])) (told_other f.oracle _)
          exact ⟨f', .cons trivial hs' h3, h4⟩
  obtain ⟨g1, h3, h4⟩ := h1 hh (g := w) rfl
  rw [← hl] at h3
  have hno : ∀ op ∈ l', ¬ Asks op := by
    have hall : ∀ {l : List Op} {w w' : World}, Played (fun _ op => ¬ Asks op) w l w' → ∀ op ∈ l, ¬ Asks op := by
      intro l w w' hp
      induction hp with
      | nil => simp
      | cons q _ _ ih => intro x hx; rcases List.mem_cons.1 hx with rfl | hx; exacts [q, ih x hx]
    intro op ho
    cases hr : reports op with
    | true => obtain ⟨o, rfl⟩ := reports_op hr; exact id
    | false =>
      have : op ∈ l'.filter (fun op => ! reports op) := List.mem_filter.2 ⟨ho, by simp [hr]⟩
      rw [hl] at this
      exact hall hh op (List.mem_filter.1 this).1
  obtain ⟨g', h5, h6⟩ := h2 l' h3 hno h
  exact ⟨g', h5, by rw [OtherOracles] at h4 h6 ⊢; rw [h6, h4]⟩

/-- the pieces of a submit -/
private theorem submit_exec {p : Address} {auth : List Address} {a b c : Address} {reqs : List Request} {r : Ret} {w' : World}
    (h : exec w (.pool p auth (.submit a b c reqs)) = .ok (r, w')) : ∃ pos, r = .positions pos ∧ executeSubmit w p auth a b c reqs = .ok (pos, w') := by
  simp only [exec, callRet, bind_ok, require_ok, ite_ok, Prod.exists, pure_ok, Prod.mk.injEq] at h
  obtain ⟨_, _, _, _, _, _, ⟨_, _, _, pos, w1, h, rfl, rfl⟩ | ⟨_, pos, w1, h, rfl, rfl⟩⟩ := h <;> exact ⟨pos, rfl, h⟩

private theorem submit_exec' {p : Address} {auth : List Address} {a b c : Address} {reqs : List Request} {r : Ret} {w' : World} (o : Address → Oracle)
    (h : exec w (.pool p auth (.submit a b c reqs)) = .ok (r, w')) {pos : Positions} {g' : World}
    (hs : executeSubmit (w.told o) p auth a b c reqs = .ok (pos, g')) :
    exec (w.told o) (.pool p auth (.submit a b c reqs)) = .ok (.positions pos, g') := by
  simp only [exec, callRet, bind_ok, require_ok, ite_ok, Prod.exists, pure_ok, Prod.mk.injEq] at h ⊢
  obtain ⟨_, h1, _, h2, _, h3, ⟨h4, _, h5, _, _, _⟩ | ⟨h4, _, _, _⟩⟩ := h
  · exact ⟨(), h1, (), h2, (), h3, .inl ⟨h4, (), h5, pos, g', hs, rfl, rfl⟩⟩
  · exact ⟨(), h1, (), h2, (), h3, .inr ⟨h4, pos, g', hs, rfl, rfl⟩⟩

/-- C85: a submit that leaves its sender without debts goes the same way whatever the oracles say. -/
theorem C85_no_debt (h : OtherOracles w g) {p : Address} {auth : List Address} {a b c : Address} {reqs : List Request} {pos : Positions} {w' : World}
    (hs : exec w (.pool p auth (.submit a b c reqs)) = .ok (.positions pos, w')) (hd : ∀ i, pos.liabilities.get i = none) :
    ∃ g', exec g (.pool p auth (.submit a b c reqs)) = .ok (.positions pos, g') ∧ OtherOracles w' g' := by
  obtain ⟨pos', he, hx⟩ := submit_exec hs
  cases he
  have hd' : pos.liabilities.isEmpty = true := by
    cases hl : pos.liabilities with
    | mk l =>
      cases l with
      | nil => rfl
      | cons x l =>
        have := hd x.1
        rw [hl] at this
        simp [SMap.get, SMap.getL] at this
  rw [other_told h]
  exact ⟨_, submit_exec' g.oracle hs (orac_submit_free g.oracle hx hd'), told_other _ _⟩

/-- C85: the oracles decide only whether a submit goes through, not what it does. -/
theorem C85_submit (h : OtherOracles w g) {p : Address} {auth : List Address} {a b c : Address} {reqs : List Request} {r r' : Ret} {w' g' : World}
    (hs : exec w (.pool p auth (.submit a b c reqs)) = .ok (r, w')) (hg : exec g (.pool p auth (.submit a b c reqs)) = .ok (r', g')) :
    r' = r ∧ OtherOracles w' g' ∧ logOf g (.pool p auth (.submit a b c reqs)) = logOf w (.pool p auth (.submit a b c reqs)) := by
  obtain ⟨pos, rfl, h1⟩ := submit_exec hs
  obtain ⟨pos', rfl, h2⟩ := submit_exec hg
  have hlog := orac_log g.oracle w (.pool p auth (.submit a b c reqs)) (.inl ⟨p, auth, a, b, c, reqs, rfl⟩)
  rw [other_told h] at h2 ⊢
  have := orac_submit_both g.oracle h1 h2
  cases this
  refine ⟨rfl, told_other _ _, ?_⟩
  rw [Same] at hlog
  rw [hlog]
  cases logOf w (.pool p auth (.submit a b c reqs)) <;> rfl

/-- the emission records that the creation of a liquidation may bring up to date -/
private theorem rm_emis {now : Nat} {c c' : UCtx} {m l : SMap Int} (h : rmPositions now c m l = .ok c') :
    ∃ ed ue, c'.ps = { c.ps with emisData := ed, userEmis := ue } := by
  have key : ∀ {f : ShareOp} {k : Kind} {add : Bool}, IsShareOp f k add → ∀ (l : List (Nat × Int)) {c c' : UCtx},
      l.foldlM (fun c kv => c.apply now f kv.1 kv.2) c = .ok c' → ∃ ed ue, c'.ps = { c.ps with emisData := ed, userEmis := ue } := by
    intro f k add hf l
    induction l with
    | nil => intro c c' h; cases h; exact ⟨_, _, rfl⟩
    | cons x l ih =>
      intro c c' h
      simp only [List.foldlM_cons, bind_ok] at h
      obtain ⟨c1, h1, h2⟩ := h
      obtain ⟨ed, ue, e⟩ := ih h2
      unfold UCtx.apply at h1
      simp only [bind_ok, Prod.exists, pure_ok] at h1
      obtain ⟨r, cache, _, ps', u', r', hs, rfl⟩ := h1
      obtain ⟨_, ⟨x, he⟩, _⟩ := hf hs
      obtain ⟨ed1, ue1, e1, _⟩ := updateEmissions_frame he
      replace e1 : ps' = _ := e1
      refine ⟨ed, ue, ?_⟩
      rw [e]
      show ({ ps' with emisData := ed, userEmis := ue } : PoolState) = _
      rw [e1]
  unfold rmPositions at h
  simp only [bind_ok] at h
  obtain ⟨c1, h1, h2⟩ := h
  obtain ⟨_, _, e1⟩ := key isRemoveColl _ h1
  obtain ⟨ed, ue, e2⟩ := key isRemoveLiab _ h2
  exact ⟨ed, ue, by rw [e2, e1]⟩

/-- C85: what the creation of an auction does is to set that auction (its terms depend on the oracles) and, for a partial liquidation,
to bring emission records up to date: nothing else changes. -/
theorem C85_creation {p : Address} {auth : List Address} {c : Call} {r : Ret} {w' : World}
    (hc : (∃ u n, c = .newLiquidation u n) ∨ c = .newBadDebt ∨ ∃ l, c = .newInterest l) (hs : exec w (.pool p auth c) = .ok (r, w')) :
    ∃ t u a ed ue, r = .auction a ∧ w' = { w with pools := upd w.pools p { w.pools p with
      auctions := upd (w.pools p).auctions t (upd ((w.pools p).auctions t) u (some a)), emisData := ed, userEmis := ue } } := by
  rcases hc with ⟨u, n, rfl⟩ | rfl | ⟨l, rfl⟩
  · simp only [exec, callRet, createUserLiq, bind_ok, require_ok, Prod.exists, pure_ok, ite_ok, Prod.mk.injEq] at hs
    obtain ⟨_, _, _, _, i, _, _, _, a, ps, ⟨_, _, _, _, blk, _, cache, _, pd, cache1, _, _, _, pct, wd, sh, _, lot, _, bid, _,
      ⟨_, _, _, rfl, rfl⟩ | ⟨_, c, hrm, nd, _, _, _, _, _, _, _, _, _, _, rfl, rfl⟩⟩, rfl, rfl⟩ := hs
    · exact ⟨0, u, _, (w.pools p).emisData, (w.pools p).userEmis, rfl, rfl⟩
    · obtain ⟨ed, ue, e⟩ := rm_emis hrm
      refine ⟨0, u, _, ed, ue, rfl, ?_⟩
      rw [e]; rfl
  · simp only [exec, callRet, bind_ok, require_ok, pure_ok, Prod.mk.injEq] at hs
    obtain ⟨_, _, _, _, i, _, a, _, rfl, rfl⟩ := hs
    exact ⟨1, i.backstop, a, (w.pools p).emisData, (w.pools p).userEmis, rfl, rfl⟩
  · simp only [exec, callRet, bind_ok, require_ok, pure_ok, Prod.mk.injEq] at hs
    obtain ⟨_, _, _, _, i, _, a, _, rfl, rfl⟩ := hs
    exact ⟨2, i.backstop, a, (w.pools p).emisData, (w.pools p).userEmis, rfl, rfl⟩

/-! ### The hypotheses are met -/

open Demo in
/-- an hour in which the oracles report nothing at all: emissions are distributed and claimed, bob repays
and alice withdraws as if nothing had happened -/
example : ∃ w g w' g', Reachable w ∧ step w (.oracles fun _ => { decimals := 0, price := fun _ => none }) = .ok g ∧ OtherOracles w g ∧
    (∀ op ∈ emissions ++ claims ++ [.pool poolA [bob] (.submit bob bob bob [⟨5, usdcA, 10000000000⟩]),
      .pool poolA [alice] (.submit alice alice alice [⟨1, usdcA, 100000000000⟩])], ¬ Asks op) ∧
    Demo.run w (emissions ++ claims ++ [.pool poolA [bob] (.submit bob bob bob [⟨5, usdcA, 10000000000⟩]),
      .pool poolA [alice] (.submit alice alice alice [⟨1, usdcA, 100000000000⟩])]) = .ok w' ∧
    Demo.run g (emissions ++ claims ++ [.pool poolA [bob] (.submit bob bob bob [⟨5, usdcA, 10000000000⟩]),
      .pool poolA [alice] (.submit alice alice alice [⟨1, usdcA, 100000000000⟩])]) = .ok g' ∧
    g'.balance usdcA poolA = w'.balance usdcA poolA := by
  have h : okAnd (Demo.run genesis (setup ++ trade)) (fun w =>
      okAnd (step w (.oracles fun _ => { decimals := 0, price := fun _ => none })) fun g =>
      okAnd (Demo.run w (emissions ++ claims ++ [.pool poolA [bob] (.submit bob bob bob [⟨5, usdcA, 10000000000⟩]),
        .pool poolA [alice] (.submit alice alice alice [⟨1, usdcA, 100000000000⟩])])) fun w' =>
      okAnd (Demo.run g (emissions ++ claims ++ [.pool poolA [bob] (.submit bob bob bob [⟨5, usdcA, 10000000000⟩]),
        .pool poolA [alice] (.submit alice alice alice [⟨1, usdcA, 100000000000⟩])])) fun g' =>
      decide (g'.balance usdcA poolA = w'.balance usdcA poolA)) = true := by decide +kernel
  obtain ⟨w, _, hr, h⟩ := Demo.reach h
  obtain ⟨g, hg, h⟩ := okAnd_iff.1 h
  obtain ⟨w', hw', h⟩ := okAnd_iff.1 h
  obtain ⟨g', hg', h⟩ := okAnd_iff.1 h
  refine ⟨w, g, w', g', hr, hg, ?_, ?_, hw', hg', of_decide_eq_true h⟩
  · cases hg; rfl
  · intro op ho
    simp only [emissions, claims, List.cons_append, List.nil_append, List.mem_cons, List.not_mem_nil, or_false] at ho
    rcases ho with rfl | rfl | rfl | rfl | rfl | rfl | rfl | rfl | rfl <;> simp [Asks]

open Demo in
/-- without prices bob, who has a debt, cannot withdraw any collateral, but alice, who has none, can -/
example : ∃ w g, Reachable w ∧ OtherOracles w g ∧
    (∃ r, exec w (.pool poolA [bob] (.submit bob bob bob [⟨3, xlmA, 10⟩])) = .ok r) ∧
    (∃ e, exec g (.pool poolA [bob] (.submit bob bob bob [⟨3, xlmA, 10⟩])) = .error e) ∧
    ∃ pos w' g', exec w (.pool poolA [alice] (.submit alice alice alice [⟨3, usdcA, 10⟩])) = .ok (.positions pos, w') ∧
      (∀ i, pos.liabilities.get i = none) ∧
      exec g (.pool poolA [alice] (.submit alice alice alice [⟨3, usdcA, 10⟩])) = .ok (.positions pos, g') ∧ OtherOracles w' g' := by
  have h : okAnd (Demo.run genesis (setup ++ trade ++ [.pool poolA [alice] (.submit alice alice alice [⟨2, usdcA, 1000⟩])])) (fun w =>
      okAnd (exec w (.pool poolA [bob] (.submit bob bob bob [⟨3, xlmA, 10⟩]))) (fun _ => true) &&
      okAnd (step w (.oracles fun _ => { decimals := 0, price := fun _ => none })) (fun g =>
        match exec g (.pool poolA [bob] (.submit bob bob bob [⟨3, xlmA, 10⟩])) with | .ok _ => false | .error _ => true) &&
      okAnd (exec w (.pool poolA [alice] (.submit alice alice alice [⟨3, usdcA, 10⟩]))) fun r =>
        match r.1 with | .positions pos => pos.liabilities.isEmpty | _ => false) = true := by decide +kernel
  obtain ⟨w, _, hr, h⟩ := Demo.reach h
  simp only [Bool.and_eq_true] at h
  obtain ⟨⟨h1, h2⟩, h3⟩ := h
  obtain ⟨r1, hr1, -⟩ := okAnd_iff.1 h1
  obtain ⟨g, hg, h2⟩ := okAnd_iff.1 h2
  have ho : OtherOracles w g := by cases hg; rfl
  obtain ⟨⟨ret, w'⟩, hr3, h3⟩ := okAnd_iff.1 h3
  obtain ⟨pos, rfl⟩ : ∃ pos, ret = .positions pos := by
    cases ret with
    | positions pos => exact ⟨pos, rfl⟩
    | _ => cases h3
  have hpos : ∀ i, pos.liabilities.get i = none := by
    intro i
    cases hl : pos.liabilities with
    | mk l =>
      cases l with
      | nil => rfl
      | cons x l => replace h3 : pos.liabilities.isEmpty = true := h3; rw [hl] at h3; cases h3
  obtain ⟨g', hg', ho'⟩ := C85_no_debt ho hr3 hpos
  refine ⟨w, g, hr, ho, ⟨r1, hr1⟩, ?_, pos, w', g', hr3, hpos, hg', ho'⟩
  cases he : exec g (.pool poolA [bob] (.submit bob bob bob [⟨3, xlmA, 10⟩])) with
  | ok r => rw [he] at h2; cases h2
  | error e => exact ⟨e, rfl⟩

end Blend.Props
