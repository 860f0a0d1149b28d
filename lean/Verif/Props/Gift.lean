import Verif.Lemmas.GiftExec
import Verif.Spec.Gift
import Verif.Examples.Demo
/-
  C84: tokens that are sent to an account harm nobody and change nothing but what it can pay.
-/

namespace Blend
open Spec

theorem give_extra (G : Gift) (w : World) : WithExtra G.t G.x G.n w (G.give w) := ⟨fun _ _ => rfl, fun _ _ _ => rfl, rfl⟩

/-- a state with extra tokens is a gift -/
theorem extra_give {t x : Address} {n : Int} {w g : World} (hn : 0 ≤ n) (h : WithExtra t x n w g) :
    g = Gift.give ⟨t, x, n, fun u => (g.tok u).minted - (w.tok u).minted, hn⟩ w := by
  rw [h.rest]
  simp only [Gift.give]
  congr 1
  funext u
  have h1 : (g.tok u).bal = fun a => (w.tok u).bal a + (if u = t ∧ a = x then n else 0) := funext fun a => h.balances u a
  have h2 : (g.tok u).allow = (w.tok u).allow := funext fun o => funext fun s => h.allowances u o s
  rw [← h1]
  rcases hT : g.tok u with ⟨b, al, m⟩
  rw [hT] at h2
  simp only at h2 ⊢
  rw [h2]
  congr 1
  ring

namespace Props

variable {t x : Address} {n : Int} {w g : World}

/-- C84: an operation that succeeds also succeeds when `x` has more tokens, returns and publishes the same, and the outcome differs
by the extra tokens only (unless a number leaves the range of `i128`). -/
theorem C84_no_harm (hn : 0 ≤ n) (h : WithExtra t x n w g) {op : Op} (hm : ¬ Measures w t x op) {r : Ret} {w' : World}
    (hs : exec w op = .ok (r, w')) : (∃ g', exec g op = .ok (r, g') ∧ WithExtra t x n w' g') ∨ exec g op = .error .overflow := by
  rw [extra_give hn h]
  rcases (Gift.exec ⟨t, x, n, _, hn⟩ w op hm).1 _ hs with h1 | h1
  · exact .inl ⟨_, h1, give_extra ⟨t, x, n, _, hn⟩ w'⟩
  · exact .inr h1

/-- C84: the events are the same. -/
theorem C84_same_events (hn : 0 ≤ n) (h : WithExtra t x n w g) {op : Op} (hm : ¬ Measures w t x op) {ev : List Event}
    (hs : logOf w op = .ok ev) : logOf g op = .ok ev ∨ logOf g op = .error .overflow := by
  rw [extra_give hn h]
  exact (Gift.log ⟨t, x, n, _, hn⟩ w op hm).1 _ hs

/-- C84: the other way round, an operation that succeeds with the extra tokens succeeds without them and with the same outcome, unless
it fails for lack of tokens (or because a number leaves the range of `i128`). -/
theorem C84_only_funds (hn : 0 ≤ n) (h : WithExtra t x n w g) {op : Op} (hm : ¬ Measures w t x op) {r : Ret} {g' : World}
    (hs : exec g op = .ok (r, g')) :
    (∃ w', exec w op = .ok (r, w') ∧ WithExtra t x n w' g') ∨ exec w op = .error .token ∨ exec w op = .error .overflow := by
  rw [extra_give hn h] at hs
  rcases (Gift.exec ⟨t, x, n, _, hn⟩ w op hm).2 _ hs with ⟨⟨r1, w1⟩, h1, h2⟩ | h1 | h1
  · cases h2; exact .inl ⟨w1, h1, give_extra ⟨t, x, n, _, hn⟩ w1⟩
  · exact .inr (.inl h1)
  · exact .inr (.inr h1)

/-- C84: whole histories. -/
theorem C84_history (hn : 0 ≤ n) (h : WithExtra t x n w g) {l : List Op} {w' : World}
    (hh : Played (fun w op => ¬ Measures w t x op) w l w') :
    (∃ g', Played (fun _ _ => True) g l g' ∧ WithExtra t x n w' g') ∨
    ∃ l1 op l2 g1, l = l1 ++ op :: l2 ∧ Played (fun _ _ => True) g l1 g1 ∧ step g1 op = .error .overflow := by
  induction hh generalizing g with
  | nil w => exact .inl ⟨g, .nil _, h⟩
  | @cons w w1 w2 op l hq hs _ ih =>
    have h1 := (Gift.step ⟨t, x, n, fun u => (g.tok u).minted - (w.tok u).minted, hn⟩ w op hq).1 _ hs
    rw [← extra_give hn h] at h1
    rcases h1 with h1 | h1
    · rcases ih (give_extra ⟨t, x, n, fun u => (g.tok u).minted - (w.tok u).minted, hn⟩ w1) with ⟨g', h2, h3⟩ | ⟨l1, o, l2, g1, rfl, h3, h4⟩
      · exact .inl ⟨g', .cons trivial h1 h2, h3⟩
      · exact .inr ⟨op :: l1, o, l2, g1, rfl, .cons trivial h1 h3, h4⟩
    · exact .inr ⟨[], op, l, g, rfl, .nil _, h1⟩

/-- C84: sending tokens to another account is, for everybody else, the same as burning them, but for the balance of the receiver. -/
theorem C84_sending_is_burning {a : Address} (hax : a ≠ x) (hs : step w (.tokenTransfer t a x n) = .ok g) :
    0 ≤ n ∧ ∃ b, step w (.tokenBurn t a n) = .ok b ∧ WithExtra t x n b g := by
  simp only [step, transfer, bind_ok, require_ok, chk_ok, pure_ok] at hs
  obtain ⟨_, hp, _, hn, _, hle, v, ⟨_, rfl⟩, rfl⟩ := hs
  refine ⟨hn, w.setBalance t a (w.balance t a - n), ?_, ?_, ?_, ?_⟩
  · simp only [step, bind_ok, require_ok, pure_ok]
    exact ⟨(), hp, (), ⟨hn, hle⟩, trivial⟩
  · intro u c
    generalize w.setBalance t a (w.balance t a - n) = w1
    simp only [World.balance, World.setBalance]
    by_cases hu : u = t
    · subst hu
      simp only [upd_same, true_and]
      by_cases hc : c = x
      · subst hc; simp only [upd_same, if_true]
      · simp only [upd_ne hc, if_neg hc, add_zero]
    · simp only [upd_ne hu, if_neg (fun hc : u = t ∧ c = x => hu hc.1), add_zero]
  · intro u o s
    generalize w.setBalance t a (w.balance t a - n) = w1
    simp only [World.setBalance]
    by_cases hu : u = t
    · subst hu; simp only [upd_same]
    · simp only [upd_ne hu]
  · rfl

/-- C84: tokens that their issuer mints are extra tokens. -/
theorem C84_minting (hs : step w (.tokenMint t x n) = .ok g) : 0 ≤ n ∧ WithExtra t x n w g := by
  simp only [step, mint, bind_ok, require_ok, chk_ok, pure_ok] at hs
  obtain ⟨_, hp, _, hn, v, ⟨_, rfl⟩, rfl⟩ := hs
  refine ⟨hn, ?_, ?_, rfl⟩
  · intro u c
    simp only [World.balance, World.setBalance]
    by_cases hu : u = t
    · subst hu
      simp only [upd_same, true_and]
      by_cases hc : c = x
      · subst hc; simp only [upd_same, if_true]
      · simp only [upd_ne hc, if_neg hc, add_zero]
    · simp only [upd_ne hu, if_neg (fun hc : u = t ∧ c = x => hu hc.1), add_zero]
  · intro u o s
    simp only [World.setBalance]
    by_cases hu : u = t
    · subst hu; simp only [upd_same]
    · simp only [upd_ne hu]

/-! ### The hypotheses are met -/

open Demo Pool in
/-- a run of operations that look at no balance of `x` -/
theorem played_of_run {l : List Op} (hl : ∀ op ∈ l, ∀ w, ¬ Measures w t x op) : ∀ {w w' : World}, Demo.run w l = .ok w' →
    Played (fun w op => ¬ Measures w t x op) w l w' := by
  induction l with
  | nil => intro w w' h; cases h; exact .nil _
  | cons op l ih =>
    intro w w' h
    simp only [Demo.run, bind_ok] at h
    obtain ⟨w1, h1, h2⟩ := h
    exact .cons (hl op (by simp) w) h1 (ih (fun o ho => hl o (by simp [ho])) h2)

open Demo Pool in
/-- an attempt to inflate the shares of a reserve: a first depositor of one unit sends 100 USDC to the pool, and a victim deposits
half of that; with and without the 100 USDC everybody ends up with the same shares and the same rates -/
example : ∃ w g w' g', Reachable w ∧ step w (.tokenTransfer usdcA alice poolA 1000000000) = .ok g ∧
    (∀ op ∈ ([.ledger 5 1, .pool poolA [bob] (.submit bob bob bob [⟨2, xlmA, 1000000000000⟩, ⟨4, usdcA, 1⟩]), .ledger 5 1,
      .pool poolA [alice] (.submit alice alice alice [⟨1, usdcA, 1⟩])] : List Op), ∀ w, ¬ Measures w usdcA poolA op) ∧
    Demo.run w [.ledger 5 1, .pool poolA [bob] (.submit bob bob bob [⟨2, xlmA, 1000000000000⟩, ⟨4, usdcA, 1⟩]), .ledger 5 1,
      .pool poolA [alice] (.submit alice alice alice [⟨1, usdcA, 1⟩])] = .ok w' ∧
    Demo.run g [.ledger 5 1, .pool poolA [bob] (.submit bob bob bob [⟨2, xlmA, 1000000000000⟩, ⟨4, usdcA, 1⟩]), .ledger 5 1,
      .pool poolA [alice] (.submit alice alice alice [⟨1, usdcA, 1⟩])] = .ok g' ∧
    g'.balance usdcA poolA = w'.balance usdcA poolA + 1000000000 := by
  have h : okAnd (Demo.run genesis (setup ++ [.pool poolA [alice] (.submit alice alice alice [⟨0, usdcA, 1000⟩])])) (fun w =>
      okAnd (step w (.tokenTransfer usdcA alice poolA 1000000000)) fun g =>
      okAnd (Demo.run w [.ledger 5 1, .pool poolA [bob] (.submit bob bob bob [⟨2, xlmA, 1000000000000⟩, ⟨4, usdcA, 1⟩]), .ledger 5 1,
        .pool poolA [alice] (.submit alice alice alice [⟨1, usdcA, 1⟩])]) fun w' =>
      okAnd (Demo.run g [.ledger 5 1, .pool poolA [bob] (.submit bob bob bob [⟨2, xlmA, 1000000000000⟩, ⟨4, usdcA, 1⟩]), .ledger 5 1,
        .pool poolA [alice] (.submit alice alice alice [⟨1, usdcA, 1⟩])]) fun g' =>
      decide (g'.balance usdcA poolA = w'.balance usdcA poolA + 1000000000)) = true := by decide +kernel
  obtain ⟨w, _, hr, h⟩ := Demo.reach h
  obtain ⟨g, hg, h⟩ := okAnd_iff.1 h
  obtain ⟨w', hw', h⟩ := okAnd_iff.1 h
  obtain ⟨g', hg', h⟩ := okAnd_iff.1 h
  refine ⟨w, g, w', g', hr, hg, ?_, hw', hg', of_decide_eq_true h⟩
  intro op ho w
  simp only [List.mem_cons, List.not_mem_nil, or_false] at ho
  rcases ho with rfl | rfl | rfl | rfl <;> exact id

open Demo Pool in
/-- what a gift makes possible: a withdrawal that the pool could not pay -/
example : ∃ w g, Reachable w ∧ step w (.tokenMint usdcA poolA 60000000000) = .ok g ∧
    exec w (.pool poolA [alice] (.submit alice alice alice [⟨1, usdcA, 500000000000⟩])) = .error .token ∧
    ∃ r, exec g (.pool poolA [alice] (.submit alice alice alice [⟨1, usdcA, 500000000000⟩])) = .ok r := by
  have h : okAnd (Demo.run genesis (setup ++ trade)) (fun w =>
      okAnd (step w (.tokenMint usdcA poolA 60000000000)) fun g =>
      errIs (exec w (.pool poolA [alice] (.submit alice alice alice [⟨1, usdcA, 500000000000⟩]))) .token &&
      okAnd (exec g (.pool poolA [alice] (.submit alice alice alice [⟨1, usdcA, 500000000000⟩]))) fun _ => true) = true := by
    decide +kernel
  obtain ⟨w, _, hr, h⟩ := Demo.reach h
  obtain ⟨g, hg, h⟩ := okAnd_iff.1 h
  rw [Bool.and_eq_true] at h
  obtain ⟨r, hr', -⟩ := okAnd_iff.1 h.2
  exact ⟨w, g, hr, hg, errIs_iff.1 h.1, r, hr'⟩

open Demo in
/-- the exception is needed: USDC that is sent to Comet raises the value of the LP token -/
example : ∃ w g w' g', Reachable w ∧ step w (.tokenMint usdcA lpA 10000000000000) = .ok g ∧
    step w (.backstop [] .updateTknVal) = .ok w' ∧ step g (.backstop [] .updateTknVal) = .ok g' ∧ w'.backstop.lpVal ≠ g'.backstop.lpVal := by
  have h : okAnd (Demo.run genesis setup) (fun w =>
      okAnd (step w (.tokenMint usdcA lpA 10000000000000)) fun g =>
      okAnd (step w (.backstop [] .updateTknVal)) fun w' => okAnd (step g (.backstop [] .updateTknVal)) fun g' =>
      decide (w'.backstop.lpVal ≠ g'.backstop.lpVal)) = true := by
    decide +kernel
  obtain ⟨w, _, hr, h⟩ := Demo.reach h
  obtain ⟨g, hg, h⟩ := okAnd_iff.1 h
  obtain ⟨w', hw', h⟩ := okAnd_iff.1 h
  obtain ⟨g', hg', h⟩ := okAnd_iff.1 h
  exact ⟨w, g, w', g', hr, hg, hw', hg', of_decide_eq_true h⟩

end Props
end Blend
