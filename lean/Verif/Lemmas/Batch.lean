import Verif.Lemmas.LiveFullOrder
import Verif.Lemmas.LedgerHealth
/-
  Requests have the same effect in one submit and in several submits of the same ledger (C65).
-/

namespace Blend
namespace Pool
open Spec

variable {w w1 : World} {p sender : Address} {a g : Address → Int} {δ : Address → Address → Int}

/-- an account with more to pay and to get -/
def _root_.Blend.Spec.Account.shift (A : Account) (a g : Address → Int) : Account :=
  { A with pays := fun t => A.pays t + a t, gets := fun t => A.gets t + g t }

/-- books with more to pay and to get for the sender, and other balances -/
def _root_.Blend.Spec.Books.shift (B : Books) (sender : Address) (a g : Address → Int) (δ : Address → Address → Int) : Books :=
  { B with acct := upd B.acct sender ((B.acct sender).shift a g), wallet := fun t x => B.wallet t x + δ t x }

/-- what the effect of requests depends on, besides the books -/
structure SameBase (p : Address) (w w1 : World) : Prop where
  seq : w1.seq = w.seq
  inst : (w1.pools p).inst = (w.pools p).inst
  list : (w1.pools p).resList = (w.pools p).resList
  config : (w1.pools p).resConfig = (w.pools p).resConfig
  binst : w1.backstop.inst = w.backstop.inst
  lpVal : w1.backstop.lpVal = w.backstop.lpVal
  cur : ∀ {a d}, Current (w.pools p) w.time a d → ∃ d', Current (w1.pools p) w1.time a d' ∧ d'.bRate = d.bRate ∧ d'.dRate = d.dRate

theorem SameBase.refl (p : Address) (w : World) : SameBase p w w := ⟨rfl, rfl, rfl, rfl, rfl, rfl, fun h => ⟨_, h, rfl, rfl⟩⟩

theorem SameBase.of_submit {auth : List Address} {spender dst : Address} {reqs : List Request} (hr : Reachable w)
    (h : step w (.pool p auth (.submit sender spender dst reqs)) = .ok w1) : SameBase p w w1 := by
  have h0 := h
  simp only [step, bind_ok, require_ok] at h0
  obtain ⟨_, hp, _, ha, h0⟩ := h0
  have e := Backstop.psteps_eff (call_psteps h0)
  refine ⟨((step_frame hr.base h).time (fun _ _ => by simp)).2, ?_, resList_step hr h (by simp),
    funext fun a => resConfig_step hr h (by simp), e.inst, e.lpVal, fun hd => rates_fixed hr hp h ⟨by simp, by simp⟩ hd⟩
  rcases inst_step hr.base h p with e | ⟨i', _, hc⟩
  · exact e
  · cases hc

theorem bump_add (f a : Nat → Int) (k : Nat) (n : Int) : (fun t => bump f k n t + a t) = bump (fun t => f t + a t) k n := by
  funext t
  unfold bump
  split <;> ring

theorem _root_.Blend.Spec.Effect.shift {b d : Int} {i : Nat} {A A1 : Account} {q : Request} (h : Effect b d i A q A1) :
    Effect b d i (A.shift a g) q (A1.shift a g) := by
  cases h with
  | supply h1 h2 h3 => have := Effect.supply (b := b) (d := d) (i := i) (A := A.shift a g) (t := ‹_›) h1 h2 h3; simpa [Account.shift, bump_add] using this
  | withdraw h1 h2 h3 h4 => have := Effect.withdraw (b := b) (d := d) (i := i) (A := A.shift a g) (t := ‹_›) h1 h2 h3 h4; simpa [Account.shift, bump_add] using this
  | withdrawAll h1 h2 h3 h4 h5 => have := Effect.withdrawAll (b := b) (d := d) (i := i) (A := A.shift a g) (t := ‹_›) h1 h2 h3 h4 h5; simpa [Account.shift, bump_add] using this
  | supplyCollateral h1 h2 h3 => have := Effect.supplyCollateral (b := b) (d := d) (i := i) (A := A.shift a g) (t := ‹_›) h1 h2 h3; simpa [Account.shift, bump_add] using this
  | withdrawCollateral h1 h2 h3 h4 => have := Effect.withdrawCollateral (b := b) (d := d) (i := i) (A := A.shift a g) (t := ‹_›) h1 h2 h3 h4; simpa [Account.shift, bump_add] using this
  | withdrawCollateralAll h1 h2 h3 h4 h5 => have := Effect.withdrawCollateralAll (b := b) (d := d) (i := i) (A := A.shift a g) (t := ‹_›) h1 h2 h3 h4 h5; simpa [Account.shift, bump_add] using this
  | borrow h1 h2 h3 => have := Effect.borrow (b := b) (d := d) (i := i) (A := A.shift a g) (t := ‹_›) h1 h2 h3; simpa [Account.shift, bump_add] using this
  | repay h1 h2 h3 h4 => have := Effect.repay (b := b) (d := d) (i := i) (A := A.shift a g) (t := ‹_›) h1 h2 h3 h4; simpa [Account.shift, bump_add] using this
  | repayAll h1 h2 h3 h4 h5 h6 => have := Effect.repayAll (b := b) (d := d) (i := i) (A := A.shift a g) (t := ‹_›) h1 h2 h3 h4 h5 h6; simpa [Account.shift, bump_add] using this

theorem amountAt_congr {ps ps' : PoolState} (h : ps'.resList = ps.resList) (m : SMap Int) (i : Nat) : amountAt ps' m i = amountAt ps m i := by
  unfold amountAt; rw [h]

theorem take_congr {ps ps' : PoolState} (h : ps'.resList = ps.resList) (s : Int) (lot bid : SMap Int) (A : Account) :
    take ps' s lot bid A = take ps s lot bid A := by
  unfold take; simp only [amountAt_congr h]

theorem take_shift (ps : PoolState) (s : Int) (lot bid : SMap Int) (A : Account) : take ps s lot bid (A.shift a g) = (take ps s lot bid A).shift a g := rfl

theorem low_congr (h : w1.backstop.lpVal = w.backstop.lpVal) (n : Int) : BackstopLow w1 n ↔ BackstopLow w n := by
  unfold BackstopLow; rw [h]

theorem _root_.Blend.Spec.Filling.shift {B : Books} {t : Nat} {u : Address} {n : Int} {x x' tk tk' : AuctionData} {r r' : Option AuctionData}
    (hseq : w1.seq = w.seq) (h : Filling w (B.shift sender a g δ) sender t u n x tk r) (h' : Filling w1 B sender t u n x' tk' r') :
    tk.bid = tk'.bid ∧ tk.lot = tk'.lot ∧ r = r' := by
  have : Filling w1 (B.shift sender a g δ) sender t u n x tk r := by
    obtain ⟨h1, h2, h3, h4, h5⟩ := h
    exact ⟨h1, h2, h3, by rw [hseq]; exact h4, by rw [hseq]; exact h5⟩
  exact Filling.unique (B := B) (w := w1) (sender := sender) this h'

theorem auction_shift {C B1 C1 : Books} {q : Request} (s : SameBase p w w1) (h : AuctionEffect w p sender (C.shift sender a g δ) q B1)
    (h' : AuctionEffect w1 p sender C q C1) : B1 = C1.shift sender a g δ := by
  cases h with
  | liquidation f _ _ _ =>
    cases h' with
    | liquidation f' _ _ _ =>
      obtain ⟨e1, e2, e3⟩ := f.shift s.seq f'
      have hne := f.1
      simp only [Books.shift, e1, e2, e3, take_congr s.list, upd_same, upd_ne hne, Books.mk.injEq, and_true, true_and]
      funext x
      by_cases h1 : x = sender
      · subst h1; simp only [upd_same]; rfl
      · simp [upd_apply, h1]
  | badDebt f a1 ane a2 _ _ _ _ _ a3 _ _ =>
    cases h' with
    | badDebt f' b1 _ b2 _ _ _ _ _ b3 _ _ =>
      obtain ⟨e1, e2, e3⟩ := f.shift s.seq f'
      rw [s.inst, a1] at b1; cases b1
      rw [s.binst, a2] at b2; cases b2
      rw [← e1, ← e2] at b3
      simp only [low_congr s.lpVal, amountAt_congr s.list] at b3
      simp only [Books.shift, upd_ne (Ne.symm ane)] at a3
      have := gone_unique (fun h k => by rw [h k]; exact Int.sub_self _) a3 b3
      subst this
      simp only [Books.shift, e1, e2, e3, take_congr s.list, amountAt_congr s.list, upd_same, upd_ne (Ne.symm ane), Books.mk.injEq, and_true, true_and]
      constructor
      · funext x
        by_cases h1 : x = sender
        · subst h1; simp only [upd_same]; rfl
        · simp [upd_apply, h1]
      · funext t x
        unfold paid
        ring
  | interest f a1 _ a2 _ _ _ _ _ _ =>
    cases h' with
    | interest f' b1 _ b2 _ _ _ _ _ _ =>
      obtain ⟨e1, e2, e3⟩ := f.shift s.seq f'
      rw [s.inst, a1] at b1; cases b1
      rw [s.binst, a2] at b2; cases b2
      simp only [Books.shift, e1, e2, e3, Books.mk.injEq, and_true, true_and]
      funext t x
      unfold paid
      ring
  | delete _ _ =>
    cases h' with
    | delete _ _ => rfl

theorem run_shift (s : SameBase p w w1) (hpos : RatesPos (w1.pools p) w1.time) {l : List Request} {C B' C' : Books}
    (h : FullRun w p sender l (C.shift sender a g δ) B') (h' : FullRun w1 p sender l C C') : B' = C'.shift sender a g δ := by
  induction l generalizing C with
  | nil => cases h; cases h'; rfl
  | cons q l ih =>
    cases h with
    | plain t1 c1 d1 e1 r1 =>
      cases h' with
      | plain t2 c2 d2 e2 r2 =>
        rw [s.config, c1] at c2; cases c2
        obtain ⟨d', x1, x2, x3⟩ := s.cur d1
        obtain rfl := Current.unique d2 x1
        rw [← x2, ← x3] at e1
        simp only [Books.shift, upd_same] at e1
        have hp := hpos _ _ d2
        obtain rfl := Effect.unique hp.1 hp.2 e1 (e2.shift (a := a) (g := g))
        refine ih (C := { C with acct := upd C.acct sender _ }) ?_ r2
        convert r1 using 1
        simp only [Books.shift, upd_same, Books.mk.injEq, and_true]
        funext x
        by_cases h1 : x = sender
        · subst h1; simp only [upd_same]
        · simp only [upd_ne h1]
      | auction e2 _ => have := e2.type_ge; omega
    | auction e1 r1 =>
      cases h' with
      | plain t2 c2 d2 e2 r2 => have := e1.type_ge; omega
      | auction e2 r2 =>
        obtain rfl := auction_shift s e1 e2
        exact ih r1 r2

theorem run_split {l1 l2 : List Request} {B B2 : Books} (h : FullRun w p sender (l1 ++ l2) B B2) :
    ∃ B1, FullRun w p sender l1 B B1 ∧ FullRun w p sender l2 B1 B2 := by
  induction l1 generalizing B with
  | nil => exact ⟨B, .nil _, h⟩
  | cons q l ih =>
    cases h with
    | plain t1 c1 d1 e1 r1 =>
      obtain ⟨B1, h1, h2⟩ := ih r1
      exact ⟨B1, .plain t1 c1 d1 e1 h1, h2⟩
    | auction e1 r1 =>
      obtain ⟨B1, h1, h2⟩ := ih r1
      exact ⟨B1, .auction e1 h1, h2⟩

theorem shift_zero (B : Books) (sender : Address) : B.shift sender (fun _ => 0) (fun _ => 0) (fun _ _ => 0) = B := by
  cases B
  simp only [Books.shift, Account.shift, Int.add_zero, Books.mk.injEq, and_true, true_and]
  funext x
  by_cases h : x = sender
  · subst h; simp only [upd_same]
  · simp only [upd_ne h]

theorem run_unique (hpos : RatesPos (w.pools p) w.time) {l : List Request} {B B1 B2 : Books} (h : FullRun w p sender l B B1)
    (h' : FullRun w p sender l B B2) : B1 = B2 := by
  have := run_shift (a := fun _ => 0) (g := fun _ => 0) (δ := fun _ _ => 0) (.refl p w) hpos (by rw [shift_zero]; exact h) h'
  rwa [shift_zero] at this

/-- requests leave nothing to pay or to get for others -/
theorem run_others {l : List Request} {B B1 : Books} (h : FullRun w p sender l B B1) {x : Address} (hx : x ≠ sender) :
    (B1.acct x).pays = (B.acct x).pays ∧ (B1.acct x).gets = (B.acct x).gets := by
  induction h with
  | nil => exact ⟨rfl, rfl⟩
  | plain _ _ _ _ _ ih => simpa only [upd_ne hx] using ih
  | auction e _ ih =>
    have : ∀ {B B1 : Books} {q : Request}, AuctionEffect w p sender B q B1 → (B1.acct x).pays = (B.acct x).pays ∧ (B1.acct x).gets = (B.acct x).gets := by
      intro B B1 q e
      cases e with
      | @liquidation u =>
        simp only [upd_ne hx]
        by_cases h2 : x = u
        · subst h2; simp [upd_same, take]
        · simp [upd_ne h2]
      | @badDebt _ _ _ _ _ inst =>
        simp only [upd_ne hx]
        by_cases h2 : x = inst.backstop
        · subst h2; simp [upd_same, take]
        · simp [upd_ne h2]
      | interest => exact ⟨rfl, rfl⟩
      | delete => exact ⟨rfl, rfl⟩
    exact ⟨ih.1.trans (this e).1, ih.2.trans (this e).2⟩

end Pool
end Blend
