import Verif.Spec.Leftover
import Verif.Lemmas.DataStep
import Verif.Lemmas.FullPlan
import Verif.Lemmas.FollowCash
import Verif.Lemmas.LiveLiq
import Verif.Lemmas.LedgerRates
import Mathlib.Tactic.Linarith
/-
  What rounding leaves in a pool (C86).
-/

namespace Blend
namespace Pool
open Spec

/-! ### accrual -/

/-- accrual leaves less than 2 tokens and one unit of the rate for every share -/
theorem accrue_leftover {c : ReserveConfig} {rate now : Nat} {r r' : ReserveData} (h : accrue c rate now r = .ok r') (hb : 0 ≤ r.bSupply)
    (bal : Int) : leftover bal r' ≤ leftover bal r + (if r.lastTime = now then 0 else 2 * ONE9 + r.bSupply) := by
  unfold leftover ONE9
  rcases accrue_cases h with ⟨h1, rfl⟩ | ⟨h1, rfl, _⟩ | ⟨util, acc, irm, ps, pl, dR, pol, h1, h2, h3, hu, hac, hps, hpl, hdR, hpol, hr⟩
  · rw [if_pos h1.symm]; omega
  · rw [if_neg (Ne.symm h1)]; simp only; omega
  · rw [if_neg (Ne.symm h1)]
    have e1 := totalSupply_eq hps
    have e2 := totalLiab_eq hpl
    have e3 := totalLiab_eq hpol
    simp only at e3
    have s1 := floor9_spec r.bSupply r.bRate
    have s2 := ceil9_spec r.dSupply r.dRate
    have s3 := ceil9_spec r.dSupply dR
    rw [← e1] at s1
    rw [← e2] at s2
    rw [← e3] at s3
    rcases hr with ⟨_, rfl⟩ | ⟨nc, bR, hpos, hnc, hbR, rfl⟩
    · simp only
      omega
    · have hbs : 0 < r.bSupply := lt_of_le_of_ne hb (Ne.symm h2)
      have h4 := (mulDivFloor_spec hbR hbs).2
      unfold SCALAR_9 at h4
      have h6 : r.bSupply * bR = bR * r.bSupply := by ring
      have h7 : (bR + 1) * r.bSupply = bR * r.bSupply + r.bSupply := by ring
      simp only
      rw [h6]
      linarith [s1.1, s1.2, s2.1, s2.2, s3.1, s3.2]

/-! ### a submit -/

section
variable {w : World} {p sender a : Address} {i : Nat} {b dr R : Int}

/-- what the pool is left with according to the books, with the shares of the addresses `Y` -/
def bookLeft (p sender a : Address) (i : Nat) (b dr : Int) (Y : Finset Address) (B : Books) : Int :=
  (B.wallet a p + (B.acct sender).pays a - (B.acct sender).gets a - B.credit a) * ONE9 + dr * (Y.sum fun x => (B.acct x).debt i)
    - b * (Y.sum fun x => (B.acct x).supplied i + (B.acct x).collateral i)

theorem sum_upd {f : Address → Account} {g : Account → Int} {x : Address} {A : Account} {Y : Finset Address} (hx : x ∈ Y) :
    (Y.sum fun y => g (upd f x A y)) = (Y.sum fun y => g (f y)) + (g A - g (f x)) := by
  rw [← Finset.add_sum_erase _ _ hx, ← Finset.add_sum_erase Y (fun y => g (f y)) hx, upd_same]
  rw [Finset.sum_congr rfl (g := fun y => g (f y)) (fun y hy => by rw [upd_ne (Finset.ne_of_mem_erase hy)])]
  ring

/-- a plain request on another reserve -/
theorem effect_elsewhere {j : Nat} {bq dq : Int} {A A1 : Account} {q : Request} (he : Effect bq dq j A q A1) (ha : q.address ≠ a) (hj : j ≠ i) :
    A1.supplied i = A.supplied i ∧ A1.collateral i = A.collateral i ∧ A1.debt i = A.debt i ∧ A1.pays a = A.pays a ∧ A1.gets a = A.gets a := by
  have hi : i ≠ j := Ne.symm hj
  have h2 : a ≠ q.address := Ne.symm ha
  cases he <;> simp_all [bump]

/-- a plain request on the reserve -/
theorem effect_same {A A1 : Account} {q : Request} (he : Effect b dr i A q A1) (ha : q.address = a) (hb : 1000000000 ≤ b) (hd : 1000000000 ≤ dr)
    (hbR : b ≤ R) (hdR : dr ≤ R) :
    ((A1.pays a - A.pays a) - (A1.gets a - A.gets a)) * ONE9 + dr * (A1.debt i - A.debt i)
      - b * ((A1.supplied i + A1.collateral i) - (A.supplied i + A.collateral i)) ≤ R := by
  unfold ONE9
  cases he with
  | @supply t n m _ h1 _ =>
    obtain rfl : t = a := ha
    have h2 := h1.2
    unfold ONE9 at h2
    have : (m + 1) * b = b * m + b := by ring
    simp only [bump, if_true]
    rw [this] at h2
    ring_nf at h2 ⊢
    omega
  | @withdraw t n m _ h1 _ _ =>
    obtain rfl : t = a := ha
    have h2 := h1.1
    unfold ONE9 at h2
    simp only [bump, if_true]
    ring_nf at h2 ⊢
    omega
  | @withdrawAll t n m v _ h1 _ _ h3 =>
    obtain rfl : t = a := ha
    have h2 := h3.2
    unfold ONE9 at h2
    simp only [bump, if_true]
    ring_nf at h2 ⊢
    omega
  | @supplyCollateral t n m _ h1 _ =>
    obtain rfl : t = a := ha
    have h2 := h1.2
    unfold ONE9 at h2
    simp only [bump, if_true]
    ring_nf at h2 ⊢
    omega
  | @withdrawCollateral t n m _ h1 _ _ =>
    obtain rfl : t = a := ha
    have h2 := h1.1
    unfold ONE9 at h2
    simp only [bump, if_true]
    ring_nf at h2 ⊢
    omega
  | @withdrawCollateralAll t n m v _ h1 _ _ h3 =>
    obtain rfl : t = a := ha
    have h2 := h3.2
    unfold ONE9 at h2
    simp only [bump, if_true]
    ring_nf at h2 ⊢
    omega
  | @borrow t n m _ h1 _ =>
    obtain rfl : t = a := ha
    have h2 := h1.1
    unfold ONE9 at h2
    simp only [bump, if_true]
    ring_nf at h2 ⊢
    omega
  | @repay t n m _ h1 _ _ =>
    obtain rfl : t = a := ha
    have h2 := h1.2
    unfold ONE9 at h2
    simp only [bump, if_true]
    ring_nf at h2 ⊢
    omega
  | @repayAll t n m owed _ h1 _ _ h3 _ =>
    obtain rfl : t = a := ha
    have h2 := h3.1
    unfold ONE9 at h2
    simp only [bump, if_true]
    ring_nf at h2 ⊢
    omega

theorem plainOn_cons (q : Request) (l : List Request) : plainOn a (q :: l) = (if q.type ≤ 5 ∧ q.address = a then 1 else 0) + plainOn a l := by
  unfold plainOn
  by_cases h : q.type ≤ 5 ∧ q.address = a
  · rw [List.filter_cons_of_pos (by simpa using h), if_pos h, List.length_cons, Nat.add_comm]
  · rw [List.filter_cons_of_neg (by simpa using h), if_neg h, Nat.zero_add]

/-- the requests of a submit leave at most one unit of the rate each -/
theorem run_leftover (cfg : CfgOk (w.pools p)) (hsp : sender ≠ p) (hpb : p ≠ w.backstopAddr)
    {ca : ReserveConfig} (hca : (w.pools p).resConfig a = some ca) (hi : ca.index = i)
    (hcur : ∀ dA, Current (w.pools p) w.time a dA → dA.bRate = b ∧ dA.dRate = dr ∧ 1000000000 ≤ b ∧ 1000000000 ≤ dr ∧ b ≤ R ∧ dr ≤ R) (hd0 : 0 ≤ dr)
    {l : List Request} {B B2 : Books} (h : FullRun w p sender l B B2) :
    ∃ X : Finset Address, (∀ x, x ∉ X → ∀ k, (B2.acct x).supplied k = (B.acct x).supplied k ∧ (B2.acct x).collateral k = (B.acct x).collateral k ∧
        (B2.acct x).debt k = (B.acct x).debt k) ∧
      ∀ Y : Finset Address, X ⊆ Y → bookLeft p sender a i b dr Y B2 ≤ bookLeft p sender a i b dr Y B + plainOn a l * R := by
  induction h with
  | nil B => exact ⟨∅, fun _ _ _ => ⟨rfl, rfl, rfl⟩, fun Y _ => by simp [plainOn]⟩
  | @plain q l B A B2 c d h1 h2 h3 h4 h5 ih =>
    obtain ⟨X, hX, hY⟩ := ih
    refine ⟨insert sender X, fun x hx k => ?_, fun Y hs => ?_⟩
    · have := hX x (fun h => hx (Finset.mem_insert_of_mem h)) k
      have hne : x ≠ sender := fun e => hx (e ▸ Finset.mem_insert_self _ _)
      simpa only [upd_ne hne] using this
    · have hsY : sender ∈ Y := hs (Finset.mem_insert_self _ _)
      have h6 := hY Y fun x hx => hs (Finset.mem_insert_of_mem hx)
      have h7 : bookLeft p sender a i b dr Y { B with acct := upd B.acct sender A } = bookLeft p sender a i b dr Y B +
          (((A.pays a - (B.acct sender).pays a) - (A.gets a - (B.acct sender).gets a)) * ONE9 + dr * (A.debt i - (B.acct sender).debt i)
            - b * ((A.supplied i + A.collateral i) - ((B.acct sender).supplied i + (B.acct sender).collateral i))) := by
        unfold bookLeft
        simp only [upd_same]
        rw [sum_upd (g := fun A => A.debt i) hsY, sum_upd (g := fun A => A.supplied i + A.collateral i) hsY]
        ring
      rw [plainOn_cons]
      by_cases ha : q.address = a
      · rw [ha] at h2 h3
        rw [hca] at h2; cases h2
        obtain ⟨e1, e2, e3, e4, e5, e6⟩ := hcur d h3
        rw [e1, e2, hi] at h4
        have := effect_same h4 ha e3 e4 e5 e6
        rw [if_pos ⟨h1, ha⟩]
        have e : ((1 + plainOn a l : Nat) : Int) * R = R + plainOn a l * R := by push_cast; ring
        rw [e]
        omega
      · have hj : c.index ≠ i := by
          intro e
          rw [← hi] at e
          exact ha (cfg.index_inj h2 hca e)
        obtain ⟨e1, e2, e3, e4, e5⟩ := effect_elsewhere h4 ha hj
        rw [e1, e2, e3, e4, e5] at h7
        rw [if_neg (fun h => ha h.2), Nat.zero_add]
        simp only [sub_self, Int.zero_mul, Int.mul_zero, Int.add_zero] at h7
        rw [h7] at h6
        exact h6
  | @auction q l B B1 B2 h1 h2 ih =>
    obtain ⟨X, hX, hY⟩ := ih
    have hq : (if q.type ≤ 5 ∧ q.address = a then 1 else 0) = 0 := by
      refine if_neg fun h => ?_
      cases h1 <;> (have := h.1; simp at this)
    suffices hs : ∃ X1 : Finset Address, (∀ x, x ∉ X1 → B1.acct x = B.acct x) ∧
        ∀ Y : Finset Address, X1 ⊆ Y → bookLeft p sender a i b dr Y B1 ≤ bookLeft p sender a i b dr Y B by
      obtain ⟨X1, f1, f2⟩ := hs
      refine ⟨X1 ∪ X, fun x hx k => ?_, fun Y hs => ?_⟩
      · rw [← f1 x fun h => hx (Finset.mem_union_left _ h)]
        exact hX x (fun h => hx (Finset.mem_union_right _ h)) k
      · have g1 := f2 Y fun x hx => hs (Finset.mem_union_left _ hx)
        have g2 := hY Y fun x hx => hs (Finset.mem_union_right _ hx)
        rw [plainOn_cons, hq, Nat.zero_add]
        omega
    cases h1 with
    | @liquidation u n au taken rest f _ _ _ =>
      have hne : sender ≠ u := Ne.symm f.1
      refine ⟨{sender, u}, fun x hx => ?_, fun Y hs => ?_⟩
      · simp only [Finset.mem_insert, Finset.mem_singleton, not_or] at hx
        simp only [upd_ne hx.1, upd_ne hx.2]
      · have hsY : sender ∈ Y := hs (by simp)
        have huY : u ∈ Y := hs (by simp)
        unfold bookLeft
        simp only [upd_same]
        rw [sum_upd (g := fun A => A.debt i) hsY, sum_upd (g := fun A => A.supplied i + A.collateral i) hsY,
          sum_upd (g := fun A => A.debt i) huY, sum_upd (g := fun A => A.supplied i + A.collateral i) huY]
        simp only [upd_ne hne, take]
        apply le_of_eq
        ring
    | @badDebt u n au taken rest inst bi gone f hinst hsb _ hba hle _ _ _ hg _ _ =>
      have hpi : inst.backstop ≠ p := by rw [hba]; exact Ne.symm hpb
      have hg0 : 0 ≤ gone i := by
        rcases hg with ⟨h, _⟩ | ⟨h, _⟩
        · rw [h]
        · rw [h]; have := hle i; omega
      refine ⟨{sender, inst.backstop}, fun x hx => ?_, fun Y hs => ?_⟩
      · simp only [Finset.mem_insert, Finset.mem_singleton, not_or] at hx
        simp only [upd_ne hx.1, upd_ne hx.2]
      · have hsY : sender ∈ Y := hs (by simp)
        have huY : inst.backstop ∈ Y := hs (by simp)
        unfold bookLeft
        simp only [upd_same]
        rw [sum_upd (g := fun A => A.debt i) hsY, sum_upd (g := fun A => A.supplied i + A.collateral i) hsY,
          sum_upd (g := fun A => A.debt i) huY, sum_upd (g := fun A => A.supplied i + A.collateral i) huY]
        simp only [upd_ne hsb, take, paid, Ne.symm hsp, Ne.symm hpi, and_false, if_false]
        have e0 : amountAt (w.pools p) SMap.empty i = 0 := by
          unfold amountAt; split <;> rfl
        rw [e0]
        have := mul_nonneg hd0 hg0
        linarith
    | @interest u n au taken rest inst bi f hinst hsb _ hba _ _ _ _ _ =>
      have hpi : inst.backstop ≠ p := by rw [hba]; exact Ne.symm hpb
      refine ⟨∅, fun x _ => rfl, fun Y _ => ?_⟩
      unfold bookLeft
      simp only [paid, Ne.symm hsp, Ne.symm hpi, and_false, if_false, if_true]
      apply le_of_eq
      ring
    | delete _ _ => exact ⟨∅, fun x _ => rfl, fun Y _ => le_refl _⟩

end

/-! ### one operation -/

/-- the data of a reserve after an operation, with the totals; a submit may change these -/
theorem data_step_totals {w w' : World} (hr : Reachable w) {op : Op} (h : step w op = .ok w') {p a : Address}
    (hp : w.poolAddr p = true) {d : ReserveData} (hd : (w.pools p).resData a = some d) :
    (w'.pools p).resData a = some d ∨
    (∃ auth c, op = .pool p auth c) ∧ ∃ dA d', Current (w.pools p) w.time a dA ∧ (w'.pools p).resData a = some d' ∧ d'.dRate = dA.dRate ∧
      d'.bRate = dA.bRate ∧ d'.lastTime = dA.lastTime ∧ ((∀ auth s sp ds l, op ≠ .pool p auth (.submit s sp ds l)) →
        d'.bSupply = dA.bSupply ∧ d'.dSupply = dA.dSupply ∧ d'.backstopCredit = dA.backstopCredit) := by
  rcases data_step hr h hp hd with ⟨_, e⟩ | ⟨dA, d', hcur, e, e1, e2, e3, _⟩
  · exact .inl e
  by_cases hop : ∃ auth c, op = .pool p auth c
  · obtain ⟨auth, c, rfl⟩ := hop
    by_cases hk : c.keepsData = true
    · have h' := h
      simp only [step, bind_ok, require_ok] at h'
      obtain ⟨_, _, _, _, h'⟩ := h'
      exact .inl (by rw [call_resData hk h']; exact hd)
    · cases c with
      | submit sender spender dst reqs =>
        exact .inr ⟨⟨_, _, rfl⟩, dA, d', hcur, e, e1, e2, e3, fun hn => (hn _ _ _ _ _ rfl).elim⟩
      | badDebt u =>
        have h' := h
        simp only [step, bind_ok, require_ok, call] at h'
        obtain ⟨_, _, _, _, h'⟩ := h'
        rcases (badDebt_moved (hr.base.cfg p) (hr.pinv hp) h').data a with e | ⟨dA, e, hcur⟩
        · exact .inl (by rw [e]; exact hd)
        · exact .inr ⟨⟨_, _, rfl⟩, dA, dA, hcur, e, rfl, rfl, rfl, fun _ => ⟨rfl, rfl, rfl⟩⟩
      | setReserve b =>
        have h' := h
        simp only [step, bind_ok, require_ok, call, pure_ok] at h'
        obtain ⟨_, _, _, _, ps, hs, rfl⟩ := h'
        rw [pools_setPool] at *
        obtain ⟨q, _, _, hs | hs⟩ := setReserve_ok hs
        · obtain ⟨old, d0, i, r, h1, h2, h3, h4, _, rfl⟩ := hs
          by_cases e : a = b
          · subst e
            refine .inr ⟨⟨_, _, rfl⟩, _, _, ⟨old, d0, i, h1, h2, h3, h4⟩, by simp only [upd_same]; rfl, ?_, ?_, ?_, fun _ => ⟨?_, ?_, ?_⟩⟩ <;>
              (split <;> rfl)
          · exact .inl (by simp only [upd_ne e]; exact hd)
        · obtain ⟨h1, _, rfl⟩ := hs
          have e : a ≠ b := by
            rintro rfl
            obtain ⟨c, hc⟩ := (hr.base.cfg p).data a d hd
            rw [h1] at hc; cases hc
          exact .inl (by simp only [upd_ne e]; exact hd)
      | _ => simp [Call.keepsData] at hk
  · have fr := step_frame hr.base h
    refine .inl ?_
    suffices e : (w'.pools p).resData = (w.pools p).resData by rw [e]; exact hd
    by_cases h2 : ∃ auth a s o r n, op = .factory auth (.deploy a s o r n) ∧ w.deployAddr a s = p
    · obtain ⟨auth, b, s, o, r, n, rfl, he⟩ := h2
      have h' := h
      simp only [step, bind_ok, require_ok] at h'
      obtain ⟨_, _, h'⟩ := h'
      rcases factoryCall_ok h' with ⟨m, h', _⟩ | ⟨a', s', o', r', n', m, he', hm, hmt, _, _, _, hi', rfl⟩
      · cases h'
      · cases he'
        subst he
        simp only [World.setPool, upd_same]
    · by_cases h3 : ∃ t u, op = .expireAuction p t u
      · obtain ⟨t, u, rfl⟩ := h3
        simp only [step, pure_ok] at h
        subst h
        rw [pools_setPool]; rfl
      · by_cases h4 : ∃ b, op = .expireQueued p b
        · obtain ⟨b, rfl⟩ := h4
          simp only [step, pure_ok] at h
          subst h
          rw [pools_setPool]
        · rw [fr.pools p (fun auth c e => hop ⟨auth, c, e⟩) (fun auth b s o r n e e' => h2 ⟨auth, b, s, o, r, n, e, e'⟩)
            (fun t u e => h3 ⟨t, u, e⟩) fun b e => h4 ⟨b, e⟩]

/-- the tokens of the backstop in a reserve of which the data do not change in a submit -/
theorem creditOf_same {ps ps' : PoolState} {now : Nat} {a : Address} (h1 : ps'.resConfig a = ps.resConfig a) (h2 : ps'.resData a = ps.resData a)
    {i i' : PoolInst} (h3 : ps.inst = some i) (h4 : ps'.inst = some i') (h5 : i'.config.bstopRate = i.config.bstopRate) :
    creditOf ps' now a = creditOf ps now a := by
  unfold creditOf
  rw [h1, h2, h3, h4]
  cases ps.resConfig a <;> cases ps.resData a <;> simp only [h5]

/-- what one operation can add to what the pool is left with -/
theorem leftover_step {w w' : World} (hr : Reachable w) {op : Op} (h : step w op = .ok w') {p a : Address} (hp : w.poolAddr p = true)
    (hg : ¬ Gives p op) (hn : ¬ IsBlnd w a) {d : ReserveData} (hd : (w.pools p).resData a = some d) {R : Int}
    (hR : ∀ dA, Current (w.pools p) w.time a dA → dA.bRate ≤ R ∧ dA.dRate ≤ R) :
    ∃ d', (w'.pools p).resData a = some d' ∧ leftover (w'.balance a p) d' ≤ leftover (w.balance a p) d
      + callsOf p op * (if d.lastTime = w.time then 0 else 2 * ONE9 + d.bSupply) + requestsOn p a op * R := by
  have pi := hr.pinv hp
  have cfg := hr.base.cfg p
  have hB := (pi.dataOk cfg hd).bSupply
  have hadd : 0 ≤ (if d.lastTime = w.time then 0 else 2 * ONE9 + d.bSupply) := by
    unfold ONE9; split <;> omega
  by_cases hsub : ∃ auth s sp ds l, op = .pool p auth (.submit s sp ds l)
  · obtain ⟨auth, sender, spender, dst, reqs, rfl⟩ := hsub
    obtain ⟨_, cache, s, v⟩ := submit_view hr h
    obtain ⟨B, run, hpos, _, _, hcred, hbal⟩ := submit_full hr h
    obtain ⟨ca, hca⟩ := cfg.data a d hd
    have hr' := hr.step h
    have hp' : w'.poolAddr p = true := by rw [(Steps.poolAddr hr.base (.tail (.refl _) ⟨_, h⟩)).1]; exact hp
    have pi' := hr'.pinv hp'
    have cfg' := hr'.base.cfg p
    have hca' : (w'.pools p).resConfig a = some ca := by
      rw [resConfig_step hr h (fun _ e => by cases e)]; exact hca
    have hbp := hbal a p
    rw [if_pos rfl, if_neg (Ne.symm v.spender_ne), if_neg (Ne.symm v.dst_ne)] at hbp
    have hq : callsOf p (.pool p auth (.submit sender spender dst reqs)) = 1 := by simp [callsOf]
    have hq2 : requestsOn p a (.pool p auth (.submit sender spender dst reqs)) = plainOn a reqs := by simp [requestsOn]
    rw [hq, hq2]
    have hpb := hr.base.pool_ne hp
    -- the end of the run, for any rates
    have key : ∀ b dr : Int, 0 ≤ dr → (∀ dA, Current (w.pools p) w.time a dA → dA.bRate = b ∧ dA.dRate = dr ∧ 1000000000 ≤ b ∧
          1000000000 ≤ dr ∧ b ≤ R ∧ dr ≤ R) → ∀ d', (w'.pools p).resData a = some d' →
        (w'.balance a p - creditOf (w'.pools p) w'.time a) * ONE9 + d'.dSupply * dr - d'.bSupply * b ≤
          (w.balance a p - creditOf (w.pools p) w.time a) * ONE9 + d.dSupply * dr - d.bSupply * b + plainOn a reqs * R := by
      intro b dr hdr hcur d' hd'
      obtain ⟨X, hX, hY⟩ := run_leftover cfg v.sender_ne hpb hca rfl hcur hdr run
      have hk : ∀ (k : Kind) x i, k.of (accountOf (w'.pools p) x) i = k.of (B.acct x) i := by
        intro k x i
        rw [Kind.of_accountOf]
        obtain ⟨e1, e2, e3⟩ := hpos x i
        cases k
        · exact e3
        · exact e2
        · exact e1
      have ht : ∀ k : Kind, tot (w'.pools p) k ca.index = tot (w.pools p) k ca.index +
          ((X.sum fun x => k.of (B.acct x) ca.index) - X.sum fun x => k.of ((booksOf w p).acct x) ca.index) := by
        intro k
        rw [tot_diff (w.pools p) (w'.pools p) k ca.index (X := X) (fun x hx => by
          rw [hk]
          obtain ⟨e1, e2, e3⟩ := hX x hx ca.index
          cases k
          · exact e3
          · exact e2
          · exact e1), Finset.sum_sub_distrib]
        simp only [hk]
        rfl
      have s1 : d'.dSupply = d.dSupply + ((X.sum fun x => (B.acct x).debt ca.index) - X.sum fun x => ((booksOf w p).acct x).debt ca.index) := by
        rw [pi'.dsum a ca d' hca' hd', pi.dsum a ca d hca hd]
        exact ht .liab
      have s2 : d'.bSupply = d.bSupply + ((X.sum fun x => (B.acct x).supplied ca.index + (B.acct x).collateral ca.index) -
          X.sum fun x => ((booksOf w p).acct x).supplied ca.index + ((booksOf w p).acct x).collateral ca.index) := by
        rw [pi'.bsum a ca d' hca' hd', pi.bsum a ca d hca hd, Finset.sum_add_distrib, Finset.sum_add_distrib]
        have t1 := ht .coll
        have t2 := ht .supp
        simp only [Kind.of] at t1 t2
        show tot (w'.pools p) .coll ca.index + tot (w'.pools p) .supp ca.index = tot (w.pools p) .coll ca.index + tot (w.pools p) .supp ca.index + _
        omega
      have h6 := hY X (Finset.Subset.refl _)
      unfold bookLeft at h6
      have e1 : (booksOf w p).wallet a p = w.balance a p := rfl
      have e2 : (booksOf w p).credit a = creditOf (w.pools p) w.time a := rfl
      have e3 : ((booksOf w p).acct sender).pays a = 0 := rfl
      have e4 : ((booksOf w p).acct sender).gets a = 0 := rfl
      rw [e1, e2, e3, e4] at h6
      rw [hcred a, hbp, s1, s2]
      generalize (X.sum fun x => (B.acct x).debt ca.index) = x1 at h6 ⊢
      generalize (X.sum fun x => ((booksOf w p).acct x).debt ca.index) = x2 at h6 ⊢
      generalize (X.sum fun x => (B.acct x).supplied ca.index + (B.acct x).collateral ca.index) = x3 at h6 ⊢
      generalize (X.sum fun x => ((booksOf w p).acct x).supplied ca.index + ((booksOf w p).acct x).collateral ca.index) = x4 at h6 ⊢
      linarith
    rcases data_step_totals hr h hp hd with e | ⟨_, dA, d', hcur, e, e1, e2, e3, _⟩
    · -- the data do not change
      refine ⟨d, e, ?_⟩
      have hcs : creditOf (w'.pools p) w'.time a = creditOf (w.pools p) w.time a := by
        obtain ⟨inst, hi⟩ : ∃ i, (w.pools p).inst = some i := by
          obtain ⟨i, hi, _⟩ := (load_ok (now := w.time) v.load).1.config
          exact ⟨i, hi⟩
        obtain ⟨i', hi', _, _, hrate⟩ := rate_step (p := p) hr h hi
        rw [v.time']
        exact creditOf_same (by rw [hca', hca]) (by rw [e, hd]) hi hi' (hrate fun _ _ _ e => by cases e)
      have fin : (w'.balance a p - w.balance a p) * ONE9 ≤ plainOn a reqs * R := by
        by_cases hc : ∃ dA, Current (w.pools p) w.time a dA
        · obtain ⟨dA, hcA⟩ := hc
          obtain ⟨g1, g2⟩ := hr.rates_ge hp hcA
          obtain ⟨r1, r2⟩ := hR dA hcA
          have := key dA.bRate dA.dRate (by omega) (fun d2 h2 => by
            have : d2 = dA := by
              obtain ⟨_, _, _, x1, x2, x3, x4⟩ := hcA
              obtain ⟨_, _, _, y1, y2, y3, y4⟩ := h2
              rw [x1] at y1; cases y1
              rw [x2] at y2; cases y2
              rw [x3] at y3; cases y3
              rw [x4] at y4; cases y4; rfl
            subst this
            exact ⟨rfl, rfl, g1, g2, r1, r2⟩) d e
          rw [hcs] at this
          linarith
        · have := key 0 0 (le_refl _) (fun d2 h2 => (hc ⟨d2, h2⟩).elim) d e
          rw [hcs] at this
          linarith
      unfold leftover
      push_cast
      linarith
    · refine ⟨d', e, ?_⟩
      obtain ⟨g1, g2⟩ := hr.rates_ge hp hcur
      obtain ⟨r1, r2⟩ := hR dA hcur
      have k := key dA.bRate dA.dRate (by omega) (fun d2 h2 => by
        have : d2 = dA := by
          obtain ⟨_, _, _, x1, x2, x3, x4⟩ := hcur
          obtain ⟨_, _, _, y1, y2, y3, y4⟩ := h2
          rw [x1] at y1; cases y1
          rw [x2] at y2; cases y2
          rw [x3] at y3; cases y3
          rw [x4] at y4; cases y4; rfl
        subst this
        exact ⟨rfl, rfl, g1, g2, r1, r2⟩) d' e
      obtain ⟨c0, d0, i0, x1, x2, x3, x4⟩ := hcur
      rw [hd] at x2; cases x2
      have ha := accrue_leftover x4 hB (w.balance a p)
      obtain ⟨t1, t2⟩ := accrue_supplies x4
      have hc0 : creditOf (w.pools p) w.time a = dA.backstopCredit := by
        unfold creditOf
        rw [x1, hd, x3]
        simp only [x4]
      have hc1 : creditOf (w'.pools p) w'.time a = d'.backstopCredit := by
        obtain ⟨i', hi', _⟩ := rate_step (p := p) hr h x3
        unfold creditOf
        rw [hca', e, hi', v.time']
        simp only
        rw [accrue_idem (by rw [e3]; exact accrue_time x4)]
      rw [hc0, hc1] at k
      unfold leftover at ha ⊢
      rw [e1, e2]
      rw [t1, t2] at ha
      push_cast
      linarith
  · have hsub' : ∀ auth s sp ds l, op ≠ .pool p auth (.submit s sp ds l) := fun auth s sp ds l e => hsub ⟨auth, s, sp, ds, l, e⟩
    have hbal := (step_gift hr h hp hsub' a).2 hg hn
    have hq2 : requestsOn p a op = 0 := by
      unfold requestsOn
      split
      · rename_i q auth s sp ds l
        by_cases e : q = p
        · subst e; exact (hsub' _ _ _ _ _ rfl).elim
        · rw [if_neg e]
      · rfl
    rw [hq2, hbal]
    rcases data_step_totals hr h hp hd with e | ⟨⟨auth, c, rfl⟩, dA, d', hcur, e, e1, e2, e3, e4⟩
    · refine ⟨d, e, ?_⟩
      have : (0 : Int) ≤ callsOf p op * (if d.lastTime = w.time then 0 else 2 * ONE9 + d.bSupply) := mul_nonneg (by omega) hadd
      push_cast
      linarith
    · refine ⟨d', e, ?_⟩
      obtain ⟨f1, f2, f3⟩ := e4 hsub'
      obtain ⟨c0, d0, i0, x1, x2, x3, x4⟩ := hcur
      rw [hd] at x2; cases x2
      have ha := accrue_leftover x4 hB (w.balance a p)
      have hq : callsOf p (.pool p auth c) = 1 := by simp [callsOf]
      rw [hq]
      unfold leftover at ha ⊢
      rw [e1, e2, f1, f2, f3]
      push_cast
      linarith

end Pool
end Blend
