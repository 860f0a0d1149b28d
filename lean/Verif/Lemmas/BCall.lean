import Verif.Lemmas.BMicro
import Verif.Lemmas.Reach
/-
  Every operation is a sequence of small steps of the backstop.
-/

namespace Blend
namespace Backstop

theorem BMicro.mono {now : Nat} {F F' : Prop} {U U' : Address → Prop} (hF : F → F') (hU : ∀ x, U x → U' x)
    {S S' : BS} (h : BMicro now F U S S') : BMicro now F' U' S S' := by
  cases h with
  | vb vb' h => exact .vb _ _ h
  | init i dl ld h h' => exact .init _ _ _ _ h h'
  | misc ld rz pe lv dl => exact .misc _ _ _ _ _ _
  | deposit p u amt m x b1 i vb' h0 h1 h2 h3 h4 h5 h6 => exact .deposit _ p u amt m x b1 i vb' (hU _ h0) h1 h2 h3 h4 h5 h6
  | queue p u amt x b1 h0 h1 h2 h3 h4 => exact .queue _ p u amt x b1 (hU _ h0) h1 h2 h3 h4
  | dequeue p u amt x b1 q h0 h1 h2 h3 h4 => exact .dequeue _ p u amt x b1 q (hU _ h0) h1 h2 h3 h4
  | withdraw p u amt tk q i vb' h0 h1 h2 h3 h4 h5 h6 h7 h8 h9 =>
    exact .withdraw _ p u amt tk q i vb' (hU _ h0) h1 h2 h3 h4 h5 h6 h7 h8 h9
  | draw p amt i vb' h0 h1 h2 h3 => exact .draw _ p amt i vb' h0 h1 h2 h3
  | donate p amt i vb' h0 h1 h2 => exact .donate _ p amt i vb' h0 h1 h2
  | claim p u x b1 h0 h1 => exact .claim _ p u x b1 (hU _ h0) h1
  | mintLp amt i vb' h0 h1 h2 => exact .mintLp _ amt i vb' h0 h1 h2
  | credit p u dep m i h0 h1 h2 h3 h4 => exact .credit _ p u dep m i (hU _ h0) h1 h2 (h3.imp hF id) h4
  | settle h => exact .settle _ h
  | gulp p n b1 h0 h1 => exact .gulp _ p n b1 h0 h1

theorem BMicros.mono {now : Nat} {F F' : Prop} {U U' : Address → Prop} (hF : F → F') (hU : ∀ x, U x → U' x)
    {S S' : BS} (h : BMicros now F U S S') : BMicros now F' U' S S' := by
  induction h with
  | refl => exact .refl _
  | tail _ h ih => exact .tail ih (h.mono hF hU)

/-- the instance storage is written once -/
theorem bmicro_inst {now : Nat} {F : Prop} {U : Address → Prop} {S S' : BS} (h : BMicro now F U S S')
    {i : BackstopInst} (hi : S.b.inst = some i) : S'.b.inst = some i := by
  have em : ∀ {p u : Address} {pb ub} {c : Bool} {x : Int} {b1 : BackstopState},
      updateEmissions S.b now p pb u ub c = .ok (x, b1) → b1.inst = some i := by
    intro p u pb ub c x b1 h
    rcases updateEmissions_ok h with ⟨_, rfl, _⟩ | ⟨cfg, ed, d, y, r⟩
    · exact hi
    · rw [r.eq]; exact hi
  cases h with
  | vb vb' h => exact hi
  | init i' dl ld h h' => rw [hi] at h; simp at h
  | misc ld rz pe lv dl => exact hi
  | deposit p u amt m x b1 i vb' h0 h1 h2 h3 h4 h5 h6 => have e := em h3; exact e
  | queue p u amt x b1 h0 h1 h2 h3 h4 => have e := em h4; exact e
  | dequeue p u amt x b1 q h0 h1 h2 h3 h4 => have e := em h3; exact e
  | withdraw p u amt tk q i vb' h0 h1 h2 h3 h4 h5 h6 h7 h8 h9 => exact hi
  | draw p amt i vb' h0 h1 h2 h3 => exact hi
  | donate p amt i vb' h0 h1 h2 => exact hi
  | claim p u x b1 h0 h1 => have e := em h1; exact e
  | mintLp amt i vb' h0 h1 h2 => exact hi
  | credit p u dep m i h0 h1 h2 h3 h4 => exact hi
  | settle h => exact hi
  | gulp p n b1 h0 h1 =>
    obtain ⟨d', eps, rfl, _⟩ := setEmisConfig_ok h1
    exact hi

theorem bmicros_inst {now : Nat} {F : Prop} {U : Address → Prop} {S S' : BS} (h : BMicros now F U S S')
    {i : BackstopInst} (hi : S.b.inst = some i) : S'.b.inst = some i := by
  induction h with
  | refl => exact hi
  | tail _ h ih => exact bmicro_inst h ih

/-- the backstop grants allowances of BLND only -/
def BAllow (w : World) : Prop :=
  ∀ t s, (w.tok t).allow w.backstopAddr s = (0, 0) ∨ ∃ i, w.backstop.inst = some i ∧ t = i.blnd

variable {now : Nat} {F : Prop} {U : Address → Prop}

/-- tokens move, the backstop's storage does not change -/
theorem bs_gain {w w' : World} (h1 : w'.backstop = w.backstop) (h2 : w'.backstopAddr = w.backstopAddr)
    (h3 : ∀ t, w.balance t w.backstopAddr ≤ w'.balance t w.backstopAddr ∨
      ∃ i, w.backstop.inst = some i ∧ t = i.blnd) : BMicros now F U (.of w) (.of w') := by
  have : BS.of w' = { BS.of w with vb := fun t => w'.balance t w.backstopAddr } := by
    unfold BS.of; simp [h1, h2]
  rw [this]
  exact .one (.vb _ _ h3)

theorem bs_same {w w' : World} (h1 : w'.backstop = w.backstop) (h2 : w'.backstopAddr = w.backstopAddr)
    (h3 : ∀ t, w'.balance t w.backstopAddr = w.balance t w.backstopAddr) : BMicros now F U (.of w) (.of w') :=
  bs_gain h1 h2 fun t => .inl (le_of_eq (h3 t).symm)

theorem moved_self (t s d : Address) {amt : Int} (h : 0 ≤ amt) (t' : Address) :
    -(if t' = t then amt else 0) ≤ moved t s d amt t' s := by
  unfold moved
  by_cases ht : t' = t
  · subst ht; simp only [true_and, if_true]; split <;> omega
  · simp [ht]

theorem moved_to {t s d : Address} {amt : Int} (hs : s ≠ d) (t' : Address) :
    moved t s d amt t' d = if t' = t then amt else 0 := by
  unfold moved
  simp [Ne.symm hs]

theorem draw_micros {w w' : World} {p dst : Address} {amt : Int} (h : executeDraw w p amt dst = .ok w') :
    BMicros now F U (.of w) (.of w') ∧ w'.backstopAddr = w.backstopAddr ∧
      (∀ t, (w'.tok t).allow = (w.tok t).allow) := by
  have r := executeDraw_res h
  obtain ⟨i, hi, t⟩ := r.ex
  refine ⟨?_, by rw [t.frame]; rfl, fun t' => by rw [t.allow]; rfl⟩
  have hm : BMicro now F U (BS.of w) ⟨w.backstop.setPoolBal p
        { w.backstop.getPoolBal p with tokens := (w.backstop.getPoolBal p).tokens - amt },
        fun t => w'.balance t w.backstopAddr, 0⟩ := by
    refine .draw (BS.of w) p amt i _ r.nonneg r.le hi fun t' => ?_
    rw [t.bal]
    have h1 := moved_self i.backstopToken w.backstopAddr dst r.nonneg t'
    show w.balance t' w.backstopAddr - _ ≤ w.balance t' w.backstopAddr + _
    omega
  have e : BS.of w' = ⟨w.backstop.setPoolBal p
        { w.backstop.getPoolBal p with tokens := (w.backstop.getPoolBal p).tokens - amt },
        fun t => w'.balance t w.backstopAddr, 0⟩ := by
    unfold BS.of; rw [t.frame]; rfl
  rw [e]; exact .one hm

theorem donate_micros {w w' : World} {s p : Address} {amt : Int} (h : executeDonate w s p amt = .ok w') :
    BMicros now F U (.of w) (.of w') ∧ w'.backstopAddr = w.backstopAddr ∧
      (∀ t, (w'.tok t).allow = (w.tok t).allow) := by
  have r := executeDonate_res h
  obtain ⟨i, w1, hi, t, rfl⟩ := r.ex
  have ha : w1.backstopAddr = w.backstopAddr := by rw [t.frame]
  refine ⟨?_, ha, fun t' => t.allow t'⟩
  have hm : BMicro now F U (BS.of w) ⟨w.backstop.setPoolBal p
        { w.backstop.getPoolBal p with tokens := (w.backstop.getPoolBal p).tokens + amt },
        fun t => w1.balance t w.backstopAddr, 0⟩ := by
    refine .donate (BS.of w) p amt i _ r.nonneg hi fun t' => ?_
    rw [t.bal, moved_to r.ne.2]
    exact le_refl _
  have e : BS.of (w1.setBackstop (w.backstop.setPoolBal p
        { w.backstop.getPoolBal p with tokens := (w.backstop.getPoolBal p).tokens + amt })) =
      ⟨w.backstop.setPoolBal p
        { w.backstop.getPoolBal p with tokens := (w.backstop.getPoolBal p).tokens + amt },
        fun t => w1.balance t w.backstopAddr, 0⟩ := by
    unfold BS.of World.setBackstop World.balance
    simp [ha]
  rw [e]; exact .one hm

theorem gulpPool_micros {w w' : World} {p : Address} {n : Int} (h : gulpPoolEmissions w p = .ok (n, w')) :
    BMicros now F U (.of w) (.of w') ∧ w'.backstopAddr = w.backstopAddr ∧
      ∀ t o s, ((w'.tok t).allow o s = (w.tok t).allow o s) ∨ ∃ i, w.backstop.inst = some i ∧ t = i.blnd := by
  unfold gulpPoolEmissions inst at h
  simp only [bind_ok, require_ok, unwrap_ok, pure_ok, Prod.mk.injEq, chk_ok] at h
  obtain ⟨_, _, i, hi, _, ⟨_, rfl⟩, w1, ha, _, rfl⟩ := h
  obtain ⟨_, rfl⟩ := approve_res ha
  obtain ⟨_, hb, hal, _⟩ := setAllowance_res w i.blnd w.backstopAddr p (w.allowance i.blnd w.backstopAddr p + w.backstop.poolEmis p) (w.seq + LEDGER_BUMP_USER)
  refine ⟨?_, rfl, fun t o s => ?_⟩
  · have hm := BMicro.misc (now := now) (F := F) (U := U) (BS.of w) w.backstop.lastDistro w.backstop.rewardZone (upd w.backstop.poolEmis p 0)
      w.backstop.lpVal w.backstop.dropList
    refine .one ?_
    convert hm using 1
    unfold BS.of
    congr 1
    funext t
    exact hb t _
  · by_cases ht : t = i.blnd
    · exact .inr ⟨i, hi, ht⟩
    · left
      show ((w.setAllowance _ _ _ _ _).tok t).allow o s = _
      rw [hal, if_neg (by simp [ht])]

theorem BAllow.of {w w' : World} (h : BAllow w) {U : Address → Prop} (hm : BMicros now F U (.of w) (.of w'))
    (ha : w'.backstopAddr = w.backstopAddr)
    (hal : ∀ t s, ((w'.tok t).allow w.backstopAddr s = (w.tok t).allow w.backstopAddr s) ∨
      (w'.tok t).allow w.backstopAddr s = (0, 0) ∨ ∃ i, w.backstop.inst = some i ∧ t = i.blnd) : BAllow w' := by
  intro t s
  have hi : (∃ i, w.backstop.inst = some i ∧ t = i.blnd) → ∃ i, w'.backstop.inst = some i ∧ t = i.blnd := by
    rintro ⟨i, h1, h2⟩
    exact ⟨i, bmicros_inst hm h1, h2⟩
  rw [ha]
  rcases hal t s with h1 | h1 | h1
  · rcases h t s with h2 | h2
    · exact .inl (h1.trans h2)
    · exact .inr (hi h2)
  · exact .inl h1
  · exact .inr (hi h1)

/-- one effect of a pool call -/
theorem pstep_micros {w w' : World} {p : Address} {auth : List Address} {D : Pool.Eff → Prop} (hp : p ≠ w.backstopAddr)
    (hauth : w.backstopAddr ∉ auth) (hal : BAllow w) (h : Pool.PStep p auth D w w') :
    BMicros now F U (.of w) (.of w') ∧ w'.backstopAddr = w.backstopAddr ∧ BAllow w' := by
  cases h with
  | setPool ps =>
    exact ⟨bs_same rfl rfl fun _ => rfl, rfl, hal⟩
  | @transfer _ t src dst amt hs h =>
    have r := transfer_res h
    have hne : w.backstopAddr ≠ src := by
      rintro e; rcases hs with rfl | hs
      · exact hp e.symm
      · exact hauth (e ▸ hs)
    have ha : w'.backstopAddr = w.backstopAddr := by rw [r.frame]
    have hm : BMicros now F U (.of w) (.of w') := bs_gain (by rw [r.frame]) ha fun t' => .inl (by
      rw [r.bal]
      have := WF.moved_nonneg (t := t) (d := dst) r.nonneg (t' := t') hne
      omega)
    exact ⟨hm, ha, hal.of hm ha fun t s => .inl (by rw [r.allow])⟩
  | @pull _ t owner dst amt _ hpos h =>
    have r := transferFrom_res h
    have ha : w'.backstopAddr = w.backstopAddr := by rw [r.frame]
    have hown : owner = w.backstopAddr → ∃ i, w.backstop.inst = some i ∧ t = i.blnd := by
      rintro rfl
      rcases hal t p with h1 | h1
      · have := r.allowed
        unfold World.allowance at this
        simp only [h1] at this
        split at this <;> omega
      · exact h1
    have hm : BMicros now F U (.of w) (.of w') := bs_gain (by rw [r.frame]) ha fun t' => by
      by_cases e : owner = w.backstopAddr
      · by_cases ht : t' = t
        · subst ht; exact .inr (hown e)
        · left; rw [r.bal]; unfold moved; simp [ht]
      · left
        rw [r.bal]
        have := WF.moved_nonneg (t := t) (d := dst) r.nonneg (t' := t') (Ne.symm e)
        omega
    refine ⟨hm, ha, hal.of hm ha fun t' s => ?_⟩
    rw [r.allow]
    split
    · rename_i e
      obtain ⟨rfl, e2, _⟩ := e
      exact .inr (.inr (hown e2.symm))
    · exact .inl rfl
  | draw _ h =>
    obtain ⟨h1, h2, h3⟩ := draw_micros (now := now) (F := F) (U := U) h
    exact ⟨h1, h2, hal.of h1 h2 fun t s => .inl (by rw [h3])⟩
  | donate _ hs h =>
    obtain ⟨h1, h2, h3⟩ := donate_micros (now := now) (F := F) (U := U) h
    exact ⟨h1, h2, hal.of h1 h2 fun t s => .inl (by rw [h3])⟩
  | gulp _ h =>
    obtain ⟨h1, h2, h3⟩ := gulpPool_micros (now := now) (F := F) (U := U) h
    exact ⟨h1, h2, hal.of h1 h2 fun t s => (h3 t _ s).imp id .inr⟩

theorem psteps_micros {w w' : World} {p : Address} {auth : List Address} {D : Pool.Eff → Prop} (hp : p ≠ w.backstopAddr)
    (hauth : w.backstopAddr ∉ auth) (hal : BAllow w) (h : Pool.PSteps p auth D w w') :
    BMicros now F U (.of w) (.of w') ∧ w'.backstopAddr = w.backstopAddr ∧ BAllow w' := by
  induction h with
  | refl => exact ⟨.refl _, rfl, hal⟩
  | tail _ hs ih =>
    obtain ⟨h1, h2, h3⟩ := ih
    obtain ⟨h4, h5, h6⟩ := pstep_micros (now := now) (F := F) (U := U) (h2 ▸ hp) (h2 ▸ hauth) h3 hs
    exact ⟨h1.trans h4, h5.trans h2, h6⟩

/-! ### claims -/

/-- a claim at this time pays nothing -/
def Settled (now : Nat) (b : BackstopState) (p u : Address) : Prop :=
  ∀ cfg, b.emisCfg p = some cfg → ∃ d x, b.emisData p = some d ∧ (b.userEmis p).get u = some x ∧
      x.index = d.index ∧ x.accrued = 0 ∧
      (d.lastTime ≥ cfg.expiration ∨ now = d.lastTime ∨ cfg.eps = 0 ∨ (b.getPoolBal p).shares = 0)

theorem claim_settles {b b1 : BackstopState} {p u : Address} {x : Int}
    (h : updateEmissions b now p (b.getPoolBal p) u (b.getUserBal p u) true = .ok (x, b1)) : Settled now b1 p u := by
  rcases updateEmissions_ok h with ⟨hc, rfl, rfl⟩ | ⟨cfg, ed, d, y, r⟩
  · intro cfg h; rw [hc] at h; simp at h
  · intro cf hcf
    have he := r.eq
    subst he
    simp only at hcf
    rw [r.config] at hcf; cases hcf
    refine ⟨d, y, by simp, by simp, r.xi, r.claimed rfl, ?_⟩
    exact r.settled

theorem Settled.other {b b1 : BackstopState} {p q u v : Address} {c : Bool} {x : Int} (hs : Settled now b p v)
    (hpq : p ≠ q)
    (h : updateEmissions b now q (b.getPoolBal q) u (b.getUserBal q u) c = .ok (x, b1)) : Settled now b1 p v := by
  rcases updateEmissions_ok h with ⟨hc, rfl, rfl⟩ | ⟨cfg, ed, d, y, r⟩
  · exact hs
  · intro cf hcf
    have he := r.eq
    subst he
    simp only at hcf
    simp only [upd_ne hpq]
    exact hs cf hcf

/-- total of the final claim amounts of a list of pools -/
def claimSum (cl : SMap Int) (ps : List Address) : Int := (ps.map fun p => (cl.get p).getD 0).sum

theorem claimLoop_keep {s : Address} : ∀ {ps : List Address} {c c' : Int} {cl cl' : SMap Int} {b b' : BackstopState},
    claimLoop now s ps (c, cl, b) = .ok (c', cl', b') → ∀ p, p ∉ ps → cl'.get p = cl.get p := by
  intro ps
  induction ps with
  | nil =>
    intro c c' cl cl' b b' h p _
    simp only [claimLoop, pure_ok, Prod.mk.injEq] at h
    rw [h.2.1]
  | cons q ps ih =>
    intro c c' cl cl' b b' h p hp
    simp only [claimLoop, bind_ok, Prod.exists, chk_ok] at h
    obtain ⟨a, b1, hu, _, ⟨_, rfl⟩, h⟩ := h
    simp only [List.mem_cons, not_or] at hp
    rw [ih h p hp.2, SMap.get_set, if_neg hp.1]

theorem claimLoop_ok {s : Address} (hU : U s) :
    ∀ {ps : List Address} {c c' : Int} {cl cl' : SMap Int} {S : BS} {b' : BackstopState},
    BInv now S.b → claimLoop now s ps (c, cl, S.b) = .ok (c', cl', b') →
    BMicros now F U S ⟨b', S.vb, S.fl⟩ ∧ BInv now b' ∧ 
    (∀ p ∈ ps, ∃ x, cl'.get p = some x ∧ 0 ≤ x) ∧ c + claimSum cl' ps ≤ c' ∧
    (∀ p ∈ ps, Settled now S.b p s → cl'.get p = some 0) ∧
    (∀ p ∈ ps, UpToDate b' p s) ∧ (∀ p, UpToDate S.b p s → UpToDate b' p s) ∧ b'.inst = S.b.inst := by
  intro ps
  induction ps with
  | nil =>
    intro c c' cl cl' S b' inv h
    simp only [claimLoop, pure_ok, Prod.mk.injEq] at h
    obtain ⟨rfl, rfl, rfl⟩ := h
    exact ⟨.refl _, inv, by simp, by simp [claimSum], by simp, by simp, fun _ h => h, rfl⟩
  | cons q ps ih =>
    intro c c' cl cl' S b' inv h
    simp only [claimLoop, bind_ok, Prod.exists, chk_ok] at h
    obtain ⟨a, b1, hu, _, ⟨_, rfl⟩, h⟩ := h
    obtain ⟨i1, i2, i3, i4, _, i5, _, i6⟩ := inv.emis hu
    have m1 : BMicro now F U S { S with b := { b1 with claimed := upd b1.claimed q (b1.claimed q + a) } } :=
      .claim S q s a b1 hU hu
    obtain ⟨k1, k2, k3, k4, k5, k6, k7, k8⟩ := ih (S := { S with b := { b1 with claimed := upd b1.claimed q (b1.claimed q + a) } }) i1 h
    have hup : ∀ p, UpToDate S.b p s → UpToDate b1 p s := by
      intro p hp
      by_cases e : p = q
      · rw [e]; exact i6
      · rcases updateEmissions_ok hu with ⟨hc, rfl, rfl⟩ | ⟨cfg, ed, d, y, r⟩
        · exact hp
        · have he := r.eq; subst he
          intro cf hcf
          simp only [upd_ne e]
          exact hp cf hcf
    have hset : ∀ p, p = q ∨ Settled now S.b p s → Settled now b1 p s := by
      intro p hp
      by_cases e : p = q
      · rw [e]; exact claim_settles hu
      · exact (hp.resolve_left e).other e hu
    have hq : q ∉ ps → cl'.get q = some a := by
      intro hq; rw [claimLoop_keep h q hq, SMap.get_set, if_pos rfl]
    have ha0 : Settled now S.b q s → a = 0 := fun hs => updateEmissions_settled hu hs
    have hz : q ∈ ps → cl'.get q = some 0 := fun hm => k5 q hm (hset q (.inl rfl))
    refine ⟨(BMicros.one m1).trans k1, k2, ?_, ?_, ?_, ?_, fun p hp => k7 p (hup p hp), k8.trans i4⟩
    · intro p hp
      by_cases hps : p ∈ ps
      · exact k3 p hps
      · have : p = q := by simpa [hps] using hp
        subst this
        exact ⟨a, hq hps, i5⟩
    · unfold claimSum at k4 ⊢
      rw [List.map_cons, List.sum_cons]
      by_cases hps : q ∈ ps
      · rw [hz hps]; simp only [Option.getD_some]; omega
      · rw [hq hps]; simp only [Option.getD_some]; omega
    · intro p hp hs
      by_cases hps : p ∈ ps
      · exact k5 p hps (hset p (.inr hs))
      · have : p = q := by simpa [hps] using hp
        subst this
        rw [hq hps, ha0 hs]
    · intro p hp
      by_cases hps : p ∈ ps
      · exact k6 p hps
      · have : p = q := by simpa [hps] using hp
        subst this
        exact k7 p i6

theorem creditLoop_ok {lpOut claimed : Int} {cl : SMap Int} {dst : Address} (hU : U dst) (hlp : 0 ≤ lpOut)
    (hc : 0 < claimed) : ∀ {ps : List Address} {S : BS} {b' : BackstopState},
    BInv now S.b → (∃ i, S.b.inst = some i) → (∀ p ∈ ps, F ∨ UpToDate S.b p dst) →
    (∀ p ∈ ps, ∃ x, cl.get p = some x ∧ 0 ≤ x) →
    claimDepositLoop lpOut claimed cl dst ps S.b = .ok b' →
    ∃ fl', BMicros now F U S ⟨b', S.vb, fl'⟩ ∧ claimed * (S.fl - fl') ≤ lpOut * claimSum cl ps := by
  intro ps
  induction ps with
  | nil =>
    intro S b' inv _ _ _ h
    simp only [claimDepositLoop, pure_ok] at h
    subst h
    exact ⟨S.fl, .refl _, by simp [claimSum]⟩
  | cons q ps ih =>
    intro S b' inv hi hup hpos h
    simp only [claimDepositLoop, bind_ok, unwrap_ok, pbDeposit, addShares, chk_ok, pure_ok] at h
    obtain ⟨amt, ha, dep, hd, m, hm, _, ⟨_, ⟨_, rfl⟩, _, ⟨_, rfl⟩, rfl⟩, _, ⟨_, ⟨_, rfl⟩, rfl⟩, h⟩ := h
    obtain ⟨x, hx, hx0⟩ := hpos q (by simp)
    rw [ha] at hx; cases hx
    have hd0 : 0 ≤ dep := mulDivFloor_nonneg hd hc (mul_nonneg hlp hx0)
    have hds := mulDivFloor_spec hd hc
    obtain ⟨i, hi⟩ := hi
    have m1 : BMicro now F U S _ := .credit S q dst dep m i hU hi hd0 (hup q (by simp)) hm
    have inv1 := bmicro_inv m1 inv
    obtain ⟨fl', k1, k2⟩ := ih inv1 ⟨i, hi⟩ (fun p hp => hup p (by simp [hp])) (fun p hp => hpos p (by simp [hp])) h
    refine ⟨fl', (BMicros.one m1).trans k1, ?_⟩
    unfold claimSum at k2 ⊢
    rw [List.map_cons, List.sum_cons, ha]
    simp only [Option.getD_some] at k2 ⊢
    rw [mul_add]
    have : claimed * (S.fl - fl') = claimed * (S.fl - dep - fl') + dep * claimed := by ring
    rw [this]
    have := hds.1
    linarith

/-! ### operations -/

/-- accounts whose backstop balances or emissions an operation may change -/
def BTouches : Op → Address → Prop
  | .backstop _ (.deposit s _ _) => fun u => u = s
  | .backstop _ (.queueWithdrawal s _ _) => fun u => u = s
  | .backstop _ (.dequeueWithdrawal s _ _) => fun u => u = s
  | .backstop _ (.withdraw s _ _) => fun u => u = s
  | .backstop _ (.claim s _ d) => fun u => u = s ∨ u = d
  | _ => fun _ => False

/-- claims credited to somebody else -/
def ForeignClaim : Op → Prop
  | .backstop _ (.claim s _ d) => d ≠ s
  | _ => False

structure BStepRes (w : World) (op : Op) (w' : World) : Prop where
  micros : BMicros w.time (ForeignClaim op) (BTouches op) (.of w) (.of w')
  allow : BAllow w'

theorem queueShares_ok {ub ub' : UserBalance} {now : Nat} {amt : Int} (h : queueShares ub now amt = .ok ub') :
    amt ≤ ub.shares ∧ ub.q4w.length < 21 ∧
      ub' = ⟨ub.shares - amt, ub.q4w ++ [⟨amt, now + 21 * 24 * 60 * 60⟩]⟩ := by
  unfold queueShares at h
  simp only [bind_ok, require_ok, chk_ok, pure_ok] at h
  obtain ⟨_, h1, _, h2, _, ⟨_, rfl⟩, rfl⟩ := h
  exact ⟨by omega, by unfold MAX_Q4W_SIZE at h2; omega, rfl⟩

theorem dequeueShares_ok {ub ub' : UserBalance} {now : Nat} {amt : Int} {req : Bool} (h0 : 0 ≤ amt)
    (h : dequeueShares ub now amt req = .ok ub') :
    ub' = ⟨ub.shares, ub'.q4w⟩ ∧ ((∀ e ∈ ub.q4w, 0 ≤ e.amount) →
      ∃ taken r, Dequeued now req ub.q4w amt ub'.q4w 0 taken r) := by
  unfold dequeueShares at h
  simp only [bind_ok, require_ok, pure_ok, Prod.exists] at h
  obtain ⟨q, left, hl, _, hle, rfl⟩ := h
  refine ⟨rfl, fun hn => ?_⟩
  obtain ⟨tk, r, d⟩ := dequeueLoop_ok hn h0 hl
  have : left = 0 := by have := d.nonneg.1; omega
  subst this
  exact ⟨tk, r, d⟩

theorem setBal_eq (b : BackstopState) (p u : Address) (pb : PoolBalance) (ub : UserBalance) :
    (b.setPoolBal p pb).setUserBal p u ub = setBal b p u pb ub := rfl
theorem setBal_eq' (b : BackstopState) (p u : Address) (pb : PoolBalance) (ub : UserBalance) :
    (b.setUserBal p u ub).setPoolBal p pb = setBal b p u pb ub := rfl

theorem toTokens_le {pb : PoolBalance} (h0 : 0 ≤ pb.tokens) {n t : Int} (h1 : 0 ≤ n ∧ n ≤ pb.shares)
    (ht : toTokens pb n = .ok t) : 0 ≤ t ∧ t ≤ pb.tokens := by
  unfold toTokens at ht
  simp only [ite_ok, pure_ok] at ht
  rcases ht with ⟨hz, rfl⟩ | ⟨hz, ht⟩
  · omega
  · have hs : 0 < pb.shares := by omega
    have hn := mulDivFloor_nonneg ht hs (mul_nonneg h1.1 h0)
    have := (mulDivFloor_spec ht hs).1
    refine ⟨hn, ?_⟩
    have h3 : n * pb.tokens ≤ pb.shares * pb.tokens := mul_le_mul_of_nonneg_right h1.2 h0
    have h4 : t * pb.shares ≤ pb.tokens * pb.shares := by linarith [mul_comm pb.shares pb.tokens]
    exact le_of_mul_le_mul_right h4 hs

theorem nonQueued_nonneg {now : Nat} {b : BackstopState} (inv : BInv now b) {p : Address} {n : Int}
    (h : nonQueuedTokens (b.getPoolBal p) = .ok n) : 0 ≤ n := by
  unfold nonQueuedTokens at h
  simp only [bind_ok, chk_ok] at h
  obtain ⟨t, ht, _, rfl⟩ := h
  have := toTokens_le (inv.pool p) (inv.shares_nonneg p) ht
  omega

theorem setEmis_folds {now : Nat} {tn tp tb : Int} (htb : 0 ≤ tb) : ∀ (l : List Address) {S : BS} {b' : BackstopState},
    BInv now S.b → 0 ≤ tn →
    l.foldlM (gulpPool now tn tp tb) S.b = .ok b' → BMicros now F U S ⟨b', S.vb, S.fl⟩ := by
  intro l
  induction l with
  | nil => intro S b' _ _ h; rw [foldlM_nil] at h; subst h; exact .refl _
  | cons q l ih =>
    intro S b' inv htn h
    rw [foldlM_cons] at h
    obtain ⟨b1, h1, h2⟩ := h
    simp only [gulpPool, bind_ok, chk_ok] at h1
    obtain ⟨nq, hnq, share, hs, np, _, e, _, nb, hnb, hg⟩ := h1
    have hnq0 := nonQueued_nonneg inv hnq
    have htn' : 0 < tn := by
      rcases htn.lt_or_eq with h | h
      · exact h
      · exfalso
        unfold fixedDivFloor mulDivFloor at hs
        rw [← h] at hs
        simp only [bind_ok, require_ok, ne_eq, not_true_eq_false, false_and, exists_false, and_false] at hs
    have hs0 : 0 ≤ share := mulDivFloor_nonneg hs htn' (mul_nonneg hnq0 (by unfold SCALAR_7; norm_num))
    have hnb0 : 0 ≤ nb := mulDivFloor_nonneg hnb (by unfold SCALAR_7; norm_num) (mul_nonneg hs0 htb)
    have m1 : BMicro now F U S _ := .misc S S.b.lastDistro S.b.rewardZone (upd S.b.poolEmis q e) S.b.lpVal S.b.dropList
    have inv1 := bmicro_inv m1 inv
    have m2 : BMicro now F U _ _ := .gulp ⟨{ S.b with poolEmis := upd S.b.poolEmis q e }, S.vb, S.fl⟩ q nb b1 hnb0 hg
    have inv2 := bmicro_inv m2 inv1
    exact ((BMicros.one m1).trans (.one m2)).trans (ih (S := ⟨b1, S.vb, S.fl⟩) inv2 htn h2)

theorem totalNonQueued_nonneg {now : Nat} {b : BackstopState} (inv : BInv now b) {l : List Address} {t : Int}
    (h : totalNonQueued b l = .ok t) : 0 ≤ t := by
  unfold totalNonQueued at h
  refine foldlM_inv (fun t : Int => 0 ≤ t) (fun a c q _ ha hs => ?_) (le_refl _) h
  simp only [bind_ok, chk_ok] at hs
  obtain ⟨nq, hnq, _, rfl⟩ := hs
  have := nonQueued_nonneg inv hnq
  omega

end Backstop
end Blend
