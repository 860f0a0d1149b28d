import Verif.Lemmas.BGulp
import Verif.Lemmas.BFields
import Verif.Lemmas.PhiSum
import Verif.Props.RewardZone
import Verif.Props.PoolEmissions
/-
  C25 (backstop part), C37, C38, C44: emissions of the backstop.
-/

namespace Blend
namespace Spec

/-- What happens to the emission index of a pool's depositors under schedule `cfg` at time `now`, while the
unqueued shares go from `S` to `S'`. Either nothing happens, and then the unqueued shares stay the same unless
no emissions were due (there were no shares, nothing is emitted, or everything up to `now` or the expiration
is already accounted for). Or the index grows by the tokens emitted since the last update, up to `now` but
not after the expiration, divided by the unqueued shares before the operation, rounded down. -/
def BIndexUpdate (cfg : EmisConfig) (now : Nat) (S S' : Int) (ed ed' : EmisData) : Prop :=
  (ed' = ed ∧ (S' = S ∨ S = 0 ∨ cfg.eps = 0 ∨ min now cfg.expiration ≤ ed.lastTime)) ∨
    (ed'.lastTime = now ∧ ed.lastTime < min now cfg.expiration ∧ 0 < cfg.eps ∧ 0 < S ∧
      IsFloor (ed'.index - ed.index) (((min now cfg.expiration - ed.lastTime : Nat) : Int) * cfg.eps * ONE7) S)

/-- the unqueued shares of pool `p` -/
def unqueuedShares (w : World) (p : Address) : Int := (w.backstop.getPoolBal p).shares - (w.backstop.getPoolBal p).q4w

/-- `x` is what the depositor could claim right now without a further update of the index: what is
recorded, plus the unqueued shares times the index growth since the record, rounded down. -/
def BEntitled (w : World) (p : Address) (index : Int) (user : Address) (x : Int) : Prop :=
  IsFloor (x - (emisRecord (w.backstop.userEmis p) user).accrued)
    ((w.backstop.getUserBal p user).shares * (index - (emisRecord (w.backstop.userEmis p) user).index)) ONE7

/-- the operation is not a backstop claim that is credited to somebody else -/
def OwnClaim (op : Op) : Prop := ∀ auth s ps d, op = .backstop auth (.claim s ps d) → d = s

end Spec

namespace Backstop
open Spec

theorem _root_.Blend.Spec.BIndexUpdate.refl {cfg : EmisConfig} {now : Nat} {S : Int} {ed : EmisData} : BIndexUpdate cfg now S S ed ed :=
  .inl ⟨rfl, .inl rfl⟩

theorem _root_.Blend.Spec.BIndexUpdate.trans {cfg : EmisConfig} {now : Nat} {S S' : Int} {a b c : EmisData}
    (h1 : BIndexUpdate cfg now S S' a b) (h2 : BIndexUpdate cfg now S S' b c) : BIndexUpdate cfg now S S' a c := by
  rcases h1 with ⟨rfl, _⟩ | ⟨h1, h3, h4⟩
  · exact h2
  · rcases h2 with ⟨rfl, _⟩ | ⟨_, h5, _⟩
    · exact .inr ⟨h1, h3, h4⟩
    · exfalso; omega

theorem _root_.Blend.Spec.BIndexUpdate.mono {cfg : EmisConfig} {now : Nat} {S S' : Int} {a b : EmisData} (h : BIndexUpdate cfg now S S' a b)
    (hl : a.lastTime ≤ now) : a.index ≤ b.index ∧ a.lastTime ≤ b.lastTime ∧ b.lastTime ≤ now := by
  rcases h with ⟨rfl, _⟩ | ⟨h1, h2, h3, h4, h5⟩
  · exact ⟨le_refl _, le_refl _, hl⟩
  · have := h5.nonneg h4 (by unfold ONE7; positivity)
    exact ⟨by omega, by omega, by omega⟩

theorem dataUpdate_exact {b b' : BackstopState} {now : Nat} {p : Address} {pb : PoolBalance} {cfg : EmisConfig}
    {ed d : EmisData} (h : updateEmisDataWith b now p pb cfg = .ok (d, b')) (he : b.emisData p = some ed)
    (hl : ed.lastTime ≤ now) (hq : 0 ≤ pb.q4w ∧ pb.q4w ≤ pb.shares) (S' : Int) :
    BIndexUpdate cfg now (pb.shares - pb.q4w) S' ed d := by
  unfold updateEmisDataWith requireNonneg at h
  simp only [bind_ok, ite_ok, unwrap_ok, pure_ok, Prod.mk.injEq, chk_ok, require_ok, he, Option.some.injEq] at h
  obtain ⟨_, rfl, h⟩ := h
  rcases h with ⟨hc, rfl, rfl⟩ | ⟨hc, unq, ⟨_, rfl⟩, _, hun, dt, hdt, num, ⟨_, rfl⟩, add, hadd, idx, ⟨_, rfl⟩, rfl, rfl⟩
  · left
    refine ⟨rfl, ?_⟩
    rcases hc with hc | hc | hc | hc
    · right; right; right; omega
    · right; right; right; omega
    · exact .inr (.inr (.inl hc))
    · right; left; omega
  · push Not at hc
    obtain ⟨c1, c2, c3, c4⟩ := hc
    have hne : pb.shares - pb.q4w ≠ 0 := by
      intro e
      unfold fixedDivFloor mulDivFloor at hadd
      rw [e] at hadd
      simp only [bind_ok, require_ok, ne_eq, not_true_eq_false, false_and, exists_false, and_false] at hadd
    have hpos : 0 < pb.shares - pb.q4w := by omega
    obtain ⟨k1, rfl⟩ := subU_ok.1 hdt
    have ha := isFloor_of_mulDiv hadd hpos
    have ht : (if now > cfg.expiration then cfg.expiration else now) = min now cfg.expiration := by
      split <;> omega
    rw [ht] at ha
    right
    refine ⟨rfl, by omega, by omega, hpos, ?_⟩
    show IsFloor (add + ed.index - ed.index) _ _
    rw [add_sub_cancel_right]
    exact ha

theorem updateEmissions_exact {b b1 : BackstopState} {now : Nat} {p u : Address} {pb : PoolBalance}
    {ub : UserBalance} {claim : Bool} {x : Int} {cfg : EmisConfig} {ed : EmisData}
    (h : updateEmissions b now p pb u ub claim = .ok (x, b1)) (hc : b.emisCfg p = some cfg) (he : b.emisData p = some ed)
    (hl : ed.lastTime ≤ now) (hq : 0 ≤ pb.q4w ∧ pb.q4w ≤ pb.shares) (S' : Int) :
    ∃ d, b1.emisData p = some d ∧ BIndexUpdate cfg now (pb.shares - pb.q4w) S' ed d := by
  unfold updateEmissions updateEmisData at h
  simp only [hc, bind_ok, Prod.exists, pure_ok, Prod.mk.injEq] at h
  obtain ⟨_, b2, ⟨d, _, h1, rfl, rfl⟩, h2⟩ := h
  obtain ⟨ed', e1, e2, _⟩ := dataUpdate_ok h1
  obtain ⟨y, e3, _⟩ := userUpdate_ok h2
  refine ⟨d, ?_, dataUpdate_exact h1 he hl hq S'⟩
  rw [e3, e2]; simp [upd_same]

theorem updateEmissions_frame {b b1 : BackstopState} {now : Nat} {p u : Address} {pb : PoolBalance}
    {ub : UserBalance} {claim : Bool} {x : Int} (h : updateEmissions b now p pb u ub claim = .ok (x, b1)) :
    ∀ q, q ≠ p → b1.emisData q = b.emisData q := by
  intro q hq
  rcases updateEmissions_ok h with ⟨_, rfl, _⟩ | ⟨cfg, ed, d, y, r⟩
  · rfl
  · rw [r.eq]; simp [upd_ne hq]

theorem claimLoop_exact {now : Nat} {s : Address} {p : Address} {cfg : EmisConfig} {S' : Int} :
    ∀ {ps : List Address} {c c' : Int} {cl cl' : SMap Int} {b b' : BackstopState} {ed : EmisData},
    claimLoop now s ps (c, cl, b) = .ok (c', cl', b') → b.emisCfg p = some cfg → b.emisData p = some ed →
    ed.lastTime ≤ now → 0 ≤ (b.getPoolBal p).q4w ∧ (b.getPoolBal p).q4w ≤ (b.getPoolBal p).shares →
    ∃ d, b'.emisData p = some d ∧ BIndexUpdate cfg now ((b.getPoolBal p).shares - (b.getPoolBal p).q4w)
      (if p ∈ ps then S' else (b.getPoolBal p).shares - (b.getPoolBal p).q4w) ed d := by
  intro ps
  induction ps with
  | nil =>
    intro c c' cl cl' b b' ed h hc he hl hq
    simp only [claimLoop, pure_ok, Prod.mk.injEq] at h
    obtain ⟨rfl, rfl, rfl⟩ := h
    exact ⟨ed, he, .inl ⟨rfl, .inl (by simp)⟩⟩
  | cons q ps ih =>
    intro c c' cl cl' b b' ed h hc he hl hq
    simp only [claimLoop, bind_ok, Prod.exists, chk_ok] at h
    obtain ⟨x, b1, hu, _, ⟨_, rfl⟩, h⟩ := h
    have e := emis_same hu
    have ep : b1.getPoolBal p = b.getPoolBal p := e.poolBal p
    have ec : b1.emisCfg = b.emisCfg := by unfold SameBals at e; rw [e]
    by_cases hpq : p = q
    · subst hpq
      obtain ⟨d, h1, h2⟩ := updateEmissions_exact hu hc he hl hq S'
      obtain ⟨d', h3, h4⟩ := ih (ed := d) h (by show b1.emisCfg p = _; rw [ec]; exact hc) h1 (h2.mono hl).2.2
        (by show 0 ≤ (b1.getPoolBal p).q4w ∧ (b1.getPoolBal p).q4w ≤ (b1.getPoolBal p).shares; rw [ep]; exact hq)
      refine ⟨d', h3, ?_⟩
      rw [if_pos (by simp)]
      change BIndexUpdate cfg now ((b1.getPoolBal p).shares - (b1.getPoolBal p).q4w) (if p ∈ ps then S' else (b1.getPoolBal p).shares - (b1.getPoolBal p).q4w) d d' at h4
      rw [ep] at h4
      split at h4
      · exact h2.trans h4
      · refine h2.trans ?_
        rcases h4 with ⟨rfl, _⟩ | h4
        · rcases h2 with ⟨rfl, k⟩ | ⟨k1, k2, _⟩
          · exact .inl ⟨rfl, k⟩
          · exact .inl ⟨rfl, .inr (.inr (.inr (by omega)))⟩
        · exact .inr h4
    · obtain ⟨d', h3, h4⟩ := ih (ed := ed) h (by show b1.emisCfg p = _; rw [ec]; exact hc)
        (by show b1.emisData p = _; rw [updateEmissions_frame hu p hpq]; exact he) hl
        (by show 0 ≤ (b1.getPoolBal p).q4w ∧ (b1.getPoolBal p).q4w ≤ (b1.getPoolBal p).shares; rw [ep]; exact hq)
      refine ⟨d', h3, ?_⟩
      change BIndexUpdate cfg now ((b1.getPoolBal p).shares - (b1.getPoolBal p).q4w) (if p ∈ ps then S' else (b1.getPoolBal p).shares - (b1.getPoolBal p).q4w) ed d' at h4
      rw [ep] at h4
      simpa [hpq] using h4

theorem creditLoop_frame {lp c : Int} {cl : SMap Int} {dst : Address} : ∀ {ps : List Address} {b b' : BackstopState},
    claimDepositLoop lp c cl dst ps b = .ok b' → b' = { b with poolBal := b'.poolBal, userBal := b'.userBal } ∧
      ∀ p, p ∉ ps → b'.getPoolBal p = b.getPoolBal p := by
  intro ps
  induction ps with
  | nil =>
    intro b b' h
    simp only [claimDepositLoop, pure_ok] at h
    subst h; exact ⟨rfl, fun _ _ => rfl⟩
  | cons q ps ih =>
    intro b b' h
    simp only [claimDepositLoop, bind_ok] at h
    obtain ⟨x, hx, dep, hd, m, hm, pb, _, ub, _, h⟩ := h
    obtain ⟨h1, h2⟩ := ih h
    refine ⟨by rw [h1]; rfl, fun p hp => ?_⟩
    simp only [List.mem_cons, not_or] at hp
    rw [h2 p hp.2]
    rw [setBal_eq, getPoolBal_set, if_neg hp.1]

theorem claim_exact {w w' : World} {auth : List Address} {s d p : Address} {ps : List Address} {n : Int} {cfg : EmisConfig}
    {ed : EmisData} (inv : BInv w.time w.backstop) (h : claim w auth s ps d = .ok (n, w'))
    (hc : w.backstop.emisCfg p = some cfg) (he : w.backstop.emisData p = some ed) :
    ∃ ed', w'.backstop.emisData p = some ed' ∧ BIndexUpdate cfg w.time (unqueuedShares w p) (unqueuedShares w' p) ed ed' := by
  simp only [claim, executeClaim, cometDeposit, bind_ok, pure_ok, Prod.exists, ite_ok, inst, unwrap_ok, requireAuth_ok,
    Prod.mk.injEq, chk_ok] at h
  obtain ⟨_, hm, _, _, c, cl, b1, hl, h⟩ := h
  obtain ⟨_, k1, k2, _⟩ := inv.isSet p cfg hc
  rw [he] at k1; cases k1
  obtain ⟨d1, h1, h2⟩ := claimLoop_exact (p := p) (S' := unqueuedShares w' p) hl hc he k2 (inv.shares_nonneg p)
  have e1 := (claimLoop_same hl).1
  have ep : b1.getPoolBal p = w.backstop.getPoolBal p := by rw [e1]; rfl
  rcases h with ⟨hcl, i, hi, lp, w2, ⟨w3, ht, w4, hmt, s', ⟨_, rfl⟩, rfl, rfl⟩, b2, hd, _, rfl⟩ | ⟨_, _, rfl⟩
  · have mt := mint_res hmt
    have hw4 : w4.backstop = b1 := by rw [mt.frame]; show w3.backstop = b1; rw [(transfer_res ht).frame]; rfl
    obtain ⟨f1, f2⟩ := creditLoop_frame hd
    refine ⟨d1, ?_, ?_⟩
    · show b2.emisData p = _
      rw [f1]; show w4.backstop.emisData p = _; rw [hw4]; exact h1
    · by_cases hp : p ∈ ps
      · rw [if_pos hp] at h2; exact h2
      · rw [if_neg hp] at h2
        have : unqueuedShares (World.setBackstop { w4 with cometShares := w4.cometShares + w.cometOut c } b2) p = unqueuedShares w p := by
          unfold unqueuedShares
          show (b2.getPoolBal p).shares - (b2.getPoolBal p).q4w = _
          rw [f2 p hp]
          show (w4.backstop.getPoolBal p).shares - (w4.backstop.getPoolBal p).q4w = _
          rw [hw4, ep]
        rcases h2 with ⟨k, _⟩ | k
        · exact .inl ⟨k, .inl this⟩
        · exact .inr k
  · refine ⟨d1, h1, ?_⟩
    by_cases hp : p ∈ ps
    · rw [if_pos hp] at h2; exact h2
    · rw [if_neg hp] at h2
      rcases h2 with ⟨k, _⟩ | k
      · refine .inl ⟨k, .inl ?_⟩
        unfold unqueuedShares
        show (b1.getPoolBal p).shares - (b1.getPoolBal p).q4w = _
        rw [ep]
      · exact .inr k

/-- `set_backstop_emission_config` updates the index before it restarts the schedule -/
theorem setEmisConfig_exact {b b' : BackstopState} {now : Nat} {p : Address} {pb : PoolBalance} {n : Int}
    {cfg : EmisConfig} {ed : EmisData} (h : setEmisConfig b now p pb n = .ok b') (hc : b.emisCfg p = some cfg)
    (he : b.emisData p = some ed) (hl : ed.lastTime ≤ now) (hq : 0 ≤ pb.q4w ∧ pb.q4w ≤ pb.shares) :
    ∃ ed' mid, b'.emisData p = some ed' ∧ ed'.lastTime = now ∧ mid.index = ed'.index ∧
      ∀ S', BIndexUpdate cfg now (pb.shares - pb.q4w) S' ed mid := by
  unfold setEmisConfig at h
  simp only [hc, bind_ok, Prod.exists] at h
  obtain ⟨d, q1, hq1, h⟩ := h
  obtain ⟨ed', _, rfl, _⟩ := dataUpdate_ok hq1
  have hx := dataUpdate_exact hq1 he hl hq
  have hst : ∃ d' : EmisData, d'.index = d.index ∧ d'.lastTime = now ∧
      (if d.lastTime ≠ now then
        { b with emisData := upd (upd b.emisData p (some d)) p (some { d with lastTime := now }) }
       else { b with emisData := upd b.emisData p (some d) }) =
      { b with emisData := upd b.emisData p (some d') } := by
    split
    · refine ⟨{ d with lastTime := now }, rfl, rfl, ?_⟩
      congr 1; funext x; simp only [upd_apply]; split <;> rfl
    · rename_i e; push Not at e
      exact ⟨d, rfl, e, rfl⟩
  obtain ⟨d', f1, f2, f3⟩ := hst
  simp only at h
  rw [f3] at h
  refine ⟨d', d, ?_, f2, f1.symm, hx⟩
  simp only [ite_ok, bind_ok, pure_ok, Prod.mk.injEq] at h
  rcases h with ⟨_, rem, _, l, _, _, rfl, eps, he, rfl⟩ | ⟨_, _, rfl, eps, he, rfl⟩ <;> simp [upd_same]

theorem gulpFold_exact {now : Nat} {tn tp tb : Int} {p : Address} {cfg : EmisConfig} {ed : EmisData} :
    ∀ {l : List Address} {b b' : BackstopState}, l.foldlM (gulpPool now tn tp tb) b = .ok b' → l.Nodup → p ∈ l →
    b.emisCfg p = some cfg → b.emisData p = some ed → ed.lastTime ≤ now →
    0 ≤ (b.getPoolBal p).q4w ∧ (b.getPoolBal p).q4w ≤ (b.getPoolBal p).shares →
    ∃ ed' mid, b'.emisData p = some ed' ∧ ed'.lastTime = now ∧ mid.index = ed'.index ∧
      ∀ S', BIndexUpdate cfg now ((b.getPoolBal p).shares - (b.getPoolBal p).q4w) S' ed mid := by
  intro l
  induction l with
  | nil => intro b b' h _ hp; simp at hp
  | cons q l ih =>
    intro b b' h hn hp hc he hl hq
    rw [foldlM_cons] at h
    obtain ⟨b1, h1, h2⟩ := h
    rw [List.nodup_cons] at hn
    by_cases e : p = q
    · subst e
      obtain ⟨_, i2⟩ := gulpFold_same h2
      obtain ⟨_, _, j3, _⟩ := i2 p hn.1
      simp only [gulpPool, bind_ok, chk_ok] at h1
      obtain ⟨nq, hnq, share, hs, np, hnp, e, ⟨_, rfl⟩, nb, hnb, hg⟩ := h1
      obtain ⟨ed', mid, k1, k2⟩ := setEmisConfig_exact hg hc he hl hq
      exact ⟨ed', mid, by rw [j3]; exact k1, k2⟩
    · obtain ⟨g1, g2⟩ := gulpPool_same h1
      obtain ⟨_, j2, j3, _⟩ := g2 p e
      have eb : b1.getPoolBal p = b.getPoolBal p := by rw [g1]; rfl
      have := ih (b := b1) h2 hn.2 ((List.mem_cons.1 hp).resolve_left e) (by rw [j2]; exact hc) (by rw [j3]; exact he) hl
        (by rw [eb]; exact hq)
      rw [eb] at this
      exact this

end Backstop

namespace Props
open Spec Backstop

/-- **C25** One operation, at the ledger time of the world it runs in. The emission index of a pool's
backstop depositors and its update time never fall. The schedule is kept and the index is updated as
`BIndexUpdate` says; or the operation is `gulp_emissions` and the schedule is restarted for seven days from
`now`, after such an update, which leaves nothing due. -/
theorem C25_backstop_index_step {w w' : World} {op : Op} (h : Reachable w) (hs : step w op = .ok w') {p : Address}
    {cfg : EmisConfig} {ed : EmisData} (hcfg : w.backstop.emisCfg p = some cfg) (hed : w.backstop.emisData p = some ed) :
    ∃ cfg' ed', w'.backstop.emisCfg p = some cfg' ∧ w'.backstop.emisData p = some ed' ∧
      ed.index ≤ ed'.index ∧ ed.lastTime ≤ ed'.lastTime ∧
      ((cfg' = cfg ∧ BIndexUpdate cfg w.time (unqueuedShares w p) (unqueuedShares w' p) ed ed') ∨
       ((∃ auth, op = .backstop auth .gulpEmissions) ∧ cfg'.expiration = w.time + 604800 ∧ ed'.lastTime = w.time ∧
          ∃ mid, mid.index = ed'.index ∧ ∀ S', BIndexUpdate cfg w.time (unqueuedShares w p) S' ed mid)) := by
  have ba := h.ball
  obtain ⟨_, k1, kl, _⟩ := ba.inv.isSet p cfg hcfg
  rw [hed] at k1; cases k1
  have hq := ba.inv.shares_nonneg p
  -- it is enough to describe the new index
  have fin : w'.backstop.emisCfg p = some cfg → (∃ ed', w'.backstop.emisData p = some ed' ∧
      BIndexUpdate cfg w.time (unqueuedShares w p) (unqueuedShares w' p) ed ed') → ∃ cfg' ed', w'.backstop.emisCfg p = some cfg' ∧
      w'.backstop.emisData p = some ed' ∧ ed.index ≤ ed'.index ∧ ed.lastTime ≤ ed'.lastTime ∧
      ((cfg' = cfg ∧ BIndexUpdate cfg w.time (unqueuedShares w p) (unqueuedShares w' p) ed ed') ∨
       ((∃ auth, op = .backstop auth .gulpEmissions) ∧ cfg'.expiration = w.time + 604800 ∧ ed'.lastTime = w.time ∧
          ∃ mid, mid.index = ed'.index ∧ ∀ S', BIndexUpdate cfg w.time (unqueuedShares w p) S' ed mid)) := by
    rintro hc ⟨ed', he', hu⟩
    obtain ⟨m1, m2, _⟩ := hu.mono kl
    exact ⟨cfg, ed', hc, he', m1, m2, .inl ⟨rfl, hu⟩⟩
  -- nothing happens to the pool's index and unqueued shares
  have same : w'.backstop.emisCfg p = w.backstop.emisCfg p → w'.backstop.emisData p = w.backstop.emisData p →
      unqueuedShares w' p = unqueuedShares w p → ∃ cfg' ed', w'.backstop.emisCfg p = some cfg' ∧
      w'.backstop.emisData p = some ed' ∧ ed.index ≤ ed'.index ∧ ed.lastTime ≤ ed'.lastTime ∧
      ((cfg' = cfg ∧ BIndexUpdate cfg w.time (unqueuedShares w p) (unqueuedShares w' p) ed ed') ∨
       ((∃ auth, op = .backstop auth .gulpEmissions) ∧ cfg'.expiration = w.time + 604800 ∧ ed'.lastTime = w.time ∧
          ∃ mid, mid.index = ed'.index ∧ ∀ S', BIndexUpdate cfg w.time (unqueuedShares w p) S' ed mid)) :=
    fun h1 h2 h3 => fin (by rw [h1]; exact hcfg) ⟨ed, by rw [h2]; exact hed, .inl ⟨rfl, .inl h3⟩⟩
  -- an update for pool `q`
  have bal : ∀ {q u : Address} {x : Int} {b1 : BackstopState} {pb : PoolBalance} {ub : UserBalance},
      updateEmissions w.backstop w.time q (w.backstop.getPoolBal q) u (w.backstop.getUserBal q u) false = .ok (x, b1) →
      w'.backstop = setBal b1 q u pb ub → ∃ cfg' ed', w'.backstop.emisCfg p = some cfg' ∧
      w'.backstop.emisData p = some ed' ∧ ed.index ≤ ed'.index ∧ ed.lastTime ≤ ed'.lastTime ∧
      ((cfg' = cfg ∧ BIndexUpdate cfg w.time (unqueuedShares w p) (unqueuedShares w' p) ed ed') ∨
       ((∃ auth, op = .backstop auth .gulpEmissions) ∧ cfg'.expiration = w.time + 604800 ∧ ed'.lastTime = w.time ∧
          ∃ mid, mid.index = ed'.index ∧ ∀ S', BIndexUpdate cfg w.time (unqueuedShares w p) S' ed mid)) := by
    intro q u x b1 pb ub hu hw
    have e := emis_same hu
    have ec : w'.backstop.emisCfg = w.backstop.emisCfg := by
      rw [hw]; show b1.emisCfg = _; unfold SameBals at e; rw [e]
    have ed1 : w'.backstop.emisData = b1.emisData := by rw [hw]; rfl
    by_cases hpq : p = q
    · subst hpq
      obtain ⟨d, h1, h2⟩ := updateEmissions_exact hu hcfg hed kl hq (unqueuedShares w' p)
      exact fin (by rw [ec]; exact hcfg) ⟨d, by rw [ed1]; exact h1, h2⟩
    · refine same (by rw [ec]) (by rw [ed1, updateEmissions_frame hu p hpq]) ?_
      unfold unqueuedShares
      rw [hw, getPoolBal_set, if_neg hpq, e.poolBal]
  rcases step_other hs with ⟨q, auth, c, rfl, e⟩ | ⟨auth, c, rfl, hc⟩ | e | e
  · refine same (by rw [e.emisCfg]) (by rw [e.emisData]) ?_
    unfold unqueuedShares
    by_cases hpq : p = q
    · subst hpq; rw [e.shares, e.q4w]
    · rw [e.other p hpq]
  · cases call_cases ba.inv hc with
    | @deposit s p a m r =>
      obtain ⟨x, b1, i, w2, hu, _, _, hw⟩ := r.ex
      exact bal hu (congrArg World.backstop hw)
    | @queue s p a r =>
      obtain ⟨x, b1, hu, hw⟩ := r.ex
      exact bal hu (congrArg World.backstop hw)
    | @dequeue s p a r =>
      obtain ⟨x, b1, q', hu, hd, hw⟩ := r.ex
      exact bal hu (congrArg World.backstop hw)
    | @withdraw s q a tk r =>
      obtain ⟨q', i, hi, hd, hw, _⟩ := r.ex
      refine same (by rw [hw]; rfl) (by rw [hw]; rfl) ?_
      unfold unqueuedShares
      rw [hw, getPoolBal_set]
      split
      · rename_i e; subst e; simp only; ring
      · rfl
    | @claim s ps d r =>
      simp only [backstopCall, bind_ok, pure_ok, Prod.exists] at hc
      obtain ⟨m, _, hc, rfl⟩ := hc
      obtain ⟨b1, hb1, cr⟩ := r.ex
      refine fin ?_ (claim_exact ba.inv hc hcfg hed)
      rw [cr.frame]; show b1.emisCfg p = _; rw [hb1]; exact hcfg
    | @draw q a d hp r =>
      obtain ⟨i, hi, t⟩ := r.ex
      have hw := congrArg World.backstop t.frame
      change w'.backstop = w.backstop.setPoolBal q _ at hw
      refine same (by rw [hw]; rfl) (by rw [hw]; rfl) ?_
      unfold unqueuedShares
      rw [hw, getPoolBal_setPoolBal]
      split
      · rename_i e; subst e; rfl
      · rfl
    | @donate s q a hs hp r =>
      obtain ⟨i, w1, hi, t, hw⟩ := r.ex
      have hw := congrArg World.backstop hw
      change w'.backstop = w.backstop.setPoolBal q _ at hw
      refine same (by rw [hw]; rfl) (by rw [hw]; rfl) ?_
      unfold unqueuedShares
      rw [hw, getPoolBal_setPoolBal]
      split
      · rename_i e; subst e; rfl
      · rfl
    | @reward a r' r =>
      rcases r.ex with ⟨_, rfl⟩ | ⟨_, _, _, _, rfl⟩
      · exact same rfl rfl rfl
      · exact same rfl rfl rfl
    | gulp hne hb hq' =>
      have hsame : unqueuedShares w' p = unqueuedShares w p := by unfold unqueuedShares; rw [hb]; rfl
      by_cases hp : p ∈ w.backstop.rewardZone
      · simp only [backstopCall, gulpEmissions, bind_ok, pure_ok, Prod.exists, Prod.mk.injEq, require_ok, chk_ok, inst, unwrap_ok] at hc
        obtain ⟨_, _, ⟨_, hne, i, _, _, _, el, _, _, _, ne, ⟨_, rfl⟩, tb, htb, tp, _, tn, htn, b1, hf, _, rfl⟩, rfl⟩ := hc
        obtain ⟨ed', mid, h1, h2, h3, h4⟩ := gulpFold_exact hf (C36_reward_zone h).1 hp hcfg hed kl hq
        obtain ⟨nq, s, np, nb, g1, g2, g3, g4, g5, g6, g7⟩ := (gulpFold_at hf (C36_reward_zone h).1 p hp).ex
        have hnb : 0 ≤ nb := by
          have ht0 := totalNonQueued_nonneg (b := { w.backstop with lastDistro := el }) (now := w.time)
            ⟨ba.inv.pool, ba.inv.user, ba.inv.unq, ba.inv.queued, ba.inv.unset, ba.inv.isSet⟩ htn
          have hs7 : (0 : Int) < SCALAR_7 := by norm_num [SCALAR_7]
          have ht : 0 < tn := by
            rcases ht0.lt_or_eq with h | h
            · exact h
            · exfalso
              unfold fixedDivFloor mulDivFloor at g2
              rw [← h] at g2
              simp only [bind_ok, require_ok, ne_eq, not_true_eq_false, false_and, exists_false, and_false] at g2
          have hnq := nonQueued_nonneg ba.inv g1
          have hs0 := mulDivFloor_nonneg g2 ht (mul_nonneg hnq hs7.le)
          have htb0 := mulDivFloor_nonneg htb hs7
            (mul_nonneg (mul_nonneg (Int.natCast_nonneg _) hs7.le) (by norm_num))
          exact mulDivFloor_nonneg g4 hs7 (mul_nonneg hs0 htb0)
        obtain ⟨eps, g8, _⟩ := g7 hnb
        obtain ⟨m1, m2, _⟩ := (h4 0).mono kl
        exact ⟨_, ed', g8, h1, by omega, by omega, .inr ⟨⟨auth, rfl⟩, rfl, h2, mid, h3, h4⟩⟩
      · obtain ⟨j1, _, j3, _⟩ := hq' p hp
        exact same j1 j3 hsame
    | init hn hb => exact same (by rw [hb]) (by rw [hb]) (by unfold unqueuedShares; rw [hb]; rfl)
    | @gulpPool p hp hb => exact same (by rw [hb]) (by rw [hb]) (by unfold unqueuedShares; rw [hb]; rfl)
    | lpVal hb => exact same (by rw [hb]) (by rw [hb]) (by unfold unqueuedShares; rw [hb]; rfl)
    | drop hb => exact same (by rw [hb]) (by rw [hb]) (by unfold unqueuedShares; rw [hb])
  · exact same (by rw [e]) (by rw [e]) (by unfold unqueuedShares; rw [e])
  · exact same (by rw [e]) (by rw [e]) (by unfold unqueuedShares; rw [e]; rfl)

/-- **C25** Over any history the emission index of a pool's backstop depositors never falls. -/
theorem C25_backstop_index_monotone {w w' : World} (h : Reachable w) (hs : Steps w w') {p : Address} {ed : EmisData}
    (hed : w.backstop.emisData p = some ed) :
    ∃ ed', w'.backstop.emisData p = some ed' ∧ ed.index ≤ ed'.index ∧ ed.lastTime ≤ ed'.lastTime := by
  have key : Reachable w' ∧ ∃ ed', w'.backstop.emisData p = some ed' ∧ ed.index ≤ ed'.index ∧ ed.lastTime ≤ ed'.lastTime := by
    induction hs with
    | refl => exact ⟨h, ed, hed, le_refl _, le_refl _⟩
    | @tail a b hab hst ih =>
      obtain ⟨h1, ed1, h2, h3, h4⟩ := ih
      obtain ⟨op, hop⟩ := hst
      cases hcf : a.backstop.emisCfg p with
      | none =>
        have := (h1.ball.inv.unset p hcf).1
        rw [h2] at this; simp at this
      | some cfg =>
        obtain ⟨cfg', ed', k1, k2, k3, k4, _⟩ := C25_backstop_index_step h1 hop hcf h2
        exact ⟨h1.step hop, ed', k2, le_trans h3 k3, le_trans h4 k4⟩
  exact key.2

/-- The hypotheses are met: carol queues shares while emissions run, and the index grows. -/
example : ∃ w w' cfg ed ed', Reachable w ∧
    step w (.backstop [Demo.carol] (.queueWithdrawal Demo.carol Demo.poolA 1000)) = .ok w' ∧
    w.backstop.emisCfg Demo.poolA = some cfg ∧ w.backstop.emisData Demo.poolA = some ed ∧
    w'.backstop.emisData Demo.poolA = some ed' ∧ ed.index < ed'.index := by
  obtain ⟨w, w', _, hr, hs, h⟩ := Demo.reach_step (ops := Demo.setup ++ Demo.trade ++ Demo.emissions)
    (op := .backstop [Demo.carol] (.queueWithdrawal Demo.carol Demo.poolA 1000))
    (f := fun w w' => Demo.optAnd (w.backstop.emisCfg Demo.poolA) fun _ =>
      Demo.optAnd (w.backstop.emisData Demo.poolA) fun ed =>
      Demo.optAnd (w'.backstop.emisData Demo.poolA) fun ed' => decide (ed.index < ed'.index)) (by decide +kernel)
  simp only [Demo.optAnd_iff, decide_eq_true_eq] at h
  obtain ⟨cfg, h1, ed, h2, ed', h3, h4⟩ := h
  exact ⟨w, w', cfg, ed, ed', hr, hs, h1, h2, h3, h4⟩

/-! ### C37 -/

/-- **C37** What `gulp_emissions` does. The emissions since the last gulp are one token per second of what
the emitter distributed to this backstop: `secs` is the difference of the emitter's and the backstop's
distribution times, more than an hour. 70 percent (`secs * 7000000`) go to backstop depositors, 30 percent
(`secs * 3000000`) to pools. A pool of the reward zone gets its share `s` of both, which is its part of the
backstop tokens that are not queued, everything rounded down. The emissions of its depositors are spread,
together with what is left of the running schedule, over the next seven days. Other pools get nothing, and
in total at most the emissions are handed out. -/
theorem C37_gulp {w w' : World} {auth : List Address} (h : Reachable w)
    (hs : step w (.backstop auth .gulpEmissions) = .ok w') :
    ∃ (secs : Nat) (x : Address → Int), 3600 < secs ∧
      w.emitter.lastDistro w.backstopAddr = some (w.backstop.lastDistro + secs) ∧
      w'.backstop.lastDistro = w.backstop.lastDistro + secs ∧
      (∀ p ∈ w.backstop.rewardZone, Unqueued w p (x p) ∧ 0 ≤ x p) ∧ 0 < (w.backstop.rewardZone.map x).sum ∧
      (∀ p ∈ w.backstop.rewardZone, ∃ s, IsFloor s (x p * ONE7) (w.backstop.rewardZone.map x).sum ∧
        IsFloor (w'.backstop.received p - w.backstop.received p) (s * ((secs : Int) * 7000000)) ONE7 ∧
        IsFloor (w'.backstop.poolEmis p - w.backstop.poolEmis p) (s * ((secs : Int) * 3000000)) ONE7 ∧
        ∃ eps : Nat, w'.backstop.emisCfg p = some ⟨w.time + 604800, eps⟩ ∧
          IsFloor eps (w'.backstop.received p - w.backstop.received p + remaining (w.backstop.emisCfg p) w.time) 604800) ∧
      (∀ p, p ∉ w.backstop.rewardZone → w'.backstop.received p = w.backstop.received p ∧
        w'.backstop.poolEmis p = w.backstop.poolEmis p ∧ w'.backstop.emisCfg p = w.backstop.emisCfg p) ∧
      (w.backstop.rewardZone.map fun p => w'.backstop.received p - w.backstop.received p).sum ≤ (secs : Int) * 7000000 ∧
      (w.backstop.rewardZone.map fun p => w'.backstop.poolEmis p - w.backstop.poolEmis p).sum ≤ (secs : Int) * 3000000 := by
  have ba := h.ball
  have hn := (C36_reward_zone h).1
  simp only [step, bind_ok, require_ok, backstopCall, gulpEmissions, pure_ok, Prod.exists, Prod.mk.injEq, chk_ok, inst, unwrap_ok,
    Emitter.getLastDistro] at hs
  obtain ⟨_, _, _, _, ⟨_, hne, i, _, _, _, el, hel, _, hlt, ne, ⟨_, rfl⟩, tb, htb, tp, htp, tn, htn, b1, hf, _, rfl⟩, rfl⟩ := hs
  have hs7 : (0 : Int) < SCALAR_7 := by norm_num [SCALAR_7]
  set secs := el - w.backstop.lastDistro with hsecs
  have etb : tb = (secs : Int) * 7000000 := by
    refine (isFloor_of_mulDiv htb hs7).unique hs7 ⟨?_, ?_⟩ <;> unfold SCALAR_7 <;> linarith
  have etp : tp = (secs : Int) * 3000000 := by
    refine (isFloor_of_mulDiv htp hs7).unique hs7 ⟨?_, ?_⟩ <;> unfold SCALAR_7 <;> linarith
  have inv0 : BInv w.time { w.backstop with lastDistro := el } :=
    ⟨ba.inv.pool, ba.inv.user, ba.inv.unq, ba.inv.queued, ba.inv.unset, ba.inv.isSet⟩
  have ht0 := totalNonQueued_nonneg inv0 htn
  let x : Address → Int := fun p => match nonQueuedTokens (w.backstop.getPoolBal p) with | .ok y => y | .error _ => 0
  have hx : ∀ p y, nonQueuedTokens (w.backstop.getPoolBal p) = .ok y → x p = y := by
    intro p y hy; show (match nonQueuedTokens (w.backstop.getPoolBal p) with | .ok y => y | .error _ => 0) = y
    rw [hy]
  have htn' : tn = (w.backstop.rewardZone.map x).sum := by
    have := totalNonQueued_sum (x := x) htn (fun p _ y hy => hx p y hy)
    rw [this, zero_add]
  have hsm := gulpFold_same hf
  have hat := gulpFold_at hf hn
  have htpos : 0 < tn := by
    rcases ht0.lt_or_eq with h | h
    · exact h
    · exfalso
      cases hrz : w.backstop.rewardZone with
      | nil => exact hne hrz
      | cons p l =>
        obtain ⟨nq, s, np, nb, g1, g2, _⟩ := (hat p (by rw [hrz]; simp)).ex
        unfold fixedDivFloor mulDivFloor at g2
        rw [← h] at g2
        simp only [bind_ok, require_ok, ne_eq, not_true_eq_false, false_and, exists_false, and_false] at g2
  have hper : ∀ p ∈ w.backstop.rewardZone, ∃ s, 0 ≤ s ∧ IsFloor s (x p * ONE7) tn ∧
        IsFloor (b1.received p - w.backstop.received p) (s * ((secs : Int) * 7000000)) ONE7 ∧
        IsFloor (b1.poolEmis p - w.backstop.poolEmis p) (s * ((secs : Int) * 3000000)) ONE7 ∧
        ∃ eps : Nat, b1.emisCfg p = some ⟨w.time + 604800, eps⟩ ∧
          IsFloor eps (b1.received p - w.backstop.received p + remaining (w.backstop.emisCfg p) w.time) 604800 := by
    intro p hp
    obtain ⟨nq, s, np, nb, g1, g2, g3, g4, g5, g6, g7⟩ := (hat p hp).ex
    have hnq := nonQueued_nonneg ba.inv g1
    have hs0 := mulDivFloor_nonneg g2 htpos (mul_nonneg hnq hs7.le)
    have htb0 : 0 ≤ tb := by rw [etb]; exact mul_nonneg (Int.natCast_nonneg _) (by norm_num)
    have hnb := mulDivFloor_nonneg g4 hs7 (mul_nonneg hs0 htb0)
    obtain ⟨eps, g8, g9⟩ := g7 hnb
    have e1 : b1.received p - w.backstop.received p = nb := by rw [g6]; exact add_sub_cancel_left _ _
    have e2 : b1.poolEmis p - w.backstop.poolEmis p = np := by rw [g5]; exact add_sub_cancel_left _ _
    refine ⟨s, hs0, ?_, ?_, ?_, eps, g8, ?_⟩
    · rw [hx p nq g1]; exact isFloor_of_mulDiv g2 htpos
    · rw [e1, ← etb]; exact isFloor_of_mulDiv g4 hs7
    · rw [e2, ← etp]; exact isFloor_of_mulDiv g3 hs7
    · rw [e1]; exact g9
  -- the shares add up to at most one
  have hsum : ∀ (l : List Address) (K : Int) (f : Address → Int), 0 ≤ K →
      (∀ p ∈ l, ∃ s, 0 ≤ s ∧ IsFloor s (x p * ONE7) tn ∧ IsFloor (f p) (s * K) ONE7) →
      (l.map f).sum * tn ≤ (l.map x).sum * K := by
    intro l K f hK
    induction l with
    | nil => intro _; simp
    | cons p l ih =>
      intro hl
      have i1 := ih fun q hq => hl q (by simp [hq])
      obtain ⟨s, s0, s1, s2⟩ := hl p (by simp)
      simp only [List.map_cons, List.sum_cons]
      have a1 := s1.1
      have a2 := s2.1
      have b1 := mul_le_mul_of_nonneg_right a1 hK
      have b2 := mul_le_mul_of_nonneg_right a2 htpos.le
      unfold ONE7 at *
      nlinarith
  have hb : ∀ (K : Int) (f : Address → Int), 0 ≤ K →
      (∀ p ∈ w.backstop.rewardZone, ∃ s, 0 ≤ s ∧ IsFloor s (x p * ONE7) tn ∧ IsFloor (f p) (s * K) ONE7) →
      (w.backstop.rewardZone.map f).sum ≤ K := by
    intro K f hK hl
    have := hsum _ K f hK hl
    rw [← htn'] at this
    have : (w.backstop.rewardZone.map f).sum * tn ≤ K * tn := by linarith
    exact le_of_mul_le_mul_right this htpos
  refine ⟨secs, x, by omega, ?_, ?_, fun p hp => ?_, by rw [← htn']; exact htpos, fun p hp => ?_, fun p hp => ?_, ?_, ?_⟩
  · rw [hel]; congr 1; omega
  · show b1.lastDistro = _
    rw [hsm.1]; show el = _; omega
  · obtain ⟨nq, s, np, nb, g1, _⟩ := (hat p hp).ex
    change nonQueuedTokens (w.backstop.getPoolBal p) = .ok nq at g1
    rw [hx p nq g1]
    exact ⟨unqueued_spec ba.inv g1, nonQueued_nonneg ba.inv g1⟩
  · obtain ⟨s, _, k⟩ := hper p hp
    rw [← htn']
    exact ⟨s, k⟩
  · obtain ⟨j1, j2, j3, j4⟩ := hsm.2 p hp
    exact ⟨j4, j1, j2⟩
  · exact hb _ _ (mul_nonneg (Int.natCast_nonneg _) (by norm_num)) fun p hp => by
      obtain ⟨s, k0, k1, k2, _⟩ := hper p hp
      exact ⟨s, k0, k1, k2⟩
  · exact hb _ _ (mul_nonneg (Int.natCast_nonneg _) (by norm_num)) fun p hp => by
      obtain ⟨s, k0, k1, _, k3, _⟩ := hper p hp
      exact ⟨s, k0, k1, k3⟩

/-- **C37** No other operation allots emissions: what is allotted to depositors and the schedules change
only in `gulp_emissions`, and the emissions waiting for a pool only grow there. -/
theorem C37_only_gulp {w w' : World} {op : Op} (h : Reachable w) (hs : step w op = .ok w')
    (hop : ∀ auth, op ≠ .backstop auth .gulpEmissions) (p : Address) :
    w'.backstop.received p = w.backstop.received p ∧ w'.backstop.emisCfg p = w.backstop.emisCfg p ∧
      (w'.backstop.poolEmis p = w.backstop.poolEmis p ∨ w'.backstop.poolEmis p = 0) := by
  rcases sched_step h.ball hs with ⟨h1, h2⟩ | ⟨auth, a, r, rfl, res⟩ | ⟨auth, rfl⟩
  · exact ⟨by rw [h1.received], by rw [h1.emisCfg], h2 p⟩
  · rcases res.ex with ⟨_, rfl⟩ | ⟨_, _, _, _, rfl⟩ <;> exact ⟨rfl, rfl, .inl rfl⟩
  · exact absurd rfl (hop auth)

/-- a gulp in the demo: 10000 seconds, everything for the only pool -/
example : ∃ w w', Reachable w ∧ step w (.backstop [] .gulpEmissions) = .ok w' ∧
    w'.backstop.received Demo.poolA - w.backstop.received Demo.poolA = 70000000000 ∧
    w'.backstop.poolEmis Demo.poolA - w.backstop.poolEmis Demo.poolA = 30000000000 := by
  obtain ⟨w, w', _, hr, hs, h⟩ := Demo.reach_step (ops := Demo.setup ++ Demo.trade ++ Demo.emissions.take 2)
    (op := .backstop [] .gulpEmissions)
    (f := fun w w' => decide (w'.backstop.received Demo.poolA - w.backstop.received Demo.poolA = 70000000000 ∧
      w'.backstop.poolEmis Demo.poolA - w.backstop.poolEmis Demo.poolA = 30000000000)) (by decide +kernel)
  exact ⟨w, w', hr, hs, by simpa using h⟩

/-! ### C38 -/

theorem history_pot {w0 w : World} (hg : Genesis w0) (hh : History OwnClaim w0 w) :
    Reachable w ∧ ∀ p, PotOk w.backstop p := by
  induction hh with
  | refl => 
    refine ⟨⟨w0, hg, .refl _⟩, fun p cfg d hc => ?_⟩
    rw [hg.backstop] at hc; simp at hc
  | @tail a b op _ hP hs ih =>
    obtain ⟨hr, hp⟩ := ih
    refine ⟨hr.step hs, ?_⟩
    have ba := hr.ball
    have br := step_bres ba.base ba.inv ba.allow hs
    have hF : ¬ ForeignClaim op := by
      cases op with
      | backstop auth c =>
        cases c with
        | claim s ps d => exact fun h => h (hP _ _ _ _ rfl)
        | _ => exact fun h => h
      | _ => exact fun h => h
    have : ∀ {S S' : BS}, BMicros a.time (ForeignClaim op) (BTouches op) S S' → BInv a.time S.b → (∀ p, PotOk S.b p) →
        ∀ p, PotOk S'.b p := by
      intro S S' hm inv f
      induction hm with
      | refl => exact f
      | tail h1 h2 ih => exact bmicro_pot hF h2 (bmicros_inv h1 inv) ih
    exact this br.micros ba.inv hp

/-- **C38**, for histories in which every backstop claim is credited to the claimant. For every pool and every
finite set of users: what was ever paid out to its depositors plus what these users are still entitled to is
at most what was ever allotted to the depositors. Without the restriction to such histories it is false:
`C38_fails`. -/
theorem C38_own_claims {w0 w : World} (hg : Genesis w0) (hh : History OwnClaim w0 w) {p : Address} {ed : EmisData}
    (hed : w.backstop.emisData p = some ed) (users : Finset Address) (entitled : Address → Int)
    (he : ∀ u ∈ users, BEntitled w p ed.index u (entitled u)) :
    w.backstop.claimed p + ∑ u ∈ users, entitled u ≤ w.backstop.received p := by
  obtain ⟨hr, hpot⟩ := history_pot hg hh
  have inv := hr.ball.inv
  cases hcf : w.backstop.emisCfg p with
  | none =>
    have := (inv.unset p hcf).1
    rw [hed] at this; simp at this
  | some cfg =>
    obtain ⟨d, e1, e2, e3, e4⟩ := inv.isSet p cfg hcf
    rw [hed] at e1; cases e1
    have e7 := hpot p cfg ed hcf hed
    have hs0 : (0 : Int) < SCALAR_7 := by norm_num [SCALAR_7]
    have hb : ∀ u, 0 ≤ (w.backstop.getUserBal p u).shares := fun u => (inv.user p u).shares
    have ht : ∀ F : Finset Nat, ∑ u ∈ F, (w.backstop.getUserBal p u).shares ≤
        (w.backstop.getPoolBal p).shares - (w.backstop.getPoolBal p).q4w := by
      intro F
      have h1 := SMap.finset_le (m := w.backstop.userBal p) (g := fun u => (w.backstop.getUserBal p u).shares) hb
        (fun u hu => by unfold BackstopState.getUserBal; rw [hu]; rfl) F
      have h2 : (w.backstop.userBal p).sum (fun u _ => (w.backstop.getUserBal p u).shares) =
          (w.backstop.userBal p).sum fun _ ub => ub.shares :=
        SMap.sum_congr fun u ub hu => by unfold BackstopState.getUserBal; rw [hu]; rfl
      rw [inv.unq p, ← h2]
      exact h1
    have h1 := phi_ge_finset (le_of_lt hs0) e3 e4 hb ht users
    have h2 : SCALAR_7 * ∑ u ∈ users, entitled u ≤ ∑ u ∈ users,
        (SCALAR_7 * (userEntry (w.backstop.userEmis p) u).accrued +
          (w.backstop.getUserBal p u).shares * (ed.index - (userEntry (w.backstop.userEmis p) u).index)) := by
      rw [Finset.mul_sum]
      refine Finset.sum_le_sum fun u hu => ?_
      have := (he u hu).1
      rw [emisRecord_eq] at this
      unfold SCALAR_7
      unfold ONE7 at this
      linarith
    have h3 : 0 ≤ SCALAR_7 * ((cfg.eps : Int) * ((cfg.expiration - ed.lastTime : Nat) : Int)) := by
      unfold SCALAR_7; positivity
    have h4 : SCALAR_7 * (w.backstop.claimed p + ∑ u ∈ users, entitled u) ≤ SCALAR_7 * w.backstop.received p := by
      rw [mul_add]
      linarith
    exact le_of_mul_le_mul_left h4 hs0

/-- the demo until carol has claimed her backstop emissions -/
example : ∃ w ed, History OwnClaim Demo.genesis w ∧ w.backstop.emisData Demo.poolA = some ed ∧
    0 < w.backstop.claimed Demo.poolA ∧ 0 < ed.index := by
  have run_history : ∀ (ops : List Op) (w w' : World), (∀ op ∈ ops, OwnClaim op) → Demo.run w ops = .ok w' →
      ∀ w0, History OwnClaim w0 w → History OwnClaim w0 w' := by
    intro ops
    induction ops with
    | nil => intro w w' _ h w0 h0; simp [Demo.run, pure, Except.pure] at h; subst h; exact h0
    | cons op ops ih =>
      intro w w' hP h w0 h0
      simp only [Demo.run, bind, Except.bind] at h
      split at h
      · simp at h
      · rename_i w1 hw1
        exact ih w1 w' (fun o ho => hP o (by simp [ho])) h w0 (.tail h0 (hP op (by simp)) hw1)
  obtain ⟨w, hw, hr, h⟩ := Demo.reach (ops := Demo.setup ++ Demo.trade ++ Demo.emissions ++ Demo.claims)
    (f := fun w => Demo.optAnd (w.backstop.emisData Demo.poolA) fun ed =>
      decide (0 < w.backstop.claimed Demo.poolA ∧ 0 < ed.index)) (by decide +kernel)
  simp only [Demo.optAnd_iff, decide_eq_true_eq] at h
  obtain ⟨ed, h1, h2, h3⟩ := h
  refine ⟨w, ed, run_history _ _ _ ?_ hw _ (.refl _), h1, h2, h3⟩
  intro op hop auth s ps d e
  subst e
  simp [Demo.setup, Demo.trade, Demo.emissions, Demo.claims] at hop
  obtain ⟨_, rfl, _, rfl⟩ := hop
  rfl

/-- The demo run in which the claim is false: after all emissions are due, carol's claim is credited to dave,
who then claims for the time before he had any shares. -/
def _root_.Blend.Demo.foreignClaim : List Op := Demo.setup ++ Demo.trade ++ Demo.emissions ++ [
  .ledger 700000 100000,
  .backstop [Demo.carol] (.claim Demo.carol [Demo.poolA] Demo.dave),
  .backstop [Demo.dave] (.claim Demo.dave [Demo.poolA] Demo.dave)]

/-- **C38 is false in general** (finding): a claim credited to another account mints shares without
bringing the account's emissions up to date, so the account is paid for time before it had the shares; more is
paid out than was allotted. -/
theorem C38_fails : ∃ w, Reachable w ∧ w.backstop.received Demo.poolA < w.backstop.claimed Demo.poolA := by
  obtain ⟨w, _, hr, h⟩ := Demo.reach (ops := Demo.foreignClaim)
    (f := fun w => decide (w.backstop.received Demo.poolA < w.backstop.claimed Demo.poolA)) (by decide +kernel)
  exact ⟨w, hr, by simpa using h⟩

/-! ### C44 -/

/-- All shares of pool `p` are queued for withdrawal while its emissions run and some are due. -/
structure _root_.Blend.Spec.AllQueued (w : World) (p : Address) : Prop where
  queued : (w.backstop.getPoolBal p).q4w = (w.backstop.getPoolBal p).shares
  nonempty : (w.backstop.getPoolBal p).shares ≠ 0
  due : ∃ cfg ed, w.backstop.emisCfg p = some cfg ∧ w.backstop.emisData p = some ed ∧ cfg.eps ≠ 0 ∧
    ed.lastTime < cfg.expiration ∧ ed.lastTime ≠ w.time

theorem allQueued_data {b : BackstopState} {now : Nat} {p : Address} {pb : PoolBalance} {cfg : EmisConfig} {ed d : EmisData}
    {b' : BackstopState} (he : b.emisData p = some ed) (h1 : pb.q4w = pb.shares) (h2 : pb.shares ≠ 0) (h3 : cfg.eps ≠ 0)
    (h4 : ed.lastTime < cfg.expiration) (h5 : ed.lastTime ≠ now) (h : updateEmisDataWith b now p pb cfg = .ok (d, b')) : False := by
  unfold updateEmisDataWith requireNonneg at h
  simp only [bind_ok, ite_ok, unwrap_ok, pure_ok, Prod.mk.injEq, chk_ok, require_ok, he, Option.some.injEq] at h
  obtain ⟨_, rfl, h⟩ := h
  rcases h with ⟨hc, rfl, rfl⟩ | ⟨hc, unq, ⟨_, rfl⟩, _, hun, dt, hdt, num, ⟨_, rfl⟩, add, hadd, _⟩
  · rcases hc with hc | hc | hc | hc
    · omega
    · omega
    · exact h3 hc
    · exact h2 hc
  · unfold fixedDivFloor mulDivFloor at hadd
    rw [h1, sub_self] at hadd
    simp only [bind_ok, require_ok, ne_eq, not_true_eq_false, false_and, exists_false, and_false] at hadd

theorem allQueued_emis {b : BackstopState} {now : Nat} {p u : Address} {pb : PoolBalance} {ub : UserBalance} {claim : Bool}
    {cfg : EmisConfig} {ed : EmisData} {x : Int} {b' : BackstopState} (hc : b.emisCfg p = some cfg) (he : b.emisData p = some ed)
    (h1 : pb.q4w = pb.shares) (h2 : pb.shares ≠ 0) (h3 : cfg.eps ≠ 0) (h4 : ed.lastTime < cfg.expiration)
    (h5 : ed.lastTime ≠ now) (h : updateEmissions b now p pb u ub claim = .ok (x, b')) : False := by
  unfold updateEmissions updateEmisData at h
  simp only [hc, bind_ok, Prod.exists, pure_ok, Prod.mk.injEq] at h
  obtain ⟨_, b2, ⟨d, _, hu, rfl, rfl⟩, _⟩ := h
  exact allQueued_data he h1 h2 h3 h4 h5 hu

/-- **C44** (finding) While all shares of a pool with running emissions are queued for withdrawal, deposits for
the pool, queueing, dequeueing and claiming of its depositors revert; and if the pool is in the reward zone
`gulp_emissions` reverts, that is nobody gets new emissions. -/
theorem C44_all_queued_reverts {w : World} {p : Address} (hq : AllQueued w p) (auth : List Address) :
    (∀ s a w', step w (.backstop auth (.deposit s p a)) ≠ .ok w') ∧
    (∀ s a w', step w (.backstop auth (.queueWithdrawal s p a)) ≠ .ok w') ∧
    (∀ s a w', step w (.backstop auth (.dequeueWithdrawal s p a)) ≠ .ok w') ∧
    (∀ s ps d w', p ∈ ps → step w (.backstop auth (.claim s ps d)) ≠ .ok w') ∧
    (p ∈ w.backstop.rewardZone → ∀ w', step w (.backstop auth .gulpEmissions) ≠ .ok w') := by
  obtain ⟨h1, h2, cfg, ed, hc, he, h3, h4, h5⟩ := hq
  refine ⟨fun s a w' h => ?_, fun s a w' h => ?_, fun s a w' h => ?_, fun s ps d w' hp h => ?_, fun hp w' h => ?_⟩
  · simp only [step, bind_ok, backstopCall, deposit, executeDeposit, Prod.exists] at h
    obtain ⟨_, _, _, _, ⟨_, _, _, _, _, _, _, _, x, b1, hu, _⟩, _⟩ := h
    exact allQueued_emis hc he h1 h2 h3 h4 h5 hu
  · simp only [step, bind_ok, backstopCall, queueWithdrawal, executeQueue, Prod.exists] at h
    obtain ⟨_, _, _, _, _, _, x, b1, hu, _⟩ := h
    exact allQueued_emis hc he h1 h2 h3 h4 h5 hu
  · simp only [step, bind_ok, backstopCall, dequeueWithdrawal, executeDequeue, Prod.exists] at h
    obtain ⟨_, _, _, _, _, _, x, b1, hu, _⟩ := h
    exact allQueued_emis hc he h1 h2 h3 h4 h5 hu
  · simp only [step, bind_ok, backstopCall, claim, executeClaim, Prod.exists] at h
    obtain ⟨_, _, _, _, ⟨_, _, _, _, c, cl, b1, hl, _⟩, _⟩ := h
    have : ∀ (ps : List Address) {c c' : Int} {cl cl' : SMap Int} {b b' : BackstopState}, p ∈ ps →
        claimLoop w.time s ps (c, cl, b) = .ok (c', cl', b') → b.getPoolBal p = w.backstop.getPoolBal p →
        b.emisCfg p = some cfg → b.emisData p = some ed → False := by
      intro ps
      induction ps with
      | nil => intro _ _ _ _ _ _ hp; simp at hp
      | cons q ps ih =>
        intro c c' cl cl' b b' hp h e1 e2 e3
        simp only [claimLoop, bind_ok, Prod.exists, chk_ok] at h
        obtain ⟨x, b1, hu, _, ⟨_, rfl⟩, h⟩ := h
        by_cases e : p = q
        · subst e
          rw [e1] at hu
          exact allQueued_emis e2 e3 h1 h2 h3 h4 h5 hu
        · have es := emis_same hu
          refine ih ((List.mem_cons.1 hp).resolve_left e) h ?_ ?_ ?_
          · show b1.getPoolBal p = _; rw [es.poolBal, e1]
          · show b1.emisCfg p = _
            unfold SameBals at es; rw [es]; exact e2
          · show b1.emisData p = _
            rw [updateEmissions_frame hu p e]; exact e3
    exact this ps hp hl rfl hc he
  · simp only [step, bind_ok, backstopCall, gulpEmissions, pure_ok, Prod.exists, Prod.mk.injEq, chk_ok, inst, unwrap_ok] at h
    obtain ⟨_, _, _, _, ⟨_, hne, i, _, _, _, el, _, _, _, ne, ⟨_, rfl⟩, tb, htb, tp, _, tn, htn, b1, hf, _, rfl⟩, rfl⟩ := h
    have : ∀ (l : List Address) {b b' : BackstopState}, p ∈ l → l.foldlM (gulpPool w.time tn tp tb) b = .ok b' →
        b.getPoolBal p = w.backstop.getPoolBal p → b.emisCfg p = some cfg → b.emisData p = some ed → False := by
      intro l
      induction l with
      | nil => intro _ _ hp; simp at hp
      | cons q l ih =>
        intro b b' hp h e1 e2 e3
        rw [foldlM_cons] at h
        obtain ⟨b1, h6, h7⟩ := h
        by_cases e : p = q
        · subst e
          simp only [gulpPool, bind_ok, chk_ok] at h6
          obtain ⟨nq, hnq, share, hs, np, hnp, _, ⟨_, rfl⟩, nb, hnb, hg⟩ := h6
          rw [e1] at hg
          unfold setEmisConfig at hg
          simp only [e2, bind_ok, Prod.exists] at hg
          obtain ⟨d, q1, hq1, _⟩ := hg
          exact allQueued_data (b := { b with poolEmis := upd b.poolEmis p (b.poolEmis p + np) }) e3 h1 h2 h3 h4 h5 hq1
        · obtain ⟨g1, g2⟩ := gulpPool_same h6
          obtain ⟨_, j2, j3, _⟩ := g2 p e
          refine ih ((List.mem_cons.1 hp).resolve_left e) h7 ?_ (by rw [j2]; exact e2) (by rw [j3]; exact e3)
          rw [g1]; exact e1
    exact this _ hp hf rfl hc he

/-- carol queues all her shares, she is the only depositor; an hour later the situation of C44 is reached -/
example : ∃ w, Reachable w ∧ AllQueued w Demo.poolA ∧ Demo.poolA ∈ w.backstop.rewardZone := by
  obtain ⟨w, _, hr, h⟩ := Demo.reach (ops := Demo.setup ++ Demo.trade ++ Demo.emissions ++
      [.backstop [Demo.carol] (.queueWithdrawal Demo.carol Demo.poolA 500000000000), .ledger 3600 700])
    (f := fun w => decide ((w.backstop.getPoolBal Demo.poolA).q4w = (w.backstop.getPoolBal Demo.poolA).shares ∧
        (w.backstop.getPoolBal Demo.poolA).shares ≠ 0 ∧ Demo.poolA ∈ w.backstop.rewardZone) &&
      Demo.optAnd (w.backstop.emisCfg Demo.poolA) fun cfg => Demo.optAnd (w.backstop.emisData Demo.poolA) fun ed =>
        decide (cfg.eps ≠ 0 ∧ ed.lastTime < cfg.expiration ∧ ed.lastTime ≠ w.time)) (by decide +kernel)
  simp only [Bool.and_eq_true, decide_eq_true_eq, Demo.optAnd_iff] at h
  obtain ⟨⟨h1, h2, h3⟩, cfg, h4, ed, h5, h6⟩ := h
  exact ⟨w, hr, ⟨h1, h2, cfg, ed, h4, h5, h6⟩, h3⟩

end Props
end Blend
