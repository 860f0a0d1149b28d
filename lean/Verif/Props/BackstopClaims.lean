import Verif.Lemmas.BEntitle
import Verif.Lemmas.Threshold
/-
  C51: what a backstop depositor can claim grows exactly pro rata, and a claim pays exactly that.

  The statements use `Spec.BEntitled` (what a depositor can claim at a given index) from `Verif/Props/BackstopEmissions.lean` and
  `Spec.IsFloor`.
-/

namespace Blend
namespace Props
open Spec Backstop Demo

/-- **C51** No operation of anyone, except a claim by the depositor or credited to him, changes what he can claim, other than
through the index: at the index reached after the operation, he can claim after it exactly what his unqueued shares and record from
before it give. -/
theorem C51_entitlement_step {w w' : World} {op : Op} (hr : Reachable w) (hs : step w op = .ok w') {p u : Address}
    {cfg : EmisConfig} {ed' : EmisData} (hcf : w.backstop.emisCfg p = some cfg) (hed' : w'.backstop.emisData p = some ed')
    (hop : ∀ auth s ps d, op = .backstop auth (.claim s ps d) → u ≠ s ∧ u ≠ d) {e e' : Int}
    (he : BEntitled w p ed'.index u e) (he' : BEntitled w' p ed'.index u e') : e' = e := by
  rw [bentitled_iff] at he he'
  subst he he'
  have ba := hr.ball
  have bal : ∀ {q v : Address} {x : Int} {b1 : BackstopState} {pb : PoolBalance} {ub : UserBalance},
      updateEmissions w.backstop w.time q (w.backstop.getPoolBal q) v (w.backstop.getUserBal q v) false = .ok (x, b1) →
      w'.backstop = setBal b1 q v pb ub → bentAt w'.backstop p u ed'.index = bentAt w.backstop p u ed'.index := by
    intro q v x b1 pb ub h hw
    by_cases h' : p = q ∧ u = v
    · obtain ⟨rfl, rfl⟩ := h'
      rw [hw] at hed' ⊢
      exact update_bentAt h hed' hcf
    · apply bentAt_congr
      · rw [hw]
        show (b1.userEmis p).get u = _
        by_cases hv : u = v
        · have hpq : p ≠ q := fun e => h' ⟨e, hv⟩
          rcases updateEmissions_ok h with ⟨_, rfl, _⟩ | ⟨_, _, _, _, r⟩
          · rfl
          · rw [r.eq]; simp only [upd_apply, if_neg hpq]
        · exact updateEmissions_user hv h p
      · rw [hw, getUserBal_set, if_neg h', (emis_same h).userBal]
  have same : w'.backstop.userEmis = w.backstop.userEmis → w'.backstop.userBal = w.backstop.userBal →
      bentAt w'.backstop p u ed'.index = bentAt w.backstop p u ed'.index := fun h1 h2 =>
    bentAt_congr (by rw [h1]) (by rw [getUserBal_congr h2])
  rcases step_other hs with ⟨q, auth, c, rfl, e⟩ | ⟨auth, c, rfl, hc⟩ | e | e
  · exact same e.userEmis e.userBal
  · cases call_cases ba.inv hc with
    | @deposit s p a m r =>
      obtain ⟨x, b1, i, w2, hu, _, _, hw⟩ := r.ex
      exact bal hu (congrArg World.backstop hw)
    | @queue s p a r =>
      obtain ⟨x, b1, hu, hw⟩ := r.ex
      exact bal hu (congrArg World.backstop hw)
    | @dequeue s p a r =>
      obtain ⟨x, b1, q', hu, hd, hw⟩ := r.ex
      exact bal hu (congrArg World.backstop hw)
    | @withdraw s q a tk r =>
      obtain ⟨q', i, hi, hd, hw, _⟩ := r.ex
      refine bentAt_congr (by rw [hw]; rfl) ?_
      rw [hw, getUserBal_set]
      split
      · rename_i e; obtain ⟨rfl, rfl⟩ := e; rfl
      · rfl
    | @claim s ps d r =>
      obtain ⟨h1, h2⟩ := hop auth s ps d rfl
      refine bentAt_congr (userEmis_step hr hs (fun hx => ?_) p) ?_
      · rcases hx.1 with h | h
        · exact h1 h
        · exact h2 h
      · obtain ⟨b1, hb1, cr⟩ := r.ex
        rw [(cr.users p u).2.2 h2, hb1]
        rfl
    | @draw q a d hp r =>
      obtain ⟨i, hi, t⟩ := r.ex
      have hw := congrArg World.backstop t.frame
      change w'.backstop = w.backstop.setPoolBal q _ at hw
      exact same (by rw [hw]; rfl) (by rw [hw]; rfl)
    | @donate s q a hs hp r =>
      obtain ⟨i, w1, hi, t, hw⟩ := r.ex
      have hw := congrArg World.backstop hw
      change w'.backstop = w.backstop.setPoolBal q _ at hw
      exact same (by rw [hw]; rfl) (by rw [hw]; rfl)
    | @reward a r' r =>
      rcases r.ex with ⟨_, rfl⟩ | ⟨_, _, _, _, rfl⟩
      · exact same rfl rfl
      · exact same rfl rfl
    | gulp hne hb hq' =>
      exact same (by rw [hb]) (by rw [hb])
    | init hn hb => exact same (by rw [hb]) (by rw [hb])
    | @gulpPool p hp hb => exact same (by rw [hb]) (by rw [hb])
    | lpVal hb => exact same (by rw [hb]) (by rw [hb])
    | drop hb => exact same (by rw [hb]) (by rw [hb])
  · exact same (by rw [e]) (by rw [e])
  · exact same (by rw [e]) (by rw [e])

/-- **C51** A successful claim brings the index of each of the named pools up to date, pays exactly what the claimant can claim at that
index, and leaves nothing to claim there; it pays nothing for pools without emissions. What it pays is added to
the model's count `claimed` of what was ever paid to the pool's depositors. The sum `n`, counting a pool that is named twice once, is paid in
BLND from the backstop into the LP token contract; the LP tokens it gives for it are minted to the backstop, and no other token balance
changes. If no pool is named twice, each pool is credited its part of the LP tokens, in proportion to what it paid, rounded down, and
the named receiver gets the shares an ordinary deposit of that many LP tokens would give; nobody else's shares and no other pool
change. -/
theorem C51_claim_exact {w w' : World} (hr : Reachable w) {auth : List Address} {s dst : Address} {pools : List Address}
    {i : BackstopInst} (hi : w.backstop.inst = some i) (hs : step w (.backstop auth (.claim s pools dst)) = .ok w') :
    ∃ (paid : Address → Int) (n : Int), n = ∑ p ∈ pools.toFinset, paid p ∧ 0 ≤ n ∧
      (∀ p, w'.backstop.claimed p = w.backstop.claimed p + if p ∈ pools then paid p else 0) ∧
      (∀ p ∈ pools, w.backstop.emisCfg p = none → paid p = 0) ∧
      (∀ p ∈ pools, ∀ cfg ed, w.backstop.emisCfg p = some cfg → w.backstop.emisData p = some ed → 0 ≤ paid p ∧
        ∃ ed', w'.backstop.emisData p = some ed' ∧ Spec.UpToDate cfg ONE7 w.time (unqueuedShares w p) ed ed'.index ∧
          BEntitled w p ed'.index s (paid p) ∧ BEntitled w' p ed'.index s 0) ∧
      (∀ p u, u ≠ dst ∨ p ∉ pools → w'.backstop.getUserBal p u = w.backstop.getUserBal p u) ∧
      (∀ p, p ∉ pools → w'.backstop.getPoolBal p = w.backstop.getPoolBal p) ∧
      (n = 0 → w'.backstop.userBal = w.backstop.userBal ∧ w'.backstop.poolBal = w.backstop.poolBal ∧ w'.tok = w.tok) ∧
      (0 < n → 0 ≤ w.cometOut n ∧
        (∀ t x, w'.balance t x = w.balance t x +
          ((if t = i.blnd ∧ x = i.backstopToken then n else 0) - (if t = i.blnd ∧ x = w.backstopAddr then n else 0)) +
          (if t = i.backstopToken ∧ x = w.backstopAddr then w.cometOut n else 0)) ∧
        (pools.Nodup → ∀ p ∈ pools, ∃ tokens shares, IsFloor tokens (w.cometOut n * paid p) n ∧
          ((w.backstop.getPoolBal p).shares = 0 → shares = tokens) ∧
          ((w.backstop.getPoolBal p).shares ≠ 0 → 0 < (w.backstop.getPoolBal p).tokens ∧
            IsFloor shares (tokens * (w.backstop.getPoolBal p).shares) (w.backstop.getPoolBal p).tokens) ∧
          w'.backstop.getPoolBal p = { w.backstop.getPoolBal p with
            tokens := (w.backstop.getPoolBal p).tokens + tokens
            shares := (w.backstop.getPoolBal p).shares + shares } ∧
          w'.backstop.getUserBal p dst = { w.backstop.getUserBal p dst with
            shares := (w.backstop.getUserBal p dst).shares + shares })) := by
  have ba := hr.ball
  have hs0 := hs
  simp only [step, bind_ok, require_ok] at hs
  obtain ⟨_, _, h⟩ := hs
  simp only [backstopCall, claim, executeClaim, cometDeposit, bind_ok, pure_ok, Prod.exists, ite_ok, Prod.mk.injEq, requireAuth_ok,
    inst, unwrap_ok] at h
  obtain ⟨_, w1, ⟨_, hm, _, _, n, cl, b1, hl, h⟩, rfl⟩ := h
  have L := bclaimLoop_exact _ _ _ _ _ _ _ hl
  have htot := L.total
  have hb1 := L.same
  have hub : b1.userBal = w.backstop.userBal := by rw [hb1]
  have hpb : b1.poolBal = w.backstop.poolBal := by rw [hb1]
  have hgp : ∀ p, b1.getPoolBal p = w.backstop.getPoolBal p := fun p => by unfold BackstopState.getPoolBal; rw [hpb]
  have hgu : ∀ p u, b1.getUserBal p u = w.backstop.getUserBal p u := fun p u => getUserBal_congr hub p u
  have hin : b1.inst = some i := by rw [hb1]; exact hi
  have hw4 : ∀ {w3 w4 : World} {i' : BackstopInst}, transfer (w.setBackstop b1) i'.blnd w.backstopAddr i'.backstopToken n = .ok w3 →
      mint w3 i'.backstopToken w.backstopAddr ((w.setBackstop b1).cometOut n) = .ok w4 → w4.backstop = b1 := by
    intro w3 w4 i' ht hmt
    rw [(mint_res hmt).frame, (transfer_res ht).frame]; rfl
  have hfin : ∀ p, w1.backstop.emisData p = b1.emisData p ∧ w1.backstop.userEmis p = b1.userEmis p := by
    intro p
    rcases h with ⟨hn0, i', hi', lpOut, w2, ⟨w3, ht, w4, hmt, s', _, rfl, rfl⟩, b2, hd, _, rfl⟩ | ⟨hn0, _, rfl⟩
    · have D := depositLoop_exact _ _ _ hd
      have e := hw4 ht hmt
      show b2.emisData p = _ ∧ b2.userEmis p = _
      rw [D.same]
      show w4.backstop.emisData p = _ ∧ w4.backstop.userEmis p = _
      rw [e]; exact ⟨rfl, rfl⟩
    · exact ⟨rfl, rfl⟩
  have hcl : ∀ p, w1.backstop.claimed p = b1.claimed p := by
    intro p
    rcases h with ⟨hn0, i', hi', lpOut, w2, ⟨w3, ht, w4, hmt, s', _, rfl, rfl⟩, b2, hd, _, rfl⟩ | ⟨hn0, _, rfl⟩
    · have D := depositLoop_exact _ _ _ hd
      have e := hw4 ht hmt
      show b2.claimed p = _
      rw [D.same]
      show w4.backstop.claimed p = _
      rw [e]
    · rfl
  have hdata : ∀ p ∈ pools, ∀ cfg, w.backstop.emisCfg p = some cfg → 0 ≤ b1.claimed p - w.backstop.claimed p ∧
        ∃ ed', b1.emisData p = some ed' ∧ BEntitled w p ed'.index s (b1.claimed p - w.backstop.claimed p) ∧
          ∀ v : World, v.backstop.userEmis p = b1.userEmis p → BEntitled v p ed'.index s 0 := by
    intro p hp cfg hcf
    obtain ⟨ed', k1, k2, k3⟩ := L.claimed p hp cfg hcf
    have hent : b1.claimed p - w.backstop.claimed p = bentAt w.backstop p s ed'.index := by omega
    refine ⟨?_, ed', k1, bentitled_iff.2 hent, fun v hv => bentitled_iff.2 ?_⟩
    · obtain ⟨ed, q1, _, q3, q4⟩ := ba.inv.isSet p cfg hcf
      have hmono : ed.index ≤ ed'.index := by
        obtain ⟨_, ed2, _, l2, l3, _⟩ := C25_backstop_index_step hr hs0 hcf q1
        rw [(hfin p).1, k1] at l2; cases l2
        exact l3
      obtain ⟨u1, u2, u3⟩ := q4.entry q3 s
      have hsh : 0 ≤ (w.backstop.getUserBal p s).shares := (ba.inv.user p s).shares
      rw [hent]
      unfold bentAt
      have : 0 ≤ Int.fdiv ((w.backstop.getUserBal p s).shares * (ed'.index - (userEntry (w.backstop.userEmis p) s).index)) SCALAR_7 :=
        Int.fdiv_nonneg (Int.mul_nonneg hsh (by omega)) (by norm_num [SCALAR_7])
      omega
    · unfold bentAt userEntry
      rw [hv, k2, SMap.get_set, if_pos rfl]
      simp
  have hn : n = ∑ p ∈ pools.toFinset, (b1.claimed p - w.backstop.claimed p) := by rw [htot]; ring
  have hnn : 0 ≤ n := by
    rw [hn]
    refine Finset.sum_nonneg fun p hp => ?_
    cases hcf : w.backstop.emisCfg p with
    | none => rw [(L.other p (.inr hcf)).2.2]; omega
    | some cfg => exact (hdata p (by simpa using hp) cfg hcf).1
  refine ⟨fun p => b1.claimed p - w.backstop.claimed p, n, hn, hnn, fun p => ?_, fun p hp hc => ?_, ?_⟩
  · rw [hcl p]
    by_cases hp : p ∈ pools
    · rw [if_pos hp]; beta_reduce; omega
    · rw [if_neg hp, (L.other p (.inl hp)).2.2, add_zero]
  · simp only [(L.other p (.inr hc)).2.2, sub_self]
  rcases h with ⟨hn0, i', hi', lpOut, w2, ⟨w3, ht, w4, hmt, s', _, rfl, rfl⟩, b2, hd, _, rfl⟩ | ⟨hn0, _, rfl⟩
  · have D := depositLoop_exact _ _ _ hd
    have e := hw4 ht hmt
    obtain rfl : i = i' := by
      have : b1.inst = some i' := hi'
      rw [hin] at this; cases this; rfl
    have e' : ({ w4 with cometShares := s' } : World).backstop = b1 := e
    rw [e'] at D hd
    have hout : (w.setBackstop b1).cometOut n = w.cometOut n := rfl
    rw [hout] at D hd hmt
    refine ⟨fun p hp cfg ed hcf hed => ?_, fun p u hu => ?_, fun p hp => ?_, fun h => absurd hn0 (by omega), fun _ => ⟨(mint_res hmt).nonneg, fun t x => ?_,
      fun hnd p hp => ?_⟩⟩
    · obtain ⟨k1, ed', k2, k3, k4⟩ := hdata p hp cfg hcf
      refine ⟨k1, ed', by rw [(hfin p).1, k2], L.upToDate p hp cfg ed ed' hcf hed k2 (ba.inv.shares_nonneg p).1, k3, k4 _ (hfin p).2⟩
    · show b2.getUserBal p u = _
      rcases hu with hu | hu
      · rw [D.users p u hu, hgu]
      · rw [(D.other p hu).2, hgu]
    · show b2.getPoolBal p = _
      rw [(D.other p hp).1, hgp]
    · show w4.balance t x = _
      rw [(mint_res hmt).bal, (transfer_res ht).bal]
      rfl
    · obtain ⟨amt, dep, m, k1, k2, k3, k4, k5⟩ := D.deposit hnd p hp
      rw [L.amount hnd p hp] at k1
      cases k1
      rw [hgp] at k3 k4
      rw [hgu] at k5
      have hpaid : 0 ≤ b1.claimed p - w.backstop.claimed p := by
        cases hcf : w.backstop.emisCfg p with
        | none => rw [(L.other p (.inr hcf)).2.2]; omega
        | some cfg => exact (hdata p hp cfg hcf).1
      have hdep := mulDivFloor_spec k2 hn0
      have hdep0 : 0 ≤ dep := mulDivFloor_nonneg k2 hn0 (Int.mul_nonneg (mint_res hmt).nonneg hpaid)
      obtain ⟨_, m2, m3⟩ := toShares_price k3 hdep0 (ba.inv.pool p) (by have := ba.inv.shares_nonneg p; omega)
      refine ⟨dep, m, ⟨hdep.1, by linarith [hdep.2]⟩, m3, fun hz => ?_, k4, k5⟩
      obtain ⟨g1, g2, g3⟩ := m2 hz
      exact ⟨g1, by linarith, by linarith⟩
  · have h0 : n = 0 := by omega
    refine ⟨fun p hp cfg ed hcf hed => ?_, fun p u _ => hgu p u, fun p _ => hgp p, fun _ => ⟨hub, hpb, rfl⟩, fun h => absurd h (by omega)⟩
    obtain ⟨k1, ed', k2, k3, k4⟩ := hdata p hp cfg hcf
    exact ⟨k1, ed', k2, L.upToDate p hp cfg ed ed' hcf hed k2 (ba.inv.shares_nonneg p).1, k3, k4 _ rfl⟩

/-- The hypotheses of `C51_entitlement_step` are met, and what carol can claim grows, when she queues some shares for withdrawal while
emissions run. -/
example : ∃ w w' op p u cfg ed ed' e e', Reachable w ∧ step w op = .ok w' ∧ w.backstop.emisCfg p = some cfg ∧
    w.backstop.emisData p = some ed ∧ w'.backstop.emisData p = some ed' ∧
    (∀ auth s ps d, op = .backstop auth (.claim s ps d) → u ≠ s ∧ u ≠ d) ∧
    BEntitled w p ed.index u e ∧ BEntitled w p ed'.index u e' ∧ BEntitled w' p ed'.index u e' ∧ e < e' := by
  obtain ⟨w, w', _, hr, hs, h⟩ := Demo.reach_step (ops := Demo.setup ++ Demo.trade ++ Demo.emissions)
    (op := .backstop [carol] (.queueWithdrawal carol poolA 100000000))
    (f := fun w w' => Demo.optAnd (w.backstop.emisCfg poolA) fun _ => Demo.optAnd (w.backstop.emisData poolA) fun ed =>
      Demo.optAnd (w'.backstop.emisData poolA) fun ed' => decide (bentAt w.backstop poolA carol ed.index <
        bentAt w'.backstop poolA carol ed'.index)) (by decide +kernel)
  simp only [decide_eq_true_eq, Demo.optAnd_iff] at h
  obtain ⟨cfg, h1, ed, h2, ed', h3, h4⟩ := h
  have hop : ∀ auth s ps d, Op.backstop [carol] (.queueWithdrawal carol poolA 100000000) = .backstop auth (.claim s ps d) →
    carol ≠ s ∧ carol ≠ d := by simp
  have := C51_entitlement_step hr hs h1 h3 hop (bentitled_iff.2 rfl) (bentitled_iff.2 rfl)
  exact ⟨w, w', _, _, carol, cfg, ed, ed', _, _, hr, hs, h1, h2, h3, hop, bentitled_iff.2 rfl, bentitled_iff.2 this,
    bentitled_iff.2 rfl, h4⟩

/-- The hypotheses of `C51_claim_exact` are met, and something is paid and credited, when carol claims. -/
example : ∃ w w' auth s dst pools i, Reachable w ∧ w.backstop.inst = some i ∧
    step w (.backstop auth (.claim s pools dst)) = .ok w' ∧ pools.Nodup ∧ pools = [poolA] ∧
    w'.balance i.blnd w.backstopAddr < w.balance i.blnd w.backstopAddr ∧
    (w.backstop.getUserBal poolA dst).shares < (w'.backstop.getUserBal poolA dst).shares := by
  obtain ⟨w, w', _, hr, hs, h⟩ := Demo.reach_step (ops := Demo.setup ++ Demo.trade ++ Demo.emissions)
    (op := .backstop [carol] (.claim carol [poolA] carol))
    (f := fun w w' => Demo.optAnd w.backstop.inst fun i => decide (
      w'.balance i.blnd w.backstopAddr < w.balance i.blnd w.backstopAddr ∧
      (w.backstop.getUserBal poolA carol).shares < (w'.backstop.getUserBal poolA carol).shares)) (by decide +kernel)
  simp only [decide_eq_true_eq, Demo.optAnd_iff] at h
  obtain ⟨i, h1, h2, h3⟩ := h
  exact ⟨w, w', _, _, _, _, i, hr, h1, hs, by simp, rfl, h2, h3⟩

/-- **C51** The condition that no pool is named twice is needed: a claim that names a pool twice pays the BLND and the LP tokens arrive
at the backstop, but they are credited to no pool and nobody gets shares for them. -/
theorem C51_duplicate_pools : ∃ w w' auth s dst pools i, Reachable w ∧ w.backstop.inst = some i ∧
    step w (.backstop auth (.claim s pools dst)) = .ok w' ∧
    w'.balance i.blnd w.backstopAddr < w.balance i.blnd w.backstopAddr ∧
    w.balance i.backstopToken w.backstopAddr < w'.balance i.backstopToken w.backstopAddr ∧
    (∀ p, w'.backstop.getPoolBal p = w.backstop.getPoolBal p) ∧
    (∀ p u, w'.backstop.getUserBal p u = w.backstop.getUserBal p u) := by
  obtain ⟨w, w', _, hr, hs, h⟩ := Demo.reach_step (ops := Demo.setup ++ Demo.trade ++ Demo.emissions)
    (op := .backstop [carol] (.claim carol [poolA, poolA] carol))
    (f := fun w w' => Demo.optAnd w.backstop.inst fun i => decide (
      w'.balance i.blnd w.backstopAddr < w.balance i.blnd w.backstopAddr ∧
      w.balance i.backstopToken w.backstopAddr < w'.balance i.backstopToken w.backstopAddr ∧
      w'.backstop.getPoolBal poolA = w.backstop.getPoolBal poolA ∧
      w'.backstop.getUserBal poolA carol = w.backstop.getUserBal poolA carol)) (by decide +kernel)
  simp only [decide_eq_true_eq, Demo.optAnd_iff] at h
  obtain ⟨i, h1, h2, h3, h4, h5⟩ := h
  obtain ⟨_, n, _, _, _, _, _, k1, k2, _⟩ := C51_claim_exact hr h1 hs
  refine ⟨w, w', _, _, _, _, i, hr, h1, hs, h2, h3, fun p => ?_, fun p u => ?_⟩
  · by_cases e : p = poolA
    · rw [e, h4]
    · exact k2 p (by simp [e])
  · by_cases e : p = poolA ∧ u = carol
    · rw [e.1, e.2, h5]
    · refine k1 p u ?_
      by_cases hp : p = poolA
      · exact .inl fun hu => e ⟨hp, hu⟩
      · exact .inr (by simp [hp])

end Props
end Blend
