import Verif.Props.BackstopTerms
import Verif.Props.BackstopClaims
import Verif.Props.Funding
import Verif.Props.ClaimLive
/-
  C70: claims of backstop emissions cannot be blocked.
-/

namespace Blend
namespace Backstop
open Spec Pool
variable {E : Err → Bool}

/-- the first loop of a claim for different pools fails only by overflow, if no pool has all its shares queued -/
theorem claimLoop_live (hov : E .overflow = false) {w : World} (hr : Reachable w) {s : Address} : ∀ (l : List Address) (n : Int) (cl : SMap Int)
    (b : BackstopState), l.Nodup → (∀ p ∈ l, ¬ AllQueued w p) →
    (∀ p ∈ l, b.emisCfg p = w.backstop.emisCfg p ∧ b.emisData p = w.backstop.emisData p ∧ b.userEmis p = w.backstop.userEmis p) →
    (∀ p, b.getPoolBal p = w.backstop.getPoolBal p) → NoErr E (claimLoop w.time s l (n, cl, b)) := by
  intro l
  induction l with
  | nil => intro n cl b _ _ _ _; exact NoErr.pure
  | cons p l ih =>
    intro n cl b hnd hq hs hb
    obtain ⟨hp, hnd⟩ := List.nodup_cons.1 hnd
    obtain ⟨s1, s2, s3⟩ := hs p List.mem_cons_self
    unfold claimLoop
    refine NoErr.bind (emis_local hov (by rw [hb]; exact hr.ball.inv.shares_nonneg p) ?_ ?_) ?_
    · rw [s1, s2, s3]; exact hr.ball.inv.isSet p
    · rw [s1, s2, hb]
      intro cfg d h1 h2 h3 h4 h5 h6
      by_contra h7
      exact hq p List.mem_cons_self ⟨h3, h4, cfg, d, h1, h2, h5, h6, h7⟩
    · rintro ⟨amt, b'⟩ h
      refine NoErr.bind (chk_live hov) fun n' _ => ?_
      have hf := (emis_frame h).1
      have hsame : b'.emisCfg = b.emisCfg ∧ b'.poolBal = b.poolBal := by
        rcases updateEmissions_ok h with ⟨_, rfl, _⟩ | ⟨cfg, ed, d, y, r⟩
        · exact ⟨rfl, rfl⟩
        · rw [r.eq]; exact ⟨rfl, rfl⟩
      refine ih _ _ _ hnd (fun q hq' => hq q (List.mem_cons_of_mem _ hq')) (fun q hq' => ?_) fun q => ?_
      · have hne : q ≠ p := by rintro rfl; exact hp hq'
        obtain ⟨t1, t2, t3⟩ := hs q (List.mem_cons_of_mem _ hq')
        exact ⟨by show b'.emisCfg q = _; rw [hsame.1, t1], by show b'.emisData q = _; rw [(hf q hne).1, t2],
          by show b'.userEmis q = _; rw [(hf q hne).2, t3]⟩
      · rw [← hb q]
        show (b'.poolBal.get q).getD _ = (b.poolBal.get q).getD _
        rw [hsame.2]

/-- the second loop fails only by overflow, if no pool is drained -/
theorem claimDepositLoop_live (hov : E .overflow = false) {out n : Int} (hn : 1 ≤ n) {cl : SMap Int} {dst : Address} :
    ∀ (l : List Address) (b : BackstopState), l.Nodup → (∀ p ∈ l, cl.get p ≠ none) →
    (∀ p ∈ l, (b.getPoolBal p).shares ≠ 0 → 0 < (b.getPoolBal p).tokens) → NoErr E (claimDepositLoop out n cl dst l b) := by
  intro l
  induction l with
  | nil => intro b _ _ _; exact NoErr.pure
  | cons p l ih =>
    intro b hnd hcl hpos
    obtain ⟨hp, hnd⟩ := List.nodup_cons.1 hnd
    unfold claimDepositLoop
    obtain ⟨amt, ha⟩ := Option.ne_none_iff_exists'.1 (hcl p List.mem_cons_self)
    refine NoErr.bind (NoErr.unwrap ha) fun _ _ => NoErr.bind (mulDiv_live hov hn) fun dep _ => NoErr.bind ?_ fun m _ =>
      NoErr.bind (NoErr.bind (chk_live hov) fun _ _ => NoErr.bind (chk_live hov) fun _ _ => NoErr.pure) fun pb' _ =>
      NoErr.bind (NoErr.bind (chk_live hov) fun _ _ => NoErr.pure) fun ub' _ => ?_
    · unfold toShares
      split
      · exact NoErr.pure
      · rename_i h0
        exact mulDiv_live hov (by have := hpos p List.mem_cons_self h0; omega)
    · refine ih _ hnd (fun q hq => hcl q (List.mem_cons_of_mem _ hq)) fun q hq => ?_
      have hne : q ≠ p := by rintro rfl; exact hp hq
      have : ((b.setPoolBal p pb').setUserBal p dst ub').getPoolBal q = b.getPoolBal q := by
        show ((b.poolBal.set p pb').get q).getD _ = (b.poolBal.get q).getD _
        rw [SMap.get_set, if_neg hne]
      rw [this]
      exact hpos q (List.mem_cons_of_mem _ hq)

end Backstop

namespace Props
open Spec Backstop Demo Pool

/-- `paid p` is what `u` can claim of the emissions of the pools right now -/
def _root_.Blend.Spec.Claimable (w : World) (u : Address) (pools : List Address) (paid : Address → Int) : Prop :=
  ∀ p ∈ pools, (w.backstop.emisCfg p = none → paid p = 0) ∧
    (w.backstop.emisCfg p ≠ none → ∃ index, IndexAt w p w.time index ∧ BEntitled w p index u (paid p))

theorem claimable_of {w : World} (hr : Reachable w) {s : Address} {pools : List Address} {n : Int} {cl : SMap Int} {b1 : BackstopState}
    (hl : Backstop.claimLoop w.time s pools (0, .empty, w.backstop) = .ok (n, cl, b1)) :
    Claimable w s pools (fun p => b1.claimed p - w.backstop.claimed p) ∧ n = ∑ p ∈ pools.toFinset, (b1.claimed p - w.backstop.claimed p) := by
  have L := bclaimLoop_exact _ _ _ _ _ _ _ hl
  refine ⟨fun p hp => ⟨fun hc => by simp only [(L.other p (.inr hc)).2.2, sub_self], fun hc => ?_⟩, by rw [L.total, zero_add]⟩
  obtain ⟨cfg, hcf⟩ := Option.ne_none_iff_exists'.1 hc
  obtain ⟨ed, q1, q2, _, _⟩ := hr.ball.inv.isSet p cfg hcf
  obtain ⟨ed', k1, k2, k3⟩ := L.claimed p hp cfg hcf
  obtain ⟨d, e1, e2⟩ := claimLoop_exact (S' := unqueuedShares w p) hl hcf q1 q2 (hr.ball.inv.shares_nonneg p)
  rw [if_pos hp] at e2
  rw [k1] at e1; cases e1
  exact ⟨ed'.index, ⟨cfg, ed, ed', hcf, q1, e2, rfl⟩, bentitled_iff.2 (by show b1.claimed p - w.backstop.claimed p = _; omega)⟩

/-- **C70** A claim of a depositor's emissions for different pools, to any account, fails for two reasons only: a number leaves the range
of `i128`, or what he can claim exceeds the BLND of the backstop. (No pool has all its shares queued while its emissions run, C44, no
pool with shares has lost all its tokens, and the Comet pool gives no negative amounts.) -/
theorem C70_claim_fails_only {w : World} (hr : Reachable w) {i : BackstopInst} (hi : w.backstop.inst = some i) {auth : List Address}
    {u dst : Address} {pools : List Address} (hau : ∀ x ∈ auth, ¬ w.isProtocol x) (hu : u ∈ auth) (hne : pools ≠ []) (hnd : pools.Nodup)
    (hq : ∀ p ∈ pools, ¬ AllQueued w p)
    (hpos : ∀ p ∈ pools, (w.backstop.getPoolBal p).shares ≠ 0 → 0 < (w.backstop.getPoolBal p).tokens) (hout : ∀ n, 0 < n → 0 ≤ w.cometOut n) {e : Err}
    (h : step w (.backstop auth (.claim u pools dst)) = .error e) :
    e = .overflow ∨ (e = .token ∧ ∃ paid, Claimable w u pools paid ∧ w.balance i.blnd w.backstopAddr < ∑ p ∈ pools.toFinset, paid p) := by
  set short := ∃ paid, Claimable w u pools paid ∧ w.balance i.blnd w.backstopAddr < ∑ p ∈ pools.toFinset, paid p with hshort
  have hov : Unexpected short .overflow = false := unexpected_overflow
  refine of_unexpected (short := short) ?_ h
  simp only [step]
  refine NoErr.bind (NoErr.req hau) fun _ _ => ?_
  simp only [backstopCall, claim]
  refine NoErr.bind (NoErr.bind (NoErr.req hu) fun _ _ => ?_) fun _ _ => NoErr.pure
  unfold Backstop.executeClaim
  refine NoErr.bind (NoErr.req hne) fun _ _ => NoErr.bind
    (Backstop.claimLoop_live hov hr pools 0 .empty w.backstop hnd hq (fun _ _ => ⟨rfl, rfl, rfl⟩) fun _ => rfl) ?_
  rintro ⟨n, cl, b1⟩ hl
  have L := bclaimLoop_exact _ _ _ _ _ _ _ hl
  obtain ⟨c1, c2⟩ := claimable_of hr hl
  have hb1 := L.same
  have hin : b1.inst = some i := by rw [hb1]; exact hi
  have hgp : ∀ p, b1.getPoolBal p = w.backstop.getPoolBal p := fun p => by unfold BackstopState.getPoolBal; rw [hb1]
  simp only
  split
  · rename_i hn0
    refine NoErr.bind (NoErr.unwrap hin) fun j hj => ?_
    have : b1.inst = some j := by simpa [Backstop.inst, unwrap_ok, World.setBackstop] using hj
    rw [hin] at this; cases this
    refine NoErr.bind ?_ ?_
    · unfold cometDeposit
      refine NoErr.bind ?_ fun w2 h2 => NoErr.bind ?_ fun w3 h3 => NoErr.bind (chk_live hov) fun _ _ => NoErr.pure
      · unfold transfer
        refine NoErr.bind (NoErr.req (by omega)) fun _ _ => NoErr.bind ?_ fun _ _ => NoErr.bind (chk_live hov) fun _ _ => NoErr.pure
        by_cases hb : n ≤ (w.setBackstop b1).balance i.blnd w.backstopAddr
        · exact NoErr.req hb
        · refine NoErr.require ?_
          have hs : short := ⟨_, c1, by rw [← c2]; change ¬ n ≤ w.balance i.blnd w.backstopAddr at hb; omega⟩
          simp [Unexpected, hs]
      · unfold mint
        exact NoErr.bind (NoErr.req (hout n hn0)) fun _ _ => NoErr.bind (chk_live hov) fun _ _ => NoErr.pure
    · rintro ⟨out, w2⟩ h2
      have hw2 : w2.backstop = b1 := by
        unfold cometDeposit at h2
        simp only [bind_ok, pure_ok, Prod.mk.injEq] at h2
        obtain ⟨w3, ht, w4, hm, _, _, _, rfl⟩ := h2
        show w4.backstop = _
        rw [(mint_res hm).frame, (transfer_res ht).frame]; rfl
      refine NoErr.bind (Backstop.claimDepositLoop_live hov (by omega) pools _ hnd (fun p hp => ?_) fun p hp => ?_) fun _ _ => NoErr.pure
      · rw [L.amount hnd p hp]; simp
      · rw [hw2, hgp]; exact hpos p hp
  · exact NoErr.pure

/-- **C70** In every history in which each backstop claim is credited to the claimant and the emitter is not swapped back to a backstop
it left before, the claim of a depositor fails only by overflow: the BLND is there. -/
theorem C70_claim_funded {w0 w : World} (hg : Genesis w0) (hh : HistoryW (fun w op => OwnClaim op ∧ ¬ ReturnSwap w op) w0 w)
    {i : BackstopInst} {ei : EmitterInst} (hi : w.backstop.inst = some i) (hei : w.emitter.inst = some ei) (hbl : ei.blnd = i.blnd)
    (hbt : i.blnd ≠ i.backstopToken) {auth : List Address}
    {u dst : Address} {pools : List Address} (hau : ∀ x ∈ auth, ¬ w.isProtocol x) (hu : u ∈ auth) (hne : pools ≠ []) (hnd : pools.Nodup)
    (hq : ∀ p ∈ pools, ¬ AllQueued w p)
    (hpos : ∀ p ∈ pools, (w.backstop.getPoolBal p).shares ≠ 0 → 0 < (w.backstop.getPoolBal p).tokens) (hout : ∀ n, 0 < n → 0 ≤ w.cometOut n) {e : Err}
    (h : step w (.backstop auth (.claim u pools dst)) = .error e) : e = .overflow := by
  obtain ⟨hr, k⟩ := historyW_blnd hg hh fun _ _ h => h.2
  rcases C70_claim_fails_only hr hi hau hu hne hnd hq hpos hout h with h | ⟨_, paid, h1, h2⟩
  · exact h
  · exfalso
    classical
    have hsplit : ∑ p ∈ pools.toFinset, paid p = ∑ p ∈ pools.toFinset.filter (fun p => w.backstop.emisCfg p ≠ none), paid p := by
      rw [Finset.sum_filter]
      refine Finset.sum_congr rfl fun p hp => ?_
      split
      · rfl
      · rename_i hc
        exact (h1 p (by simpa using hp)).1 (not_not.1 hc)
    set S := pools.toFinset.filter (fun p => w.backstop.emisCfg p ≠ none) with hS
    have hmem : ∀ p ∈ S, p ∈ pools ∧ w.backstop.emisCfg p ≠ none := fun p hp => by simpa [hS] using hp
    have hidx : ∀ p, ∃ index, p ∈ S → IndexAt w p w.time index ∧ BEntitled w p index u (paid p) := fun p => by
      by_cases hp : p ∈ S
      · obtain ⟨m1, m2⟩ := hmem p hp
        obtain ⟨index, h⟩ := (h1 p m1).2 m2
        exact ⟨index, fun _ => h⟩
      · exact ⟨0, fun h => absurd h hp⟩
    choose index hindex using hidx
    obtain ⟨last, _, l2, l3⟩ := C55_emissions_funded hg hh hi hei hbl hbt w.time S (fun _ => {u}) index (fun p _ => paid p)
      (fun p hp _ => (hindex p hp).1) (fun p hp v hv => by
        rw [Finset.mem_singleton] at hv; subst hv; exact (hindex p hp).2)
    have hpe : ∀ p, 0 ≤ w.backstop.poolEmis p := fun p => poolEmis_nonneg hr p
    have : ∑ p ∈ S, paid p ≤ ∑ p ∈ S, (∑ v ∈ ({u} : Finset Address), paid p + w.backstop.poolEmis p + w.allowance i.blnd w.backstopAddr p) := by
      refine Finset.sum_le_sum fun p _ => ?_
      rw [Finset.sum_singleton]
      have := hpe p
      have := allowance_nonneg k.keep.raw i.blnd p
      omega
    have : (0 : Int) ≤ ((last : Int) - w.backstop.lastDistro) * ONE7 := by unfold ONE7; omega
    omega

/-- The hypotheses are met: carol claims, with the emissions running and a positive amount to claim. -/
example : ∃ w i ei paid, HistoryW (fun w op => OwnClaim op ∧ ¬ ReturnSwap w op) Demo.genesis w ∧ w.backstop.inst = some i ∧
    w.emitter.inst = some ei ∧ ei.blnd = i.blnd ∧ i.blnd ≠ i.backstopToken ∧ ¬ w.isProtocol carol ∧ ¬ AllQueued w poolA ∧
    0 < (w.backstop.getPoolBal poolA).shares ∧ 0 < (w.backstop.getPoolBal poolA).tokens ∧ (∀ n, 0 < n → 0 ≤ w.cometOut n) ∧
    Claimable w carol [poolA] paid ∧ 0 < paid poolA := by
  obtain ⟨w, hw, hr, h⟩ := Demo.reach (ops := Demo.setup ++ Demo.trade ++ Demo.emissions ++ [.ledger 5000 1000])
    (f := fun w => Demo.optAnd w.backstop.inst fun i => Demo.optAnd w.emitter.inst fun ei =>
      Demo.okAnd (Backstop.claimLoop w.time carol [poolA] (0, .empty, w.backstop)) fun r =>
      decide (ei.blnd = i.blnd ∧ i.blnd ≠ i.backstopToken ∧ ¬ w.isProtocol carol ∧
        (w.backstop.getPoolBal poolA).q4w ≠ (w.backstop.getPoolBal poolA).shares ∧
        0 < (w.backstop.getPoolBal poolA).shares ∧ 0 < (w.backstop.getPoolBal poolA).tokens ∧ 0 < r.1)) (by decide +kernel)
  simp only [Demo.optAnd_iff, Demo.okAnd_iff, decide_eq_true_eq] at h
  obtain ⟨i, hi, ei, hei, ⟨n, cl, b1⟩, hl, h1, h2, h3, h4, h5, h6, h7⟩ := h
  obtain ⟨c1, c2⟩ := claimable_of hr hl
  have hist : HistoryW (fun w op => OwnClaim op ∧ ¬ ReturnSwap w op) Demo.genesis w := by
    refine historyW_of_run hw ?_ _ (.refl _)
    intro op hop w1
    refine ⟨?_, ?_⟩
    · intro auth s ps d e
      subst e
      simp [Demo.setup, Demo.trade, Demo.emissions] at hop
    · rintro ⟨auth, s, rfl, _⟩
      simp [Demo.setup, Demo.trade, Demo.emissions] at hop
  refine ⟨{ w with cometShares := 1, cometOut := fun n => n / 10 }, i, ei, _,
    .tail (op := .comet 1 fun n => n / 10) hist ⟨fun _ _ _ _ h => by simp at h, fun ⟨_, _, h, _⟩ => by simp at h⟩ ?_,
    hi, hei, h1, h2, h3, fun hq => h4 hq.queued, h5, h6, fun n hn => by show 0 ≤ n / 10; omega, c1, ?_⟩
  · simp only [step, bind_ok, require_ok, pure_ok]
    exact ⟨(), by decide, trivial⟩
  · rw [List.toFinset_cons, List.toFinset_nil, insert_empty_eq, Finset.sum_singleton] at c2
    show 0 < b1.claimed poolA - w.backstop.claimed poolA
    rw [← c2]; exact h7

end Props
end Blend
