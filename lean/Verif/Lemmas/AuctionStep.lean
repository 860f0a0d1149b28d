import Verif.Lemmas.AuctionFrame
import Verif.Lemmas.Frames
/-
  All the ways an auction or a position of a pool can change in one operation.
-/

namespace Blend
namespace Pool

/-- an operation wrote the auction of type `t` of account `u` in pool `p` -/
inductive AuctionChange (w : World) (p : Address) (t : Nat) (u : Address) : Op → Option AuctionData → Prop
  | liquidation (auth n i a ps) : t = 0 → (w.pools p).inst = some i → u ≠ p → u ≠ i.backstop → createUserLiq w p u n = .ok (a, ps) →
      AuctionChange w p t u (.pool p auth (.newLiquidation u n)) (some a)
  | badDebt (auth i a) : t = 1 → (w.pools p).inst = some i → u = i.backstop → createBadDebtData w p u = .ok a →
      AuctionChange w p t u (.pool p auth .newBadDebt) (some a)
  | interest (auth i l a) : t = 2 → (w.pools p).inst = some i → u = i.backstop → createInterestData w p u l = .ok a →
      AuctionChange w p t u (.pool p auth (.newInterest l)) (some a)
  | submit (auth sender spender dst reqs q x) : q ∈ reqs → reqAuction sender q = some (t, u) →
      AuctionChange w p t u (.pool p auth (.submit sender spender dst reqs)) x
  | expire : AuctionChange w p t u (.expireAuction p t u) none

/-- calls that never touch positions -/
def Call.keepsPositions : Call → Bool
  | .submit .. => false
  | .badDebt .. => false
  | _ => true

theorem claimLoop_same {now : Nat} {sender : Address} {pos : Positions} : ∀ {l : List Nat} {n n' : Int} {ps ps' : PoolState},
    claimLoop now sender pos l (n, ps) = .ok (n', ps') → ps'.positions = ps.positions ∧ ps'.auctions = ps.auctions := by
  intro l
  induction l with
  | nil =>
    intro n n' ps ps' h
    simp only [claimLoop, pure_ok, Prod.mk.injEq] at h
    rw [h.2]; exact ⟨rfl, rfl⟩
  | cons id l ih =>
    intro n n' ps ps' h
    simp only [claimLoop] at h
    split at h
    · simp at h
    · simp only [bind_ok, unwrap_ok, Prod.exists, ite_ok, chk_ok] at h
      obtain ⟨c, _, d, _, h⟩ := h
      have key : ∀ {supply scalar bal amt : Int} {ps1 : PoolState} {n1 : Int},
          updateEmissions ps now id supply scalar sender bal true = .ok (amt, ps1) →
          claimLoop now sender pos l (n1, { ps1 with claimed := upd ps1.claimed id (ps1.claimed id + amt) }) = .ok (n', ps') →
          ps'.positions = ps.positions ∧ ps'.auctions = ps.auctions := by
        intro supply scalar bal amt ps1 n1 hu hrest
        obtain ⟨_, o2, o3, _⟩ := updateEmissions_other hu
        obtain ⟨i1, i2⟩ := ih hrest
        exact ⟨i1.trans o2, i2.trans o3⟩
      rcases h with ⟨_, _, _, _, _, a, ps1, hu, x, _, h⟩ | ⟨_, _, _, _, _, a, ps1, hu, x, _, h⟩
      · exact key hu h
      · exact key hu h

theorem call_positions {w w' : World} {p : Address} {auth : List Address} {c : Call} (hk : c.keepsPositions = true)
    (h : call w p auth c = .ok w') : (w'.pools p).positions = (w.pools p).positions := by
  cases c with
  | submit => simp [Call.keepsPositions] at hk
  | badDebt => simp [Call.keepsPositions] at hk
  | «initialize» a o r m b l =>
    simp only [call, executeInit, bind_ok, pure_ok] at h
    obtain ⟨_, _, _, ⟨_, _, _, _, _, _, rfl⟩, rfl⟩ := h
    rw [pools_setPool]
  | setAdmin a =>
    simp only [call, bind_ok, pure_ok] at h
    obtain ⟨_, _, _, _, _, _, rfl⟩ := h
    rw [pools_setPool]
  | updatePool r m =>
    simp only [call, executeUpdatePool, bind_ok, pure_ok] at h
    obtain ⟨_, _, _, ⟨_, _, _, _, rfl⟩, rfl⟩ := h
    rw [pools_setPool]
  | queueSetReserve a c =>
    simp only [call, queueSetReserve, bind_ok, pure_ok] at h
    obtain ⟨_, _, _, ⟨_, _, _, _, _, _, rfl⟩, rfl⟩ := h
    rw [pools_setPool]
  | cancelSetReserve a =>
    simp only [call, cancelSetReserve, bind_ok, pure_ok] at h
    obtain ⟨_, _, rfl⟩ := h
    rw [pools_setPool]
  | setReserve a =>
    simp only [call, bind_ok, pure_ok] at h
    obtain ⟨ps, hs, rfl⟩ := h
    rw [pools_setPool]
    obtain ⟨q, _, _, h | h⟩ := setReserve_ok hs
    · obtain ⟨_, _, _, _, _, _, _, _, _, rfl⟩ := h; rfl
    · obtain ⟨_, _, rfl⟩ := h; rfl
  | updateStatus =>
    simp only [call, updateStatus, bind_ok, pure_ok] at h
    obtain ⟨_, _, _, _, _, _, rfl⟩ := h
    rw [pools_setPool]
  | setStatus s =>
    simp only [call, setStatus, bind_ok, pure_ok] at h
    obtain ⟨_, _, _, _, _, _, _, _, rfl⟩ := h
    rw [pools_setPool]
  | gulpEmissions =>
    simp only [call, gulpEmissions, doGulp, PoolState.getInst, bind_ok, unwrap_ok, require_ok, Prod.exists, pure_ok,
      Prod.mk.injEq] at h
    obtain ⟨n, w2, ⟨i, hi, _, _, n1, w1, hg, ps, ⟨_, hn, hl⟩, rfl, rfl⟩, rfl⟩ := h
    obtain ⟨_, _, _, bi, _, rfl⟩ := gulpPoolAuth_frame hg
    rw [pools_setPool]
    refine foldlM_inv (fun q : PoolState => q.positions = (w.pools p).positions) (fun b d kv _ hb hs => ?_) rfl hl
    simp only [bind_ok, unwrap_ok] at hs
    obtain ⟨a, _, m, _, hs⟩ := hs
    obtain ⟨ed, ec, rfl⟩ := updateReserveEmisConfig_other hs
    exact hb
  | setEmissionsConfig l =>
    simp only [call, setPoolEmissions, bind_ok, pure_ok, Prod.exists] at h
    obtain ⟨_, _, _, ⟨_, _, _, _, _, rfl⟩, rfl⟩ := h
    rw [pools_setPool]
  | claim sender ids dst =>
    simp only [call, executeClaim, PoolState.getInst, bind_ok, Prod.exists, ite_ok, unwrap_ok, pure_ok, Prod.mk.injEq] at h
    obtain ⟨_, _, _, _, ⟨n1, ps1, hl, h⟩, rfl⟩ := h
    obtain ⟨hp, ha⟩ := claimLoop_same hl
    rcases h with ⟨hpos, i, hi, w2, ht, _, rfl⟩ | ⟨_, _, rfl⟩
    · rw [(transferFrom_res ht).frame]
      show ((w.setPool p ps1).pools p).positions = _
      rw [pools_setPool]; exact hp
    · rw [pools_setPool]; exact hp
  | newLiquidation u n =>
    simp only [call, createLiquidation, createUserLiq, bind_ok, require_ok, Prod.exists, pure_ok, ite_ok, Prod.mk.injEq] at h
    obtain ⟨i, hi, _, _, a, ps, h, rfl⟩ := h
    rw [pools_setPool]
    show ps.positions = _
    obtain ⟨_, _, _, _, blk, _, cache, hc, pd, cache1, hpd, _, _, pct, wd, sh, _, lot, _, bid, _,
      ⟨_, _, _, rfl, rfl⟩ | ⟨_, c, hrm, nd, _, _, _, _, _, _, _, _, _, _, rfl, rfl⟩⟩ := h
    · rfl
    · exact (rmPositions_same hrm).2.1
  | newBadDebt =>
    simp only [call, createBadDebt, bind_ok, pure_ok] at h
    obtain ⟨i, hi, a, _, rfl⟩ := h
    rw [pools_setPool]; rfl
  | newInterest l =>
    simp only [call, createInterest, bind_ok, pure_ok] at h
    obtain ⟨i, hi, a, _, rfl⟩ := h
    rw [pools_setPool]; rfl

theorem createUserLiq_auctions {w : World} {p u : Address} {n : Nat} {a : AuctionData} {ps : PoolState}
    (h : createUserLiq w p u n = .ok (a, ps)) : ps.auctions = (w.pools p).auctions := by
  simp only [createUserLiq, bind_ok, require_ok, Prod.exists, pure_ok, ite_ok, Prod.mk.injEq] at h
  obtain ⟨_, _, _, _, blk, _, cache, hc, pd, cache1, hpd, _, _, pct, wd, sh, _, lot, _, bid, _,
      ⟨_, _, _, rfl, rfl⟩ | ⟨_, c, hrm, nd, _, _, _, _, _, _, _, _, _, _, rfl, rfl⟩⟩ := h
  · rfl
  · exact (rmPositions_same hrm).2.2.1

theorem call_auctions {w w' : World} {p : Address} {auth : List Address} {c : Call} (hpb : p ≠ w.backstopAddr)
    (h : call w p auth c = .ok w') (t : Nat) (u : Address) :
    (w'.pools p).auctions t u = (w.pools p).auctions t u ∨ AuctionChange w p t u (.pool p auth c) ((w'.pools p).auctions t u) := by
  cases c with
  | submit sender spender dst reqs =>
    have key : ∀ {pos}, executeSubmit w p auth sender spender dst reqs = .ok (pos, w') →
        (w'.pools p).auctions t u = (w.pools p).auctions t u ∨
          AuctionChange w p t u (.pool p auth (.submit sender spender dst reqs)) ((w'.pools p).auctions t u) := by
      intro pos h
      by_cases hq : ∃ q ∈ reqs, reqAuction sender q = some (t, u)
      · obtain ⟨q, hq, he⟩ := hq
        exact .inr (.submit _ _ _ _ _ q _ hq he)
      · push Not at hq
        obtain ⟨s, d, hf, hs, _, _, e⟩ := submit_flight hpb h
        left
        rw [e]
        exact requests_auctions (s := ⟨⟨w, ⟨s.fl.cache.config, .empty, []⟩, User.load (w.pools p) sender⟩, ⟨.empty, .empty⟩, false⟩) hf hq
    simp only [call, bind_ok, pure_ok, requireAuth_ok, ite_ok, Prod.exists] at h
    obtain ⟨_, hs, ⟨_, _, _, pos, w1, h, rfl⟩ | ⟨_, pos, w1, h, rfl⟩⟩ := h
    · exact key h
    · exact key h
  | badDebt v =>
    left
    simp only [call, transferBadDebt, PoolState.getInst, bind_ok, unwrap_ok, require_ok, Prod.exists, pure_ok] at h
    obtain ⟨i, hi, _, hne, _, hc, cache, hcl, ps1, cache', bs', u', hl, ps2, hst, rfl⟩ := h
    obtain ⟨_, _, a3, _⟩ := badDebtLoop_same _ _ _ _ _ _ _ _ _ hl
    have hd := storeAll_data hst
    rw [pools_setPool, hd]
    exact congrFun (congrFun a3 t) u
  | «initialize» a o r m b l =>
    simp only [call, executeInit, bind_ok, pure_ok] at h
    obtain ⟨_, _, _, ⟨_, _, _, _, _, _, rfl⟩, rfl⟩ := h
    rw [pools_setPool]; exact .inl rfl
  | setAdmin a =>
    simp only [call, bind_ok, pure_ok] at h
    obtain ⟨_, _, _, _, _, _, rfl⟩ := h
    rw [pools_setPool]; exact .inl rfl
  | updatePool r m =>
    simp only [call, executeUpdatePool, bind_ok, pure_ok] at h
    obtain ⟨_, _, _, ⟨_, _, _, _, rfl⟩, rfl⟩ := h
    rw [pools_setPool]; exact .inl rfl
  | queueSetReserve a c =>
    simp only [call, queueSetReserve, bind_ok, pure_ok] at h
    obtain ⟨_, _, _, ⟨_, _, _, _, _, _, rfl⟩, rfl⟩ := h
    rw [pools_setPool]; exact .inl rfl
  | cancelSetReserve a =>
    simp only [call, cancelSetReserve, bind_ok, pure_ok] at h
    obtain ⟨_, _, rfl⟩ := h
    rw [pools_setPool]; exact .inl rfl
  | setReserve a =>
    simp only [call, bind_ok, pure_ok] at h
    obtain ⟨ps, hs, rfl⟩ := h
    rw [pools_setPool]
    obtain ⟨q, _, _, h | h⟩ := setReserve_ok hs
    · obtain ⟨_, _, _, _, _, _, _, _, _, rfl⟩ := h; exact .inl rfl
    · obtain ⟨_, _, rfl⟩ := h; exact .inl rfl
  | updateStatus =>
    simp only [call, updateStatus, bind_ok, pure_ok] at h
    obtain ⟨_, _, _, _, _, _, rfl⟩ := h
    rw [pools_setPool]; exact .inl rfl
  | setStatus s =>
    simp only [call, setStatus, bind_ok, pure_ok] at h
    obtain ⟨_, _, _, _, _, _, _, _, rfl⟩ := h
    rw [pools_setPool]; exact .inl rfl
  | gulpEmissions =>
    simp only [call, gulpEmissions, doGulp, PoolState.getInst, bind_ok, unwrap_ok, require_ok, Prod.exists, pure_ok,
      Prod.mk.injEq] at h
    obtain ⟨n, w2, ⟨i, hi, _, _, n1, w1, hg, ps, ⟨_, hn, hl⟩, rfl, rfl⟩, rfl⟩ := h
    obtain ⟨_, _, _, bi, _, rfl⟩ := gulpPoolAuth_frame hg
    rw [pools_setPool]
    left
    refine foldlM_inv (fun q : PoolState => q.auctions t u = (w.pools p).auctions t u) (fun b d kv _ hb hs => ?_) rfl hl
    simp only [bind_ok, unwrap_ok] at hs
    obtain ⟨a, _, m, _, hs⟩ := hs
    obtain ⟨ed, ec, rfl⟩ := updateReserveEmisConfig_other hs
    exact hb
  | setEmissionsConfig l =>
    simp only [call, setPoolEmissions, bind_ok, pure_ok, Prod.exists] at h
    obtain ⟨_, _, _, ⟨_, _, _, _, _, rfl⟩, rfl⟩ := h
    rw [pools_setPool]; exact .inl rfl
  | claim sender ids dst =>
    left
    simp only [call, executeClaim, PoolState.getInst, bind_ok, Prod.exists, ite_ok, unwrap_ok, pure_ok, Prod.mk.injEq] at h
    obtain ⟨_, _, _, _, ⟨n1, ps1, hl, h⟩, rfl⟩ := h
    obtain ⟨hp, ha⟩ := claimLoop_same hl
    rcases h with ⟨hpos, i, hi, w2, ht, _, rfl⟩ | ⟨_, _, rfl⟩
    · rw [(transferFrom_res ht).frame]
      show ((w.setPool p ps1).pools p).auctions t u = _
      rw [pools_setPool, ha]
    · rw [pools_setPool, ha]
  | newLiquidation v n =>
    simp only [call, createLiquidation, PoolState.getInst, unwrap_ok, bind_ok, require_ok, Prod.exists, pure_ok] at h
    obtain ⟨i, hi, _, hne, a, ps, h, rfl⟩ := h
    rw [pools_setPool]
    by_cases he : t = 0 ∧ u = v
    · obtain ⟨rfl, rfl⟩ := he
      rw [setAuction_same]
      push Not at hne
      exact .inr (.liquidation auth n i a ps rfl hi hne.1 hne.2 h)
    · rw [setAuction_ne he, createUserLiq_auctions h]; exact .inl rfl
  | newBadDebt =>
    simp only [call, createBadDebt, PoolState.getInst, unwrap_ok, bind_ok, pure_ok] at h
    obtain ⟨i, hi, a, ha, rfl⟩ := h
    rw [pools_setPool]
    by_cases he : t = 1 ∧ u = i.backstop
    · obtain ⟨rfl, rfl⟩ := he
      rw [setAuction_same]
      exact .inr (.badDebt auth i a rfl hi rfl ha)
    · rw [setAuction_ne he]; exact .inl rfl
  | newInterest l =>
    simp only [call, createInterest, PoolState.getInst, unwrap_ok, bind_ok, pure_ok] at h
    obtain ⟨i, hi, a, ha, rfl⟩ := h
    rw [pools_setPool]
    by_cases he : t = 2 ∧ u = i.backstop
    · obtain ⟨rfl, rfl⟩ := he
      rw [setAuction_same]
      exact .inr (.interest auth i l a rfl hi rfl ha)
    · rw [setAuction_ne he]; exact .inl rfl

/-- operations that are not calls of pool `p` -/
theorem pool_other {w w' : World} {op : Op} (hb : Base w) (h : step w op = .ok w') (p : Address)
    (hop : ∀ auth c, op ≠ .pool p auth c) (hex : ∀ t u, op ≠ .expireAuction p t u) :
    (w'.pools p).auctions = (w.pools p).auctions ∧ (w'.pools p).positions = (w.pools p).positions := by
  cases op with
  | factory auth c =>
    simp only [step, bind_ok] at h
    obtain ⟨_, _, h⟩ := h
    rcases factoryCall_ok h with ⟨m, rfl, _, rfl⟩ | ⟨x, s, o, r, n, m, rfl, _, _, _, _, _, _, rfl⟩
    · exact ⟨rfl, rfl⟩
    · by_cases hp : p = w.deployAddr x s
      · subst hp
        show ((w.setPool _ _).pools _).auctions = _ ∧ ((w.setPool _ _).pools _).positions = _
        rw [pools_setPool]; exact ⟨rfl, rfl⟩
      · show ((w.setPool _ _).pools _).auctions = _ ∧ ((w.setPool _ _).pools _).positions = _
        rw [pools_setPool_ne _ _ _ _ hp]; exact ⟨rfl, rfl⟩
  | expireAuction q t u =>
    cases h
    have : p ≠ q := fun e => hex t u (by rw [e])
    rw [pools_setPool_ne _ _ _ _ this]; exact ⟨rfl, rfl⟩
  | expireQueued q a =>
    cases h
    by_cases hp : p = q
    · subst hp; rw [pools_setPool]; exact ⟨rfl, rfl⟩
    · rw [pools_setPool_ne _ _ _ _ hp]; exact ⟨rfl, rfl⟩
  | _ =>
    have fr := (step_frame hb h).pools p
    simp only [ne_eq, reduceCtorEq, not_false_eq_true, implies_true, forall_const] at fr
    first
      | rw [fr hop]; exact ⟨rfl, rfl⟩
      | rw [fr]; exact ⟨rfl, rfl⟩
      | (rw [fr (fun a c => by simpa using hop a c)]; exact ⟨rfl, rfl⟩)

theorem auction_step {w w' : World} {op : Op} (hb : Base w) (h : step w op = .ok w') (p : Address) (t : Nat) (u : Address) :
    (w'.pools p).auctions t u = (w.pools p).auctions t u ∨ AuctionChange w p t u op ((w'.pools p).auctions t u) := by
  by_cases hop : ∃ auth c, op = .pool p auth c
  · obtain ⟨auth, c, rfl⟩ := hop
    simp only [step, bind_ok, require_ok] at h
    obtain ⟨_, hp, _, _, h⟩ := h
    exact call_auctions (hb.pool_ne hp) h t u
  · push Not at hop
    by_cases hex : ∃ t' u', op = .expireAuction p t' u'
    · obtain ⟨t', u', rfl⟩ := hex
      cases h
      rw [pools_setPool]
      by_cases he : t = t' ∧ u = u'
      · obtain ⟨rfl, rfl⟩ := he
        rw [setAuction_same]; exact .inr .expire
      · rw [setAuction_ne he]; exact .inl rfl
    · push Not at hex
      rw [(pool_other hb h p hop hex).1]; exact .inl rfl

theorem positions_step {w w' : World} {op : Op} (hb : Base w) (h : step w op = .ok w') (p : Address)
    (hop : ∀ auth c, op = .pool p auth c → c.keepsPositions = true) :
    (w'.pools p).positions = (w.pools p).positions := by
  by_cases hp : ∃ auth c, op = .pool p auth c
  · obtain ⟨auth, c, rfl⟩ := hp
    simp only [step, bind_ok, require_ok] at h
    obtain ⟨_, hp, _, _, h⟩ := h
    exact call_positions (hop _ _ rfl) h
  · push Not at hp
    by_cases hex : ∃ t' u', op = .expireAuction p t' u'
    · obtain ⟨t', u', rfl⟩ := hex
      cases h
      rw [pools_setPool]; rfl
    · push Not at hex
      exact (pool_other hb h p hp hex).2

end Pool
end Blend
