import Verif.Lemmas.ReqFrame
import Verif.Lemmas.PoolInv
/-
  A submit seen as a whole: the invariants of every intermediate state, and how the final state and the token
  balances come out of the last one.
-/

namespace Blend
namespace Pool

/-- the state in which the requests of a submit start -/
def startState (w : World) (p : Address) (cache : Cache) (sender : Address) : SubmitState :=
  ⟨⟨w, cache, User.load (w.pools p) sender⟩, ⟨.empty, .empty⟩, false⟩

/-- the invariants between two requests of a submit -/
structure FlightOk (w : World) (p sender : Address) (s : SubmitState) : Prop where
  cacheOk : CacheOk (s.fl.w.pools p) w.time s.fl.cache
  same : SameConfig (w.pools p) (s.fl.w.pools p)
  addr : s.fl.user.addr = sender
  time : s.fl.w.time = w.time
  seq : s.fl.w.seq = w.seq
  oracle : s.fl.w.oracle = w.oracle
  backstop : s.fl.w.backstopAddr = w.backstopAddr
  pinv : PInv w.time (s.vs p)
  cfg : CfgOk (s.vs p).ps
  rate : ∀ i, (w.pools p).inst = some i → i.config.bstopRate < 10000000

theorem flight_of {w : World} (hr : Reachable w) {p : Address} (hp : w.poolAddr p = true) {cache : Cache} {sender : Address}
    (hsp : sender ≠ p) (hc : Cache.load (w.pools p) = .ok cache) {auth : List Address} {l : List Request} {s : SubmitState}
    (h : l.foldlM (processRequest p auth) (startState w p cache sender) = .ok s) : FlightOk w p sender s := by
  obtain ⟨ok0, hr0, _, _⟩ := load_ok (now := w.time) hc
  have hb := hr.base
  have k := step_requests (U := fun _ => True) l _ _ ok0 trivial
    (fun q hq ht => trivial) (fun hq i hi => trivial) (hb.pool_ne hp) (Ne.symm hsp) h
  have touch := PMicro.touch (now := w.time) (U := fun _ => True) (.of w p) sender trivial
  have e0 : ({ VS.of w p with ps := setPositions (w.pools p) sender (getPositions (w.pools p) sender) } : VS)
      = SubmitState.vs p (startState w p cache sender) := by
    unfold SubmitState.vs VS.of startState
    simp only [overlay_load hr0]
    simp [setPositions, User.load]
  have touch' : PMicro w.time (fun _ => True) (.of w p) (SubmitState.vs p (startState w p cache sender)) := by
    rw [← e0]; exact touch
  have ms : PMicros w.time (fun _ => True) (.of w p) (s.vs p) := (PMicros.one touch').trans k.micros
  have cfg := micros_cfg ms (hb.cfg p)
  have pinv : PInv w.time (s.vs p) := by
    have : ∀ {S S'}, PMicros w.time (fun _ => True) S S' → CfgOk S.ps → PInv w.time S → PInv w.time S' := by
      intro S S' h
      induction h with
      | refl => exact fun _ h => h
      | tail h1 h2 ih => exact fun hc h => micro_inv (micros_cfg h1 hc).1 h2 (ih hc h)
    exact this ms (hb.cfg p) (hr.pinv hp)
  have hsteps : s.fl.w.seq = w.seq ∧ s.fl.w.time = w.time ∧ s.fl.w.oracle = w.oracle ∧ s.fl.w.backstopAddr = w.backstopAddr :=
    foldlM_inv (fun x : SubmitState => x.fl.w.seq = w.seq ∧ x.fl.w.time = w.time ∧ x.fl.w.oracle = w.oracle ∧ x.fl.w.backstopAddr = w.backstopAddr)
      (fun b d q _ hb hs => by
        have := psteps_seq (request_psteps (D := fun _ => True) (fun _ => trivial) (fun _ => trivial) hs)
        exact ⟨this.1.trans hb.1, this.2.1.trans hb.2.1, this.2.2.1.trans hb.2.2.1, this.2.2.2.trans hb.2.2.2⟩) ⟨rfl, rfl, rfl, rfl⟩ h
  exact ⟨k.cacheOk, k.same, k.addr, hsteps.2.1, hsteps.1, hsteps.2.2.1, hsteps.2.2.2, pinv, cfg.1, (hb.cfg p).rate⟩

/-- a reserve loaded between requests -/
structure LoadedOk (w : World) (p : Address) (s : SubmitState) (a : Address) (r : Reserve) : Prop where
  rm : ResMatch (s.fl.w.pools p) w.time a r
  cfg : ∃ c, (w.pools p).resConfig a = some c ∧ r.index = c.index ∧ r.scalar = 10 ^ c.decimals ∧
    r.lFactor = c.lFactor ∧ r.cFactor = c.cFactor ∧ r.maxUtil = c.maxUtil
  dRate : 1000000000 ≤ r.data.dRate
  bRate : 1000000000 ≤ r.data.bRate
  dSupply : 0 ≤ r.data.dSupply
  bSupply : 0 ≤ r.data.bSupply

theorem FlightOk.loadedOk {w : World} {p sender : Address} {s : SubmitState} (f : FlightOk w p sender s) {a : Address}
    {r : Reserve} {cache : Cache} (h : Loaded (s.fl.w.pools p) w.time s.fl.cache a r cache) : LoadedOk w p s a r := by
  obtain ⟨c, d, i, hc, hd, hi, hic, hac⟩ := h.data
  have hdo : DataOk d := f.pinv.dataOk f.cfg hd
  have hv := (f.cfg.valid a c hc)
  have hrate : i.config.bstopRate < 10000000 := f.rate i (by rw [← f.same.inst]; exact hi)
  have hr := accrue_rates hac hdo (f.pinv.rates a d hd).2.2.2.2 hv.util hrate
  have hsup := accrue_supplies hac
  refine ⟨h.rm, ?_, hr.1, hr.2.1, by rw [hsup.2]; exact hdo.dSupply, by rw [hsup.1]; exact hdo.bSupply⟩
  obtain ⟨c', hc', rest⟩ := h.rm.cfg
  exact ⟨c', by rw [← f.same.resConfig]; exact hc', rest⟩

/-- the whole submit -/
structure SubmitView (w : World) (p : Address) (auth : List Address) (sender spender dst : Address) (reqs : List Request)
    (w' : World) (cache : Cache) (s : SubmitState) : Prop where
  sender_ne : sender ≠ p
  spender_ne : spender ≠ p
  dst_ne : dst ≠ p
  auths : sender ∈ auth ∧ spender ∈ auth
  load : Cache.load (w.pools p) = .ok cache
  fold : reqs.foldlM (processRequest p auth) (startState w p cache sender) = .ok s
  max : requireUnderMax s.fl.cache.config s.fl.user.pos (getPositions (w.pools p) sender).effectiveCount = .ok ()
  health : ∃ cache', healthCheck s.fl.w (s.fl.w.pools p) s = .ok cache'
  flight : FlightOk w p sender s
  pools : w'.pools p = overlay (s.fl.w.pools p) s.fl.cache [s.fl.user]
  nonneg : ∀ t, 0 ≤ s.actions.spender.bal t ∧ 0 ≤ s.actions.pool.bal t
  bal : ∀ t x, w'.balance t x = s.fl.w.balance t x
    + (if x = p then s.actions.spender.bal t - s.actions.pool.bal t else 0)
    - (if x = spender then s.actions.spender.bal t else 0) + (if x = dst then s.actions.pool.bal t else 0)
  time' : w'.time = w.time
  oracle' : w'.oracle = w.oracle
  backstop' : w'.backstop = s.fl.w.backstop

theorem transfers_backstop {src dst : Address} : ∀ (l : List (Nat × Int)) (w w' : World),
    l.foldlM (fun w kv => transfer w kv.1 src dst kv.2) w = .ok w' → w'.backstop = w.backstop := by
  intro l w w' h
  exact foldlM_inv (fun x : World => x.backstop = w.backstop) (fun b d kv _ hb hs => by rw [(transfer_res hs).frame]; exact hb) rfl h

theorem lsum_nonneg {l : List (Nat × Int)} (h : ∀ kv ∈ l, 0 ≤ kv.2) (t : Nat) : 0 ≤ lsum l t := by
  induction l with
  | nil => simp
  | cons kv l ih =>
    rw [lsum_cons]
    have := ih fun x hx => h x (by simp [hx])
    have := h kv (by simp)
    split <;> omega

theorem submit_view {w w' : World} (hr : Reachable w) {p : Address} {auth : List Address} {sender spender dst : Address}
    {reqs : List Request} (h : step w (.pool p auth (.submit sender spender dst reqs)) = .ok w') :
    w.poolAddr p = true ∧ ∃ cache s, SubmitView w p auth sender spender dst reqs w' cache s := by
  simp only [step, bind_ok, require_ok, call, requireAuth_ok, ite_ok, pure_ok, Prod.exists] at h
  obtain ⟨_, hp, _, _, _, hsp, h⟩ := h
  obtain ⟨pos, w1, hsub, rfl, hsend⟩ : ∃ pos w1, executeSubmit w p auth sender spender dst reqs = .ok (pos, w1) ∧ w1 = w' ∧
      sender ∈ auth := by
    rcases h with ⟨_, _, hm, pos, w1, h1, h2⟩ | ⟨he, pos, w1, h1, h2⟩
    · exact ⟨pos, w1, h1, h2, hm⟩
    · push Not at he; exact ⟨pos, w1, h1, h2, he ▸ hsp⟩
  obtain ⟨⟨n1, n2, n3⟩, cache, s, cache', w2, ps1, hc, hs, hmax, hh, ht, hst, hpt, _⟩ := executeSubmit_ok hsub
  have fl := flight_of hr hp n1 hc hs
  obtain ⟨f1, f2, f3, _⟩ := transfers_fold _ _ _ ht
  obtain ⟨g1, g2, g3, _⟩ := transfers_fold _ _ _ hpt
  have hp1 : w2.pools = s.fl.w.pools := by rw [f1]
  rw [hp1] at hst
  have hext := healthCheck_ext (fun a r hr => by rw [fl.time]; exact fl.cacheOk.res a r hr) hh
  rw [fl.time] at hext
  have hov := store_overlay (u := s.fl.user) fl.cacheOk hext hst
  refine ⟨hp, cache, s, n1, n2, n3, ⟨hsend, hsp⟩, hc, hs, hmax, ⟨cache', hh⟩, fl, ?_, fun t => ⟨?_, ?_⟩, fun t x => ?_, ?_, ?_, ?_⟩
  · rw [← hov, g1]; simp
  · rw [← lsum_toList]; exact lsum_nonneg f2 t
  · rw [← lsum_toList]; exact lsum_nonneg g2 t
  · rw [g3, balance_setPool, f3, lsum_toList, lsum_toList]
    by_cases h1 : x = p
    · subst h1
      simp [Ne.symm n2, Ne.symm n3]; omega
    · simp [h1]
  · rw [g1]; show w2.time = _; rw [f1]; exact fl.time
  · rw [g1]; show w2.oracle = _; rw [f1]; exact fl.oracle
  · rw [transfers_backstop _ _ _ hpt]
    show w2.backstop = _
    rw [transfers_backstop _ _ _ ht]

end Pool
end Blend
