import Verif.Lemmas.MicroCall
/-
  The creation of auctions as small steps. Creating a partial liquidation runs `rm_positions` on a copy
  of the account; only the emission updates it makes stay in storage.
-/

namespace Blend
namespace Pool

theorem load_any {ps : PoolState} {now : Nat} {cache cache' : Cache} {a : Address} {r : Reserve}
    {st : Bool} (hm : ∀ a r, cache.reserves.get a = some r → ResMatch ps now a r)
    (h : cache.loadReserve ps now a st = .ok (r, cache')) :
    ResMatch ps now a r ∧ cache'.reserves = cache.reserves ∧ cache'.config = cache.config ∧
    (cache.reserves.get a = some r ∨ (cache.reserves.get a = none ∧
      Reserve.load ps cache.config.bstopRate now a = .ok r)) := by
  unfold Cache.loadReserve at h
  have hst : ∀ c'' : Cache, (if st = true ∧ a ∉ cache.toStore then
      { cache with toStore := cache.toStore ++ [a] } else cache) = c'' →
      c''.reserves = cache.reserves ∧ c''.config = cache.config := by
    intro c'' hc
    split at hc <;> subst hc <;> exact ⟨rfl, rfl⟩
  obtain ⟨h1, h2⟩ := hst _ rfl
  generalize (if st = true ∧ a ∉ cache.toStore then
      { cache with toStore := cache.toStore ++ [a] } else cache) = c'' at h h1 h2
  simp only at h
  rw [h1, h2] at h
  cases hr : cache.reserves.get a with
  | some r0 =>
    simp only [hr, pure_ok, Prod.mk.injEq] at h
    obtain ⟨rfl, rfl⟩ := h
    exact ⟨hm a r0 hr, h1, h2, .inl rfl⟩
  | none =>
    simp only [hr, bind_ok, pure_ok, Prod.mk.injEq] at h
    obtain ⟨r0, hl, rfl, rfl⟩ := h
    exact ⟨(load_match hl).1, h1, h2, .inr ⟨rfl, hl⟩⟩

theorem updateUserEmis_noclaim {ps ps' : PoolState} {d : EmisData} {id : Nat} {scalar : Int}
    {u : Address} {bal x : Int} (h : updateUserEmis ps d id scalar u bal false = .ok (x, ps')) : x = 0 := by
  unfold updateUserEmis setUserEmis at h
  simp only [Bool.false_eq_true, if_false] at h
  split at h
  · simp only [ite_ok, bind_ok, pure_ok, Prod.mk.injEq] at h
    rcases h with ⟨_, ⟨_, _, _, _, _, _, _, _, _, rfl, _⟩ | ⟨_, _, _, rfl, _⟩⟩ | ⟨_, rfl, _⟩ <;> rfl
  · simp only [ite_ok, bind_ok, pure_ok, Prod.mk.injEq] at h
    rcases h with ⟨_, rfl, _⟩ | ⟨_, _, _, rfl, _⟩ <;> rfl

theorem updateEmissions_noclaim {ps ps' : PoolState} {now id : Nat} {supply scalar : Int} {u : Address}
    {bal x : Int} (h : updateEmissions ps now id supply scalar u bal false = .ok (x, ps')) : x = 0 := by
  unfold updateEmissions at h
  simp only [bind_ok, Prod.exists] at h
  obtain ⟨od, ps1, _, h⟩ := h
  cases od with
  | none => simp only [pure_ok, Prod.mk.injEq] at h; exact h.1.symm
  | some d => exact updateUserEmis_noclaim h

/-- `a`'s token of kind `k` was not touched in the context: its total and the user's balance are the
stored ones -/
structure Fresh (k : Kind) (c : UCtx) (a : Address) : Prop where
  supply : ∀ d r, c.ps.resData a = some d → c.cache.reserves.get a = some r →
    k.supply r.data = k.supply d
  bal : ∀ cf, c.ps.resConfig a = some cf →
    k.emisBal c.user.pos cf.index = k.emisBal (getPositions c.ps c.user.addr) cf.index

theorem upd_self {β : Type} (f : Nat → β) (k : Nat) : upd f k (f k) = f := by
  funext j; rw [upd_apply]; split
  · rename_i h; rw [h]
  · rfl

theorem emisBal_put_ne (k k' : Kind) (pos : Positions) (m : SMap Int) (i : Nat)
    (h : k = .liab ↔ k' ≠ .liab) : k'.emisBal (k.put pos m) i = k'.emisBal pos i := by
  cases k <;> cases k' <;> simp_all [Kind.emisBal, Kind.put]

theorem emisBal_put_idx (k : Kind) (pos : Positions) (m : SMap Int) (i : Nat)
    (h : m.bal i = (k.map pos).bal i) : k.emisBal (k.put pos m) i = k.emisBal pos i := by
  cases k <;> simp_all [Kind.emisBal, Kind.put, Kind.map]

theorem bal_setBal {m : SMap Int} {i j : Nat} {v : Int} :
    (setBal m i v).bal j = if j = i then v else m.bal j := by
  unfold setBal
  split
  · rename_i h; subst h; rw [SMap.bal_del]
  · rw [SMap.bal_set]

theorem supply_addSupply_ne (k k' : Kind) (d : ReserveData) (x : Int) (h : k = .liab ↔ k' ≠ .liab) :
    k'.supply (k.addSupply d x) = k'.supply d := by
  cases k <;> cases k' <;> simp_all [Kind.supply, Kind.addSupply]

theorem liq_apply {now : Nat} {U : Address → Prop} {vb pb pd : Address → Int} {f : ShareOp} {k : Kind}
    (hf : IsShareOp f k false) {c c' : UCtx} {a : Address} {amt : Int} (cfg : CfgOk c.ps)
    (hm : ∀ a r, c.cache.reserves.get a = some r → ResMatch c.ps now a r) (hU : U c.user.addr)
    (fr : Fresh k c a) (h : c.apply now f a amt = .ok c') :
    PMicros now U ⟨c.ps, vb, pb, pd⟩ ⟨c'.ps, vb, pb, pd⟩ ∧ SameConfig c.ps c'.ps ∧
    (∀ a r, c'.cache.reserves.get a = some r → ResMatch c'.ps now a r) ∧
    c'.user.addr = c.user.addr ∧
    (∀ b, b ≠ a → Fresh k c b → Fresh k c' b) ∧
    (∀ k' b, (k = .liab ↔ k' ≠ .liab) → Fresh k' c b → Fresh k' c' b) := by
  unfold UCtx.apply at h
  simp only [bind_ok, Prod.exists, pure_ok] at h
  obtain ⟨r, cache, hl, ps', u', r', hs, rfl⟩ := h
  obtain ⟨rm, e1, e2, e3⟩ := load_any hm hl
  obtain ⟨hne, ⟨x, he⟩, hua, rfl, hpos⟩ := hf hs
  simp only [Bool.false_eq_true, if_false] at hpos
  obtain ⟨cf, hcf, hci, hcs, hrest⟩ := rm.cfg
  obtain rfl := updateEmissions_noclaim he
  obtain ⟨o1, o2, _, o4, _⟩ := updateEmissions_other he
  have hd : ∃ d, c.ps.resData a = some d ∧ ∀ k : Kind, Fresh k c a → k.supply r.data = k.supply d := by
    rcases e3 with e3 | ⟨_, e3⟩
    · have hmem : a ∈ c.ps.resList := List.mem_of_getElem? (cfg.idx a cf hcf)
      obtain ⟨_, d, _, hd⟩ := cfg.list a hmem
      exact ⟨d, hd, fun k fr => fr.supply d r hd e3⟩
    · obtain ⟨_, _, d, _, hd, hacc⟩ := load_match e3
      have := accrue_supplies hacc
      refine ⟨d, hd, fun k _ => ?_⟩
      cases k <;> simp [Kind.supply, this.1, this.2]
  obtain ⟨d, hd, hsup⟩ := hd
  have hgp : ∀ x, getPositions ps' x = getPositions c.ps x := by
    intro x; unfold getPositions; rw [o2]
  refine ⟨?_, o1, ?_, hua, ?_, ?_⟩
  · have he' := he
    rw [hsup k fr, hci, hcs, fr.bal cf hcf] at he'
    have := PMicro.emis (now := now) (U := U) ⟨c.ps, vb, pb, pd⟩ ps' k a c.user.addr cf d cf.index false 0
      hU hcf hd (.inr rfl) he'
    simp only [add_zero, upd_self] at this
    exact .one this
  · intro b rb hb
    simp only [Cache.put, SMap.get_set, rm.asset, e1] at hb
    split at hb
    · rename_i hba
      cases hb
      subst hba
      exact ⟨rfl, by rw [addSupply_lastTime]; exact rm.time, cf, by rw [o1.resConfig]; exact hcf,
        hci, hcs, hrest⟩
    · obtain ⟨q1, q2, q3⟩ := hm b rb hb
      exact ⟨q1, q2, by rw [o1.resConfig]; exact q3⟩
  · intro b hba fb
    refine ⟨fun d r1 h1 h2 => ?_, fun cf2 h1 => ?_⟩
    · simp only [Cache.put, SMap.get_set, rm.asset, e1, if_neg hba] at h2
      rw [o1.resData] at h1
      exact fb.supply d r1 h1 h2
    · simp only at h1
      rw [o1.resConfig] at h1
      show k.emisBal u'.pos cf2.index = k.emisBal (getPositions ps' u'.addr) cf2.index
      rw [hgp, hua, ← fb.bal cf2 h1, hpos.2]
      apply emisBal_put_idx
      rw [bal_setBal, if_neg]
      intro hi
      exact hba (cfg.index_inj h1 hcf (by rw [hi, hci]))
  · intro k' b hk fb
    refine ⟨fun d r1 h1 h2 => ?_, fun cf2 h1 => ?_⟩
    · simp only [Cache.put, SMap.get_set, rm.asset, e1] at h2
      rw [o1.resData] at h1
      split at h2
      · rename_i hba
        cases h2
        subst hba
        show k'.supply (k.addSupply r.data _) = _
        rw [supply_addSupply_ne k k' _ _ hk]
        rw [hd] at h1; cases h1
        exact hsup k' fb
      · exact fb.supply d r1 h1 h2
    · simp only at h1
      rw [o1.resConfig] at h1
      show k'.emisBal u'.pos cf2.index = k'.emisBal (getPositions ps' u'.addr) cf2.index
      rw [hgp, hua, ← fb.bal cf2 h1, hpos.2]
      exact emisBal_put_ne k k' _ _ _ hk

theorem CfgOk.same' {ps ps' : PoolState} (cfg : CfgOk ps) (sc : SameCfg ps ps') : CfgOk ps' :=
  ⟨sc.resList ▸ cfg.nodup, sc.resList ▸ cfg.len, by rw [sc.resConfig, sc.resList]; exact cfg.idx,
    by rw [sc.resConfig, sc.resList, sc.resData]; exact cfg.list,
    by rw [sc.resConfig, sc.resData]; exact cfg.data, by rw [sc.resConfig]; exact cfg.valid,
    by rw [sc.resInit]; exact cfg.queued, by rw [sc.inst]; exact cfg.rate⟩

theorem CfgOk.same {ps ps' : PoolState} (cfg : CfgOk ps) (sc : SameConfig ps ps') : CfgOk ps' := cfg.same' sc.cfg

theorem liq_fold {now : Nat} {U : Address → Prop} {vb pb pd : Address → Int} {f : ShareOp} {k : Kind}
    (hf : IsShareOp f k false) : ∀ (l : List (Nat × Int)) (c c' : UCtx), CfgOk c.ps →
    (∀ a r, c.cache.reserves.get a = some r → ResMatch c.ps now a r) → U c.user.addr →
    l.Pairwise (fun a b => a.1 < b.1) → (∀ kv ∈ l, Fresh k c kv.1) →
    l.foldlM (fun c kv => UCtx.apply now f c kv.1 kv.2) c = .ok c' →
    PMicros now U ⟨c.ps, vb, pb, pd⟩ ⟨c'.ps, vb, pb, pd⟩ ∧ SameConfig c.ps c'.ps ∧
    (∀ a r, c'.cache.reserves.get a = some r → ResMatch c'.ps now a r) ∧
    c'.user.addr = c.user.addr ∧
    (∀ k' b, (k = .liab ↔ k' ≠ .liab) → Fresh k' c b → Fresh k' c' b) := by
  intro l
  induction l with
  | nil =>
    intro c c' _ hm _ _ _ h
    rw [foldlM_nil] at h; subst h
    exact ⟨.refl _, .refl _, hm, rfl, fun _ _ _ h => h⟩
  | cons kv l ih =>
    intro c c' cfg hm hU hs hl h
    rw [foldlM_cons] at h
    obtain ⟨c1, h1, h2⟩ := h
    rw [List.pairwise_cons] at hs
    obtain ⟨a1, a2, a3, a4, a5, a6⟩ := liq_apply (U := U) (vb := vb) (pb := pb) (pd := pd) hf cfg hm hU
      (hl kv (by simp)) h1
    obtain ⟨b1, b2, b3, b4, b5⟩ := ih c1 c' (cfg.same a2) a3 (a4 ▸ hU) hs.2
      (fun kv' hk => a5 _ (Nat.ne_of_gt (hs.1 kv' hk)) (hl kv' (by simp [hk]))) h2
    exact ⟨a1.trans b1, a2.trans b2, b3, b4.trans a4, fun k' b hk hfr => b5 k' b hk (a6 k' b hk hfr)⟩

theorem liquidation_micros {w w' : World} {p user : Address} {percent : Nat} (cfg : CfgOk (w.pools p))
    (h : createLiquidation w p user percent = .ok w') :
    PMicros w.time (fun x => x = user) (.of w p) (.of w' p) ∧ ∃ ps, w' = w.setPool p ps := by
  unfold createLiquidation createUserLiq at h
  simp only [bind_ok, require_ok, Prod.exists, pure_ok, ite_ok, Prod.mk.injEq] at h
  obtain ⟨i, hi, _, _, a, ps, h, rfl⟩ := h
  refine ⟨?_, _, rfl⟩
  have key : PMicros w.time (fun x => x = user) (.of w p)
      ⟨ps, fun a => w.balance a p, fun _ => 0, fun _ => 0⟩ := by
    obtain ⟨_, _, _, _, blk, _, cache, hc, pd, cache1, hpd, _, _, pct, wd, sh, _, lot, _, bid, _,
      ⟨_, _, _, rfl, rfl⟩ | ⟨_, c, hrm, nd, _, _, _, _, _, _, _, _, _, _, rfl, rfl⟩⟩ := h
    · exact .refl _
    · obtain ⟨ok0, hr0, _, _⟩ := load_ok (now := w.time) hc
      have hext := calcPositionData_cache ok0.res hpd
      unfold rmPositions at hrm
      simp only [bind_ok] at hrm
      obtain ⟨c1, h1, h2⟩ := hrm
      have fr : ∀ (k : Kind) b, Fresh k ⟨w.pools p, cache1, User.load (w.pools p) user⟩ b := by
        intro k b
        refine ⟨fun d r hd hr => ?_, fun _ _ => rfl⟩
        obtain ⟨_, hn | ⟨_, hn⟩⟩ := hext.new b r hr
        · rw [hr0] at hn; simp at hn
        · obtain ⟨_, _, d', _, hd', hacc⟩ := load_match hn
          simp only at hd
          rw [hd'] at hd; cases hd
          have := accrue_supplies hacc
          cases k <;> simp [Kind.supply, this.1, this.2]
      obtain ⟨a1, a2, a3, a4, a5⟩ := liq_fold (U := fun x => x = user) (vb := fun a => w.balance a p)
        (pb := fun _ => 0) (pd := fun _ => 0) isRemoveColl _ _ _ cfg
        (fun a r hr => (hext.new a r hr).1) rfl lot.sorted (fun kv _ => fr _ _) h1
      obtain ⟨b1, _⟩ := liq_fold (U := fun x => x = user) (vb := fun a => w.balance a p)
        (pb := fun _ => 0) (pd := fun _ => 0) isRemoveLiab _ _ _ (cfg.same a2) a3 (a4.trans rfl)
        bid.sorted (fun kv _ => a5 _ _ (by simp) (fr _ _)) h2
      exact a1.trans b1
  refine key.trans (.one ?_)
  have := PMicro.auction (now := w.time) (U := fun x => x = user)
    ⟨ps, fun a => w.balance a p, fun _ => 0, fun _ => 0⟩ 0 user (some a)
  have e : VS.of (w.setPool p (setAuction ps 0 user (some a))) p =
      ⟨setAuction ps 0 user (some a), fun a => w.balance a p, fun _ => 0, fun _ => 0⟩ := by
    unfold VS.of; simp [balance_setPool]
  rw [e]; exact this

theorem badDebtAuction_micros {w w' : World} {p : Address} {U : Address → Prop}
    (h : createBadDebt w p = .ok w') :
    PMicros w.time U (.of w p) (.of w' p) ∧ ∃ ps, w' = w.setPool p ps := by
  unfold createBadDebt at h
  simp only [bind_ok, pure_ok] at h
  obtain ⟨i, hi, a, _, rfl⟩ := h
  refine ⟨.one ?_, _, rfl⟩
  have := PMicro.auction (now := w.time) (U := U) (.of w p) 1 i.backstop (some a)
  have e : VS.of (w.setPool p (setAuction (w.pools p) 1 i.backstop (some a))) p =
      { VS.of w p with ps := setAuction (w.pools p) 1 i.backstop (some a) } := by
    unfold VS.of; simp [balance_setPool]
  rw [e]; exact this

theorem interestAuction_micros {w w' : World} {p : Address} {assets : List Address} {U : Address → Prop}
    (h : createInterest w p assets = .ok w') :
    PMicros w.time U (.of w p) (.of w' p) ∧ ∃ ps, w' = w.setPool p ps := by
  unfold createInterest at h
  simp only [bind_ok, pure_ok] at h
  obtain ⟨i, hi, a, _, rfl⟩ := h
  refine ⟨.one ?_, _, rfl⟩
  have := PMicro.auction (now := w.time) (U := U) (.of w p) 2 i.backstop (some a)
  have e : VS.of (w.setPool p (setAuction (w.pools p) 2 i.backstop (some a))) p =
      { VS.of w p with ps := setAuction (w.pools p) 2 i.backstop (some a) } := by
    unfold VS.of; simp [balance_setPool]
  rw [e]; exact this

end Pool
end Blend
