import Verif.Lemmas.MicroOps
/-
  The share operation loops (`rm_positions`, `add_positions`) as small steps.
-/

namespace Blend
namespace Pool

/-- the virtual state of a user context; `us` are other users in flight -/
def UCtx.vs (c : UCtx) (us : List User) (vb pb pd : Address → Int) : VS :=
  ⟨overlay c.ps c.cache (us ++ [c.user]), vb, pb, pd⟩

/-- total amount for `a` in a list of (asset, amount) -/
def lsum (l : List (Nat × Int)) (a : Address) : Int :=
  (l.map (fun kv => if kv.1 = a then kv.2 else 0)).sum

@[simp] theorem lsum_nil (a : Address) : lsum [] a = 0 := rfl
theorem lsum_cons (kv : Nat × Int) (l : List (Nat × Int)) (a : Address) :
    lsum (kv :: l) a = (if kv.1 = a then kv.2 else 0) + lsum l a := by simp [lsum]

/-- the part of `x` that is supply shares -/
def dB (k : Kind) (x : Int) : Int := match k with | .liab => 0 | _ => x
/-- the part of `x` that is debt shares -/
def dD (k : Kind) (x : Int) : Int := match k with | .liab => x | _ => 0

/-- one context evolves into another by small steps -/
structure CtxStep (now : Nat) (U : Address → Prop) (us : List User) (c c' : UCtx)
    (vb pb pd vb' pb' pd' : Address → Int) : Prop where
  micros : PMicros now U (c.vs us vb pb pd) (c'.vs us vb' pb' pd')
  cacheOk : CacheOk c'.ps now c'.cache
  same : SameConfig c.ps c'.ps
  positions : c'.ps.positions = c.ps.positions
  auctions : c'.ps.auctions = c.ps.auctions
  addr : c'.user.addr = c.user.addr
  mono : ∀ a, (c.cache.reserves.get a).isSome → (c'.cache.reserves.get a).isSome

theorem CtxStep.refl {now : Nat} {U : Address → Prop} {us : List User} {c : UCtx}
    {vb pb pd : Address → Int} (h : CacheOk c.ps now c.cache) : CtxStep now U us c c vb pb pd vb pb pd :=
  ⟨.refl _, h, .refl _, rfl, rfl, rfl, fun _ h => h⟩

theorem CtxStep.trans {now : Nat} {U : Address → Prop} {us : List User} {c c' c'' : UCtx}
    {vb pb pd vb' pb' pd' vb'' pb'' pd'' : Address → Int}
    (h : CtxStep now U us c c' vb pb pd vb' pb' pd')
    (h' : CtxStep now U us c' c'' vb' pb' pd' vb'' pb'' pd'') :
    CtxStep now U us c c'' vb pb pd vb'' pb'' pd'' :=
  ⟨h.micros.trans h'.micros, h'.cacheOk, h.same.trans h'.same, h'.positions.trans h.positions,
   h'.auctions.trans h.auctions, h'.addr.trans h.addr, fun a ha => h'.mono a (h.mono a ha)⟩

/-- One share operation whose counterpart is in transit. -/
theorem ctx_transit {now : Nat} {U : Address → Prop} {us : List User} {c c' : UCtx}
    {vb pb pd : Address → Int} {f : ShareOp} {k : Kind} {add : Bool} {a : Address} {amt : Int}
    (hop : IsShareOp f k add) (ok : CacheOk c.ps now c.cache) (hU : U c.user.addr)
    (hamt : add = true → 0 ≤ amt) (h : c.apply now f a amt = .ok c') :
    CtxStep now U us c c' vb pb pd vb
      (fun b => pb b + if a = b then dB k (if add then -amt else amt) else 0)
      (fun b => pd b + if a = b then dD k (if add then -amt else amt) else 0) := by
  unfold UCtx.apply at h
  simp only [bind_ok, Prod.exists, pure_ok] at h
  obtain ⟨r, cache1, hl, ps', u', r', hf, rfl⟩ := h
  have hld := loadReserve_true ok hl
  have hs := hop hf
  have hc : Coupled k a r.data (if add then amt else -amt)
      ⟨overlay c.ps (cache1.put r) (us ++ [c.user]), vb, pb, pd⟩ vb
      (fun b => pb b + if a = b then dB k (if add then -amt else amt) else 0)
      (fun b => pd b + if a = b then dD k (if add then -amt else amt) else 0) := by
    have e1 : (fun b => pb b + if a = b then dB k (if add then -amt else amt) else 0) =
        upd pb a (pb a - dB k (if add then amt else -amt)) := by
      funext b
      rw [upd_apply]
      by_cases hb : b = a
      · subst hb; cases add <;> cases k <;> simp [dB, sub_eq_add_neg]
      · rw [if_neg hb, if_neg (Ne.symm hb)]; simp
    have e2 : (fun b => pd b + if a = b then dD k (if add then -amt else amt) else 0) =
        upd pd a (pd a - dD k (if add then amt else -amt)) := by
      funext b
      rw [upd_apply]
      by_cases hb : b = a
      · subst hb; cases add <;> cases k <;> simp [dD, sub_eq_add_neg]
      · rw [if_neg hb, if_neg (Ne.symm hb)]; simp
    rw [e1, e2]
    have self : ∀ g : Address → Int, upd g a (g a - 0) = g := by
      intro g; funext b; rw [upd_apply]; split
      · rename_i hb; subst hb; simp
      · rfl
    cases k with
    | liab =>
      simp only [dB, dD, self]
      exact .transitD rfl
    | coll =>
      simp only [dB, dD, self]
      exact .transitB (by decide)
    | supp =>
      simp only [dB, dD, self]
      exact .transitB (by decide)
  obtain ⟨h1, h2, h3, h4, h5, h6⟩ := micro_share (U := U) (us := us) ok hld hU hs (fun _ => hamt) hc
  refine ⟨h1, h2, h3, h4, h5, h6, fun b hb => ?_⟩
  simp only [Cache.put, SMap.get_set, hld.reserves]
  split
  · rfl
  · exact hb

/-- the reserve that is operated on is cached afterwards -/
theorem apply_cached {now : Nat} {c c' : UCtx} {f : ShareOp} {k : Kind} {add : Bool} {a : Address}
    {amt : Int} (hop : IsShareOp f k add) (ok : CacheOk c.ps now c.cache)
    (h : c.apply now f a amt = .ok c') : (c'.cache.reserves.get a).isSome := by
  unfold UCtx.apply at h
  simp only [bind_ok, Prod.exists, pure_ok] at h
  obtain ⟨r, cache1, hl, ps', u', r', hf, rfl⟩ := h
  have hld := loadReserve_true ok hl
  obtain ⟨_, _, _, rfl, _⟩ := hop hf
  simp [Cache.put, hld.rm.asset]

theorem fold_cached {now : Nat} {f : ShareOp} {k : Kind} {add : Bool} (hop : IsShareOp f k add) :
    ∀ (l : List (Nat × Int)) (c c' : UCtx), CacheOk c.ps now c.cache →
    (add = true → ∀ kv ∈ l, 0 ≤ kv.2) →
    l.foldlM (fun c kv => c.apply now f kv.1 kv.2) c = .ok c' →
    (∀ a, (c.cache.reserves.get a).isSome → (c'.cache.reserves.get a).isSome) ∧
    ∀ kv ∈ l, (c'.cache.reserves.get kv.1).isSome := by
  intro l
  induction l with
  | nil =>
    intro c c' ok _ h
    rw [foldlM_nil] at h
    subst h
    exact ⟨fun _ h => h, by simp⟩
  | cons kv l ih =>
    intro c c' ok hl h
    rw [foldlM_cons] at h
    obtain ⟨c1, h1, h2⟩ := h
    have s1 := ctx_transit (U := fun _ => True) (us := []) (vb := fun _ => 0) (pb := fun _ => 0)
      (pd := fun _ => 0) hop ok trivial (fun ha => hl ha kv (by simp)) h1
    obtain ⟨i1, i2⟩ := ih c1 c' s1.cacheOk (fun ha x hx => hl ha x (by simp [hx])) h2
    refine ⟨fun a ha => i1 a (s1.mono a ha), fun x hx => ?_⟩
    rcases List.mem_cons.1 hx with rfl | hx
    · exact i1 _ (apply_cached hop ok h1)
    · exact i2 x hx

/-- a loop of share operations with the counterpart in transit -/
theorem ctx_fold {now : Nat} {U : Address → Prop} {us : List User} {f : ShareOp} {k : Kind}
    {add : Bool} (hop : IsShareOp f k add) :
    ∀ (l : List (Nat × Int)) (c c' : UCtx) (vb pb pd : Address → Int),
    CacheOk c.ps now c.cache → U c.user.addr →
    (add = true → ∀ kv ∈ l, 0 ≤ kv.2) →
    l.foldlM (fun c kv => c.apply now f kv.1 kv.2) c = .ok c' →
    CtxStep now U us c c' vb pb pd vb
      (fun b => pb b + dB k (if add then -(lsum l b) else lsum l b))
      (fun b => pd b + dD k (if add then -(lsum l b) else lsum l b)) := by
  intro l
  induction l with
  | nil =>
    intro c c' vb pb pd ok hU _ h
    rw [foldlM_nil] at h
    subst h
    have := CtxStep.refl (U := U) (us := us) (vb := vb) (pb := pb) (pd := pd) ok
    cases k <;> simpa [dB, dD] using this
  | cons kv l ih =>
    intro c c' vb pb pd ok hU hl h
    rw [foldlM_cons] at h
    obtain ⟨c1, h1, h2⟩ := h
    have s1 := ctx_transit (us := us) (vb := vb) (pb := pb) (pd := pd) hop ok hU
      (fun ha => hl ha kv (by simp)) h1
    have s := s1.trans (ih c1 c' vb _ _ s1.cacheOk (s1.addr ▸ hU)
      (fun ha x hx => hl ha x (by simp [hx])) h2)
    convert s using 2
    · rename_i b
      rw [lsum_cons]
      cases k <;> cases add <;> simp only [dB, if_true, Bool.false_eq_true, if_false] <;>
        by_cases hb : kv.1 = b <;> simp [hb] <;> omega
    · rename_i b
      rw [lsum_cons]
      cases k <;> cases add <;> simp only [dD, if_true, Bool.false_eq_true, if_false] <;>
        by_cases hb : kv.1 = b <;> simp [hb] <;> omega

theorem ctx_rmPositions {now : Nat} {U : Address → Prop} {us : List User} {c c' : UCtx}
    {coll liab : SMap Int} {vb pb pd : Address → Int}
    (ok : CacheOk c.ps now c.cache) (hU : U c.user.addr) (h : rmPositions now c coll liab = .ok c') :
    CtxStep now U us c c' vb pb pd vb (fun b => pb b + lsum coll.toList b)
      (fun b => pd b + lsum liab.toList b) := by
  unfold rmPositions at h
  simp only [bind_ok] at h
  obtain ⟨c1, h1, h2⟩ := h
  have s1 := ctx_fold (us := us) isRemoveColl _ _ _ vb pb pd ok hU (by simp) h1
  have s := s1.trans (ctx_fold (us := us) isRemoveLiab _ _ _ vb _ _ s1.cacheOk (s1.addr ▸ hU) (by simp) h2)
  simpa [dB, dD] using s

theorem ctx_addPositions {now : Nat} {U : Address → Prop} {us : List User} {c c' : UCtx}
    {coll liab : SMap Int} {vb pb pd : Address → Int}
    (ok : CacheOk c.ps now c.cache) (hU : U c.user.addr)
    (hc : ∀ kv ∈ coll.toList, 0 ≤ kv.2) (hl : ∀ kv ∈ liab.toList, 0 ≤ kv.2)
    (h : addPositions now c coll liab = .ok c') :
    CtxStep now U us c c' vb pb pd vb (fun b => pb b - lsum coll.toList b)
      (fun b => pd b - lsum liab.toList b) := by
  unfold addPositions at h
  simp only [bind_ok] at h
  obtain ⟨c1, h1, h2⟩ := h
  have s1 := ctx_fold (us := us) isAddColl _ _ _ vb pb pd ok hU (fun _ => hc) h1
  have s := s1.trans (ctx_fold (us := us) isAddLiab _ _ _ vb _ _ s1.cacheOk (s1.addr ▸ hU) (fun _ => hl) h2)
  simpa [dB, dD, sub_eq_add_neg] using s

end Pool
end Blend
