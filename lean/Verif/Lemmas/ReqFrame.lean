import Verif.Lemmas.AuctionFrame
import Verif.Lemmas.NoStatus
/-
  What every request leaves alone: the pool configuration in the cache and the account whose positions are in flight.
-/

namespace Blend
namespace Pool

theorem foldlM_split {α β : Type} {f : β → α → R β} : ∀ {l : List α} {b c : β} {q : α}, l.foldlM f b = .ok c → q ∈ l →
    ∃ l1 l2 b1 b2, l = l1 ++ q :: l2 ∧ l1.foldlM f b = .ok b1 ∧ f b1 q = .ok b2 ∧ l2.foldlM f b2 = .ok c := by
  intro l
  induction l with
  | nil => intro b c q _ h; simp at h
  | cons a l ih =>
    intro b c q h hq
    rw [foldlM_cons] at h
    obtain ⟨b1, h1, h2⟩ := h
    rcases List.mem_cons.1 hq with rfl | hm
    · exact ⟨[], l, b, b1, rfl, rfl, h1, h2⟩
    · obtain ⟨l1, l2, c1, c2, e, e1, e2, e3⟩ := ih h2 hm
      exact ⟨a :: l1, l2, c1, c2, by rw [e]; rfl, foldlM_cons.2 ⟨b1, h1, e1⟩, e2, e3⟩

theorem loadReserve_config {c c' : Cache} {ps : PoolState} {n : Nat} {a : Address} {s : Bool} {r : Reserve}
    (h : c.loadReserve ps n a s = .ok (r, c')) : c'.config = c.config := by
  unfold Cache.loadReserve at h
  have key : ∀ x : Cache, (if s = true ∧ a ∉ c.toStore then { c with toStore := c.toStore ++ [a] } else c) = x → x.config = c.config := by
    rintro x rfl; split <;> rfl
  generalize (if s = true ∧ a ∉ c.toStore then { c with toStore := c.toStore ++ [a] } else c) = x at h key
  dsimp only at h
  cases hx : x.reserves.get a with
  | some y =>
    rw [hx] at h
    simp only [pure_ok, Prod.mk.injEq] at h
    rw [← h.2]; exact key x rfl
  | none =>
    rw [hx] at h
    simp only [bind_ok, pure_ok, Prod.mk.injEq] at h
    obtain ⟨_, _, _, e⟩ := h
    rw [← e]; exact key x rfl

theorem apply_config {f : ShareOp} {now : Nat} {c c' : UCtx} {a : Address} {amt : Int} (h : c.apply now f a amt = .ok c') :
    c'.cache.config = c.cache.config := by
  unfold UCtx.apply at h
  simp only [bind_ok, Prod.exists, pure_ok] at h
  obtain ⟨r, cache, hl, ps', u', r', hs, rfl⟩ := h
  exact (show cache.config = _ from loadReserve_config hl)

theorem applies_config {f : ShareOp} {now : Nat} {c c' : UCtx} {l : List (Nat × Int)}
    (h : l.foldlM (fun c kv => c.apply now f kv.1 kv.2) c = .ok c') : c'.cache.config = c.cache.config :=
  foldlM_inv (fun x : UCtx => x.cache.config = c.cache.config) (fun _ _ _ _ hb hs => (apply_config hs).trans hb) rfl h

theorem rmPositions_config {now : Nat} {c c' : UCtx} {m l : SMap Int} (h : rmPositions now c m l = .ok c') :
    c'.cache.config = c.cache.config := by
  simp only [rmPositions, bind_ok] at h
  obtain ⟨c1, h1, h2⟩ := h
  exact (applies_config h2).trans (applies_config h1)

theorem addPositions_config {now : Nat} {c c' : UCtx} {m l : SMap Int} (h : addPositions now c m l = .ok c') :
    c'.cache.config = c.cache.config := by
  simp only [addPositions, bind_ok] at h
  obtain ⟨c1, h1, h2⟩ := h
  exact (applies_config h2).trans (applies_config h1)

theorem fillInterestLoop_config {p f : Address} : ∀ {l : List (Nat × Int)} {w w' : World} {c c' : Cache},
    fillInterestLoop p f l (w, c) = .ok (w', c') → c'.config = c.config := by
  intro l
  induction l with
  | nil =>
    intro w w' c c' h
    simp only [fillInterestLoop, pure_ok, Prod.mk.injEq] at h
    rw [h.2]
  | cons kv l ih =>
    intro w w' c c' h
    simp only [fillInterestLoop, bind_ok, Prod.exists] at h
    obtain ⟨r, c1, hl, cr, _, w1, ht, h⟩ := h
    exact (ih h).trans (show c1.config = _ from loadReserve_config hl)

theorem fill_config {fl fl' : Flight} {p : Address} {auth : List Address} {t : Nat} {user : Address} {percent : Nat}
    (h : fill fl p auth t user percent = .ok fl') : fl'.cache.config = fl.cache.config := by
  obtain ⟨hne, a, f, rem, fl1, ha, hs, hf, rfl⟩ := fill_ok h
  show fl1.cache.config = _
  rcases hf with ⟨_, hf⟩ | ⟨_, hf⟩ | ⟨_, _, hf⟩
  · simp only [fillUserLiq, bind_ok, pure_ok] at hf
    obtain ⟨c1, h1, c2, h2, rfl⟩ := hf
    exact (addPositions_config h2).trans (rmPositions_config h1)
  · simp only [fillBadDebt, bind_ok, pure_ok, unwrap_ok, require_ok, ite_ok] at hf
    obtain ⟨i, _, _, _, c1, h1, c2, h2, tk, _, lot, _, w2, hd, hf⟩ := hf
    have e : c2.cache.config = fl.cache.config := (addPositions_config h2).trans (show c1.cache.config = _ from rmPositions_config h1)
    rcases hf with ⟨_, rfl⟩ | ⟨_, d, _, ⟨_, rm, _, c3, h3, rfl⟩ | ⟨_, rfl⟩⟩
    · exact e
    · exact (rmPositions_config h3).trans e
    · exact e
  · simp only [fillInterest, bind_ok, pure_ok, unwrap_ok, require_ok, Prod.exists] at hf
    obtain ⟨i, _, _, _, tk, _, bid, _, w1, hd, w2, c2, hl, rfl⟩ := hf
    exact fillInterestLoop_config hl

theorem request_config {p : Address} {auth : List Address} {s s' : SubmitState} {q : Request}
    (h : processRequest p auth s q = .ok s') : s'.fl.cache.config = s.fl.cache.config := by
  obtain ⟨_, _, h⟩ := processRequest_ok h
  rcases h with ⟨ht, h⟩ | ⟨ht, h⟩ | ⟨ht, h⟩ | ⟨ht, h⟩ | ⟨ht, h⟩ | ⟨ht, h⟩ | ⟨ht, h⟩ | ⟨ht, h⟩ | ⟨ht, h⟩ | ⟨ht, h⟩
  · simp only [reqSupply, bind_ok, Prod.exists, pure_ok] at h
    obtain ⟨r, c, hl, m, _, ps', u, r', hs, acts, _, rfl⟩ := h
    exact (show c.config = _ from loadReserve_config hl)
  · simp only [reqWithdraw, bind_ok, Prod.exists, pure_ok] at h
    obtain ⟨r, c, hl, m, _, _, ps', u, r', hs, acts, _, rfl⟩ := h
    exact (show c.config = _ from loadReserve_config hl)
  · simp only [reqSupply, bind_ok, Prod.exists, pure_ok] at h
    obtain ⟨r, c, hl, m, _, ps', u, r', hs, acts, _, rfl⟩ := h
    exact (show c.config = _ from loadReserve_config hl)
  · simp only [reqWithdrawColl, bind_ok, Prod.exists, pure_ok] at h
    obtain ⟨r, c, hl, m, _, _, ps', u, r', hs, acts, _, rfl⟩ := h
    exact (show c.config = _ from loadReserve_config hl)
  · simp only [reqBorrow, bind_ok, Prod.exists, pure_ok] at h
    obtain ⟨r, c, hl, m, _, ps', u, r', hs, _, _, acts, _, rfl⟩ := h
    exact (show c.config = _ from loadReserve_config hl)
  · simp only [reqRepay, bind_ok, Prod.exists, pure_ok, ite_ok] at h
    obtain ⟨r, c, hl, m, _, acts, _, ⟨_, _, _, _, _, _, _, ps', u, r', hs, _, _, rfl⟩ | ⟨_, ps', u, r', hs, rfl⟩⟩ := h
    · exact (show c.config = _ from loadReserve_config hl)
    · exact (show c.config = _ from loadReserve_config hl)
  · obtain ⟨fl, hf, rfl⟩ := reqFill_ok h
    exact fill_config hf
  · obtain ⟨fl, hf, rfl⟩ := reqFill_ok h
    exact fill_config hf
  · obtain ⟨fl, hf, rfl⟩ := reqFill_ok h
    exact fill_config hf
  · simp only [reqDelete, deleteLiquidation, bind_ok, pure_ok, require_ok] at h
    obtain ⟨ps', ⟨_, hd, rfl⟩, rfl⟩ := h
    rfl

theorem requests_config {p : Address} {auth : List Address} {l : List Request} {s s' : SubmitState}
    (h : l.foldlM (processRequest p auth) s = .ok s') :
    s'.fl.cache.config = s.fl.cache.config ∧ s'.fl.user.addr = s.fl.user.addr ∧ s'.fl.w.seq = s.fl.w.seq :=
  foldlM_inv (fun x : SubmitState => x.fl.cache.config = s.fl.cache.config ∧ x.fl.user.addr = s.fl.user.addr ∧ x.fl.w.seq = s.fl.w.seq)
    (fun _ _ _ _ hb hs => ⟨(request_config hs).trans hb.1, (request_auctions hs).2.1.trans hb.2.1, (request_auctions hs).2.2.trans hb.2.2⟩)
    ⟨rfl, rfl, rfl⟩ h

end Pool
end Blend
