import Verif.Lemmas.CfgFrame
import Verif.Lemmas.Reach
/-
  What requests and operations do to the stored auctions.
-/

namespace Blend
namespace Pool

theorem pstep_seq {w w' : World} {p : Address} {auth : List Address} {D : Eff → Prop} (h : PStep p auth D w w') :
    w'.seq = w.seq ∧ w'.time = w.time ∧ w'.oracle = w.oracle ∧ w'.backstopAddr = w.backstopAddr := by
  cases h with
  | setPool ps => exact ⟨rfl, rfl, rfl, rfl⟩
  | transfer hs h => rw [(transfer_res h).frame]; exact ⟨rfl, rfl, rfl, rfl⟩
  | pull _ _ h => rw [(transferFrom_res h).frame]; exact ⟨rfl, rfl, rfl, rfl⟩
  | draw _ h =>
    obtain ⟨i, _, r⟩ := (Backstop.executeDraw_res h).ex
    rw [r.frame]; exact ⟨rfl, rfl, rfl, rfl⟩
  | donate _ _ h =>
    obtain ⟨i, w1, _, r, rfl⟩ := (Backstop.executeDonate_res h).ex
    rw [r.frame]; exact ⟨rfl, rfl, rfl, rfl⟩
  | gulp _ h =>
    simp only [Backstop.gulpPoolEmissions, bind_ok, pure_ok, Prod.mk.injEq] at h
    obtain ⟨_, _, i, _, _, _, w1, ha, _, rfl⟩ := h
    obtain ⟨_, rfl⟩ := approve_res ha
    exact ⟨rfl, rfl, rfl, rfl⟩

theorem psteps_seq {w w' : World} {p : Address} {auth : List Address} {D : Eff → Prop} (h : PSteps p auth D w w') :
    w'.seq = w.seq ∧ w'.time = w.time ∧ w'.oracle = w.oracle ∧ w'.backstopAddr = w.backstopAddr := by
  induction h with
  | refl => exact ⟨rfl, rfl, rfl, rfl⟩
  | tail _ hs ih =>
    obtain ⟨a1, a2, a3, a4⟩ := pstep_seq hs
    obtain ⟨b1, b2, b3, b4⟩ := ih
    exact ⟨a1.trans b1, a2.trans b2, a3.trans b3, a4.trans b4⟩

theorem interestLoop_pools {p filler : Address} : ∀ {l : List (Nat × Int)} {w w' : World} {cache cache' : Cache},
    fillInterestLoop p filler l (w, cache) = .ok (w', cache') → w'.pools = w.pools := by
  intro l
  induction l with
  | nil =>
    intro w w' cache cache' h
    simp only [fillInterestLoop, pure_ok, Prod.mk.injEq] at h
    rw [h.1]
  | cons kv l ih =>
    intro w w' cache cache' h
    simp only [fillInterestLoop, bind_ok, Prod.exists] at h
    obtain ⟨r, c1, _, cr, _, w1, ht, h⟩ := h
    rw [ih h, (transfer_res ht).frame]

theorem fill_auctions {fl fl' : Flight} {p : Address} {auth : List Address} {t : Nat} {user : Address} {percent : Nat}
    (h : fill fl p auth t user percent = .ok fl') :
    user ≠ fl.user.addr ∧ ∃ a f rem, (fl.w.pools p).auctions t user = some a ∧ scaleAuction fl.w.seq a percent = .ok (f, rem) ∧
      (fl'.w.pools p).auctions = (setAuction (fl.w.pools p) t user rem).auctions ∧ fl'.user.addr = fl.user.addr := by
  obtain ⟨hne, a, f, rem, fl1, ha, hs, hf, rfl⟩ := fill_ok h
  refine ⟨hne, a, f, rem, ha, hs, ?_⟩
  have key : (fl1.w.pools p).auctions = (fl.w.pools p).auctions ∧ fl1.user.addr = fl.user.addr := by
    rcases hf with ⟨_, hf⟩ | ⟨_, hf⟩ | ⟨_, _, hf⟩
    · simp only [fillUserLiq, bind_ok, pure_ok] at hf
      obtain ⟨c1, h1, c2, h2, rfl⟩ := hf
      obtain ⟨_, _, r3, _⟩ := rmPositions_same h1
      obtain ⟨_, _, s3, s4⟩ := addPositions_same h2
      refine ⟨?_, s4⟩
      rw [pools_setPool]
      exact s3.trans r3
    · simp only [fillBadDebt, bind_ok, pure_ok, unwrap_ok, require_ok, ite_ok] at hf
      obtain ⟨i, _, _, _, c1, h1, c2, h2, tk, _, lot, _, w2, hd, hf⟩ := hf
      obtain ⟨_, _, r3, _⟩ := rmPositions_same h1
      obtain ⟨_, _, s3, s4⟩ := addPositions_same h2
      obtain ⟨d1, _⟩ := draw_pools hd
      have hw2 : (w2.pools p).auctions = (fl.w.pools p).auctions := by
        rw [d1, pools_setPool]; exact s3.trans r3
      rcases hf with ⟨_, rfl⟩ | ⟨_, d, _, ⟨_, rm, _, c3, h3, rfl⟩ | ⟨_, rfl⟩⟩
      · refine ⟨?_, s4⟩
        rw [pools_setPool]; exact hw2
      · obtain ⟨_, _, t3, _⟩ := rmPositions_same h3
        refine ⟨?_, s4⟩
        rw [pools_setPool]; exact t3.trans hw2
      · refine ⟨?_, s4⟩
        rw [pools_setPool]; exact hw2
    · simp only [fillInterest, bind_ok, pure_ok, unwrap_ok, require_ok, Prod.exists] at hf
      obtain ⟨i, _, _, _, tk, _, bid, _, w1, hd, w2, c2, hl, rfl⟩ := hf
      obtain ⟨_, d1, _⟩ := donate_pools hd
      exact ⟨by rw [interestLoop_pools hl, d1], rfl⟩
  refine ⟨?_, key.2⟩
  show ((fl1.w.setPool p _).pools p).auctions = _
  rw [pools_setPool]
  unfold setAuction
  rw [key.1]

/-- the auction a request fills or deletes -/
def reqAuction (sender : Address) (q : Request) : Option (Nat × Address) :=
  if q.type = 6 then some (0, q.address) else if q.type = 7 then some (1, q.address)
  else if q.type = 8 then some (2, q.address) else if q.type = 9 then some (0, sender) else none

/-- what a request does to the auctions of the pool -/
inductive ReqAuction (seq : Nat) (ps : PoolState) (sender : Address) (q : Request) (ps' : PoolState) : Prop
  | same : q.type < 6 → ps'.auctions = ps.auctions → ReqAuction seq ps sender q ps'
  | fill (t a f rem) : q.type = 6 + t → t < 3 → q.address ≠ sender → ps.auctions t q.address = some a →
      scaleAuction seq a (asU64 q.amount) = .ok (f, rem) →
      ps'.auctions = (setAuction ps t q.address rem).auctions → ReqAuction seq ps sender q ps'
  | delete (a) : q.type = 9 → ps.auctions 0 sender = some a →
      ps'.auctions = (setAuction ps 0 sender none).auctions → ReqAuction seq ps sender q ps'

theorem request_auctions {p : Address} {auth : List Address} {s s' : SubmitState} {q : Request}
    (h : processRequest p auth s q = .ok s') :
    ReqAuction s.fl.w.seq (s.fl.w.pools p) s.fl.user.addr q (s'.fl.w.pools p) ∧ s'.fl.user.addr = s.fl.user.addr ∧
      s'.fl.w.seq = s.fl.w.seq := by
  have hseq : s'.fl.w.seq = s.fl.w.seq := (psteps_seq (request_psteps (D := fun _ => True) (fun _ => trivial) (fun _ => trivial) h)).1
  obtain ⟨_, _, h⟩ := processRequest_ok h
  have shr : ∀ {f : ShareOp} {k : Kind} {add : Bool}, IsShareOp f k add → ∀ {ps' : PoolState} {u' : User} {r r' : Reserve} {amt : Int},
      f (s.fl.w.pools p) s.fl.w.time s.fl.user r amt = .ok (ps', u', r') → q.type < 6 →
      ReqAuction s.fl.w.seq (s.fl.w.pools p) s.fl.user.addr q ps' ∧ u'.addr = s.fl.user.addr := by
    intro f k add hf ps' u' r r' amt hs hq
    exact ⟨.same hq (share_same hf hs).2.2, (hf hs).2.2.1⟩
  rcases h with ⟨ht, h⟩ | ⟨ht, h⟩ | ⟨ht, h⟩ | ⟨ht, h⟩ | ⟨ht, h⟩ | ⟨ht, h⟩ | ⟨ht, h⟩ | ⟨ht, h⟩ | ⟨ht, h⟩ | ⟨ht, h⟩
  · simp only [reqSupply, bind_ok, Prod.exists, pure_ok] at h
    obtain ⟨r, c, _, m, _, ps', u, r', hs, acts, _, rfl⟩ := h
    have := shr isAddSupp hs (by omega)
    exact ⟨by simp only [pools_setPool]; exact this.1, this.2, hseq⟩
  · simp only [reqWithdraw, bind_ok, Prod.exists, pure_ok] at h
    obtain ⟨r, c, _, m, _, _, ps', u, r', hs, acts, _, rfl⟩ := h
    have := shr isRemoveSupp hs (by omega)
    exact ⟨by simp only [pools_setPool]; exact this.1, this.2, hseq⟩
  · simp only [reqSupply, bind_ok, Prod.exists, pure_ok] at h
    obtain ⟨r, c, _, m, _, ps', u, r', hs, acts, _, rfl⟩ := h
    have := shr isAddColl hs (by omega)
    exact ⟨by simp only [pools_setPool]; exact this.1, this.2, hseq⟩
  · simp only [reqWithdrawColl, bind_ok, Prod.exists, pure_ok] at h
    obtain ⟨r, c, _, m, _, _, ps', u, r', hs, acts, _, rfl⟩ := h
    have := shr isRemoveColl hs (by omega)
    exact ⟨by simp only [pools_setPool]; exact this.1, this.2, hseq⟩
  · simp only [reqBorrow, bind_ok, Prod.exists, pure_ok] at h
    obtain ⟨r, c, _, m, _, ps', u, r', hs, _, _, acts, _, rfl⟩ := h
    have := shr isAddLiab hs (by omega)
    exact ⟨by simp only [pools_setPool]; exact this.1, this.2, hseq⟩
  · simp only [reqRepay, bind_ok, Prod.exists, pure_ok, ite_ok] at h
    obtain ⟨r, c, _, m, _, acts, _, ⟨_, _, _, _, _, _, _, ps', u, r', hs, _, _, rfl⟩ | ⟨_, ps', u, r', hs, rfl⟩⟩ := h
    · have := shr isRemoveLiab hs (by omega)
      exact ⟨by simp only [pools_setPool]; exact this.1, this.2, hseq⟩
    · have := shr isRemoveLiab hs (by omega)
      exact ⟨by simp only [pools_setPool]; exact this.1, this.2, hseq⟩
  · obtain ⟨fl, hf, rfl⟩ := reqFill_ok h
    obtain ⟨hne, a, f, rem, h1, h2, h3, h4⟩ := fill_auctions hf
    exact ⟨.fill 0 a f rem (by omega) (by omega) hne h1 h2 h3, h4, hseq⟩
  · obtain ⟨fl, hf, rfl⟩ := reqFill_ok h
    obtain ⟨hne, a, f, rem, h1, h2, h3, h4⟩ := fill_auctions hf
    exact ⟨.fill 1 a f rem (by omega) (by omega) hne h1 h2 h3, h4, hseq⟩
  · obtain ⟨fl, hf, rfl⟩ := reqFill_ok h
    obtain ⟨hne, a, f, rem, h1, h2, h3, h4⟩ := fill_auctions hf
    exact ⟨.fill 2 a f rem (by omega) (by omega) hne h1 h2 h3, h4, hseq⟩
  · simp only [reqDelete, deleteLiquidation, bind_ok, pure_ok, require_ok] at h
    obtain ⟨ps', ⟨_, hd, rfl⟩, rfl⟩ := h
    obtain ⟨a, ha⟩ := Option.isSome_iff_exists.1 hd
    exact ⟨.delete a (by omega) ha (by simp only [pools_setPool]), rfl, hseq⟩

theorem setAuction_ne {ps : PoolState} {t t' : Nat} {u u' : Address} {x : Option AuctionData} (h : ¬ (t' = t ∧ u' = u)) :
    (setAuction ps t u x).auctions t' u' = ps.auctions t' u' := by
  unfold setAuction
  by_cases ht : t' = t
  · subst ht
    have hu : u' ≠ u := fun e => h ⟨rfl, e⟩
    simp [upd_ne hu]
  · simp [upd_ne ht]

theorem setAuction_same {ps : PoolState} {t : Nat} {u : Address} {x : Option AuctionData} :
    (setAuction ps t u x).auctions t u = x := by simp [setAuction]

theorem ReqAuction.other {seq : Nat} {ps ps' : PoolState} {sender : Address} {q : Request} (h : ReqAuction seq ps sender q ps')
    {t : Nat} {u : Address} (hne : reqAuction sender q ≠ some (t, u)) : ps'.auctions t u = ps.auctions t u := by
  cases h with
  | same _ h => rw [h]
  | fill t' a f rem h1 h2 _ _ _ h =>
    rw [h]
    refine setAuction_ne ?_
    rintro ⟨rfl, rfl⟩
    apply hne
    unfold reqAuction
    have : t = 0 ∨ t = 1 ∨ t = 2 := by omega
    rcases this with rfl | rfl | rfl <;> simp [h1]
  | delete a h1 _ h =>
    rw [h]
    refine setAuction_ne ?_
    rintro ⟨rfl, rfl⟩
    apply hne
    simp [reqAuction, h1]

theorem requests_auctions {p : Address} {auth : List Address} {t : Nat} {u : Address} : ∀ {l : List Request} {s s' : SubmitState},
    l.foldlM (processRequest p auth) s = .ok s' → (∀ q ∈ l, reqAuction s.fl.user.addr q ≠ some (t, u)) →
    (s'.fl.w.pools p).auctions t u = (s.fl.w.pools p).auctions t u := by
  intro l
  induction l with
  | nil => intro s s' h _; rw [foldlM_nil] at h; rw [h]
  | cons q l ih =>
    intro s s' h hne
    rw [foldlM_cons] at h
    obtain ⟨s1, h1, h2⟩ := h
    obtain ⟨a1, a2, a3⟩ := request_auctions h1
    rw [ih h2 (fun q' hq' => by rw [a2]; exact hne q' (by simp [hq'])), a1.other (hne q (by simp))]

/-- without an auction no request fills or deletes it -/
theorem requests_none {p : Address} {auth : List Address} {t : Nat} {u : Address} : ∀ {l : List Request} {s s' : SubmitState},
    l.foldlM (processRequest p auth) s = .ok s' → (s.fl.w.pools p).auctions t u = none →
    (∀ q ∈ l, reqAuction s.fl.user.addr q ≠ some (t, u)) ∧ (s'.fl.w.pools p).auctions t u = none := by
  intro l
  induction l with
  | nil => intro s s' h hn; rw [foldlM_nil] at h; rw [← h]; exact ⟨by simp, hn⟩
  | cons q l ih =>
    intro s s' h hn
    rw [foldlM_cons] at h
    obtain ⟨s1, h1, h2⟩ := h
    obtain ⟨a1, a2, a3⟩ := request_auctions h1
    have hq : reqAuction s.fl.user.addr q ≠ some (t, u) := by
      intro e
      cases a1 with
      | same ht _ =>
        unfold reqAuction at e
        rw [if_neg (by omega), if_neg (by omega), if_neg (by omega), if_neg (by omega)] at e
        cases e
      | fill t' a f rem e1 e2 _ e3 _ _ =>
        have ht : t' = 0 ∨ t' = 1 ∨ t' = 2 := by omega
        have : (t', q.address) = (t, u) := by
          rcases ht with rfl | rfl | rfl <;> simpa [reqAuction, e1] using e
        cases this
        rw [hn] at e3; cases e3
      | delete a e1 e2 _ =>
        simp only [reqAuction, e1] at e
        have : (0, s.fl.user.addr) = (t, u) := by simpa using e
        cases this
        rw [hn] at e2; cases e2
    obtain ⟨b1, b2⟩ := ih h2 (by rw [a1.other hq]; exact hn)
    rw [a2] at b1
    refine ⟨fun q' hq' => ?_, b2⟩
    rcases List.mem_cons.1 hq' with rfl | hm
    · exact hq
    · exact b1 q' hm

end Pool
end Blend
