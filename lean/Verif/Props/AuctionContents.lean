import Verif.Spec.AuctionContents
import Verif.Lemmas.AuctionStep
import Verif.Lemmas.EmitterInv
import Verif.Lemmas.Ttl
import Verif.Lemmas.WriteOff
import Verif.Props.NewAuctions
import Verif.Props.Liquidations
import Verif.Props.WriteOff
/-
  C92: what the auctions that a pool has stored can be about.

  The statements use `Verif/Spec/AuctionContents.lean`.
-/

namespace Blend
namespace Pool
open Spec

theorem liqAmounts_out {resList : List Address} {pct scalar : Int} : ∀ (l : List (Nat × Int)) (m m' : SMap Int),
    liqAmounts resList pct scalar l m = .ok m' → ∀ a, a ∉ resList → m'.get a = m.get a := by
  intro l
  induction l with
  | nil => intro m m' h a _; unfold liqAmounts at h; cases h; rfl
  | cons kv l ih =>
    obtain ⟨i, amount⟩ := kv
    intro m m' h a ha
    unfold liqAmounts at h
    simp only [bind_ok, unwrap_ok] at h
    obtain ⟨b, hb, x, hx, h⟩ := h
    rw [ih _ _ h a ha, SMap.get_set_ne]
    rintro rfl
    exact ha (List.mem_of_getElem? hb)

theorem createUserLiq_contents {w : World} {p u : Address} {n : Nat} {a : AuctionData} {ps : PoolState}
    (h : createUserLiq w p u n = .ok (a, ps)) :
    a.block = w.seq + 1 ∧ ∀ x, x ∉ (w.pools p).resList → a.bid.bal x = 0 ∧ a.lot.bal x = 0 := by
  simp only [createUserLiq, bind_ok, require_ok, Prod.exists, pure_ok, ite_ok, Prod.mk.injEq, chkU32_ok] at h
  obtain ⟨_, _, _, _, blk, ⟨_, rfl⟩, cache, hc, pd, cache1, hpd, _, _, pct, wd, sh, _, lot, hl, bid, hb, h⟩ := h
  have key : ∀ x, x ∉ (w.pools p).resList → bid.bal x = 0 ∧ lot.bal x = 0 := fun x hx => by
    unfold SMap.bal
    rw [liqAmounts_out _ _ _ hl x hx, liqAmounts_out _ _ _ hb x hx]
    exact ⟨rfl, rfl⟩
  rcases h with ⟨_, _, _, rfl, rfl⟩ | ⟨_, c, hrm, nd, _, _, _, _, _, _, _, _, _, _, rfl, rfl⟩ <;> exact ⟨rfl, key⟩

theorem floor_nn {v x y : Int} (h : IsFloor v x y) (hy : 0 < y) (hx : 0 ≤ x) : 0 ≤ v := by
  unfold IsFloor at h
  by_contra hn
  have : (v + 1) * y ≤ 0 := mul_nonpos_of_nonpos_of_nonneg (by omega) (le_of_lt hy)
  omega

theorem ceil_nn {v x y : Int} (h : IsCeil v x y) (hy : 0 < y) (hx : 0 ≤ x) : 0 ≤ v := by
  unfold IsCeil at h
  by_contra hn
  have : v * y < 0 := mul_neg_of_neg_of_pos (by omega) hy
  omega

/-- what a fill leaves of an auction -/
theorem fill_left {k n : Nat} {a taken r : AuctionData} (h : FillTerms k n a taken (some r)) :
    r.block = a.block ∧ (∀ x, 0 ≤ r.bid.bal x ∧ 0 ≤ r.lot.bal x) ∧ (∀ x, a.bid.bal x = 0 → r.bid.bal x = 0) ∧
      ∀ x, a.lot.bal x = 0 → r.lot.bal x = 0 := by
  have pos : ∀ {m : SMap Int}, Positive m → ∀ x, 0 ≤ m.bal x := by
    intro m hm x
    unfold SMap.bal
    cases hg : m.get x with
    | none => exact le_refl _
    | some v => exact le_of_lt (hm x v hg)
  obtain ⟨p1, p2⟩ := h.restPositive r rfl
  refine ⟨h.block r rfl, fun x => ⟨pos p1 x, pos p2 x⟩, fun x hx => ?_, fun x hx => ?_⟩
  · obtain ⟨part, c1, _, c3⟩ := h.bid x (by omega)
    rw [hx] at c1 c3
    unfold IsCeil at c1
    unfold leftBid at c3
    simp only [] at c3
    omega
  · obtain ⟨part, c1, _, c3⟩ := h.lot x (by omega)
    rw [hx] at c1 c3
    unfold IsFloor at c1
    unfold leftLot at c3
    simp only [] at c3
    omega

theorem fill_contents {w : World} {p : Address} {t : Nat} {u : Address} {k n : Nat} {a taken r : AuctionData}
    (h : FillTerms k n a taken (some r)) (hc : Contents w p t u a) : Contents w p t u r := by
  obtain ⟨f1, f2, f3, f4⟩ := fill_left h
  obtain ⟨c1, i, hi, hk⟩ := hc
  refine ⟨by rw [f1]; exact c1, i, hi, ?_⟩
  rcases hk with ⟨k1, k2, k3, k4⟩ | ⟨k1, bi, hbi, ⟨k2, k3, k4, k5⟩ | ⟨k2, k3, k4, k5, k6⟩⟩
  · exact .inl ⟨k1, k2, k3, fun x hx => ⟨f3 x (k4 x hx).1, f4 x (k4 x hx).2⟩⟩
  · exact .inr ⟨k1, bi, hbi, .inl ⟨k2, fun x => (f2 x).1, fun x hx => f3 x (k4 x hx), fun x hx => f4 x (k5 x hx)⟩⟩
  · exact .inr ⟨k1, bi, hbi, .inr ⟨k2, fun x => (f2 x).2, fun x => (f2 x).1, fun x hx => f4 x (k5 x hx), fun x hx => f3 x (k6 x hx)⟩⟩

/-- A fact about stored auctions that fills keep is true of the auctions after a submit. -/
theorem run_auctions {w : World} {p sender : Address} {Q : Nat → Address → AuctionData → Prop}
    (hQ : ∀ {t u k n a taken r}, FillTerms k n a taken (some r) → Q t u a → Q t u r) {l : List Request} {B B2 : Books}
    (h : FullRun w p sender l B B2) (h0 : ∀ t u a, B.auction t u = some a → Q t u a) :
    ∀ t u a, B2.auction t u = some a → Q t u a := by
  have one : ∀ {B : Books} {t : Nat} {u : Address} {n a taken rest}, (∀ t u a, B.auction t u = some a → Q t u a) →
      Filling w B sender t u n a taken rest → ∀ t' u' a', upd B.auction t (upd (B.auction t) u rest) t' u' = some a' → Q t' u' a' := by
    intro B t u n a taken rest hb hf t' u' a' ha
    simp only [upd_apply] at ha
    obtain ⟨_, _, f1, _, f2⟩ := hf
    by_cases ht : t' = t
    · subst ht
      simp only [if_true, upd_apply] at ha
      by_cases hu : u' = u
      · subst hu
        simp only [if_true] at ha
        subst ha
        exact hQ f2 (hb _ _ _ f1)
      · rw [if_neg hu] at ha; exact hb _ _ _ ha
    · rw [if_neg ht] at ha; exact hb _ _ _ ha
  induction h with
  | nil => exact h0
  | plain _ _ _ _ _ ih => exact ih h0
  | auction he _ ih =>
    refine ih ?_
    cases he with
    | liquidation hf => exact one h0 hf
    | badDebt hf => exact one h0 hf
    | interest hf => exact one h0 hf
    | delete _ hd =>
      intro t u a ha
      simp only [upd_apply] at ha
      split at ha
      · rename_i ht; subst ht
        simp only [upd_apply] at ha
        split at ha
        · cases ha
        · exact h0 _ _ _ ha
      · exact h0 _ _ _ ha

theorem _root_.Blend.Spec.Contents.keep {w w' : World} {op : Op} (hr : Reachable w) (hs : step w op = .ok w') {p : Address} (hp : w.poolAddr p = true)
    {t : Nat} {u : Address} {a : AuctionData} (h : Contents w p t u a) : Contents w' p t u a := by
  obtain ⟨c1, i, hi, hk⟩ := h
  have hst : Steps w w' := .tail (.refl _) ⟨op, hs⟩
  have E := hr.cfgExt hst hp
  obtain ⟨i', hi', e1, e2⟩ := E.inst i hi
  obtain ⟨more, hl⟩ := E.list
  have hx : ∀ {x}, x ∉ (w'.pools p).resList → x ∉ (w.pools p).resList := fun h h' => h (by rw [hl]; simp [h'])
  have hseq := step_seq hr hs
  refine ⟨by omega, i', hi', ?_⟩
  rw [e1]
  rcases hk with ⟨k1, k2, k3, k4⟩ | ⟨k1, bi, hbi, ⟨k2, k3, k4, k5⟩ | ⟨k2, k3, k4, k5, k6⟩⟩
  · exact .inl ⟨k1, k2, k3, fun x h => k4 x (hx h)⟩
  · exact .inr ⟨k1, bi, Backstop.inst_keep hr hst hbi, .inl ⟨k2, k3, fun x h => k4 x (hx h), k5⟩⟩
  · exact .inr ⟨k1, bi, Backstop.inst_keep hr hst hbi, .inr ⟨k2, k3, k4, fun x h => k5 x (hx h), k6⟩⟩

end Pool

namespace Props
open Spec Pool Demo

/-- **C92** In every reachable state every auction that a pool has stored is about what its type says, and nothing else. -/
theorem C92_contents {w : World} (hr : Reachable w) {p : Address} (hp : w.poolAddr p = true) {t : Nat} {u : Address} {a : AuctionData}
    (ha : (w.pools p).auctions t u = some a) : Contents w p t u a := by
  obtain ⟨w0, hg, hst⟩ := hr
  induction hst generalizing t u a with
  | refl => rw [hg.pools] at ha; cases ha
  | @tail v v' h1 h2 ih =>
    obtain ⟨op, hs⟩ := h2
    have hrv : Reachable v := ⟨w0, hg, h1⟩
    have hpv : v.poolAddr p = true := by rw [← (step_res hrv.base hs).poolAddr]; exact hp
    have keep : ∀ {t u a}, (v.pools p).auctions t u = some a → Contents v' p t u a := fun h => (ih hpv h).keep hrv hs hpv
    rcases auction_step hrv.base hs p t u with e | e
    · rw [e] at ha; exact keep ha
    · rw [ha] at e
      generalize hx : (some a : Option AuctionData) = o at e
      cases e with
      | liquidation auth n i a' ps ht hi h1 h2 hc =>
        cases hx
        subst ht
        obtain ⟨c1, c2⟩ := createUserLiq_contents hc
        have : Contents v p 0 u a := ⟨by omega, i, hi, .inl ⟨rfl, h1, h2, c2⟩⟩
        exact this.keep hrv hs hpv
      | badDebt auth i a' ht hi hu hc =>
        cases hx
        subst ht
        obtain ⟨i', bi, a'', b1, b2, _, b4, b5⟩ := C49_bad_debt_terms hrv hs
        rw [hi] at b1; cases b1
        rw [← hu] at b4
        rw [ha] at b4
        cases b4
        have : Contents v p 1 u a := by
          refine ⟨by have := b5.block; omega, i, hi, .inr ⟨hu, bi, b2, .inl ⟨rfl, fun x => ?_, b5.bidOnly, b5.lotOnly⟩⟩⟩
          by_cases hx : x ∈ (v.pools p).resList
          · obtain ⟨j, hj⟩ := List.mem_iff_getElem?.1 hx
            have := b5.bid j
            unfold amountAt at this
            rw [hj] at this
            simp only [] at this
            rw [this]
            exact hrv.bal_nonneg hpv i.backstop .liab j
          · rw [b5.bidOnly x hx]
        exact this.keep hrv hs hpv
      | interest auth i l a' ht hi hu hc =>
        cases hx
        subst ht
        obtain ⟨i', bi, a'', b1, b2, _, b4, b5⟩ := C49_interest_terms hrv hs
        rw [hi] at b1; cases b1
        rw [← hu] at b4
        rw [ha] at b4
        cases b4
        have : Contents v p 2 u a := by
          refine ⟨by have := b5.block; omega, i, hi, .inr ⟨hu, bi, b2, .inr ⟨rfl, fun x => ?_, fun x => ?_, fun x hx => ?_, b5.bidOnly⟩⟩⟩
          · rw [b5.lot]; split <;> omega
          · by_cases hx : x = bi.backstopToken
            · subst hx
              obtain ⟨f, n, vv, _, _, g3, _, g5, y, g6, g7⟩ := b5.bid
              have hp10 : (0 : Int) < 10 ^ n := by positivity
              exact floor_nn g7 g5 (by have := floor_nn g6 (by norm_num) (by omega); unfold ONE7; omega)
            · rw [b5.bidOnly x hx]
          · rw [b5.lot]
            have : (v.pools p).resConfig x = none := by
              cases hc : (v.pools p).resConfig x with
              | none => rfl
              | some c => exact absurd (List.mem_of_getElem? ((hrv.base.cfg p).idx x c hc)) hx
            unfold creditOf
            rw [this]
            simp
        exact this.keep hrv hs hpv
      | submit auth sender spender dst reqs q x hq he =>
        subst hx
        obtain ⟨B, b1, _, b3, _⟩ := C45_submit hrv hs
        rw [b3] at ha
        have := run_auctions (Q := Contents v p) (fun h => fill_contents h) b1 (fun t u a h => ih hpv h) t u a ha
        exact this.keep hrv hs hpv
      | expire => cases hx

/-- **C92** As long as the oracle of the pool quotes no negative prices, no auction that the pool has stored asks for or offers a negative
amount of anything. -/
theorem C92_amounts {w0 w : World} (hg : Genesis w0) {p : Address} {ops : List Op}
    (hh : Played (fun v _ => PricesOk v (v.pools p)) w0 ops w) (hp : w.poolAddr p = true) {t : Nat} {u : Address} {a : AuctionData}
    (ha : (w.pools p).auctions t u = some a) (x : Address) : 0 ≤ a.bid.bal x ∧ 0 ≤ a.lot.bal x := by
  have pos : ∀ {m : SMap Int}, Positive m → ∀ x, 0 ≤ m.bal x := by
    intro m hm x
    unfold SMap.bal
    cases hg : m.get x with
    | none => exact le_refl _
    | some v => exact le_of_lt (hm x v hg)
  have key : ∀ {v v' : World} {l : List Op}, Played (fun v _ => PricesOk v (v.pools p)) v l v' → Reachable v → v.poolAddr p = true →
      (∀ t u a, (v.pools p).auctions t u = some a → ∀ x, 0 ≤ a.bid.bal x ∧ 0 ≤ a.lot.bal x) →
      ∀ t u a, (v'.pools p).auctions t u = some a → ∀ x, 0 ≤ a.bid.bal x ∧ 0 ≤ a.lot.bal x := by
    intro v v' l hh
    induction hh with
    | nil => exact fun _ _ h => h
    | @cons v v1 v2 op l hpr hs _ ih =>
      intro hr hpv h
      refine ih (hr.step hs) (by rw [(step_res hr.base hs).poolAddr]; exact hpv) fun t u a ha => ?_
      rcases auction_step hr.base hs p t u with e | e
      · rw [e] at ha; exact h t u a ha
      · rw [ha] at e
        generalize hy : (some a : Option AuctionData) = o at e
        cases e with
        | liquidation auth n i a' ps ht hi h1 h2 hc =>
          cases hy
          subst ht
          obtain ⟨a', k1, k2⟩ := C72_only_if hr hpr hs
          have := k2.created
          rw [ha] at this; cases this
          exact fun x => ⟨pos k1.positive.2 x, pos k1.positive.1 x⟩
        | badDebt auth i a' ht hi hu hc =>
          cases hy
          subst ht
          obtain ⟨i', bi, a'', b1, b2, _, b4, b5⟩ := C49_bad_debt_terms hr hs
          rw [hi] at b1; cases b1
          rw [← hu] at b4
          rw [ha] at b4
          cases b4
          intro x
          have hc := C92_contents (hr.step hs) (by rw [(step_res hr.base hs).poolAddr]; exact hpv) ha
          obtain ⟨_, j, hj, hk⟩ := hc
          refine ⟨?_, ?_⟩
          · rcases hk with ⟨k1, _⟩ | ⟨_, _, _, ⟨_, k3, _⟩ | ⟨k2, _⟩⟩
            · omega
            · exact k3 x
            · omega
          · by_cases hx : x = bi.backstopToken
            · subst hx
              obtain ⟨f, n, vv, m, g1, g2, g3, g4, g5, g6⟩ := b5.lot
              rw [g6]
              have htok := hr.ball.inv.pool p
              have htot : 0 ≤ total (v.pools p) f := by
                unfold total
                refine List.sum_nonneg fun y hy => ?_
                obtain ⟨k, hk, rfl⟩ := List.mem_map.1 hy
                rcases g1 k (List.mem_range.1 hk) with ⟨_, h0⟩ | ⟨as, c, d, pr, m', q1, q2, q3, ⟨j', ts, q4, q5, _⟩, q6, q7⟩
                · omega
                · have hb : 0 ≤ (accountOf (v.pools p) i.backstop).debt k := hr.bal_nonneg hpv _ .liab k
                  have hpr' := hpr j' as pr ts q4 (List.mem_of_getElem? q1) q5
                  have hd : 0 < d.dRate := (hr.ratesPos hpv as d q3).2
                  have h9 : (0 : Int) < ONE9 := by norm_num [ONE9]
                  have hm : 0 ≤ m' := ceil_nn q6 h9 (Int.mul_nonneg hb (le_of_lt hd))
                  exact floor_nn q7 (by positivity) (Int.mul_nonneg hpr' hm)
              obtain ⟨gv, y, gy, gm⟩ := g5
              have hy : 0 ≤ y := floor_nn gy (by norm_num) (by omega)
              have hm0 : 0 ≤ m := floor_nn gm gv (by unfold ONE7; omega)
              exact le_min htok hm0
            · rw [b5.lotOnly x hx]
        | interest auth i l a' ht hi hu hc =>
          subst ht
          intro x
          have hc := C92_contents (hr.step hs) (by rw [(step_res hr.base hs).poolAddr]; exact hpv) ha
          obtain ⟨_, j, hj, hk⟩ := hc
          rcases hk with ⟨k1, _⟩ | ⟨_, _, _, ⟨k2, _⟩ | ⟨_, k3, k4, _⟩⟩
          · omega
          · omega
          · exact ⟨k4 x, k3 x⟩
        | submit auth sender spender dst reqs q x hq he =>
          subst hy
          obtain ⟨B, b1, _, b3, _⟩ := C45_submit hr hs
          rw [b3] at ha
          exact run_auctions (Q := fun _ _ a => ∀ x, 0 ≤ a.bid.bal x ∧ 0 ≤ a.lot.bal x) (fun h _ => (fill_left h).2.1) b1 h t u a ha
        | expire => cases hy
  have addr : ∀ {v v' : World} {l : List Op}, Played (fun v _ => PricesOk v (v.pools p)) v l v' → Reachable v →
      v'.poolAddr = v.poolAddr := by
    intro v v' l hh
    induction hh with
    | nil => exact fun _ => rfl
    | cons _ hs _ ih => exact fun hr => (ih (hr.step hs)).trans (step_res hr.base hs).poolAddr
  have hp0 : w0.poolAddr p = true := by rw [← addr hh ⟨w0, hg, .refl _⟩]; exact hp
  exact key hh ⟨w0, hg, .refl _⟩ hp0 (fun t u a h => by rw [hg.pools] at h; cases h) t u a ha x

/-- operations one after the other, each while the prices of `poolA` are not negative -/
def playPrices : World → List Op → Blend.R World
  | w, [] => pure w
  | w, op :: l => if (w.pools poolA).inst = none ∨ pricesOk w (w.pools poolA) = true then step w op >>= fun w1 => playPrices w1 l else .error .overflow

theorem playPrices_ok {l : List Op} {w w' : World} (h : playPrices w l = .ok w') :
    Played (fun v _ => PricesOk v (v.pools poolA)) w l w' := by
  induction l generalizing w with
  | nil => simp only [playPrices] at h; cases h; exact .nil _
  | cons op l ih =>
    unfold playPrices at h
    split at h
    · rename_i hp
      simp only [bind_ok] at h
      obtain ⟨w1, h1, h2⟩ := h
      refine .cons ?_ h1 (ih h2)
      rcases hp with hn | hp
      · intro i a x ts hi
        rw [hn] at hi; cases hi
      · exact pricesOk_iff hp
    · cases h

/-- The hypotheses are met by the rest of a half filled liquidation, by a bad debt auction and by an interest auction; each asks for
something and offers something. -/
example : ∀ k ∈ [(0, bob, setup ++ trade ++ emissions ++ claims ++ liquidation),
      (1, backstopA, setup ++ trade ++ emissions ++ claims ++ liquidation ++ queue ++ crash ++ badDebt.take 2),
      (2, backstopA, setup ++ trade ++ interest.take 2 ++ [.pool poolA [] (.newInterest [usdcA])])],
    ∃ w a, Genesis genesis ∧ Played (fun v _ => PricesOk v (v.pools poolA)) genesis k.2.2 w ∧ w.poolAddr poolA = true ∧
      (w.pools poolA).auctions k.1 k.2.1 = some a ∧ 0 < a.bid.bal (if k.1 = 2 then lpA else usdcA) ∧
      0 < a.lot.bal (if k.1 = 0 then xlmA else if k.1 = 1 then lpA else usdcA) := by
  intro k hk
  have h : ∀ k ∈ [(0, bob, setup ++ trade ++ emissions ++ claims ++ liquidation),
      (1, backstopA, setup ++ trade ++ emissions ++ claims ++ liquidation ++ queue ++ crash ++ badDebt.take 2),
      (2, backstopA, setup ++ trade ++ interest.take 2 ++ [.pool poolA [] (.newInterest [usdcA])])],
      okAnd (playPrices genesis k.2.2) (fun w => w.poolAddr poolA && optAnd ((w.pools poolA).auctions k.1 k.2.1) fun a =>
        decide (0 < a.bid.bal (if k.1 = 2 then lpA else usdcA) ∧
          0 < a.lot.bal (if k.1 = 0 then xlmA else if k.1 = 1 then lpA else usdcA))) = true := by decide +kernel
  obtain ⟨w, hw, h⟩ := okAnd_iff.1 (h k hk)
  simp only [Bool.and_eq_true] at h
  obtain ⟨h1, h2⟩ := h
  obtain ⟨a, ha, h3⟩ := optAnd_iff.1 h2
  have h3 := of_decide_eq_true h3
  exact ⟨w, a, genesis_ok, playPrices_ok hw, h1, ha, h3.1, h3.2⟩

end Props
end Blend
