import Verif.Model.System
/-
  Which computations never fail because of the pool's status or the maximum number of positions.
-/

namespace Blend

/-- the computation does not fail with an error in `E` -/
def NoErr (E : Err → Bool) {α : Type} (r : R α) : Prop := ∀ e, E e = true → r ≠ .error e

/-- the errors that report a forbidden pool status or too many positions -/
def Special : Err → Bool
  | .pool .invalidPoolStatus => true
  | .pool .maxPositionsExceeded => true
  | _ => false

/-- the computation fails neither because of the status nor because of the number of positions -/
abbrev NoStatus {α : Type} (r : R α) : Prop := NoErr Special r

namespace NoErr
variable {E : Err → Bool}

theorem mono {E' : Err → Bool} {α : Type} {r : R α} (h : NoErr E r) (hE : ∀ e, E' e = true → E e = true) : NoErr E' r :=
  fun e he => h e (hE e he)

theorem bind {α β : Type} {x : R α} {f : α → R β} (h : NoErr E x) (hf : ∀ a, x = .ok a → NoErr E (f a)) : NoErr E (x >>= f) := by
  cases x with
  | ok a => exact hf a rfl
  | error e => intro e' he h'; apply h e' he; simpa [Bind.bind, Except.bind] using h'

theorem pure {α : Type} {a : α} : NoErr E (Pure.pure a : R α) := by intro e _ h; cases h
theorem ok {α : Type} {a : α} : NoErr E (.ok a : R α) := by intro e _ h; cases h
theorem error {α : Type} {e : Err} (h : E e = false) : NoErr E (.error e : R α) := by
  intro e' he h'; cases h'; rw [h] at he; cases he
theorem require {c : Prop} [Decidable c] {e : Err} (h : E e = false) : NoErr E (Blend.require c e) := by
  unfold Blend.require; split
  · exact ok
  · exact error h

end NoErr

namespace NoStatus

theorem bind {α β : Type} {x : R α} {f : α → R β} (h : NoStatus x) (hf : ∀ a, NoStatus (f a)) : NoStatus (x >>= f) :=
  NoErr.bind h fun a _ => hf a
theorem pure {α : Type} {a : α} : NoStatus (Pure.pure a : R α) := NoErr.pure
theorem ok {α : Type} {a : α} : NoStatus (.ok a : R α) := NoErr.ok
theorem error {α : Type} {e : Err} (h : Special e = false) : NoStatus (.error e : R α) := NoErr.error h
theorem require {c : Prop} [Decidable c] {e : Err} (h : Special e = false) : NoStatus (Blend.require c e) := NoErr.require h
theorem foldlM {α β : Type} {f : β → α → R β} (h : ∀ b a, NoStatus (f b a)) : ∀ {l : List α} {b : β}, NoStatus (l.foldlM f b) := by
  intro l
  induction l with
  | nil => intro b; exact pure
  | cons a l ih => intro b; rw [List.foldlM_cons]; exact (h b a).bind fun _ => ih

end NoStatus

open Lean in
/-- prove that a computation built from harmless pieces never reports a status error -/
syntax "nostatus" (" [" term,* "]")? : tactic
macro_rules
  | `(tactic| nostatus) => `(tactic| nostatus [trivial])
  | `(tactic| nostatus [$ls,*]) => `(tactic| (
      repeat' first
        | with_reducible exact NoStatus.pure
        | with_reducible exact NoStatus.ok
        | with_reducible exact NoStatus.require rfl
        | with_reducible exact NoStatus.error rfl
        | assumption
        $[| with_reducible apply $ls]*
        | with_reducible refine NoStatus.bind ?_ fun _ => ?_
        | with_reducible refine NoStatus.foldlM fun _ _ => ?_
        | split
        | dsimp only))

namespace NoStatus

theorem chk {x : Int} : NoStatus (Blend.chk x) := by unfold Blend.chk; nostatus
theorem chkU64 {x : Nat} : NoStatus (Blend.chkU64 x) := by unfold Blend.chkU64; nostatus
theorem chkU32 {x : Nat} : NoStatus (Blend.chkU32 x) := by unfold Blend.chkU32; nostatus
theorem subU {a b : Nat} : NoStatus (Blend.subU a b) := by unfold Blend.subU; nostatus
theorem toU64 {x : Int} : NoStatus (Blend.toU64 x) := by unfold Blend.toU64; nostatus
theorem pow10 {x : Nat} : NoStatus (Blend.pow10 x) := chk
theorem unwrap {α : Type} {x : Option α} : NoStatus (Blend.unwrap x) := by unfold Blend.unwrap; nostatus
theorem mulDivFloor {x y z : Int} : NoStatus (Blend.mulDivFloor x y z) := by unfold Blend.mulDivFloor; nostatus [chk]
theorem mulDivCeil {x y z : Int} : NoStatus (Blend.mulDivCeil x y z) := by unfold Blend.mulDivCeil; nostatus [chk]
theorem fixedMulFloor {x y z : Int} : NoStatus (Blend.fixedMulFloor x y z) := mulDivFloor
theorem fixedMulCeil {x y z : Int} : NoStatus (Blend.fixedMulCeil x y z) := mulDivCeil
theorem fixedDivFloor {x y z : Int} : NoStatus (Blend.fixedDivFloor x y z) := mulDivFloor
theorem fixedDivCeil {x y z : Int} : NoStatus (Blend.fixedDivCeil x y z) := mulDivCeil
theorem requireAuth {l : List Address} {a : Address} : NoStatus (Blend.requireAuth l a) := require rfl
theorem getInst {ps : PoolState} : NoStatus (ps.getInst) := unwrap

theorem calcIr {c : ReserveConfig} {u m : Int} : NoStatus (Blend.calcIr c u m) := by
  unfold Blend.calcIr; nostatus [chk, chkU32, fixedMulCeil, fixedDivCeil]
theorem calcIrMod {c : ReserveConfig} {u m d : Int} : NoStatus (Blend.calcIrMod c u m d) := by
  unfold Blend.calcIrMod; nostatus [chk, fixedMulCeil, fixedMulFloor]
theorem calcAccrual {c : ReserveConfig} {u m : Int} {a b : Nat} : NoStatus (Blend.calcAccrual c u m a b) := by
  unfold Blend.calcAccrual; nostatus [chk, calcIr, calcIrMod, subU, fixedMulCeil]
theorem utilization {r : ReserveData} : NoStatus r.utilization := by
  unfold ReserveData.utilization ReserveData.totalLiabilities ReserveData.totalSupply ReserveData.toAssetFromD ReserveData.toAssetFromB
  nostatus [fixedMulCeil, fixedMulFloor, fixedDivCeil]
theorem accrue {c : ReserveConfig} {b n : Nat} {r : ReserveData} : NoStatus (Blend.accrue c b n r) := by
  unfold Blend.accrue ReserveData.totalSupply ReserveData.totalLiabilities ReserveData.toAssetFromD ReserveData.toAssetFromB
  nostatus [chk, utilization, calcAccrual, fixedMulCeil, fixedMulFloor, fixedDivFloor]
theorem load {ps : PoolState} {b n : Nat} {a : Address} : NoStatus (Reserve.load ps b n a) := by
  unfold Reserve.load; nostatus [unwrap, pow10, accrue]
theorem cacheLoad {ps : PoolState} : NoStatus (Cache.load ps) := by unfold Cache.load; nostatus [getInst]
theorem loadReserve {c : Cache} {ps : PoolState} {n : Nat} {a : Address} {s : Bool} : NoStatus (c.loadReserve ps n a s) := by
  unfold Cache.loadReserve; nostatus [load]
theorem storeAll {c : Cache} {ps : PoolState} : NoStatus (c.storeAll ps) := by unfold Cache.storeAll; nostatus
theorem loadPrice {w : World} {c : PoolConfig} {a : Address} : NoStatus (Blend.loadPrice w c a) := by
  unfold Blend.loadPrice; nostatus [unwrap, chkU64]
theorem transfer {w : World} {t a b : Address} {x : Int} : NoStatus (Blend.transfer w t a b x) := by
  unfold Blend.transfer; nostatus [chk]
theorem approve {w : World} {t a b : Address} {x : Int} {e : Nat} : NoStatus (Blend.approve w t a b x e) := by
  unfold Blend.approve; nostatus
theorem transferFrom {w : World} {t s a b : Address} {x : Int} : NoStatus (Blend.transferFrom w t s a b x) := by
  unfold Blend.transferFrom; nostatus [transfer]

end NoStatus

namespace Pool
open NoStatus

theorem ns_requireNonneg {x : Int} : NoStatus (requireNonneg x) := NoStatus.require rfl
theorem ns_updateEmisDataWith {ps : PoolState} {n i : Nat} {a b : Int} {c : EmisConfig} :
    NoStatus (updateEmisDataWith ps n i a b c) := by
  unfold updateEmisDataWith; nostatus [NoStatus.unwrap, NoStatus.subU, NoStatus.chk, NoStatus.fixedDivFloor]
theorem ns_updateEmisData {ps : PoolState} {n i : Nat} {a b : Int} : NoStatus (updateEmisData ps n i a b) := by
  unfold updateEmisData; nostatus [ns_updateEmisDataWith]
theorem ns_updateUserEmis {ps : PoolState} {d : EmisData} {i : Nat} {s b : Int} {u : Address} {c : Bool} :
    NoStatus (updateUserEmis ps d i s u b c) := by
  unfold updateUserEmis; nostatus [NoStatus.chk, ns_requireNonneg, NoStatus.fixedMulFloor]
theorem ns_updateEmissions {ps : PoolState} {n i : Nat} {a s b : Int} {u : Address} {c : Bool} :
    NoStatus (updateEmissions ps n i a s u b c) := by
  unfold updateEmissions; nostatus [ns_updateEmisData, ns_updateUserEmis]

theorem ns_addLiabilities : ∀ ps n u r a, NoStatus (addLiabilities ps n u r a) := by
  intros; unfold addLiabilities updateDEmis; nostatus [NoStatus.chk, ns_updateEmissions]
theorem ns_removeLiabilities : ∀ ps n u r a, NoStatus (removeLiabilities ps n u r a) := by
  intros; unfold removeLiabilities updateDEmis; nostatus [NoStatus.chk, ns_updateEmissions, ns_requireNonneg]
theorem ns_addCollateral : ∀ ps n u r a, NoStatus (addCollateral ps n u r a) := by
  intros; unfold addCollateral updateBEmis User.totalSupply; nostatus [NoStatus.chk, ns_updateEmissions]
theorem ns_removeCollateral : ∀ ps n u r a, NoStatus (removeCollateral ps n u r a) := by
  intros; unfold removeCollateral updateBEmis User.totalSupply; nostatus [NoStatus.chk, ns_updateEmissions, ns_requireNonneg]
theorem ns_addSupply : ∀ ps n u r a, NoStatus (addSupply ps n u r a) := by
  intros; unfold addSupply updateBEmis User.totalSupply; nostatus [NoStatus.chk, ns_updateEmissions]
theorem ns_removeSupply : ∀ ps n u r a, NoStatus (removeSupply ps n u r a) := by
  intros; unfold removeSupply updateBEmis User.totalSupply; nostatus [NoStatus.chk, ns_updateEmissions, ns_requireNonneg]

theorem ns_apply {f : ShareOp} (hf : ∀ ps n u r a, NoStatus (f ps n u r a)) {n : Nat} {c : UCtx} {a : Address} {x : Int} :
    NoStatus (c.apply n f a x) := by
  unfold UCtx.apply; nostatus [NoStatus.loadReserve, hf]
theorem ns_rmPositions {n : Nat} {c : UCtx} {a b : SMap Int} : NoStatus (rmPositions n c a b) := by
  unfold rmPositions; nostatus [ns_apply ns_removeCollateral, ns_apply ns_removeLiabilities]
theorem ns_addPositions {n : Nat} {c : UCtx} {a b : SMap Int} : NoStatus (addPositions n c a b) := by
  unfold addPositions; nostatus [ns_apply ns_addCollateral, ns_apply ns_addLiabilities]

theorem ns_healthStep {w : World} {ps : PoolState} {pos : Positions} {acc : PositionData × Cache} {i : Nat} :
    NoStatus (healthStep w ps pos acc i) := by
  unfold healthStep Reserve.toEffectiveAssetFromB Reserve.toEffectiveAssetFromD ReserveData.toAssetFromB ReserveData.toAssetFromD
  nostatus [NoStatus.chk, NoStatus.unwrap, NoStatus.loadReserve, NoStatus.loadPrice, NoStatus.fixedMulFloor, NoStatus.fixedMulCeil,
    NoStatus.fixedDivCeil]
theorem ns_calcPositionData {w : World} {ps : PoolState} {c : Cache} {pos : Positions} : NoStatus (calcPositionData w ps c pos) := by
  unfold calcPositionData oracleScalar; nostatus [NoStatus.pow10, ns_healthStep]
theorem ns_isHfUnder {pd : PositionData} {m : Int} : NoStatus (pd.isHfUnder m) := by
  unfold PositionData.isHfUnder PositionData.healthFactor; nostatus [NoStatus.fixedMulFloor, NoStatus.fixedDivFloor]
theorem ns_healthCheck {w : World} {ps : PoolState} {s : SubmitState} : NoStatus (healthCheck w ps s) := by
  unfold healthCheck; nostatus [ns_calcPositionData, ns_isHfUnder]

theorem ns_scaleBid {p m : Int} {l : List (Nat × Int)} : ∀ {s}, NoStatus (scaleBid p m l s) := by
  induction l with
  | nil => intro s; unfold scaleBid; nostatus
  | cons a l ih => intro s; obtain ⟨s1, s2⟩ := s; unfold scaleBid; nostatus [ih, NoStatus.chk, NoStatus.fixedMulCeil]
theorem ns_scaleLot {p m : Int} {l : List (Nat × Int)} : ∀ {s}, NoStatus (scaleLot p m l s) := by
  induction l with
  | nil => intro s; unfold scaleLot; nostatus
  | cons a l ih => intro s; obtain ⟨s1, s2⟩ := s; unfold scaleLot; nostatus [ih, NoStatus.chk, NoStatus.fixedMulFloor]
theorem ns_scaleAuction {n : Nat} {a : AuctionData} {p : Nat} : NoStatus (scaleAuction n a p) := by
  unfold scaleAuction; nostatus [NoStatus.subU, ns_scaleBid, ns_scaleLot]
theorem ns_fillUserLiq {fl : Flight} {p u : Address} {a : AuctionData} : NoStatus (fillUserLiq fl p a u) := by
  unfold fillUserLiq; nostatus [ns_rmPositions, ns_addPositions]
theorem ns_binst {w : World} : NoStatus (Backstop.inst w) := by unfold Backstop.inst; nostatus [NoStatus.unwrap]
theorem ns_backstopToken {w : World} {p : Address} : NoStatus (backstopToken w p) := by
  unfold backstopToken; nostatus [NoStatus.getInst, ns_binst]
theorem ns_collectLiabilities {r : List Address} {l : List (Nat × Int)} : ∀ {s}, NoStatus (collectLiabilities r l s) := by
  induction l with
  | nil => intro s; unfold collectLiabilities; nostatus
  | cons a l ih => intro s; unfold collectLiabilities; nostatus [ih, NoStatus.unwrap]

theorem ns_pbWithdraw {pb : PoolBalance} {a b : Int} : NoStatus (Backstop.pbWithdraw pb a b) := by
  unfold Backstop.pbWithdraw; nostatus [NoStatus.chk]
theorem ns_pbDeposit {pb : PoolBalance} {a b : Int} : NoStatus (Backstop.pbDeposit pb a b) := by
  unfold Backstop.pbDeposit; nostatus [NoStatus.chk]
theorem ns_bNonneg {x : Int} : NoStatus (Backstop.requireNonneg x) := NoStatus.require rfl
theorem ns_draw {w : World} {l : List Address} {p d : Address} {a : Int} : NoStatus (Backstop.draw w l p a d) := by
  unfold Backstop.draw Backstop.executeDraw
  nostatus [NoStatus.requireAuth, ns_bNonneg, ns_pbWithdraw, ns_binst, NoStatus.transfer]
theorem ns_fromFactory {w : World} {p : Address} {b : Int} : NoStatus (Backstop.requireIsFromFactory w p b) := by
  unfold Backstop.requireIsFromFactory; nostatus [ns_binst]
theorem ns_donate {w : World} {l : List Address} {p d : Address} {a : Int} : NoStatus (Backstop.donate w l d p a) := by
  unfold Backstop.donate Backstop.executeDonate
  nostatus [NoStatus.requireAuth, ns_bNonneg, ns_pbDeposit, ns_binst, NoStatus.transfer, ns_fromFactory]
theorem ns_backstopData {w : World} {p : Address} : NoStatus (backstopData w p) := by
  unfold backstopData Backstop.loadPoolData
  nostatus [NoStatus.getInst, NoStatus.fixedDivCeil, NoStatus.fixedMulFloor, NoStatus.unwrap]
theorem ns_fillBadDebt {fl : Flight} {p : Address} {a : AuctionData} : NoStatus (fillBadDebt fl p a) := by
  unfold fillBadDebt
  nostatus [NoStatus.getInst, ns_rmPositions, ns_addPositions, ns_backstopToken, NoStatus.unwrap, ns_draw, ns_backstopData, ns_collectLiabilities]
theorem ns_fillInterestLoop {p f : Address} {l : List (Nat × Int)} : ∀ {s}, NoStatus (fillInterestLoop p f l s) := by
  induction l with
  | nil => intro s; unfold fillInterestLoop; nostatus
  | cons a l ih =>
    intro s; obtain ⟨s1, s2⟩ := s; unfold fillInterestLoop
    nostatus [ih, NoStatus.chk, NoStatus.loadReserve, NoStatus.transfer]
theorem ns_fillInterest {fl : Flight} {p : Address} {l : List Address} {a : AuctionData} : NoStatus (fillInterest fl p l a) := by
  unfold fillInterest
  nostatus [NoStatus.getInst, ns_backstopToken, NoStatus.unwrap, ns_donate, ns_fillInterestLoop]
theorem ns_fill {fl : Flight} {p : Address} {l : List Address} {t n : Nat} {u : Address} : NoStatus (fill fl p l t u n) := by
  unfold fill
  nostatus [NoStatus.unwrap, ns_scaleAuction, ns_fillUserLiq, ns_fillBadDebt, ns_fillInterest]
theorem ns_addSpender {a : Actions} {x : Address} {n : Int} : NoStatus (a.addSpender x n) := by
  unfold Actions.addSpender; nostatus [NoStatus.chk]
theorem ns_addPool {a : Actions} {x : Address} {n : Int} : NoStatus (a.addPool x n) := by
  unfold Actions.addPool; nostatus [NoStatus.chk]
theorem ns_withdrawAmounts {r : ReserveData} {a b : Int} : NoStatus (withdrawAmounts r a b) := by
  unfold withdrawAmounts ReserveData.toBUp ReserveData.toAssetFromB; nostatus [NoStatus.fixedDivCeil, NoStatus.fixedMulFloor]
theorem ns_reqWithdraw {p : Address} {s : SubmitState} {a : Address} {n : Int} : NoStatus (reqWithdraw p s a n) := by
  unfold reqWithdraw; nostatus [NoStatus.loadReserve, ns_withdrawAmounts, ns_removeSupply, ns_addPool]
theorem ns_reqWithdrawColl {p : Address} {s : SubmitState} {a : Address} {n : Int} : NoStatus (reqWithdrawColl p s a n) := by
  unfold reqWithdrawColl; nostatus [NoStatus.loadReserve, ns_withdrawAmounts, ns_removeCollateral, ns_addPool]
theorem ns_reqRepay {p : Address} {s : SubmitState} {a : Address} {n : Int} : NoStatus (reqRepay p s a n) := by
  unfold reqRepay ReserveData.toDDown ReserveData.toAssetFromD
  nostatus [NoStatus.loadReserve, NoStatus.chk, NoStatus.fixedDivFloor, NoStatus.fixedMulCeil, ns_removeLiabilities, ns_addPool, ns_addSpender,
    ns_requireNonneg]
theorem ns_reqFill {p : Address} {l : List Address} {t : Nat} {s : SubmitState} {u : Address} {n : Int} :
    NoStatus (reqFill p l t s u n) := by
  unfold reqFill; nostatus [ns_fill]
theorem ns_reqSupply {p : Address} {c : Bool} {s : SubmitState} {a : Address} {n : Int} : NoStatus (reqSupply p c s a n) := by
  unfold reqSupply ReserveData.toBDown
  nostatus [NoStatus.loadReserve, NoStatus.fixedDivFloor, ns_addSupply, ns_addCollateral, ns_addSpender]
theorem ns_reqBorrow {p : Address} {s : SubmitState} {a : Address} {n : Int} : NoStatus (reqBorrow p s a n) := by
  unfold reqBorrow ReserveData.toDUp Reserve.requireUtilBelowMax
  nostatus [NoStatus.loadReserve, NoStatus.fixedDivCeil, ns_addLiabilities, ns_addPool, NoStatus.utilization]
theorem ns_reqDelete {p : Address} {s : SubmitState} : NoStatus (reqDelete p s) := by
  unfold reqDelete deleteLiquidation; nostatus

/-- a request whose type the status permits never fails because of the status -/
theorem ns_processRequest {p : Address} {l : List Address} {s : SubmitState} {q : Request}
    (h : NoStatus (requireActionAllowed s.fl.cache.config q.type)) : NoStatus (processRequest p l s q) := by
  unfold processRequest
  refine ns_requireNonneg.bind fun _ => h.bind fun _ => ?_
  nostatus [ns_reqSupply, ns_reqWithdraw, ns_reqWithdrawColl, ns_reqBorrow, ns_reqRepay, ns_reqFill, ns_reqDelete]

end Pool
end Blend
