import Verif.Spec.Auction
import Verif.Model.Events
/-
  Specification of an observer that follows the events (C75). It sees the published events and the number of the ledger
  they were published in, nothing else.
-/

namespace Blend
namespace Spec

/-- `l` lists the events that are published, each with the number of its ledger, along a run from `w` to `w'` with operations
in `P` only -/
inductive Logged (P : Op → Prop) (w : World) : List (Nat × Event) → World → Prop
  | start : Logged P w [] w
  | tail {l w1 w2 op ev} : Logged P w l w1 → P op → step w1 op = .ok w2 → logOf w1 op = .ok ev →
      Logged P w (l ++ ev.map fun e => (w1.seq, e)) w2

/-- `x / y` rounded up -/
def ceilDiv (x y : Int) : Int := -((-x) / y)

/-- What the observer of a pool writes down: the shares of every account by asset; by type and account which auctions are on,
their bid, their lot and the ledger they start in. -/
structure PoolNotes where
  supplied : Address → Address → Int := fun _ _ => 0
  collateral : Address → Address → Int := fun _ _ => 0
  debt : Address → Address → Int := fun _ _ => 0
  on : Nat → Address → Prop := fun _ _ => False
  bid : Nat → Address → Address → Int := fun _ _ _ => 0
  lot : Nat → Address → Address → Int := fun _ _ _ => 0
  start : Nat → Address → Nat := fun _ _ => 0

/-- `f` with `n` added at `(u, a)` -/
def plus (f : Address → Address → Int) (u a : Address) (n : Int) : Address → Address → Int :=
  fun u' a' => if u' = u ∧ a' = a then f u' a' + n else f u' a'

/-- `n` of every asset moves from `u` to `v` -/
def moved (f : Address → Address → Int) (u v : Address) (n : Address → Int) : Address → Address → Int :=
  fun x a => f x a + (if x = v then n a else 0) - (if x = u then n a else 0)

/-- the auction of type `t` of `u` is `a` from now on -/
def PoolNotes.setAuction (F : PoolNotes) (t : Nat) (u : Address) (a : AuctionData) : PoolNotes :=
  { F with on := upd F.on t (upd (F.on t) u True)
           bid := upd F.bid t (upd (F.bid t) u a.bid.bal)
           lot := upd F.lot t (upd (F.lot t) u a.lot.bal)
           start := upd F.start t (upd (F.start t) u a.block) }

/-- How the observer of the pool `p` with backstop `b` updates its notes on an event in ledger `seq`. A fill takes its percentage
of the bid (rounded up) and of the lot (rounded down) out of the auction, and of these what is due in that ledger is handed
over: in a liquidation collateral and debt go from the account to the filler, in a bad debt auction the debt goes from the
backstop to the filler. An auction of which nothing is left is over. -/
def PoolNotes.see (p b : Address) (F : PoolNotes) (e : Nat × Event) : PoolNotes :=
  match e.2 with
  | .supply q a u _ m => if q = p then { F with supplied := plus F.supplied u a m } else F
  | .withdraw q a u _ m => if q = p then { F with supplied := plus F.supplied u a (-m) } else F
  | .supplyCollateral q a u _ m => if q = p then { F with collateral := plus F.collateral u a m } else F
  | .withdrawCollateral q a u _ m => if q = p then { F with collateral := plus F.collateral u a (-m) } else F
  | .borrow q a u _ m => if q = p then { F with debt := plus F.debt u a m } else F
  | .repay q a u _ m => if q = p then { F with debt := plus F.debt u a (-m) } else F
  | .badDebt q u a m =>
    if q = p then
      if u = b then { F with debt := plus F.debt b a (-m) }
      else { F with debt := plus (plus F.debt u a (-m)) b a m }
    else F
  | .newLiquidation q u a => if q = p then F.setAuction 0 u a else F
  | .newAuction q t a => if q = p then F.setAuction t b a else F
  | .deleteLiquidation q u => if q = p then { F with on := upd F.on 0 (upd (F.on 0) u False) } else F
  | .fillAuction q u t f n =>
    if q = p then
      let k := e.1 - F.start t u
      let pct : Nat := n.toNat % 2 ^ 64
      let bidPart := fun a => ceilDiv (max 0 (F.bid t u a) * pct) 100
      let lotPart := fun a => max 0 (F.lot t u a) * pct / 100
      let paid := fun a => ceilDiv (bidPart a * bidDue k) 200
      let got := fun a => lotPart a * lotDue k / 200
      { F with
        collateral := if t = 0 then Spec.moved F.collateral u f got else F.collateral
        debt := if t = 0 then Spec.moved F.debt u f paid else if t = 1 then Spec.moved F.debt b f paid else F.debt
        on := upd F.on t (upd (F.on t) u (∃ a, max 0 (F.bid t u a) - bidPart a ≠ 0 ∨ max 0 (F.lot t u a) - lotPart a ≠ 0))
        bid := upd F.bid t (upd (F.bid t) u fun a => max 0 (F.bid t u a) - bidPart a)
        lot := upd F.lot t (upd (F.lot t) u fun a => max 0 (F.lot t u a) - lotPart a) }
    else F
  | _ => F

/-- The notes `F` are right for the pool `ps`: they have the shares of every account in every reserve, and every auction that is
on, with its bid, its lot and the ledger it starts in. -/
structure PoolNotes.Right (ps : PoolState) (F : PoolNotes) : Prop where
  positions : ∀ u a c, ps.resConfig a = some c →
    F.supplied u a = (Pool.getPositions ps u).supply.bal c.index ∧
    F.collateral u a = (Pool.getPositions ps u).collateral.bal c.index ∧
    F.debt u a = (Pool.getPositions ps u).liabilities.bal c.index
  auctions : ∀ t u x, ps.auctions t u = some x → F.on t u ∧
    (∀ a, F.bid t u a = x.bid.bal a) ∧ (∀ a, F.lot t u a = x.lot.bal a) ∧ F.start t u = x.block

end Spec
end Blend
