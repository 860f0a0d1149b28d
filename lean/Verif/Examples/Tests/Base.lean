import Verif.Model.System
/-
  Scaffolding for the conformance examples: the model evaluated on the inputs of the repository's own
  unit tests, compared with the results those tests assert. These examples are tests of the model
  against the code, not proofs of properties.
-/

namespace Blend
namespace Conformance

/-- the two results are the same -/
def agree {α : Type} [BEq α] : R α → R α → Bool
  | .ok a, .ok b => a == b
  | .error a, .error b => a == b
  | _, _ => false

@[inherit_doc agree] scoped notation:50 a:51 " ≗ " b:51 => agree a b = true

/-! ### Names used by the tests -/
abbrev emitterA : Address := 1
abbrev backstopA : Address := 2
abbrev factoryA : Address := 3
abbrev blndA : Address := 10
abbrev usdcA : Address := 11
abbrev lpA : Address := 12
abbrev oracleA : Address := 20
abbrev bombadil : Address := 50
abbrev samwise : Address := 51
abbrev frodo : Address := 52
abbrev merry : Address := 53
abbrev pippin : Address := 54
abbrev sauron : Address := 55
abbrev poolA : Address := 100
abbrev poolB : Address := 101
abbrev poolC : Address := 102
abbrev u0 : Address := 200
abbrev u1 : Address := 201
abbrev u2 : Address := 202

/-- `map![..]` -/
def mp {α : Type} (l : List (Nat × α)) : SMap α := l.foldl (fun m x => m.set x.1 x.2) .empty

/-- a world with one initialized pool and nothing else -/
def base (time seq : Nat) (cfg : PoolConfig) : World where
  time := time
  seq := seq
  tok := fun _ => {}
  oracle := fun _ => {}
  cometShares := 0
  cometOut := fun x => x
  emitterAddr := emitterA
  backstopAddr := backstopA
  factoryAddr := factoryA
  deployAddr := fun _ s => 100 + s
  poolAddr := fun a => decide (100 ≤ a ∧ a < 200)
  emitter := {}
  backstop := {}
  factory := {}
  pools := fun a => if a = poolA then { inst := some ⟨bombadil, backstopA, blndA, cfg⟩ } else {}

/-- `create_reserve`, `pool/src/testutils.rs` 215-244: the next reserve, with the pool's token balance
implied by the rates -/
def addReserve (w : World) (c : ReserveConfig) (d : ReserveData) : World :=
  let ps := w.pools poolA
  let i := ps.resList.length
  let a := u0 + i
  let w1 := w.setPool poolA { ps with
    resList := ps.resList ++ [a]
    resConfig := upd ps.resConfig a (some { c with index := i })
    resData := upd ps.resData a (some d) }
  w1.setBalance a poolA (d.bSupply * d.bRate / SCALAR_9 - d.dSupply * d.dRate / SCALAR_9 + d.backstopCredit)

/-- set the pool's storage -/
def _root_.Blend.World.ps (w : World) (f : PoolState → PoolState) : World :=
  w.setPool poolA (f (w.pools poolA))

/-- `set_user_positions` -/
def _root_.Blend.World.pos (w : World) (u : Address) (x : Positions) : World :=
  w.ps fun ps => { ps with positions := ps.positions.set u x }

/-- mint to a user -/
def _root_.Blend.World.give (w : World) (t u : Address) (x : Int) : World :=
  w.setBalance t u (w.balance t u + x)

/-- `set_auction` -/
def _root_.Blend.World.auction (w : World) (t : Nat) (u : Address) (a : AuctionData) : World :=
  w.ps fun ps => Pool.setAuction ps t u (some a)

/-- `set_price_stable` at the current ledger time -/
def _root_.Blend.World.price (w : World) (l : List (Address × Int)) : World :=
  let o : Oracle := { (w.oracle oracleA) with price := fun a => (getA l a).map fun x => (x, w.time) }
  { w with oracle := upd w.oracle oracleA o }
where getA : List (Address × Int) → Address → Option Int
  | [], _ => none
  | (k, v) :: t, a => if a = k then some v else getA t a

/-- `e.ledger().set(..)`: time and sequence, with the stable prices still fresh -/
def _root_.Blend.World.goto (w : World) (time seq : Nat) : World :=
  { w with
    time := time, seq := seq,
    oracle := fun o => { (w.oracle o) with price := fun a => ((w.oracle o).price a).map fun x => (x.1, time) } }

/-- the set-up most pool tests share -/
def mk (time seq : Nat) (cfg : PoolConfig) (dec : Nat) (prices : List (Address × Int))
    (res : List (ReserveConfig × ReserveData)) (pos : List (Address × Positions)) : World :=
  let w := res.foldl (fun w x => addReserve w x.1 x.2) (base time seq cfg)
  let w1 := pos.foldl (fun w x => w.pos x.1 x.2) w
  { w1 with oracle := upd w1.oracle oracleA { (w1.oracle oracleA) with decimals := dec } }.price prices

/-- `setup_backstop` with a Comet pool of `lp` tokens, 10 BLND and 0.25 USDC each
(`pool/src/testutils.rs` 100-156) -/
def _root_.Blend.World.wired (w : World) (lp : Int) : World :=
  let w1 := (w.setBalance blndA lpA (lp * 10)).setBalance usdcA lpA (lp / 4)
  { w1 with
    cometShares := lp
    backstop := { w1.backstop with inst := some ⟨lpA, emitterA, blndA, usdcA, factoryA⟩ }
    factory := { w1.factory with deployed := fun a => decide (a = poolA) } }

/-- deposit into the backstop of the pool and refresh the LP token value -/
def _root_.Blend.World.backed (w : World) (who : Address) (amount : Int) : R World := do
  let (_, w1) ← Backstop.deposit w [who] who poolA amount
  Backstop.updateTknVal w1

/-- an auction, as lists -/
def _root_.Blend.AuctionData.view (a : AuctionData) : List (Nat × Int) × List (Nat × Int) × Nat :=
  (a.bid.toList, a.lot.toList, a.block)

/-- positions, as lists: liabilities, collateral, supply -/
def _root_.Blend.Positions.view (p : Positions) :
    List (Nat × Int) × List (Nat × Int) × List (Nat × Int) :=
  (p.liabilities.toList, p.collateral.toList, p.supply.toList)

end Conformance
end Blend
