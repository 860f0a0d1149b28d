import Verif.Model.PoolEmissions
/-
  `pool/src/pool/user.rs` and `pool/src/pool/health_factor.rs`.
-/

namespace Blend
namespace Pool

/-- `User`, `pool/src/pool/user.rs` 37-40 -/
structure User where
  addr : Address
  pos : Positions

/-- `User::load`, `pool/src/pool/user.rs` 44-49 -/
def User.load (ps : PoolState) (a : Address) : User := ⟨a, getPositions ps a⟩

/-- `User::store`, `pool/src/pool/user.rs` 52-54 -/
def User.store (u : User) (ps : PoolState) : PoolState := setPositions ps u.addr u.pos

/-- `get_total_supply`, `pool/src/pool/user.rs` 171-173 -/
def User.totalSupply (u : User) (i : Nat) : R Int := chk (u.pos.collateral.bal i + u.pos.supply.bal i)

/-- Write a share balance: remove the entry when it is zero (`pool/src/pool/user.rs` 90-94,
127-131, 162-166). -/
def setBal (m : SMap Int) (i : Nat) (v : Int) : SMap Int := if v = 0 then m.del i else m.set i v

/-- `update_d_emissions`, `pool/src/pool/user.rs` 215-224 -/
def updateDEmis (ps : PoolState) (now : Nat) (u : User) (r : Reserve) (balance : Int) :
    R PoolState := do
  let (_, ps') ← updateEmissions ps now (r.index * 2) r.data.dSupply r.scalar u.addr balance false
  pure ps'

/-- `update_b_emissions`, `pool/src/pool/user.rs` 226-235 -/
def updateBEmis (ps : PoolState) (now : Nat) (u : User) (r : Reserve) (balance : Int) :
    R PoolState := do
  let (_, ps') ← updateEmissions ps now (r.index * 2 + 1) r.data.bSupply r.scalar u.addr balance false
  pure ps'

/-- `add_liabilities`, `pool/src/pool/user.rs` 68-78 -/
def addLiabilities (ps : PoolState) (now : Nat) (u : User) (r : Reserve) (amount : Int) :
    R (PoolState × User × Reserve) := do
  require (amount ≠ 0) (.pool .invalidDTokenMint)
  let bal := u.pos.liabilities.bal r.index
  let ps' ← updateDEmis ps now u r bal
  let nb ← chk (bal + amount)
  let ns ← chk (r.data.dSupply + amount)
  pure (ps', { u with pos := { u.pos with liabilities := u.pos.liabilities.set r.index nb } },
        { r with data := { r.data with dSupply := ns } })

/-- `remove_liabilities`, `pool/src/pool/user.rs` 82-96 -/
def removeLiabilities (ps : PoolState) (now : Nat) (u : User) (r : Reserve) (amount : Int) :
    R (PoolState × User × Reserve) := do
  require (amount ≠ 0) (.pool .invalidDTokenBurn)
  let bal := u.pos.liabilities.bal r.index
  let ps' ← updateDEmis ps now u r bal
  let nb ← chk (bal - amount)
  requireNonneg nb
  let ns ← chk (r.data.dSupply - amount)
  pure (ps', { u with pos := { u.pos with liabilities := setBal u.pos.liabilities r.index nb } },
        { r with data := { r.data with dSupply := ns } })

/-- `add_collateral`, `pool/src/pool/user.rs` 105-115 -/
def addCollateral (ps : PoolState) (now : Nat) (u : User) (r : Reserve) (amount : Int) :
    R (PoolState × User × Reserve) := do
  require (amount ≠ 0) (.pool .invalidBTokenMint)
  let bal := u.pos.collateral.bal r.index
  let tot ← u.totalSupply r.index
  let ps' ← updateBEmis ps now u r tot
  let nb ← chk (bal + amount)
  let ns ← chk (r.data.bSupply + amount)
  pure (ps', { u with pos := { u.pos with collateral := u.pos.collateral.set r.index nb } },
        { r with data := { r.data with bSupply := ns } })

/-- `remove_collateral`, `pool/src/pool/user.rs` 119-133 -/
def removeCollateral (ps : PoolState) (now : Nat) (u : User) (r : Reserve) (amount : Int) :
    R (PoolState × User × Reserve) := do
  require (amount ≠ 0) (.pool .invalidBTokenBurn)
  let bal := u.pos.collateral.bal r.index
  let tot ← u.totalSupply r.index
  let ps' ← updateBEmis ps now u r tot
  let nb ← chk (bal - amount)
  requireNonneg nb
  let ns ← chk (r.data.bSupply - amount)
  pure (ps', { u with pos := { u.pos with collateral := setBal u.pos.collateral r.index nb } },
        { r with data := { r.data with bSupply := ns } })

/-- `add_supply`, `pool/src/pool/user.rs` 142-150 -/
def addSupply (ps : PoolState) (now : Nat) (u : User) (r : Reserve) (amount : Int) :
    R (PoolState × User × Reserve) := do
  require (amount ≠ 0) (.pool .invalidBTokenMint)
  let bal := u.pos.supply.bal r.index
  let tot ← u.totalSupply r.index
  let ps' ← updateBEmis ps now u r tot
  let nb ← chk (bal + amount)
  let ns ← chk (r.data.bSupply + amount)
  pure (ps', { u with pos := { u.pos with supply := u.pos.supply.set r.index nb } },
        { r with data := { r.data with bSupply := ns } })

/-- `remove_supply`, `pool/src/pool/user.rs` 154-168 -/
def removeSupply (ps : PoolState) (now : Nat) (u : User) (r : Reserve) (amount : Int) :
    R (PoolState × User × Reserve) := do
  require (amount ≠ 0) (.pool .invalidBTokenBurn)
  let bal := u.pos.supply.bal r.index
  let tot ← u.totalSupply r.index
  let ps' ← updateBEmis ps now u r tot
  let nb ← chk (bal - amount)
  requireNonneg nb
  let ns ← chk (r.data.bSupply - amount)
  pure (ps', { u with pos := { u.pos with supply := setBal u.pos.supply r.index nb } },
        { r with data := { r.data with bSupply := ns } })

/-- The mutable state a user operation works on: ledger, reserve cache, user. -/
structure UCtx where
  ps : PoolState
  cache : Cache
  user : User

/-- One of the six operations above. -/
abbrev ShareOp := PoolState → Nat → User → Reserve → Int → R (PoolState × User × Reserve)

/-- Load a reserve (to be stored), apply a share operation, cache it: the body of the loops in
`rm_positions` / `add_positions`, `pool/src/pool/user.rs` 184-186, 189-191, 204-206, 209-211. -/
def UCtx.apply (now : Nat) (f : ShareOp) (c : UCtx) (asset : Address) (amount : Int) : R UCtx := do
  let (r, cache) ← c.cache.loadReserve c.ps now asset true
  let (ps', u', r') ← f c.ps now c.user r amount
  pure ⟨ps', cache.put r', u'⟩

/-- `rm_positions`, `pool/src/pool/user.rs` 176-193 -/
def rmPositions (now : Nat) (c : UCtx) (coll liab : SMap Int) : R UCtx := do
  let c1 ← coll.toList.foldlM (fun c kv => c.apply now removeCollateral kv.1 kv.2) c
  liab.toList.foldlM (fun c kv => c.apply now removeLiabilities kv.1 kv.2) c1

/-- `add_positions`, `pool/src/pool/user.rs` 196-213 -/
def addPositions (now : Nat) (c : UCtx) (coll liab : SMap Int) : R UCtx := do
  let c1 ← coll.toList.foldlM (fun c kv => c.apply now addCollateral kv.1 kv.2) c
  liab.toList.foldlM (fun c kv => c.apply now addLiabilities kv.1 kv.2) c1

/-! ### `pool/src/pool/health_factor.rs` -/

/-- `PositionData`, `pool/src/pool/health_factor.rs` 8-19 -/
structure PositionData where
  collateralBase : Int
  collateralRaw : Int
  liabilityBase : Int
  liabilityRaw : Int
  scalar : Int
deriving DecidableEq, Repr

/-- One iteration of the loop of `calculate_from_positions`,
`pool/src/pool/health_factor.rs` 35-73. -/
def healthStep (w : World) (ps : PoolState) (pos : Positions) (acc : PositionData × Cache) (i : Nat) :
    R (PositionData × Cache) := do
  let (pd, cache) := acc
  let b := pos.collateral.bal i
  let d := pos.liabilities.bal i
  if b = 0 ∧ d = 0 then pure (pd, cache)
  else
    let asset ← unwrap (ps.resList[i]?)
    let (r, cache') ← cache.loadReserve ps w.time asset false
    let price ← loadPrice w cache'.config r.asset
    let pd1 ←
      if b > 0 then do
        let eff ← r.toEffectiveAssetFromB b
        let x ← fixedMulFloor price eff r.scalar
        let cb ← chk (pd.collateralBase + x)
        let raw ← r.data.toAssetFromB b
        let y ← fixedMulFloor price raw r.scalar
        let cr ← chk (pd.collateralRaw + y)
        pure { pd with collateralBase := cb, collateralRaw := cr }
      else pure pd
    let pd2 ←
      if d > 0 then do
        let eff ← r.toEffectiveAssetFromD d
        let x ← fixedMulCeil price eff r.scalar
        let lb ← chk (pd1.liabilityBase + x)
        let raw ← r.data.toAssetFromD d
        let y ← fixedMulCeil price raw r.scalar
        let lr ← chk (pd1.liabilityRaw + y)
        pure { pd1 with liabilityBase := lb, liabilityRaw := lr }
      else pure pd1
    pure (pd2, cache'.put r)

/-- `calculate_from_positions`, `pool/src/pool/health_factor.rs` 27-82 -/
def calcPositionData (w : World) (ps : PoolState) (cache : Cache) (pos : Positions) :
    R (PositionData × Cache) := do
  let scalar ← oracleScalar w cache.config
  (List.range ps.resList.length).foldlM (healthStep w ps pos) (⟨0, 0, 0, 0, scalar⟩, cache)

/-- `as_health_factor`, `pool/src/pool/health_factor.rs` 85-89 -/
def PositionData.healthFactor (pd : PositionData) : R Int :=
  fixedDivFloor pd.collateralBase pd.liabilityBase pd.scalar

/-- `is_hf_over`, `pool/src/pool/health_factor.rs` 93-102 -/
def PositionData.isHfOver (pd : PositionData) (max : Int) : R Bool :=
  if pd.liabilityBase = 0 then pure true
  else do
    let m ← fixedMulCeil pd.scalar max SCALAR_7
    let hf ← pd.healthFactor
    pure (decide (hf > m))

/-- `is_hf_under`, `pool/src/pool/health_factor.rs` 106-118 -/
def PositionData.isHfUnder (pd : PositionData) (min : Int) : R Bool :=
  if pd.liabilityBase = 0 then pure false
  else do
    let m ← fixedMulFloor pd.scalar min SCALAR_7
    let hf ← pd.healthFactor
    pure (decide (hf < m))

end Pool
end Blend
