import Verif.Model.Reserve
import Verif.Model.Backstop
/-
  Pool emissions: `pool/src/emissions/distributor.rs` and `pool/src/emissions/manager.rs`.
-/

namespace Blend
namespace Pool

/-- `require_nonnegative`, `pool/src/validator.rs` 12-16 -/
def requireNonneg (x : Int) : R Unit := require (¬ x < 0) (.pool .negativeAmount)

/-- `update_emission_data_with_config`, `pool/src/emissions/distributor.rs` 166-199 -/
def updateEmisDataWith (ps : PoolState) (now id : Nat) (supply scalar : Int) (cfg : EmisConfig) :
    R (EmisData × PoolState) := do
  let d ← unwrap (ps.emisData id)
  if d.lastTime ≥ cfg.expiration ∨ now = d.lastTime ∨ cfg.eps = 0 ∨ supply = 0 then pure (d, ps)
  else
    let t := if now > cfg.expiration then cfg.expiration else now
    let dt ← subU t d.lastTime
    let num ← chk ((dt : Int) * (cfg.eps : Int))
    let add ← fixedDivFloor num supply scalar
    let idx ← chk (add + d.index)
    let d' : EmisData := ⟨idx, t⟩
    pure (d', { ps with emisData := upd ps.emisData id (some d') })

/-- `update_emission_data`, `pool/src/emissions/distributor.rs` 136-152 -/
def updateEmisData (ps : PoolState) (now id : Nat) (supply scalar : Int) :
    R (Option EmisData × PoolState) :=
  match ps.emisConfig id with
  | some cfg => do
    let (d, ps') ← updateEmisDataWith ps now id supply scalar cfg
    pure (some d, ps')
  | none => pure (none, ps)

/-- `set_user_emissions`, `pool/src/emissions/distributor.rs` 236-256 -/
def setUserEmis (ps : PoolState) (user id : Nat) (index accrued : Int) (claim : Bool) :
    Int × PoolState :=
  if claim then
    (accrued, { ps with userEmis := upd ps.userEmis id ((ps.userEmis id).set user ⟨index, 0⟩) })
  else
    (0, { ps with userEmis := upd ps.userEmis id ((ps.userEmis id).set user ⟨index, accrued⟩) })

/-- `update_user_emissions`, `pool/src/emissions/distributor.rs` 201-234 -/
def updateUserEmis (ps : PoolState) (d : EmisData) (id : Nat) (scalar : Int) (user : Address)
    (balance : Int) (claim : Bool) : R (Int × PoolState) :=
  match (ps.userEmis id).get user with
  | some ud =>
    if ud.index ≠ d.index ∨ claim = true then do
      let accrual ←
        if balance ≠ 0 then do
          let delta ← chk (d.index - ud.index)
          requireNonneg delta
          let acc ← fixedMulFloor balance delta scalar
          chk (ud.accrued + acc)
        else pure ud.accrued
      pure (setUserEmis ps user id d.index accrual claim)
    else pure (0, ps)
  | none =>
    if balance = 0 then pure (setUserEmis ps user id d.index 0 claim)
    else do
      let acc ← fixedMulFloor balance d.index scalar
      pure (setUserEmis ps user id d.index acc claim)

/-- `update_emissions` (claim = false), `pool/src/emissions/distributor.rs` 79-98, and
`claim_emissions` (claim = true), 113-134. Returns the amount to claim. -/
def updateEmissions (ps : PoolState) (now id : Nat) (supply scalar : Int) (user : Address)
    (balance : Int) (claim : Bool) : R (Int × PoolState) := do
  let (od, ps1) ← updateEmisData ps now id supply scalar
  match od with
  | some d => updateUserEmis ps1 d id scalar user balance claim
  | none => pure (0, ps1)

/-- `get_user_positions`, `pool/src/storage.rs` 199-208 -/
def getPositions (ps : PoolState) (user : Address) : Positions :=
  (ps.positions.get user).getD Positions.default

/-- `set_user_positions`, `pool/src/storage.rs` 215-222 -/
def setPositions (ps : PoolState) (user : Address) (p : Positions) : PoolState :=
  { ps with positions := ps.positions.set user p }

/-- The loop of `execute_claim`, `pool/src/emissions/distributor.rs` 19-50 (the ghost `claimed` counts
what each reserve token id paid) -/
def claimLoop (now : Nat) (sender : Address) (pos : Positions) :
    List Nat → (Int × PoolState) → R (Int × PoolState)
  | [], s => pure s
  | id :: ids, (toClaim, ps) => do
    match ps.resList[id / 2]? with
    | none => .error (.pool .badRequest)
    | some asset => do
      let c ← unwrap (ps.resConfig asset)
      let d ← unwrap (ps.resData asset)
      let bal ← if id % 2 = 0 then pure (pos.liabilities.bal (id / 2))
        else chk (pos.collateral.bal (id / 2) + pos.supply.bal (id / 2))
      let supply := if id % 2 = 0 then d.dSupply else d.bSupply
      let scalar ← pow10 c.decimals
      let (amt, ps') ← updateEmissions ps now id supply scalar sender bal true
      let t ← chk (toClaim + amt)
      claimLoop now sender pos ids
        (t, { ps' with claimed := upd ps'.claimed id (ps'.claimed id + amt) })

/-- `execute_claim`, `pool/src/emissions/distributor.rs` 15-63 -/
def executeClaim (w : World) (p : Address) (sender : Address) (ids : List Nat) (dst : Address) :
    R (Int × World) := do
  let ps := w.pools p
  let (toClaim, ps') ← claimLoop w.time sender (getPositions ps sender) ids (0, ps)
  let w1 := w.setPool p ps'
  if toClaim > 0 then
    let i ← ps'.getInst
    let w2 ← transferFrom w1 i.blnd p i.backstop dst toClaim
    pure (toClaim, w2)
  else pure (toClaim, w1)

/-- `ReserveEmissionMetadata`, `pool/src/emissions/manager.rs` 19-23 -/
structure EmisMeta where
  resIndex : Nat
  resType : Nat
  share : Nat
deriving DecidableEq, Repr

/-- The loop of `set_pool_emissions`, `pool/src/emissions/manager.rs` 40-47 -/
def setPoolEmisLoop (resList : List Address) :
    List EmisMeta → (SMap Nat × Nat) → R (SMap Nat × Nat)
  | [], s => pure s
  | m :: ms, (emis, total) => do
    let k ← chkU32 (m.resIndex * 2)
    let key ← chkU32 (k + m.resType)
    require (¬ (m.resType > 1 ∨ resList[m.resIndex]? = none)) (.pool .badRequest)
    let t ← chkU64 (total + m.share)
    setPoolEmisLoop resList ms (emis.set key m.share, t)

/-- `set_pool_emissions`, `pool/src/emissions/manager.rs` 35-54 -/
def setPoolEmissions (ps : PoolState) (l : List EmisMeta) : R PoolState := do
  let (emis, total) ← setPoolEmisLoop ps.resList l (.empty, 0)
  require (¬ total > 10000000) (.pool .badRequest)
  pure { ps with poolEmis := emis }

/-- `update_reserve_emission_config`, `pool/src/emissions/manager.rs` 87-141 (the ghost `received`
counts `newTokens`) -/
def updateReserveEmisConfig (ps : PoolState) (now : Nat) (asset : Address) (id : Nat)
    (newTokens : Int) : R PoolState := do
  let (left, ps1) ←
    match ps.emisConfig id with
    | some cfg => do
      let c ← unwrap (ps.resConfig asset)
      let rd ← unwrap (ps.resData asset)
      let supply := if id % 2 = 0 then rd.dSupply else rd.bSupply
      let scalar ← pow10 c.decimals
      let (d, ps1) ← updateEmisDataWith ps now id supply scalar cfg
      let ps2 :=
        if d.lastTime ≠ now then
          { ps1 with emisData := upd ps1.emisData id (some { d with lastTime := now }) }
        else ps1
      if cfg.expiration > now then do
        let rem ← chkU64 (cfg.eps * (cfg.expiration - now))
        let l ← chk (newTokens + (rem : Int))
        pure (l, ps2)
      else pure (newTokens, ps2)
    | none => pure (newTokens, { ps with emisData := upd ps.emisData id (some ⟨0, now⟩) })
  let eps ← toU64 (Int.tdiv left (7 * 24 * 60 * 60))
  pure { ps1 with
    emisConfig := upd ps1.emisConfig id (some ⟨now + 7 * 24 * 60 * 60, eps⟩)
    received := upd ps1.received id (ps1.received id + newTokens) }

/-- `do_gulp_emissions`, `pool/src/emissions/manager.rs` 70-85 -/
def doGulp (ps : PoolState) (now : Nat) (newEmissions : Int) : R PoolState := do
  require (¬ newEmissions < SCALAR_7) (.pool .badRequest)
  ps.poolEmis.toList.foldlM (fun ps kv => do
    let asset ← unwrap (ps.resList[kv.1 / 2]?)
    let n ← fixedMulFloor (kv.2 : Int) newEmissions SCALAR_7
    updateReserveEmisConfig ps now asset kv.1 n) ps

/-- `gulp_emissions`, `pool/src/emissions/manager.rs` 62-68: the pool is the authorizing invoker of
the backstop's `gulp_pool_emissions`. -/
def gulpEmissions (w : World) (p : Address) : R (Int × World) := do
  let i ← (w.pools p).getInst
  require (i.backstop = w.backstopAddr) .notModelled
  let (n, w1) ← Backstop.gulpPoolEmissionsAuth w [p] p
  let ps ← doGulp (w1.pools p) w1.time n
  pure (n, w1.setPool p ps)

end Pool
end Blend
