import Verif.Spec.Health
/-
  Specification of the sizes within which the arithmetic of the pool cannot overflow (C52, C57, C58). All of them are far beyond what
  real reserves reach, and all of them can be read off the stored state.
-/

namespace Blend
namespace Spec
open Pool

/-- A reserve of ordinary size: deposits and debts of at most `10²⁶` units of the token each (that is `10⁸` whole tokens with
18 decimals, `10¹⁹` with 7), debts of at most ten times the deposits, a debt share worth at most `10¹¹` tokens, a
slope of the rate curve of at most 10000 percent, and interest accrued within the last week. -/
structure Moderate (c : ReserveConfig) (d : ReserveData) (now : Nat) : Prop where
  debt : d.dSupply * d.dRate ≤ 10 ^ 35
  value : d.bSupply * d.bRate ≤ 10 ^ 35
  util : d.dSupply * d.dRate ≤ 10 * (d.bSupply * d.bRate)
  dRate : d.dRate ≤ 10 ^ 20
  credit : -10 ^ 37 ≤ d.backstopCredit ∧ d.backstopCredit ≤ 10 ^ 37
  slope : c.rThree ≤ 10 ^ 9
  week : now ≤ d.lastTime + 604800

/-- Emissions of ordinary size for a reserve token (an even `id` stands for the debt, an odd one for the deposits of the
reserve with index `id / 2`): at most `10¹¹` BLND in total, and an index of at most `10³⁷`. -/
structure ModerateEmissions (ps : PoolState) (id : Nat) : Prop where
  total : ps.received id ≤ 10 ^ 18
  index : ∀ e, ps.emisData id = some e → e.index ≤ 10 ^ 37

/-- the sender and the spender have authorized the call, and none of the three accounts is the pool -/
structure Caller (w : World) (p : Address) (auth : List Address) (sender spender dst : Address) : Prop where
  users : ∀ x ∈ auth, ¬ w.isProtocol x
  sender_auth : sender ∈ auth
  spender_auth : spender ∈ auth
  sender_ne : sender ≠ p
  spender_ne : spender ≠ p
  dst_ne : dst ≠ p

/-- an account whose positions `pos` have the risk adjusted values `C` (collateral), `L` (liabilities) and the values `Cr`,
`Lr` at oracle prices -/
structure Values (w : World) (ps : PoolState) (pos : Positions) (C Cr L Lr : Int) : Prop where
  coll : CollateralValue w ps pos C
  collRaw : RawCollateral w ps pos Cr
  liab : LiabilityValue w ps pos L
  liabRaw : RawLiability w ps pos Lr

/-- An account of ordinary size: prices of at most 14 decimals and at most `10¹⁸`, positions of at most `10¹⁸` units of a
token each and worth at most `10²³` in all, liability factors of at least 10 percent, times and ledger numbers in range. -/
structure Ordinary (w : World) (ps : PoolState) (pos : Positions) (Cr L : Int) : Prop where
  decimals : ∀ n, PriceDecimals w ps n → n ≤ 14
  value : Cr ≤ 10 ^ 23 ∧ L ≤ 10 ^ 23
  price : ∀ a x, a ∈ ps.resList → FreshPrice w ps a x → x ≤ 10 ^ 18
  stamp : ∀ i a x ts, ps.inst = some i → a ∈ ps.resList → (w.oracle i.config.oracle).price a = some (x, ts) → ts ≤ 1000000000000000000
  amount : ∀ i a d, ps.resList[i]? = some a → Current ps w.time a d →
    pos.collateral.bal i * d.bRate ≤ 10 ^ 27 ∧ pos.liabilities.bal i * d.dRate ≤ 10 ^ 27
  lFactor : ∀ a c, a ∈ ps.resList → ps.resConfig a = some c → 1000000 ≤ c.lFactor
  seq : w.seq < 4294967295

end Spec
end Blend
