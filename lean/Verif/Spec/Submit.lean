import Verif.Spec
/-
  Specification of `submit`: what each of the six plain requests does to an account, written independently of the
  model's functions (C03, C04), which requests a status permits (C11), and the number of positions (C13).
-/

namespace Blend
namespace Spec
open Pool

/-- What a submit works on, seen from outside: the share balances of the account by reserve index, and the tokens the
spender has to pay and the receiver gets, by asset. -/
structure Account where
  supplied : Nat → Int
  collateral : Nat → Int
  debt : Nat → Int
  pays : Address → Int
  gets : Address → Int

/-- `f` with `n` added at `k` -/
def bump (f : Nat → Int) (k : Nat) (n : Int) : Nat → Int := fun j => if j = k then f j + n else f j

/-- The account `x` of a pool before any request: nothing to pay, nothing to get. -/
def accountOf (ps : PoolState) (x : Address) : Account where
  supplied i := (getPositions ps x).supply.bal i
  collateral i := (getPositions ps x).collateral.bal i
  debt i := (getPositions ps x).liabilities.bal i
  pays _ := 0
  gets _ := 0

/-- The effect of one plain request on reserve `i`, whose supply shares are worth `b / 10⁹` and whose debt shares are
worth `d / 10⁹` tokens each: shares minted for a deposit are rounded down, shares burnt for a withdrawal are rounded up,
debt is rounded up, cancelled debt is rounded down. -/
inductive Effect (b d : Int) (i : Nat) (A : Account) : Request → Account → Prop
  | supply {t n m} : 0 ≤ n → IsFloor m (n * ONE9) b → 0 < m →
      Effect b d i A ⟨0, t, n⟩ { A with supplied := bump A.supplied i m, pays := bump A.pays t n }
  | withdraw {t n m} : 0 ≤ n → IsCeil m (n * ONE9) b → 0 < m → m ≤ A.supplied i →
      Effect b d i A ⟨1, t, n⟩ { A with supplied := bump A.supplied i (-m), gets := bump A.gets t n }
  | withdrawAll {t n m v} : 0 ≤ n → IsCeil m (n * ONE9) b → A.supplied i < m → 0 < A.supplied i →
      IsFloor v (A.supplied i * b) ONE9 →
      Effect b d i A ⟨1, t, n⟩ { A with supplied := bump A.supplied i (-A.supplied i), gets := bump A.gets t v }
  | supplyCollateral {t n m} : 0 ≤ n → IsFloor m (n * ONE9) b → 0 < m →
      Effect b d i A ⟨2, t, n⟩ { A with collateral := bump A.collateral i m, pays := bump A.pays t n }
  | withdrawCollateral {t n m} : 0 ≤ n → IsCeil m (n * ONE9) b → 0 < m → m ≤ A.collateral i →
      Effect b d i A ⟨3, t, n⟩ { A with collateral := bump A.collateral i (-m), gets := bump A.gets t n }
  | withdrawCollateralAll {t n m v} : 0 ≤ n → IsCeil m (n * ONE9) b → A.collateral i < m → 0 < A.collateral i →
      IsFloor v (A.collateral i * b) ONE9 →
      Effect b d i A ⟨3, t, n⟩ { A with collateral := bump A.collateral i (-A.collateral i), gets := bump A.gets t v }
  | borrow {t n m} : 0 ≤ n → IsCeil m (n * ONE9) d → 0 < m →
      Effect b d i A ⟨4, t, n⟩ { A with debt := bump A.debt i m, gets := bump A.gets t n }
  | repay {t n m} : 0 ≤ n → IsFloor m (n * ONE9) d → 0 < m → m ≤ A.debt i →
      Effect b d i A ⟨5, t, n⟩ { A with debt := bump A.debt i (-m), pays := bump A.pays t n }
  | repayAll {t n m owed} : 0 ≤ n → IsFloor m (n * ONE9) d → A.debt i < m → 0 < A.debt i →
      IsCeil owed (A.debt i * d) ONE9 → owed ≤ n →
      Effect b d i A ⟨5, t, n⟩
        { A with debt := bump A.debt i (-A.debt i), pays := bump A.pays t n, gets := bump A.gets t (n - owed) }

/-- The effect of a list of plain requests, at the rates stored in `ps`. -/
inductive Run (ps : PoolState) : List Request → Account → Account → Prop
  | nil (A) : Run ps [] A A
  | cons {q l A A1 A2 c d} : ps.resConfig q.address = some c → ps.resData q.address = some d →
      Effect d.bRate d.dRate c.index A q A1 → Run ps l A1 A2 → Run ps (q :: l) A A2

/-- the request is a supply, withdrawal, borrow or repayment -/
def Plain (q : Request) : Prop := q.type ≤ 5

/-- Which requests the status of a pool permits: borrowing (4) and cancelling a liquidation (9) only while the pool is
active (0, 1), supplying (0, 2) unless it is frozen (4, 5) or in setup (6); everything else always. -/
def Permitted (status : Nat) (q : Request) : Prop :=
  (q.type = 4 ∨ q.type = 9 → status ≤ 1) ∧ (q.type = 0 ∨ q.type = 2 → status ≤ 3)

/-- the requests that open no position: supply, withdrawals, repayment, interest auction fill, liquidation cancel -/
def OpensNone (q : Request) : Prop := q.type = 0 ∨ q.type = 1 ∨ q.type = 3 ∨ q.type = 5 ∨ q.type = 8 ∨ q.type = 9

/-- The utilization of a reserve is at most `maxUtil / 10⁷`: what is owed to it (rounded up) is at most that part of what
has been supplied to it (rounded down). -/
def UtilAtMost (d : ReserveData) (maxUtil : Nat) : Prop :=
  ∃ L S, IsCeil L (d.dSupply * d.dRate) ONE9 ∧ IsFloor S (d.bSupply * d.bRate) ONE9 ∧ L * ONE7 ≤ maxUtil * S

/-- the number of collateral and liability positions of an account -/
def positionCount (ps : PoolState) (x : Address) : Nat :=
  (getPositions ps x).collateral.toList.length + (getPositions ps x).liabilities.toList.length

end Spec
end Blend
