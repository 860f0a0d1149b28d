import Verif.Spec.Submit
import Verif.Spec.Health
/-
  Specification of auctions (C15, C16, C17, C21) and of a submit of any requests (C45).
-/

namespace Blend
namespace Spec
open Pool

/-- The part of the bid (in 200ths) that is due `k` ledgers after the start of an auction: all of it for 200 ledgers, then
one 200th less per ledger, nothing after 400 ledgers. -/
def bidDue (k : Nat) : Int := if k ≤ 200 then 200 else if k < 400 then 400 - k else 0

/-- The part of the lot (in 200ths) that is paid out `k` ledgers after the start of an auction: one 200th per ledger, all of
it after 200 ledgers. -/
def lotDue (k : Nat) : Int := if k < 200 then k else 200

/-- the bid and the lot that are left in the ledger, nothing if the auction has been removed -/
def leftBid (r : Option AuctionData) (x : Address) : Int := match r with | some a => a.bid.bal x | none => 0
def leftLot (r : Option AuctionData) (x : Address) : Int := match r with | some a => a.lot.bal x | none => 0

/-- only positive amounts are listed -/
def Positive (m : SMap Int) : Prop := ∀ x v, m.get x = some v → 0 < v

/-- every asset that is listed is a reserve of the pool -/
def Listed (ps : PoolState) (m : SMap Int) : Prop := ∀ x v, m.get x = some v → ∃ c, ps.resConfig x = some c

/-- A fill of `n` percent of the auction `a`, `k` ledgers after its start: of each asset the filler takes over `n` percent
of the bid (rounded up) and of the lot (rounded down); of these it pays the part of the bid that is due (rounded up) and
gets the part of the lot that is due (rounded down); what it does not take over stays in the auction `rest`. -/
structure FillTerms (k n : Nat) (a taken : AuctionData) (rest : Option AuctionData) : Prop where
  range : 1 ≤ n ∧ n ≤ 100
  bid : ∀ x, 0 ≤ a.bid.bal x → ∃ part, IsCeil part (a.bid.bal x * n) 100 ∧ IsCeil (taken.bid.bal x) (part * bidDue k) 200 ∧
    leftBid rest x = a.bid.bal x - part
  lot : ∀ x, 0 ≤ a.lot.bal x → ∃ part, IsFloor part (a.lot.bal x * n) 100 ∧ IsFloor (taken.lot.bal x) (part * lotDue k) 200 ∧
    leftLot rest x = a.lot.bal x - part
  negBid : ∀ x, a.bid.bal x < 0 → taken.bid.bal x = 0 ∧ leftBid rest x = 0
  negLot : ∀ x, a.lot.bal x < 0 → taken.lot.bal x = 0 ∧ leftLot rest x = 0
  block : ∀ r, rest = some r → r.block = a.block
  /-- an auction with nothing left is removed -/
  removed : ∀ r, rest = some r → ∃ x, 0 < r.bid.bal x ∨ 0 < r.lot.bal x
  /-- assets of which nothing is taken, or nothing is left, are not listed -/
  positive : Positive taken.bid ∧ Positive taken.lot
  restPositive : ∀ r, rest = some r → Positive r.bid ∧ Positive r.lot

/-- A sequence of fills (`k` ledgers after the start, `n` percent, what was taken) leads from the auction on the left to the one
on the right; at its end the auction may have been deleted by the liquidated account or dropped by the ledger. -/
inductive Fills : Option AuctionData → List (Nat × Nat × AuctionData) → Option AuctionData → Prop
  | nil (r) : Fills r [] r
  | gone (r) : Fills r [] none
  | fill {k n a taken rest l r} : FillTerms k n a taken rest → Fills rest l r → Fills (some a) ((k, n, taken) :: l) r

/-- the bid (lot) that the fills of a sequence took of the asset `x` -/
def bidTaken (l : List (Nat × Nat × AuctionData)) (x : Address) : Int := (l.map fun f => f.2.2.bid.bal x).sum
def lotTaken (l : List (Nat × Nat × AuctionData)) (x : Address) : Int := (l.map fun f => f.2.2.lot.bal x).sum

/-- the operations that create the auction of type `t` of `u` in the pool `p` whose backstop is `b` -/
inductive Creates (p b : Address) : Nat → Address → Op → Prop
  | liquidation (auth u n) : Creates p b 0 u (.pool p auth (.newLiquidation u n))
  | badDebt (auth) : Creates p b 1 b (.pool p auth .newBadDebt)
  | interest (auth l) : Creates p b 2 b (.pool p auth (.newInterest l))

/-- the amount that `m` lists for the reserve at position `i` of the pool's list -/
def amountAt (ps : PoolState) (m : SMap Int) (i : Nat) : Int :=
  match ps.resList[i]? with | some a => m.bal a | none => 0

/-- The interest of the reserve `a` that belongs to the backstop, accrued up to the time `now`. -/
def creditOf (ps : PoolState) (now : Nat) (a : Address) : Int :=
  match ps.resConfig a, ps.resData a, ps.inst with
  | some c, some d, some i =>
    match accrue c i.config.bstopRate now d with
    | .ok d' => d'.backstopCredit
    | .error _ => 0
  | _, _, _ => 0

/-- What a submit works on, seen from outside. -/
structure Books where
  /-- the accounts of the pool; only that of the sender has tokens to pay or to get at the end -/
  acct : Address → Account
  /-- the auctions of the pool -/
  auction : Nat → Address → Option AuctionData
  /-- the backstop tokens the backstop keeps for the pool -/
  lp : Int
  /-- token balances (token, holder) -/
  wallet : Address → Address → Int
  /-- the backstop's interest in each reserve -/
  credit : Address → Int

/-- the account with collateral shares `lot` and debt shares `bid` added `s` times -/
def take (ps : PoolState) (s : Int) (lot bid : SMap Int) (A : Account) : Account :=
  { A with
    collateral := fun i => A.collateral i + s * amountAt ps lot i
    debt := fun i => A.debt i + s * amountAt ps bid i }

/-- `n` tokens `t` move from `x` to `y` -/
def paid (f : Address → Address → Int) (t x y : Address) (n : Int) : Address → Address → Int :=
  fun t' z => f t' z + (if t' = t ∧ z = y then n else 0) - (if t' = t ∧ z = x then n else 0)

/-- Of the minimum size of a backstop, 0.00003 percent are not reached by `tokens` backstop tokens. -/
def BackstopLow (w : World) (tokens : Int) : Prop :=
  ∃ vb vu b u blnd usdc, w.backstop.lpVal = some (vb, vu) ∧ IsFloor b (tokens * vb) ONE7 ∧ IsFloor u (tokens * vu) ONE7 ∧
    IsFloor blnd b ONE7 ∧ IsFloor usdc u ONE7 ∧ 10000000 * (blnd ^ 4 * usdc) < 3 * 200000 ^ 5

/-- The backstop accepts donations for `p`: it has depositors, or it was deployed by the factory of the backstop. -/
def KnownPool (w : World) (p : Address) : Prop :=
  (w.backstop.getPoolBal p).shares ≠ 0 ∨
    ∃ bi, w.backstop.inst = some bi ∧ bi.poolFactory = w.factoryAddr ∧ w.factory.deployed p = true

/-- the auction `a` of type `t` of `u` is filled by the request `⟨6 + t, u, n⟩`; the percentage is `n` modulo 2⁶⁴ -/
def Filling (w : World) (B : Books) (sender : Address) (t : Nat) (u : Address) (n : Int) (a taken : AuctionData)
    (rest : Option AuctionData) : Prop :=
  u ≠ sender ∧ 0 ≤ n ∧ B.auction t u = some a ∧ a.block ≤ w.seq ∧
    FillTerms (w.seq - a.block) (n.toNat % 2 ^ 64) a taken rest

/-- What a request that fills or deletes an auction does, in a submit by `sender` to the pool `p` that starts in `w`. -/
inductive AuctionEffect (w : World) (p sender : Address) (B : Books) : Request → Books → Prop
  /-- the liquidated account hands collateral and debt to the sender -/
  | liquidation {u n a taken rest} : Filling w B sender 0 u n a taken rest →
      (∀ i, amountAt (w.pools p) taken.lot i ≤ (B.acct u).collateral i ∧ amountAt (w.pools p) taken.bid i ≤ (B.acct u).debt i) →
      Listed (w.pools p) taken.lot → Listed (w.pools p) taken.bid →
      AuctionEffect w p sender B ⟨6, u, n⟩ { B with
        acct := upd (upd B.acct u (take (w.pools p) (-1) taken.lot taken.bid (B.acct u)))
          sender (take (w.pools p) 1 taken.lot taken.bid (B.acct sender))
        auction := upd B.auction 0 (upd (B.auction 0) u rest) }
  /-- the backstop hands debt to the sender and pays it with backstop tokens; if that leaves it with debt but (almost) no
  tokens, the rest of its debt `gone` is written off -/
  | badDebt {u n a taken rest inst bi} {gone : Nat → Int} : Filling w B sender 1 u n a taken rest → (w.pools p).inst = some inst → sender ≠ inst.backstop →
      w.backstop.inst = some bi → inst.backstop = w.backstopAddr →
      (∀ i, amountAt (w.pools p) taken.bid i ≤ (B.acct inst.backstop).debt i) →
      0 < taken.lot.bal bi.backstopToken → taken.lot.bal bi.backstopToken ≤ B.lp →
      taken.lot.bal bi.backstopToken ≤ B.wallet bi.backstopToken inst.backstop →
      ((∀ i, gone i = 0) ∧ ((∀ i, (B.acct inst.backstop).debt i = amountAt (w.pools p) taken.bid i) ∨
          ¬ BackstopLow w (B.lp - taken.lot.bal bi.backstopToken)) ∨
        (∀ i, gone i = (B.acct inst.backstop).debt i - amountAt (w.pools p) taken.bid i) ∧
          BackstopLow w (B.lp - taken.lot.bal bi.backstopToken)) →
      Listed (w.pools p) taken.bid →
      ((∀ i, (B.acct inst.backstop).debt i = amountAt (w.pools p) taken.bid i) ∨ ∃ v, w.backstop.lpVal = some v) →
      AuctionEffect w p sender B ⟨7, u, n⟩ { B with
        acct := upd (upd B.acct inst.backstop { B.acct inst.backstop with
            debt := fun i => (B.acct inst.backstop).debt i - amountAt (w.pools p) taken.bid i - gone i })
          sender (take (w.pools p) 1 .empty taken.bid (B.acct sender))
        auction := upd B.auction 1 (upd (B.auction 1) u rest)
        lp := B.lp - taken.lot.bal bi.backstopToken
        wallet := paid B.wallet bi.backstopToken inst.backstop sender (taken.lot.bal bi.backstopToken) }
  /-- the sender gives backstop tokens to the pool's backstop and gets the interest -/
  | interest {u n a taken rest inst bi} : Filling w B sender 2 u n a taken rest → (w.pools p).inst = some inst → sender ≠ inst.backstop →
      w.backstop.inst = some bi → inst.backstop = w.backstopAddr → 0 < taken.bid.bal bi.backstopToken →
      taken.bid.bal bi.backstopToken ≤ B.wallet bi.backstopToken sender → Listed (w.pools p) taken.lot → (∀ t v, taken.lot.get t = some v → v ≤ B.wallet t p) →
      KnownPool w p →
      AuctionEffect w p sender B ⟨8, u, n⟩ { B with
        auction := upd B.auction 2 (upd (B.auction 2) u rest)
        lp := B.lp + taken.bid.bal bi.backstopToken
        wallet := fun t x => paid B.wallet bi.backstopToken sender inst.backstop (taken.bid.bal bi.backstopToken) t x
          + (if x = sender then taken.lot.bal t else 0) - (if x = p then taken.lot.bal t else 0)
        credit := fun a => B.credit a - taken.lot.bal a }
  /-- the sender deletes its liquidation auction -/
  | delete {x n a} : 0 ≤ n → B.auction 0 sender = some a →
      AuctionEffect w p sender B ⟨9, x, n⟩ { B with auction := upd B.auction 0 (upd (B.auction 0) sender none) }

/-- What the requests of a submit by `sender` to the pool `p` in the world `w` do, one after the other. All of them use the
rates accrued up to the time of the submit. -/
inductive FullRun (w : World) (p sender : Address) : List Request → Books → Books → Prop
  | nil (B) : FullRun w p sender [] B B
  | plain {q l B A B2 c d} : q.type ≤ 5 → (w.pools p).resConfig q.address = some c → Current (w.pools p) w.time q.address d →
      Effect d.bRate d.dRate c.index (B.acct sender) q A → FullRun w p sender l { B with acct := upd B.acct sender A } B2 →
      FullRun w p sender (q :: l) B B2
  | auction {q l B B1 B2} : AuctionEffect w p sender B q B1 → FullRun w p sender l B1 B2 → FullRun w p sender (q :: l) B B2

/-- the books of the pool `p` before the requests -/
def booksOf (w : World) (p : Address) : Books where
  acct := accountOf (w.pools p)
  auction := (w.pools p).auctions
  lp := (w.backstop.getPoolBal p).tokens
  wallet := fun t x => w.balance t x
  credit := creditOf (w.pools p) w.time

end Spec
end Blend
