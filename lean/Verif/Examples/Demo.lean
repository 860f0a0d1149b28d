import Verif.Model.System
/-
  A concrete deployment and a history on it, evaluated by the kernel. It shows that the hypotheses of
  the theorems are met by reachable, non-trivial states. (These are tests of the model, not proofs of
  properties.)
-/

namespace Blend
namespace Demo

/-- run a list of operations -/
def run (w : World) : List Op → R World
  | [] => pure w
  | op :: ops => do
    let w' ← step w op
    run w' ops

theorem steps_append {a b c : World} (h1 : Steps a b) (h2 : Steps b c) : Steps a c := by
  induction h2 with
  | refl => exact h1
  | tail _ hs ih => exact .tail ih hs

theorem run_steps {w w' : World} {ops : List Op} (h : run w ops = .ok w') : Steps w w' := by
  induction ops generalizing w with
  | nil => simp [run, pure, Except.pure] at h; subst h; exact .refl _
  | cons op ops ih =>
    simp only [run, bind, Except.bind] at h
    split at h
    · simp at h
    · rename_i w1 hw1
      exact steps_append (.tail (.refl _) ⟨op, hw1⟩) (ih h)

/-! addresses -/
abbrev emitterA : Address := 1
abbrev backstopA : Address := 2
abbrev factoryA : Address := 3
abbrev blndA : Address := 10
abbrev usdcA : Address := 11
abbrev lpA : Address := 12
abbrev xlmA : Address := 13
abbrev oracleA : Address := 20
abbrev adminA : Address := 50
abbrev alice : Address := 51
abbrev bob : Address := 52
abbrev carol : Address := 53
abbrev dave : Address := 54
abbrev poolA : Address := 100

/-- nothing is initialized; the accounts hold some tokens -/
def genesis : World where
  time := 1713139200
  seq := 1000
  tok := fun t => { bal := fun a =>
    if t = lpA then (if a = carol then 600000000000 else 0)
    else if t = blndA then (if a = lpA then 10000000000000 else 0)
    else if t = usdcA then
      (if a = lpA then 1000000000000 else if a = alice then 1000000000000
       else if a = bob then 1000000000000 else if a = dave then 1000000000000 else 0)
    else if t = xlmA then (if a = bob then 1000000000000 else if a = dave then 1000000000000 else 0)
    else 0 }
  oracle := fun _ => { decimals := 7, price := fun a =>
    if a = usdcA then some (10000000, 1713139200) else if a = xlmA then some (1000000, 1713139200)
    else none }
  cometShares := 1000000000000
  cometOut := fun x => x / 10
  emitterAddr := emitterA
  backstopAddr := backstopA
  factoryAddr := factoryA
  deployAddr := fun _ s => 100 + s
  poolAddr := fun a => decide (100 ≤ a)
  emitter := {}
  backstop := {}
  factory := {}
  pools := fun _ => {}

theorem genesis_ok : Genesis genesis where
  emitter := rfl
  backstop := rfl
  factory := rfl
  pools := fun _ => rfl
  balances := by
    intro t a
    simp only [World.balance, genesis]
    repeat' split
    all_goals decide
  cometShares := by decide
  emitter_ne_backstop := by decide
  emitter_ne_factory := by decide
  backstop_ne_factory := by decide
  emitter_not_pool := by decide
  backstop_not_pool := by decide
  factory_not_pool := by decide
  allowances := fun _ _ _ _ => rfl

def usdcCfg : ReserveConfig := ⟨0, 7, 9000000, 9000000, 8500000, 9500000, 300000, 400000, 1000000, 10000000, 50⟩
def xlmCfg : ReserveConfig := ⟨0, 7, 7500000, 7500000, 5000000, 9500000, 300000, 500000, 1500000, 15000000, 50⟩

/-- set up all contracts, one pool with two reserves, one backstop depositor -/
def setup : List Op := [
  .emitter [] (.initialize blndA backstopA lpA),
  .backstop [] (.initialize lpA emitterA usdcA blndA factoryA [(carol, 70000000)]),
  .factory [] (.initialize ⟨backstopA, blndA⟩),
  .factory [adminA] (.deploy adminA 0 oracleA 1000000 4),
  .pool poolA [adminA] (.queueSetReserve usdcA usdcCfg),
  .pool poolA [] (.setReserve usdcA),
  .pool poolA [adminA] (.queueSetReserve xlmA xlmCfg),
  .pool poolA [] (.setReserve xlmA),
  .pool poolA [adminA] (.setEmissionsConfig [⟨0, 0, 4000000⟩, ⟨1, 1, 5000000⟩]),
  .backstop [] .updateTknVal,
  .backstop [carol] (.deposit carol poolA 500000000000),
  .pool poolA [adminA] (.setStatus 0)]

/-- alice supplies, bob supplies collateral and borrows -/
def trade : List Op := [
  .backstop [] (.addReward poolA poolA),
  .pool poolA [alice] (.submit alice alice alice [⟨0, usdcA, 500000000000⟩]),
  .pool poolA [bob] (.submit bob bob bob [⟨2, xlmA, 1000000000000⟩, ⟨4, usdcA, 60000000000⟩])]

/-- all oracle prices at time `t`: USDC and XLM -/
def prices (t : Nat) (u x : Int) : Op :=
  .oracles (fun _ => { decimals := 7, price := fun a =>
    if a = usdcA then some (u, t) else if a = xlmA then some (x, t) else none })

/-- 10000 seconds of emissions are distributed, gulped by the backstop and the pool -/
def emissions : List Op := [
  .ledger 10000 2000,
  .emitter [] .distribute,
  .backstop [] .gulpEmissions,
  .pool poolA [] .gulpEmissions,
  .ledger 1000 200]

/-- bob claims pool emissions, carol claims backstop emissions -/
def claims : List Op := [
  .pool poolA [bob] (.claim bob [0, 3] bob),
  .backstop [carol] (.claim carol [poolA] carol)]

/-- XLM falls, bob is liquidated for 60 percent, dave fills half of it 150 ledgers later -/
def liquidation : List Op := [
  prices 1713150200 10000000 800000,
  .pool poolA [] (.newLiquidation bob 60),
  .ledger 900 151,
  .pool poolA [dave] (.submit dave dave dave [⟨2, usdcA, 100000000000⟩, ⟨6, bob, 50⟩])]

/-- carol queues a third of her backstop shares and withdraws a part 21 days later -/
def queue : List Op := [
  .backstop [carol] (.queueWithdrawal carol poolA 150000000000),
  .ledger 100 20,
  .backstop [carol] (.queueWithdrawal carol poolA 50000000000),
  .ledger 1814400 362880,
  .backstop [carol] (.withdraw carol poolA 120000000000)]

/-- XLM crashes, the rest of bob's collateral is sold, his bad debt goes to the backstop -/
def crash : List Op := [
  prices 1714965600 10000000 700000,
  .pool poolA [dave] (.submit dave dave dave [⟨6, bob, 100⟩]),
  prices 1714965600 10000000 100000,
  .pool poolA [] (.newLiquidation bob 100),
  .ledger 1100 221,
  .pool poolA [dave] (.submit dave dave dave [⟨2, usdcA, 500000000000⟩, ⟨6, bob, 100⟩])]

/-- bob's remaining debt is moved to the backstop, auctioned and bought by dave -/
def badDebt : List Op := [
  .pool poolA [] (.badDebt bob),
  .pool poolA [] .newBadDebt,
  .ledger 1000 200,
  .pool poolA [dave] (.submit dave dave dave [⟨7, backstopA, 100⟩])]

/-- the computation succeeds and the result satisfies `f` -/
def okAnd {α : Type} (r : R α) (f : α → Bool) : Bool :=
  match r with
  | .ok w => f w
  | .error _ => false

/-- the computation fails with the error -/
def errIs {α : Type} (r : R α) (e : Err) : Bool :=
  match r with
  | .ok _ => false
  | .error e' => e' = e

/-- the value exists and satisfies `f` -/
def optAnd {α : Type} (o : Option α) (f : α → Bool) : Bool :=
  match o with
  | some x => f x
  | none => false

theorem okAnd_iff {α : Type} {r : R α} {f : α → Bool} : okAnd r f = true ↔ ∃ x, r = .ok x ∧ f x = true := by
  cases r <;> simp [okAnd]

theorem optAnd_iff {α : Type} {o : Option α} {f : α → Bool} :
    optAnd o f = true ↔ ∃ x, o = some x ∧ f x = true := by
  cases o <;> simp [optAnd]

theorem errIs_iff {α : Type} {r : R α} {e : Err} : errIs r e = true ↔ r = .error e := by
  cases r <;> simp [errIs]

/-- the whole story -/
def story : List Op := setup ++ trade ++ emissions ++ claims ++ liquidation ++ queue ++ crash ++ badDebt

/-- a run of the demo deployment ends in a reachable world -/
theorem reach {ops : List Op} {f : World → Bool} (h : okAnd (run genesis ops) f = true) :
    ∃ w, run genesis ops = .ok w ∧ Reachable w ∧ f w = true := by
  obtain ⟨w, hw, h⟩ := okAnd_iff.1 h
  exact ⟨w, hw, ⟨genesis, genesis_ok, run_steps hw⟩, h⟩

/-- a run followed by one more operation -/
theorem reach_step {ops : List Op} {op : Op} {f : World → World → Bool}
    (h : okAnd (run genesis ops) (fun w => okAnd (step w op) (f w)) = true) :
    ∃ w w', run genesis ops = .ok w ∧ Reachable w ∧ step w op = .ok w' ∧ f w w' = true := by
  obtain ⟨w, hw, hr, h⟩ := reach h
  obtain ⟨w', hw', h⟩ := okAnd_iff.1 h
  exact ⟨w, w', hw, hr, hw', h⟩

/-- a run followed by another one -/
theorem reach_run {ops ops' : List Op} {f : World → World → Bool}
    (h : okAnd (run genesis ops) (fun w => okAnd (run w ops') (f w)) = true) :
    ∃ w w', Reachable w ∧ Steps w w' ∧ f w w' = true := by
  obtain ⟨w, hw, hr, h⟩ := reach h
  obtain ⟨w', hw', h⟩ := okAnd_iff.1 h
  exact ⟨w, w', hr, run_steps hw', h⟩

/-- as `reach_run`, keeping the second run -/
theorem reach_runs {ops ops' : List Op} {f : World → World → Bool}
    (h : okAnd (run genesis ops) (fun w => okAnd (run w ops') (f w)) = true) :
    ∃ w w', Reachable w ∧ run w ops' = .ok w' ∧ f w w' = true := by
  obtain ⟨w, hw, hr, h⟩ := reach h
  obtain ⟨w', hw', h⟩ := okAnd_iff.1 h
  exact ⟨w, w', hr, hw', h⟩

end Demo
end Blend
