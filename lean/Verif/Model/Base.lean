/-
  Base layer of the model: the error type, checked machine arithmetic, the fixed point
  operations of the `soroban-fixed-point-math` crate and an ordered map (`soroban_sdk::Map`).
-/

namespace Blend

/-- Addresses (contracts and accounts). Soroban addresses are an ordered, comparable type; the
model uses natural numbers, so `Map<Address, _>` iterates in a fixed total order. -/
abbrev Address := Nat

/-- Pool error codes: `pool/src/errors.rs` 8-48 (only the ones that are raised). -/
inductive PoolErr
  | alreadyInitialized | negativeAmount | badRequest | invalidPoolInitArgs | invalidReserveMetadata
  | initNotUnlocked | statusNotAllowed | invalidHf | invalidPoolStatus | invalidUtilRate
  | maxPositionsExceeded | internalReserveNotFound | stalePrice | invalidLiquidation
  | auctionInProgress | invalidLiqTooLarge | invalidLiqTooSmall | interestTooSmall
  | invalidBTokenMint | invalidBTokenBurn | invalidDTokenMint | invalidDTokenBurn
deriving DecidableEq, Repr

/-- Backstop error codes: `backstop/src/errors.rs` 8-28. -/
inductive BackstopErr
  | alreadyInitialized | negativeAmount | balanceError | badRequest | notExpired
  | invalidRewardZoneEntry | insufficientFunds | notPool | invalidShareMint
  | invalidTokenWithdraw | tooManyQ4W
deriving DecidableEq, Repr

/-- Emitter error codes: `emitter/src/errors.rs` 8-22. -/
inductive EmitterErr
  | alreadyInitialized | insufficientBackstopSize | badDrop | swapNotQueued | swapAlreadyExists
  | swapNotUnlocked | swapCannotBeCanceled
deriving DecidableEq, Repr

/-- Pool factory error codes: `pool-factory/src/errors.rs` 8-15. -/
inductive FactoryErr
  | alreadyInitialized | invalidPoolInitArgs
deriving DecidableEq, Repr

/-- Every way an invocation can panic. A panic reverts the whole transaction. -/
inductive Err
  /-- integer overflow (`overflow-checks = true`, `Cargo.toml` 20-21) or a `None` from a checked op -/
  | overflow
  /-- division by zero -/
  | divByZero
  /-- `unwrap` / `unwrap_optimized` / `get_unchecked` / `pop_front_unchecked` on a missing value -/
  | unwrapNone
  /-- a failed `require_auth` -/
  | unauthorized
  /-- a token call failed: negative amount, insufficient balance or allowance -/
  | token
  /-- the call leaves the modelled part of the system -/
  | notModelled
  | pool (e : PoolErr)
  | backstop (e : BackstopErr)
  | emitter (e : EmitterErr)
  | factory (e : FactoryErr)
deriving DecidableEq, Repr

/-- Result of a computation that may panic. -/
abbrev R (α : Type) := Except Err α

/-- Panic with `e` unless `c` holds (`if !c { panic_with_error!(..) }`). -/
def require (c : Prop) [Decidable c] (e : Err) : R Unit :=
  if c then .ok () else .error e

/-- `Option::unwrap`. -/
def unwrap {α : Type} : Option α → R α
  | some a => .ok a
  | none => .error .unwrapNone

/-! ### Checked machine integers -/

/-- The value fits a Rust `i128`. -/
def InI128 (x : Int) : Prop := -170141183460469231731687303715884105728 ≤ x ∧
  x ≤ 170141183460469231731687303715884105727

instance (x : Int) : Decidable (InI128 x) := by unfold InI128; infer_instance

/-- The value fits a Rust `u64`. -/
def InU64 (x : Nat) : Prop := x ≤ 18446744073709551615
instance (x : Nat) : Decidable (InU64 x) := by unfold InU64; infer_instance

/-- The value fits a Rust `u32`. -/
def InU32 (x : Nat) : Prop := x ≤ 4294967295
instance (x : Nat) : Decidable (InU32 x) := by unfold InU32; infer_instance

/-- Result of an `i128` operation with overflow checks on (`Cargo.toml` 20-21). -/
def chk (x : Int) : R Int := if InI128 x then .ok x else .error .overflow
/-- Result of a `u64` operation with overflow checks on. -/
def chkU64 (x : Nat) : R Nat := if InU64 x then .ok x else .error .overflow
/-- Result of a `u32` operation with overflow checks on. -/
def chkU32 (x : Nat) : R Nat := if InU32 x then .ok x else .error .overflow
/-- Unsigned subtraction with overflow checks on. -/
def subU (a b : Nat) : R Nat := if b ≤ a then .ok (a - b) else .error .overflow

/-- `10i128.pow(decimals)` (for example `pool/src/pool/reserve.rs` 53). -/
def pow10 (d : Nat) : R Int := chk (10 ^ d)

/-- `cast::u64(x).unwrap_optimized()`: panics if `x` is not a `u64`. -/
def toU64 (x : Int) : R Nat :=
  if 0 ≤ x ∧ InU64 x.toNat then .ok x.toNat else .error .unwrapNone

/-! ### Fixed point arithmetic (`soroban-fixed-point-math` 1.0.0, trait `FixedPoint` for `i128`).
The crate is not in `/repo`; its documented contract is modelled: the product is computed with
`checked_mul` (so it panics when it does not fit an `i128`), division by zero panics, and the exact
quotient is rounded towards minus infinity (floor) or plus infinity (ceil). -/

/-- `floor(x * y / z)`. -/
def mulDivFloor (x y z : Int) : R Int := do
  let r ← chk (x * y)
  require (z ≠ 0) .divByZero
  chk (Int.fdiv r z)

/-- `ceil(x * y / z)`. -/
def mulDivCeil (x y z : Int) : R Int := do
  let r ← chk (x * y)
  require (z ≠ 0) .divByZero
  chk (-(Int.fdiv (-r) z))

/-- `x.fixed_mul_floor(y, denom)` -/
def fixedMulFloor (x y denom : Int) : R Int := mulDivFloor x y denom
/-- `x.fixed_mul_ceil(y, denom)` -/
def fixedMulCeil (x y denom : Int) : R Int := mulDivCeil x y denom
/-- `x.fixed_div_floor(y, denom)` -/
def fixedDivFloor (x y denom : Int) : R Int := mulDivFloor x denom y
/-- `x.fixed_div_ceil(y, denom)` -/
def fixedDivCeil (x y denom : Int) : R Int := mulDivCeil x denom y

/-- `i128::saturating_mul`. -/
def satMul (x y : Int) : Int :=
  if x * y > 170141183460469231731687303715884105727 then 170141183460469231731687303715884105727
  else if x * y < -170141183460469231731687303715884105728 then
    -170141183460469231731687303715884105728
  else x * y

/-- `pool/src/constants.rs` 4 -/
def SCALAR_9 : Int := 1000000000
/-- `pool/src/constants.rs` 7, `backstop/src/constants.rs` 2, `emitter/src/constants.rs` 2 -/
def SCALAR_7 : Int := 10000000
/-- `pool/src/constants.rs` 10 -/
def SECONDS_PER_YEAR : Int := 31536000
/-- `pool/src/constants.rs` 13 -/
def SECONDS_PER_WEEK : Nat := 604800

/-! ### Ordered maps (`soroban_sdk::Map` with integer / address keys) -/

/-- A finite map with keys in increasing order, as `soroban_sdk::Map` (host maps are sorted by key
and iterate in key order). -/
structure SMap (α : Type) where
  toList : List (Nat × α)
  sorted : toList.Pairwise (fun a b => a.1 < b.1)

namespace SMap
variable {α : Type}

/-- list level lookup -/
def getL : List (Nat × α) → Nat → Option α
  | [], _ => none
  | (k', v) :: t, k => if k = k' then some v else getL t k

/-- list level insert or replace -/
def setL : List (Nat × α) → Nat → α → List (Nat × α)
  | [], k, v => [(k, v)]
  | (k', v') :: t, k, v =>
    if k < k' then (k, v) :: (k', v') :: t
    else if k = k' then (k, v) :: t
    else (k', v') :: setL t k v

/-- list level removal -/
def delL : List (Nat × α) → Nat → List (Nat × α)
  | [], _ => []
  | (k', v') :: t, k => if k = k' then t else (k', v') :: delL t k

theorem mem_setL {l : List (Nat × α)} {k : Nat} {v : α} {p : Nat × α} (h : p ∈ setL l k v) :
    p = (k, v) ∨ p ∈ l := by
  induction l with
  | nil => simpa [setL] using h
  | cons q t ih =>
    obtain ⟨k', v'⟩ := q
    simp only [setL] at h
    split at h
    · simpa using h
    · split at h
      · rcases List.mem_cons.1 h with h | h <;> simp [h]
      · rcases List.mem_cons.1 h with h | h
        · simp [h]
        · rcases ih h with h | h <;> simp [h]

theorem mem_delL {l : List (Nat × α)} {k : Nat} {p : Nat × α} (h : p ∈ delL l k) : p ∈ l := by
  induction l with
  | nil => simp [delL] at h
  | cons q t ih =>
    obtain ⟨k', v'⟩ := q
    simp only [delL] at h
    split at h
    · simp [h]
    · rcases List.mem_cons.1 h with h | h
      · simp [h]
      · simp [ih h]

theorem sorted_setL {l : List (Nat × α)} (k : Nat) (v : α)
    (h : l.Pairwise (fun a b => a.1 < b.1)) : (setL l k v).Pairwise (fun a b => a.1 < b.1) := by
  induction l with
  | nil => simp [setL]
  | cons q t ih =>
    obtain ⟨k', v'⟩ := q
    rw [List.pairwise_cons] at h
    simp only [setL]
    split
    · rename_i hlt
      rw [List.pairwise_cons, List.pairwise_cons]
      refine ⟨?_, h⟩
      intro a ha
      rcases List.mem_cons.1 ha with rfl | ha
      · exact hlt
      · exact Nat.lt_trans hlt (h.1 a ha)
    · split
      · rename_i heq
        subst heq
        rw [List.pairwise_cons]
        exact h
      · rename_i h1 h2
        rw [List.pairwise_cons]
        refine ⟨?_, ih h.2⟩
        intro a ha
        rcases mem_setL ha with rfl | ha
        · show k' < k
          omega
        · exact h.1 a ha

theorem sorted_delL {l : List (Nat × α)} (k : Nat)
    (h : l.Pairwise (fun a b => a.1 < b.1)) : (delL l k).Pairwise (fun a b => a.1 < b.1) := by
  induction l with
  | nil => simp [delL]
  | cons q t ih =>
    obtain ⟨k', v'⟩ := q
    rw [List.pairwise_cons] at h
    simp only [delL]
    split
    · exact h.2
    · rw [List.pairwise_cons]
      exact ⟨fun a ha => h.1 a (mem_delL ha), ih h.2⟩

/-- `Map::new` -/
def empty : SMap α := ⟨[], List.Pairwise.nil⟩

/-- `Map::get` -/
def get (m : SMap α) (k : Nat) : Option α := getL m.toList k

/-- `Map::set` -/
def set (m : SMap α) (k : Nat) (v : α) : SMap α := ⟨setL m.toList k v, sorted_setL k v m.sorted⟩

/-- `Map::remove` -/
def del (m : SMap α) (k : Nat) : SMap α := ⟨delL m.toList k, sorted_delL k m.sorted⟩

/-- `Map::len` -/
def len (m : SMap α) : Nat := m.toList.length

/-- `Map::is_empty` -/
def isEmpty (m : SMap α) : Bool := m.toList.isEmpty

/-- `map.get(k).unwrap_or(0)` for balances -/
def bal (m : SMap Int) (k : Nat) : Int := (m.get k).getD 0

instance : Inhabited (SMap α) := ⟨empty⟩

end SMap

/-- Update of a total function at one point (one storage entry). -/
def upd {β : Type} (f : Nat → β) (k : Nat) (v : β) : Nat → β := fun a => if a = k then v else f a

end Blend
