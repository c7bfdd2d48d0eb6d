/-!
# L2 gas price

Model of `crates/gas-price/src/l2.rs`. Numbers are `u128`: below `U128`. The program is built with overflow checks
(`overflow-checks = true` in Cargo.toml), so an overflow is a panic; `none` is a panic.
-/
namespace Verif.Gas

/-- `2^128`. -/
def U128 : Nat := 340282366920938463463374607431768211456

/-- `+` of `u128`. -/
def add128 (a b : Nat) : Option Nat := if a + b < U128 then some (a + b) else none
/-- `-` of `u128`. -/
def sub128 (a b : Nat) : Option Nat := if b ≤ a then some (a - b) else none
/-- `*` of `u128` and `checked_mul`. -/
def mul128 (a b : Nat) : Option Nat := if a * b < U128 then some (a * b) else none
/-- `/` of `u128`. -/
def div128 (a b : Nat) : Option Nat := if b = 0 then none else some (a / b)
/-- `saturating_add` of `u128`. -/
def satAdd128 (a b : Nat) : Nat := min (a + b) (U128 - 1)
/-- `abs_diff`. -/
def absDiff (a b : Nat) : Nat := if a < b then b - a else a - b

/-- `L2GasPriceConstants` (l2.rs:14-19). -/
structure L2Constants where
  maxChangeDenominator : Nat
  gasTarget : Nat
  maxBlockSize : Nat
  minGasPrice : Nat
  deriving DecidableEq, Repr

/-- `PRE_0_14_1` (l2.rs:23-28). -/
def pre0141 : L2Constants := ⟨48, 3200000000, 4000000000, 3000000000⟩
/-- `POST_0_14_1` (l2.rs:31-36). -/
def post0141 : L2Constants := ⟨48, 4000000000, 5000000000, 8000000000⟩

/-- `MIN_GAS_PRICE_INCREASE_DENOMINATOR` (l2.rs:51). -/
def minIncreaseDenominator : Nat := 333

/-- The fallback for a product that does not fit (l2.rs:80-90). -/
def fallbackPrice (price used minPrice : Nat) (c : L2Constants) : Option Nat :=
  (div128 price c.maxChangeDenominator).map fun change =>
    if used > c.gasTarget then satAdd128 price change else max (price - change) minPrice

/-- The ordinary case (l2.rs:93-102). -/
def adjustPrice (price used minPrice numerator : Nat) (c : L2Constants) : Option Nat :=
  (mul128 c.gasTarget c.maxChangeDenominator).bind fun denominator => (div128 numerator denominator).bind fun change =>
    (if used > c.gasTarget then add128 price change else sub128 price change).map fun adjusted => max adjusted minPrice

/-- `calculate_next_base_gas_price` (l2.rs:59-103). -/
def nextPrice (price used minPrice : Nat) (c : L2Constants) : Option Nat :=
  if price < minPrice then
    (add128 price (price / minIncreaseDenominator)).map fun adjusted => min adjusted minPrice
  else
    match mul128 price (absDiff used c.gasTarget) with
    | some numerator => adjustPrice price used minPrice numerator c
    | none => fallbackPrice price used minPrice c

/-- `L2GasPriceValidationResult` (l2.rs:107-111). -/
inductive L2Result
  | valid
  | invalid (proposed expected : Nat)
  | insufficientData
  deriving DecidableEq, Repr

/-- `L2GasPriceProvider::update_after_block` (l2.rs:134-148): the next state. The state is the expected price, if any. A panic comes
before the lock is taken. -/
def updateAfterBlock (price used : Nat) (c : L2Constants) : Option (Option Nat) :=
  (nextPrice price used c.minGasPrice c).map some

/-- `L2GasPriceProvider::validate` (l2.rs:151-158). -/
def validateL2 (state : Option Nat) (proposed : Nat) : L2Result :=
  match state with
  | none => .insufficientData
  | some expected => if proposed = expected then .valid else .invalid proposed expected

end Verif.Gas
