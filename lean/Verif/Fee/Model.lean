/-!
Model of fee estimation: crates/executor/src/transaction.rs, estimate.rs and the part of simulate.rs that
runs transactions.

Simplifications that hold for the whole file: the executor is a function of the state, the transaction
and its L2 gas limit, so running a transaction twice on the same state with the same limit gives the same
(blockifier is not modelled). Amounts are natural numbers; where a 64 bit bound matters it is a hypothesis.
-/

namespace Verif.Fee

/-- How running a transaction ends, as far as the code looks: with an amount of L2 gas used, whether it
reverted and whether "Out of gas" is in the text of that, and the state it leaves; or with an error, which
leaves the state as it was. -/
inductive Run (S : Type) where
  | done (gas : Nat) (reverted outOfGas : Bool) (after : S)
  | error (outOfGas : Bool)
deriving DecidableEq

/-- What `simulate_transaction` hands back: the result of a run, or that the limit did not suffice, or an
error. -/
inductive Sim (S : Type) where
  | ok (gas : Nat) (reverted : Bool) (after : S)
  | outOfGas
  | error
deriving DecidableEq

/-- crates/executor/src/transaction.rs 364-419 `simulate_transaction`, and 634-651 for what counts as out of
gas. `strict` is `ExecutionBehaviorOnRevert::Fail`. -/
def simulate {S : Type} (strict : Bool) : Run S → Sim S
  | .done gas reverted outOfGas after =>
    if reverted && outOfGas then .outOfGas
    else if strict && reverted then .error
    else .ok gas reverted after
  | .error true => .outOfGas
  | .error false => .error

/-- transaction.rs 315-345 `execute_transaction`: an error, or the gas used and the state. -/
def execute {S : Type} (strict : Bool) : Run S → Option (Nat × Bool × S)
  | .done gas reverted _ after => if strict && reverted then none else some (gas, reverted, after)
  | .error _ => none

/-- transaction.rs 124. -/
def margin : Nat := 1000000

/-- crates/util/src/percentage.rs 32-48 `Percentage::of`. The product of 64 bit numbers is computed with 128
bits and the percentage is at most 100, so nothing overflows. -/
def percentOf (p value : Nat) : Nat := value * p / 100

/-- 64 bit saturation. -/
def sat64 (n : Nat) : Nat := min n (2 ^ 64 - 1)

/-- transaction.rs 347-357 `midpoint`; `none` is the panic. -/
def midpoint (a b : Nat) : Option Nat := if a ≤ b then some (a + (b - a + 1) / 2) else none

/-- Where the search stands. -/
structure Search where
  lower : Nat
  upper : Nat
  current : Nat
deriving DecidableEq

/-- How a round of the search ends. -/
inductive Round (S : Type) where
  | again (s : Search)
  | found (limit gas : Nat) (reverted : Bool) (after : S)
  | error
  | panic
deriving DecidableEq

/-- transaction.rs 229-263, a round of the loop. The state is put back before the next one. `search_done`
(359-365) panics if the bounds are crossed. -/
def round {S : Type} (sim : Nat → Sim S) (s : Search) : Round S :=
  match sim s.current with
  | .ok gas reverted after =>
    if s.upper < s.lower then .panic
    else if s.upper - s.lower ≤ margin then .found s.current gas reverted after
    else
      match midpoint s.lower s.current with
      | some m => .again { lower := s.lower, upper := s.current, current := m }
      | none => .panic
  | .outOfGas =>
    match midpoint s.current s.upper with
    | some m => .again { lower := s.current, upper := s.upper, current := m }
    | none => .panic
  | .error => .error

/-- At most `fuel` rounds; what is left after these is `again`. -/
def rounds {S : Type} (sim : Nat → Sim S) : Nat → Search → Round S
  | 0, s => .again s
  | fuel + 1, s =>
    match round sim s with
    | .again s' => rounds sim fuel s'
    | r => r

/-- What the search for the limit says: the limit, the gas used, whether the run reverted, and the state
left; an error; a panic; or that it is not done after the rounds it was given. -/
inductive Found (S : Type) where
  | ok (limit gas : Nat) (reverted : Bool) (after : S)
  | error
  | panic
  | unfinished
deriving DecidableEq

/-- transaction.rs 178-272, the search itself. `top` is the largest limit. -/
def findLimit {S : Type} (sim : Nat → Sim S) (epsilon top fuel : Nat) : Found S :=
  match sim top with
  | .error => .error
  | .outOfGas => .error
  | .ok used _ _ =>
    let adjusted := sat64 (used + percentOf epsilon used)
    match sim adjusted with
    | .ok gas reverted after => if used ≤ adjusted then .ok adjusted gas reverted after else .panic
    | .error => .error
    | .outOfGas =>
      match midpoint used top with
      | none => .panic
      | some m =>
        match rounds sim fuel { lower := used, upper := top, current := m } with
        | .found limit gas reverted after => if used ≤ limit then .ok limit gas reverted after else .panic
        | .error => .error
        | .panic => .panic
        | .again _ => .unfinished

/-- transaction.rs 143-313 `find_l2_gas_limit_and_execute_transaction` for a transaction that runs as `exec`
says from the state at hand, with the limit `initial`: if a fee is charged and the limit found exceeds the
transaction's own, it is run again with its own. -/
def findAndExecute {S : Type} (exec : Nat → Run S) (strict chargeFee : Bool) (initial top epsilon fuel : Nat) : Found S :=
  match findLimit (fun l => simulate strict (exec l)) epsilon top fuel with
  | .ok limit gas reverted after =>
    if chargeFee && decide (initial < limit) then
      match execute strict (exec initial) with
      | some (gas', reverted', after') => .ok limit gas' reverted' after'
      | none => .error
    else .ok limit gas reverted after
  | r => r

/-- transaction.rs 565-616 `get_max_l2_gas_amount_covered_by_balance`: `rest` is the largest fee without L2
gas, `price` the transaction's L2 gas price with the tip. -/
def covered (balance rest price : Nat) : Nat :=
  if rest < balance then min ((balance - rest) / max price 1) (2 ^ 64 - 1) else 0

/-- A gas vector. -/
structure Gas where
  l1 : Nat
  l1Data : Nat
  l2 : Nat
deriving DecidableEq

/-- crates/executor/src/types.rs 265-338 `from_gas_vector_and_gas_price`, the amounts. `toL1` is
blockifier's conversion; `all` says that the transaction has L2 gas. -/
def estimateGas (toL1 : Nat → Nat) (all : Bool) (gas minimal : Gas) : Gas :=
  let g : Gas := { l1 := max gas.l1 minimal.l1, l1Data := max gas.l1Data minimal.l1Data, l2 := max gas.l2 minimal.l2 }
  if all then g else { l1 := g.l1 + toL1 g.l2, l1Data := g.l1Data, l2 := 0 }

/-- A transaction for the loop over transactions: how it runs from a state with a limit, its own limit,
whether a fee is charged, the largest limit from a state (transaction.rs 156-177) and whether L2 gas is
accounted for (75-110). -/
structure Tx (S : Type) where
  exec : S → Nat → Run S
  initial : Nat
  chargeFee : Bool
  top : S → Nat
  accounted : S → Bool

/-- The limit with which a transaction is run, or is to be: one number per transaction. -/
inductive All (S : Type) where
  | ok (results : List (Nat × Bool)) (after : S)
  | error (index : Nat)
  | panic
  | unfinished
deriving DecidableEq

/-- crates/executor/src/estimate.rs 23-82 `estimate` (`strict`) and simulate.rs 128-198 `simulate`, the loop:
for each transaction the L2 gas of its estimate and whether it reverted. -/
def runAll {S : Type} (strict : Bool) (epsilon fuel : Nat) : Nat → S → List (Tx S) → All S
  | _, s, [] => .ok [] s
  | i, s, t :: ts =>
    let one : Found S :=
      if t.accounted s then findAndExecute (t.exec s) strict t.chargeFee t.initial (t.top s) epsilon fuel
      else
        match execute strict (t.exec s t.initial) with
        | some (gas, reverted, after) => .ok gas gas reverted after
        | none => .error
    match one with
    | .ok limit _ reverted after =>
      match runAll strict epsilon fuel (i + 1) after ts with
      | .ok rs s' => .ok ((limit, reverted) :: rs) s'
      | r => r
    | .error => .error i
    | .panic => .panic
    | .unfinished => .unfinished

end Verif.Fee
