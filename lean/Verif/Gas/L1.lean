import Verif.Gas.L2
/-!
# L1 gas price samples

Model of `crates/gas-price/src/l1.rs`, of `crates/gas-price/src/l1_to_fri.rs`, and of the processing of L1 blocks in
`crates/pathfinder/src/state/sync/l1.rs`. `none` is a panic. The lock is held for the whole of every operation, so operations are
atomic. The deviation of two prices is a floating point number; whether it exceeds the tolerance is a parameter.
-/
namespace Verif.Gas

/-- `2^64`. -/
def U64 : Nat := 18446744073709551616
/-- The greatest `L1BlockNumber` (common/src/macros.rs, `i64_backed_u64`). -/
def maxL1Number : Nat := 9223372036854775807

/-- `L1GasPriceData` (ethereum/src/lib.rs:72-85). -/
structure Sample where
  number : Nat
  hash : Nat
  parent : Nat
  timestamp : Nat
  baseFee : Nat
  blobFee : Nat
  deriving DecidableEq, Repr

/-- `L1GasPriceConfig` (l1.rs:16-38) without the tolerance. -/
structure L1Config where
  storageLimit : Nat
  blocksForMean : Nat
  lagMargin : Nat
  maxTimeGap : Nat
  deriving DecidableEq, Repr

/-- `AddSampleError` (l1.rs:104-116). -/
inductive AddError
  | gap (expected actual : Nat)
  | reorg (number expectedParent actualParent : Nat)
  deriving DecidableEq, Repr

/-- The end of `add_sample` (l1.rs:201-206). -/
def pushSample (cfg : L1Config) (buf : List Sample) (d : Sample) : List Sample :=
  (if buf.length ≥ cfg.storageLimit then buf.drop 1 else buf) ++ [d]

/-- `add_sample` (l1.rs:179-207): the buffer with the newest sample last, and the error if any. -/
def addSample (cfg : L1Config) (buf : List Sample) (d : Sample) : Option (List Sample × Option AddError) :=
  match buf.getLast? with
  | none => some (pushSample cfg buf d, none)
  | some last =>
    if last.number + 1 > maxL1Number then none
    else if d.number ≠ last.number + 1 then some (buf, some (.gap (last.number + 1) d.number))
    else if d.parent ≠ last.hash then some (buf, some (.reorg d.number last.hash d.parent))
    else some (pushSample cfg buf d, none)

/-- `add_samples` (l1.rs:210-215): stops at the first error. -/
def addSamples (cfg : L1Config) : List Sample → List Sample → Option (List Sample × Option AddError)
  | buf, [] => some (buf, none)
  | buf, d :: ds =>
    match addSample cfg buf d with
    | none => none
    | some (buf', some e) => some (buf', some e)
    | some (buf', none) => addSamples cfg buf' ds

/-- The two errors of `get_average_prices` (l1.rs:77-88). -/
inductive AvgError
  | staleData
  | noDataAvailable
  deriving DecidableEq, Repr

/-- `rposition` (l1.rs:251-253): the index of the last sample that is not later than the time. -/
def lastIndex (buf : List Sample) (target : Nat) : Option Nat :=
  (List.range buf.length).reverse.find? fun i => (buf[i]?).any fun d => d.timestamp ≤ target

/-- The sums of `get_average_prices` (l1.rs:283-289). -/
def satSum (l : List Nat) : Nat := l.foldl satAdd128 0

/-- `get_average_prices` (l1.rs:226-295). -/
def averagePrices (cfg : L1Config) (buf : List Sample) (time : Nat) : Option (Except AvgError (Nat × Nat)) :=
  match buf.getLast? with
  | none => some (.error .noDataAvailable)
  | some latest =>
    if latest.timestamp + cfg.maxTimeGap ≥ U64 then none
    else if time > latest.timestamp + cfg.maxTimeGap then some (.error .staleData)
    else
      match lastIndex buf (time - cfg.lagMargin) with
      | none => some (.error .noDataAvailable)
      | some idx =>
        let last := idx + 1
        let first := last - cfg.blocksForMean
        let count := last - first
        if count = 0 then some (.error .noDataAvailable)
        else
          let used := (buf.drop first).take count
          some (.ok (satSum (used.map Sample.baseFee) / count, satSum (used.map Sample.blobFee) / count))

/-- `L1GasPriceValidationResult` (l1.rs:93-100): which fee deviates. -/
inductive L1Result
  | valid
  | baseFee (proposed expected : Nat)
  | blobFee (proposed expected : Nat)
  | insufficientData
  deriving DecidableEq, Repr

/-- The comparisons at the end of `validate` (l1.rs:318-342, l1_to_fri.rs:104-134); `exceeds` is `deviation_pct(..) > tolerance`. -/
def compareFees (exceeds : Nat → Nat → Bool) (expected : Nat × Nat) (base blob : Nat) : L1Result :=
  if exceeds base expected.1 then .baseFee base expected.1
  else if exceeds blob expected.2 then .blobFee blob expected.2
  else .valid

/-- `L1GasPriceProvider::validate` (l1.rs:298-343). -/
def validateL1 (cfg : L1Config) (exceeds : Nat → Nat → Bool) (buf : List Sample) (time base blob : Nat) : Option L1Result :=
  if buf.length > 0 then
    (averagePrices cfg buf time).map fun r => match r with
      | .error _ => .insufficientData
      | .ok avg => compareFees exceeds avg base blob
  else some .insufficientData

/-- `L1ToFriValidator::validate` (l1_to_fri.rs:72-135); the oracle is a parameter. -/
def validateFri (cfg : L1Config) (exceeds : Nat → Nat → Bool) (oracle : Nat → Nat → Option Nat) (buf : List Sample)
    (time base blob : Nat) : Option L1Result :=
  (averagePrices cfg buf time).map fun r => match r with
    | .error _ => .insufficientData
    | .ok avg =>
      match oracle avg.1 time with
      | none => .insufficientData
      | some fri => match oracle avg.2 time with
        | none => .insufficientData
        | some fri' => compareFees exceeds (fri, fri') base blob

/-- The errors of `process_block` (state/sync/l1.rs:163-224). -/
inductive ProcError
  | backward
  | tooLarge
  | fetch
  | add (e : AddError)
  deriving DecidableEq, Repr

/-- `process_block` (state/sync/l1.rs:163-224). `fetch` is `get_gas_price_data_range` of the Ethereum client: any samples at all, or
an error. -/
def processBlock (cfg : L1Config) (maxGap : Nat) (fetch : Nat → Nat → Option (List Sample)) (buf : List Sample) (d : Sample) :
    Option (List Sample × Option ProcError) :=
  match addSample cfg buf d with
  | none => none
  | some (buf', none) => some (buf', none)
  | some (buf', some (.reorg n p q)) => some (buf', some (.add (.reorg n p q)))
  | some (buf', some (.gap expected actual)) =>
    if actual < expected then some (buf', some .backward)
    else if actual - expected > maxGap then some (buf', some .tooLarge)
    else match fetch expected (actual - 1) with
      | none => some (buf', some .fetch)
      | some gap => match addSamples cfg buf' gap with
        | none => none
        | some (buf'', some e) => some (buf'', some (.add e))
        | some (buf'', none) => (addSample cfg buf'' d).map fun r => (r.1, r.2.map .add)

end Verif.Gas
