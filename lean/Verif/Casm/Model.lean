/-!
# Compiled classes as they are shown (C112)

`starknet_getCompiledCasm` (`crates/rpc/src/method/get_compiled_casm.rs`) reads the stored JSON of a
compiled class into `CasmContractClass` (`crates/common/src/casm_class.rs`) and writes it again.

Simplified: a number that is written as hex text is a constructor of its own (for felts see C28), and
the conversions that serde derives are written out.  That serde also takes an array for a structure,
and its limit on the depth of JSON, are left out.
-/

namespace Verif.Casm

/-- JSON. -/
inductive J
  | null
  | bool (b : Bool)
  | num (n : Nat)
  /-- a text with a number in hex -/
  | hex (n : Nat)
  | str (s : String)
  | arr (l : List J)
  | obj (l : List (String × J))

/-- `NestedIntList` (`casm_class.rs:76-91`). -/
inductive Nested
  | leaf (n : Nat)
  | node (l : List Nested)

/-- `CasmContractEntryPoint` (`casm_class.rs:31-41`). -/
structure Entry where
  selector : Nat
  offset : Nat
  builtins : List String
deriving DecidableEq, Repr

/-- `CasmContractEntryPoints` (`casm_class.rs:20-29`). -/
structure Entries where
  external : List Entry
  l1Handler : List Entry
  constructor : List Entry
deriving DecidableEq, Repr

/-- `CasmContractClass` (`casm_class.rs:8-18`). -/
structure Casm where
  bytecode : List Nat
  segments : Option Nested
  version : String
  hints : J
  entries : Entries
  prime : Nat

/-- The modulus of the field (`crates/crypto/src/algebra/field/felt.rs`). -/
def P : Nat := 2 ^ 251 + 17 * 2 ^ 192 + 1

mutual

/-- `Deserialize` of `NestedIntList`, untagged. -/
def readNested : J → Option Nested
  | .num n => if n < 2 ^ 64 then some (.leaf n) else none
  | .arr l => (readNesteds l).map .node
  | _ => none

/-- The elements of a node. -/
def readNesteds : List J → Option (List Nested)
  | [] => some []
  | j :: js => (readNested j).bind fun n => (readNesteds js).map (n :: ·)

end

mutual

/-- `Serialize` of `NestedIntList`, untagged. -/
def showNested : Nested → J
  | .leaf n => .num n
  | .node l => .arr (showNesteds l)

/-- The elements of a node. -/
def showNesteds : List Nested → List J
  | [] => []
  | n :: ns => showNested n :: showNesteds ns

end

/-- A list whose elements are all read. -/
def readAll {α : Type} (f : J → Option α) : List J → Option (List α)
  | [] => some []
  | j :: js => (f j).bind fun x => (readAll f js).map (x :: ·)

/-- `Deserialize` of `Vec`. -/
def readVec {α : Type} (f : J → Option α) : J → Option (List α)
  | .arr l => readAll f l
  | _ => none

/-- `Deserialize` of `Felt`. -/
def readFelt : J → Option Nat
  | .hex n => if n < P then some n else none
  | _ => none

/-- `deserialize_big_uint` (`casm_class.rs:62-74`). -/
def readBig : J → Option Nat
  | .hex n => some n
  | _ => none

/-- `Deserialize` of `usize`. -/
def readSize : J → Option Nat
  | .num n => if n < 2 ^ 64 then some n else none
  | _ => none

/-- `Deserialize` of `String`. -/
def readStr : J → Option String
  | .str s => some s
  | _ => none

/-- A field of a structure: outer `none` if there are two of that name. -/
def fieldOf (fs : List (String × J)) (k : String) : Option (Option J) :=
  match fs.filter fun f => f.1 == k with
  | [] => some none
  | [f] => some (some f.2)
  | _ => none

/-- A field that has to be there. -/
def required {α : Type} (fs : List (String × J)) (k : String) (f : J → Option α) : Option α :=
  (fieldOf fs k).bind fun o => o.bind f

/-- `#[serde(default)]` of an `Option`: a field that is missing or null is `None`. -/
def optional {α : Type} (fs : List (String × J)) (k : String) (f : J → Option α) : Option (Option α) :=
  (fieldOf fs k).bind fun o => match o with
    | none => some none
    | some .null => some none
    | some j => (f j).map some

/-- `Deserialize` of `CasmContractEntryPoint`. -/
def readEntry : J → Option Entry
  | .obj fs => (required fs "selector" readFelt).bind fun s =>
      (required fs "offset" readSize).bind fun o =>
      (required fs "builtins" (readVec readStr)).map fun b => ⟨s, o, b⟩
  | _ => none

/-- `Deserialize` of `CasmContractEntryPoints`. -/
def readEntries : J → Option Entries
  | .obj fs => (required fs "EXTERNAL" (readVec readEntry)).bind fun e =>
      (required fs "L1_HANDLER" (readVec readEntry)).bind fun l =>
      (required fs "CONSTRUCTOR" (readVec readEntry)).map fun c => ⟨e, l, c⟩
  | _ => none

/-- `from_serialized_def` (`casm_class.rs:93-99`). -/
def read : J → Option Casm
  | .obj fs => (required fs "bytecode" (readVec readFelt)).bind fun b =>
      (optional fs "bytecode_segment_lengths" readNested).bind fun s =>
      (required fs "compiler_version" readStr).bind fun v =>
      (required fs "hints" some).bind fun h =>
      (required fs "entry_points_by_type" readEntries).bind fun e =>
      (required fs "prime" readBig).map fun p => ⟨b, s, v, h, e, p⟩
  | _ => none

/-- `Serialize` of `CasmContractEntryPoint`. -/
def showEntry (e : Entry) : J := .obj [("selector", .hex e.selector), ("offset", .num e.offset),
  ("builtins", .arr (e.builtins.map .str))]

/-- `Serialize` of `CasmContractEntryPoints`. -/
def showEntries (e : Entries) : J := .obj [("EXTERNAL", .arr (e.external.map showEntry)),
  ("L1_HANDLER", .arr (e.l1Handler.map showEntry)),
  ("CONSTRUCTOR", .arr (e.constructor.map showEntry))]

/-- `Serialize` of `CasmContractClass`, with `skip_serializing_if`, put into the answer by `flatten`
(`get_compiled_casm.rs:26-38`, `crates/rpc/src/dto.rs:192-202`). -/
def «show» (c : Casm) : J := .obj ([("bytecode", .arr (c.bytecode.map .hex))] ++
  (match c.segments with
    | none => []
    | some s => [("bytecode_segment_lengths", showNested s)]) ++
  [("compiler_version", .str c.version), ("hints", c.hints),
    ("entry_points_by_type", showEntries c.entries), ("prime", .hex c.prime)])

/-- The answers of `get_compiled_casm` (`get_compiled_casm.rs:41-102`). -/
inductive Answer
  | casm (j : J)
  | classHashNotFound
  | internal

/-- `get_compiled_casm`; `stored` is the column with the compiled class, which is missing for classes
of Cairo 0. -/
def getCompiledCasm (stored : Option J) : Answer :=
  match stored with
  | none => .classHashNotFound
  | some j => match read j with
    | none => .internal
    | some c => .casm («show» c)

end Verif.Casm
