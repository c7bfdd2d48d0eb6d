import Verif.Block.Model
/-!
# Classes in the JSON-RPC format

Model of `crates/rpc/src/types/class.rs` and `crates/rpc/src/dto/class.rs`: how a stored class is turned into the answer of `starknet_getClass` and
`starknet_getClassAt`, how the class of a declare transaction is read, what of it is hashed and executed by `starknet_estimateFee` and
`starknet_simulateTransactions`, and what of it goes to the gateway with `starknet_addDeclareTransaction`.

Simplifications. JSON is parsed already. The text of field elements and of 64-bit numbers, base64 and gzip are parameters (`Ext`; the text of
field elements is proved in `Verif.Crypto`). What serde does is modelled after its documentation and its generated code; that it accepts an array
in place of an object is left out.
-/
namespace Verif.Cls
open Verif.Block (F P)

/-- `serde_json::Value`. `other` stands for Booleans, negative numbers and fractions. An object is the list of its fields. -/
inductive J
  | null
  | other (t : String)
  | num (n : Nat)
  | str (s : String)
  | arr (l : List J)
  | obj (l : List (String × J))

/-- What is not modelled: `Felt::from_hex_str` and `as_hex_str`; `bytes_from_hex_str::<8>` and its inverse (serde/src/lib.rs:246-285); whether a text is
a decimal `u64`, as for the keys of `BTreeMap<u64, _>`; base64 into bytes `B`; `zip`, which writes JSON and compresses it; `unzip`, which decompresses at
most `limit` bytes and parses JSON. -/
structure Ext (B : Type) where
  felt : String → Option F
  feltText : F → String
  u64 : String → Option Nat
  u64Text : Nat → String
  key : String → Bool
  encode : B → String
  decode : String → Option B
  zip : J → B
  unzip : B → Option J

/-- Why there is no result: an error is returned, or the task panics. -/
inductive Fail
  | refused
  | panic
  deriving DecidableEq, Repr

/-! ## Reading -/

/-- The value of a field: of two fields with one name the last stays. -/
def get (l : List (String × J)) (k : String) : Option J := l.reverse.lookup k

/-- An object with `deny_unknown_fields`. -/
def fields (names : List String) : J → Option (String → Option J)
  | .obj l => if l.all fun p => names.contains p.1 then some (get l) else none
  | _ => none

/-- A field that must be there. -/
def req {α : Type} (g : String → Option J) (k : String) (rd : J → Option α) : Option α := (g k).bind rd

/-- A field of type `Option<T>`: missing and `null` are `None`. -/
def opt {α : Type} (g : String → Option J) (k : String) (rd : J → Option α) : Option (Option α) :=
  match g k with
  | none => some none
  | some .null => some none
  | some j => (rd j).map some

/-- A field with `#[serde(default)]`. -/
def dflt {α : Type} (g : String → Option J) (k : String) (d : α) (rd : J → Option α) : Option α :=
  match g k with
  | none => some d
  | some j => rd j

/-- All elements, or none. -/
def all {α : Type} (rd : J → Option α) : List J → Option (List α)
  | [] => some []
  | j :: r => do let x ← rd j; let xs ← all rd r; pure (x :: xs)

/-- `Vec<T>`. -/
def readList {α : Type} (rd : J → Option α) : J → Option (List α)
  | .arr l => all rd l
  | _ => none

/-- `String`. -/
def readStr : J → Option String
  | .str s => some s
  | _ => none

/-- `u64`. -/
def readU64 : J → Option Nat
  | .num n => if n < 2 ^ 64 then some n else none
  | _ => none

section
variable {B : Type} (e : Ext B)

/-- `Deserialize for RpcFelt` (rpc/src/felt.rs:217-244). -/
def readFelt : J → Option F
  | .str s => e.felt s
  | _ => none

/-- `OffsetSerde` (types/class.rs:504-533): a hexadecimal string, or a number. -/
def readOffset : J → Option Nat
  | .str s => e.u64 s
  | .num n => if n < 2 ^ 64 then some n else none
  | _ => none

/-- `ContractEntryPoint` (types/class.rs:494-502). -/
structure Ep where
  offset : Nat
  selector : F

/-- Its `Deserialize`. -/
def readEp (j : J) : Option Ep := do
  let g ← fields ["offset", "selector"] j
  let o ← req g "offset" (readOffset e)
  let s ← req g "selector" (readFelt e)
  pure ⟨o, s⟩

/-- `SierraEntryPoint` (types/class.rs:729-736). -/
structure SEp where
  idx : Nat
  selector : F

/-- Its `Deserialize`. -/
def readSEp (j : J) : Option SEp := do
  let g ← fields ["function_idx", "selector"] j
  let i ← req g "function_idx" readU64
  let s ← req g "selector" (readFelt e)
  pure ⟨i, s⟩

/-- `ContractEntryPoints` (types/class.rs:485-492) and `SierraEntryPoints` (705-712). -/
structure Eps (α : Type) where
  constructor : List α
  external : List α
  l1Handler : List α

/-- Their `Deserialize`. -/
def readEps {α : Type} (rd : J → Option α) (j : J) : Option (Eps α) := do
  let g ← fields ["CONSTRUCTOR", "EXTERNAL", "L1_HANDLER"] j
  let c ← req g "CONSTRUCTOR" (readList rd)
  let x ← req g "EXTERNAL" (readList rd)
  let l ← req g "L1_HANDLER" (readList rd)
  pure ⟨c, x, l⟩
end

/-! ## The ABI of a Cairo 0 class -/

/-- `TypedParameter` (types/class.rs:648-653). -/
structure Param where
  name : String
  type : String

/-- Its `Deserialize`. -/
def readParam (j : J) : Option Param := do
  let g ← fields ["name", "type"] j
  let n ← req g "name" readStr
  let t ← req g "type" readStr
  pure ⟨n, t⟩

/-- `StructMember` (types/class.rs:592-602). -/
structure Member where
  name : String
  type : String
  offset : Nat

/-- Its `Deserialize`. -/
def readMember (j : J) : Option Member := do
  let g ← fields ["name", "type", "offset"] j
  let n ← req g "name" readStr
  let t ← req g "type" readStr
  let o ← req g "offset" readU64
  pure ⟨n, t, o⟩

/-- `FunctionAbiType` (types/class.rs:571-581). -/
inductive FnType
  | function
  | l1Handler
  | constructor
  deriving DecidableEq

/-- Its names, both for serde (`rename_all = "snake_case"`) and in the answer (dto/class.rs:220-232). -/
def FnType.text : FnType → String
  | .function => "function"
  | .l1Handler => "l1_handler"
  | .constructor => "constructor"

/-- Its `Deserialize`. -/
def readFnType (j : J) : Option FnType := do
  let s ← readStr j
  if s = "function" then pure .function
  else if s = "l1_handler" then pure .l1Handler
  else if s = "constructor" then pure .constructor
  else none

/-- `FunctionAbiEntry` (types/class.rs:628-646). -/
structure Fn where
  type : FnType
  name : String
  inputs : Option (List Param)
  outputs : Option (List Param)
  stateMutability : Option String

/-- Its `Deserialize`. -/
def readFn (j : J) : Option Fn := do
  let g ← fields ["type", "name", "inputs", "outputs", "stateMutability"] j
  let t ← req g "type" readFnType
  let n ← req g "name" readStr
  let i ← opt g "inputs" (readList readParam)
  let o ← opt g "outputs" (readList readParam)
  let m ← opt g "stateMutability" readStr
  pure ⟨t, n, i, o, m⟩

/-- A unit variant with one name: `EventAbiType` and `StructAbiType` (types/class.rs:557-569). -/
def readTag (t : String) (j : J) : Option Unit := do
  let s ← readStr j
  if s = t then pure () else none

/-- `EventAbiEntry` (types/class.rs:604-626). -/
structure Ev where
  name : String
  keys : Option (List Param)
  data : Option (List Param)
  inputs : Option (List Param)
  outputs : Option (List Param)

/-- Its `Deserialize`. -/
def readEv (j : J) : Option Ev := do
  let g ← fields ["type", "name", "keys", "data", "inputs", "outputs"] j
  let _ ← req g "type" (readTag "event")
  let n ← req g "name" readStr
  let k ← opt g "keys" (readList readParam)
  let d ← opt g "data" (readList readParam)
  let i ← opt g "inputs" (readList readParam)
  let o ← opt g "outputs" (readList readParam)
  pure ⟨n, k, d, i, o⟩

/-- `StructAbiEntry` (types/class.rs:583-590). -/
structure St where
  name : String
  size : Nat
  members : List Member

/-- Its `Deserialize`. -/
def readSt (j : J) : Option St := do
  let g ← fields ["type", "name", "size", "members"] j
  let _ ← req g "type" (readTag "struct")
  let n ← req g "name" readStr
  let s ← req g "size" readU64
  let m ← req g "members" (readList readMember)
  pure ⟨n, s, m⟩

/-- `ContractAbiEntry` (types/class.rs:548-555). -/
inductive Entry
  | fn (f : Fn)
  | ev (v : Ev)
  | st (s : St)

/-- Its `Deserialize`: the enum is untagged, so the first variant that can be read is taken. -/
def readEntry (j : J) : Option Entry :=
  match readFn j with
  | some f => some (.fn f)
  | none =>
    match readEv j with
    | some v => some (.ev v)
    | none => (readSt j).map .st

/-! ## Classes -/

/-- `CairoContractClass` (types/class.rs:216-224). -/
structure Cairo where
  program : String
  entryPoints : Eps Ep
  abi : Option (List Entry)

/-- `SierraContractClass` (types/class.rs:665-676). -/
structure Sierra where
  program : List F
  version : String
  entryPoints : Eps SEp
  abi : String

/-- `ContractClass` (types/class.rs:5-9). -/
inductive Class
  | cairo (c : Cairo)
  | sierra (c : Sierra)

section
variable {B : Type} (e : Ext B)

/-- `Deserialize for SierraContractClass`. -/
def readSierra (j : J) : Option Sierra := do
  let g ← fields ["sierra_program", "contract_class_version", "entry_points_by_type", "abi"] j
  let p ← req g "sierra_program" (readList (readFelt e))
  let v ← req g "contract_class_version" readStr
  let x ← req g "entry_points_by_type" (readEps (readSEp e))
  let a ← dflt g "abi" "" readStr
  pure ⟨p, v, x, a⟩

/-- `Deserialize for CairoContractClass`: the class of a declare transaction. -/
def readCairo (j : J) : Option Cairo := do
  let g ← fields ["program", "entry_points_by_type", "abi"] j
  let p ← req g "program" readStr
  let x ← req g "entry_points_by_type" (readEps (readEp e))
  let a ← opt g "abi" (readList readEntry)
  pure ⟨p, x, a⟩

/-- `ContractClass::from_serialized_def` (types/class.rs:23-72). -/
def fromStored : J → Option Class
  | .obj l =>
    if (get l "sierra_program").isSome then (readSierra e (.obj l)).map .sierra
    else do
      let j ← get l "entry_points_by_type"
      let x ← readEps (readEp e) j
      let a := (get l "abi").bind (readList readEntry)
      let p ← get l "program"
      pure (.cairo ⟨e.encode (e.zip p), x, a⟩)
  | _ => none

/-! ## What is shown -/

/-- dto/class.rs:96-108. -/
def showEp (x : Ep) : J := .obj [("offset", .str (e.u64Text x.offset)), ("selector", .str (e.feltText x.selector))]

/-- dto/class.rs:110-122. -/
def showSEp (x : SEp) : J := .obj [("selector", .str (e.feltText x.selector)), ("function_idx", .num x.idx)]

/-- dto/class.rs:46-94. -/
def showEps {α : Type} (sh : α → J) (x : Eps α) : J :=
  .obj [("CONSTRUCTOR", .arr (x.constructor.map sh)), ("EXTERNAL", .arr (x.external.map sh)), ("L1_HANDLER", .arr (x.l1Handler.map sh))]

/-- dto/class.rs:287-299. -/
def showParam (x : Param) : J := .obj [("name", .str x.name), ("type", .str x.type)]

/-- dto/class.rs:267-285. -/
def showMember (x : Member) : J := .obj [("name", .str x.name), ("type", .str x.type), ("offset", .num x.offset)]

/-- `as_deref().unwrap_or_default()`. -/
def showParams (o : Option (List Param)) : J := .arr ((o.getD []).map showParam)

/-- dto/class.rs:155-180: the state mutability is `view` whatever it was. -/
def showFn (x : Fn) : J :=
  .obj ([("type", .str x.type.text), ("name", .str x.name), ("inputs", showParams x.inputs), ("outputs", showParams x.outputs)]
    ++ (match x.stateMutability with | some _ => [("stateMutability", .str "view")] | none => []))

/-- dto/class.rs:182-200. -/
def showEv (x : Ev) : J := .obj [("type", .str "event"), ("name", .str x.name), ("keys", showParams x.keys), ("data", showParams x.data)]

/-- dto/class.rs:202-218. -/
def showSt (x : St) : J :=
  .obj [("type", .str "struct"), ("name", .str x.name), ("size", .num x.size), ("members", .arr (x.members.map showMember))]

/-- dto/class.rs:142-153. -/
def showEntry : Entry → J
  | .fn f => showFn f
  | .ev v => showEv v
  | .st s => showSt s

/-- dto/class.rs:7-20. -/
def showCairo (c : Cairo) : J :=
  .obj [("program", .str c.program), ("entry_points_by_type", showEps (showEp e) c.entryPoints),
    ("abi", match c.abi with | some a => .arr (a.map showEntry) | none => .null)]

/-- dto/class.rs:22-44. -/
def showSierra (c : Sierra) : J :=
  .obj [("sierra_program", .arr (c.program.map fun x => .str (e.feltText x))), ("contract_class_version", .str c.version),
    ("entry_points_by_type", showEps (showSEp e) c.entryPoints), ("abi", if c.abi = "" then .null else .str c.abi)]

/-- `starknet_getClass` after the class is found (method/get_class.rs:88-102) and `starknet_getClassAt` (method/get_class_at.rs:102). -/
def getClass (j : J) : Option J :=
  match fromStored e j with
  | some (.cairo c) => some (showCairo e c)
  | some (.sierra c) => some (showSierra e c)
  | none => none

/-! ## What is hashed and executed -/

/-- A field that is skipped if it is `None`. -/
def skip (k : String) (o : Option J) : List (String × J) := match o with | some v => [(k, v)] | none => []

/-- The derived `Serialize` of `TypedParameter`. -/
def writeParam (x : Param) : J := .obj [("name", .str x.name), ("type", .str x.type)]

/-- The derived `Serialize` of `StructMember`. -/
def writeMember (x : Member) : J := .obj [("name", .str x.name), ("type", .str x.type), ("offset", .num x.offset)]

/-- A list of parameters. -/
def writeParams (l : List Param) : J := .arr (l.map writeParam)

/-- The derived `Serialize` of `ContractAbiEntry` and its variants (types/class.rs:548-646). -/
def writeEntry : Entry → J
  | .fn x => .obj ([("type", .str x.type.text), ("name", .str x.name)] ++ skip "inputs" (x.inputs.map writeParams)
      ++ skip "outputs" (x.outputs.map writeParams) ++ skip "stateMutability" (x.stateMutability.map .str))
  | .ev x => .obj ([("type", .str "event"), ("name", .str x.name)] ++ skip "keys" (x.keys.map writeParams) ++ skip "data" (x.data.map writeParams)
      ++ skip "inputs" (x.inputs.map writeParams) ++ skip "outputs" (x.outputs.map writeParams))
  | .st x => .obj [("type", .str "struct"), ("name", .str x.name), ("size", .num x.size), ("members", .arr (x.members.map writeMember))]

/-- The derived `Serialize` of `ContractEntryPoint` (types/class.rs:494-521). -/
def writeEp (x : Ep) : J := .obj [("offset", .str (e.u64Text x.offset)), ("selector", .str (e.feltText x.selector))]

/-- The derived `Serialize` of `SierraEntryPoint`. -/
def writeSEp (x : SEp) : J := .obj [("function_idx", .num x.idx), ("selector", .str (e.feltText x.selector))]

/-- The derived `Serialize` of the entry points. -/
def writeEps {α : Type} (wr : α → J) (x : Eps α) : J :=
  .obj [("CONSTRUCTOR", .arr (x.constructor.map wr)), ("EXTERNAL", .arr (x.external.map wr)), ("L1_HANDLER", .arr (x.l1Handler.map wr))]
end

/-- How a field of a struct is treated: it must be there; it is an `Option` that is left out if `None`; it is an `Option` that is written as `null` if
`None`; it is empty by default. -/
inductive Kind
  | must
  | skip
  | null
  | empty
  deriving DecidableEq

mutual
/-- The types of the program (types/class.rs:273-477): any JSON, a string, a `u64`, a field element, `Vec`, `BTreeMap<String, _>`, `BTreeMap<u64, _>`,
and a struct with `deny_unknown_fields`. -/
inductive Ty
  | any
  | str
  | u64
  | felt
  | list (t : Ty)
  | map (t : Ty)
  | keyed (t : Ty)
  | struct (fs : Tys)
/-- The fields of a struct. -/
inductive Tys
  | nil
  | cons (name : String) (kind : Kind) (t : Ty) (rest : Tys)
end

/-- The names of the fields. -/
def Tys.names : Tys → List String
  | .nil => []
  | .cons n _ _ r => n :: r.names

/-- All values of a map. -/
def allSnd (rd : J → Option J) : List (String × J) → Option (List (String × J))
  | [] => some []
  | (k, j) :: r => do let x ← rd j; let xs ← allSnd rd r; pure ((k, x) :: xs)

/-- A field of a struct that is read and then written; `none` in the result if it is left out. -/
def normField (k : Kind) (rd : J → Option J) : Option J → Option (Option J)
  | some .null =>
    match k with
    | .skip => some none
    | .null => some (some .null)
    | .must | .empty => (rd .null).map some
  | some j => (rd j).map some
  | none =>
    match k with
    | .must => none
    | .skip => some none
    | .null => some (some .null)
    | .empty => some (some (.arr []))

section
variable {B : Type} (e : Ext B)
mutual
/-- A value of a type that is read and then written: the derived `Deserialize` and `Serialize`. A field that comes twice in a struct is an error; in a
map the last one stays. -/
def norm : Ty → J → Option J
  | .any, j => some j
  | .str, .str s => some (.str s)
  | .u64, .num n => if n < 2 ^ 64 then some (.num n) else none
  | .felt, .str s => (e.felt s).map fun x => .str (e.feltText x)
  | .list t, .arr l => (all (norm t) l).map .arr
  | .map t, .obj l => (allSnd (norm t) l).map .obj
  | .keyed t, .obj l => if l.all fun p => e.key p.1 then (allSnd (norm t) l).map .obj else none
  | .struct fs, .obj l =>
    if (l.map (·.1)).Nodup ∧ (l.all fun p => fs.names.contains p.1) then (normFields fs (get l)).map .obj else none
  | _, _ => none
/-- The fields of a struct. -/
def normFields : Tys → (String → Option J) → Option (List (String × J))
  | .nil, _ => some []
  | .cons n k t r, g => do
    let x ← normField k (norm t) (g n)
    let xs ← normFields r g
    pure (Cls.skip n x ++ xs)
end
end

/-- `ApTrackingData` (types/class.rs:406-411). -/
def apTracking : Ty := .struct (.cons "group" .must .u64 (.cons "offset" .must .u64 .nil))

/-- `FlowTrackingData` (types/class.rs:380-385). -/
def flowTracking : Ty := .struct (.cons "ap_tracking" .must apTracking (.cons "reference_ids" .must (.map .u64) .nil))

/-- `Reference` (types/class.rs:372-378). -/
def reference : Ty := .struct (.cons "ap_tracking_data" .must apTracking (.cons "pc" .must .u64 (.cons "value" .must .str .nil)))

/-- `Attribute` (types/class.rs:298-309). -/
def attr : Ty := .struct
  (.cons "accessible_scopes" .empty (.list .str) (.cons "end_pc" .must .u64 (.cons "flow_tracking_data" .skip flowTracking
    (.cons "name" .must .str (.cons "start_pc" .must .u64 (.cons "value" .must .str .nil))))))

/-- `Hint` (types/class.rs:318-324). -/
def hint : Ty := .struct
  (.cons "accessible_scopes" .must (.list .str) (.cons "code" .must .str (.cons "flow_tracking_data" .must flowTracking .nil)))

/-- `IdentifierMember` (types/class.rs:365-370). -/
def identifierMember : Ty := .struct (.cons "cairo_type" .must .str (.cons "offset" .must .u64 .nil))

/-- `LegacyIdentifier` (types/class.rs:326-348). -/
def identifier : Ty := .struct
  (.cons "decorators" .skip (.list .str) (.cons "cairo_type" .skip .str (.cons "full_name" .skip .str
    (.cons "members" .skip (.map identifierMember) (.cons "references" .skip (.list reference) (.cons "size" .skip .u64
      (.cons "pc" .skip .u64 (.cons "destination" .skip .str (.cons "type" .must .str (.cons "value" .skip .any .nil))))))))))

/-- `Program` (types/class.rs:281-296). The debug information is taken as it is, although it has a type too (types/class.rs:311-316); it is not hashed. -/
def program : Ty := .struct
  (.cons "attributes" .skip (.list attr) (.cons "builtins" .must (.list .str) (.cons "compiler_version" .skip .str
    (.cons "data" .must (.list .felt) (.cons "debug_info" .null .any (.cons "hints" .must (.keyed (.list hint))
      (.cons "identifiers" .must (.map identifier) (.cons "main_scope" .must .str (.cons "prime" .must .str
        (.cons "reference_manager" .must (.struct (.cons "references" .must (.list reference) .nil)) .nil))))))))))

section
variable {B : Type} (e : Ext B)

/-- `CairoContractClass::serialize_to_json` (types/class.rs:244-268): the definition that is hashed for a declare transaction (`class_hash`, 235-242) and
given to the executor (rpc/src/executor.rs:93-120). `BASE64_STANDARD.decode(..).unwrap()` panics on text that is not base64. -/
def cairoDefinition (c : Cairo) : Except Fail J :=
  match e.decode c.program with
  | none => .error .panic
  | some b =>
    match e.unzip b with
    | none => .error .refused
    | some p =>
      match norm e program p with
      | none => .error .refused
      | some p' => .ok (.obj [("program", p'), ("entry_points_by_type", writeEps (writeEp e) c.entryPoints),
          ("abi", match c.abi with | some a => .arr (a.map writeEntry) | none => .null)])

/-- The derived `Serialize` of `SierraContractClass`, which is hashed (types/class.rs:698-702). -/
def sierraDefinition (c : Sierra) : J :=
  .obj [("sierra_program", .arr (c.program.map fun x => .str (e.feltText x))), ("contract_class_version", .str c.version),
    ("entry_points_by_type", writeEps (writeSEp e) c.entryPoints), ("abi", .str c.abi)]

/-! ## What goes to the gateway -/

/-- `CairoContractDefinition` of the gateway (gateway-types/src/request.rs:37-42). An offset is a field element there. -/
structure GwCairo where
  program : String
  entryPoints : Eps (F × F)
  abi : Option J

/-- `SierraContractDefinition` of the gateway (gateway-types/src/request.rs:46-52). -/
structure GwSierra where
  program : String
  version : String
  entryPoints : Eps (Nat × F)
  abi : String

/-- An element of a map over the entry points. -/
def Eps.map {α β : Type} (f : α → β) (x : Eps α) : Eps β := ⟨x.constructor.map f, x.external.map f, x.l1Handler.map f⟩

/-- `TryFrom<CairoContractClass>` (types/class.rs:102-149). -/
def cairoToGateway (c : Cairo) : GwCairo :=
  ⟨c.program, c.entryPoints.map fun x => (x.selector, Block.felt x.offset), c.abi.map fun a => .arr (a.map writeEntry)⟩

/-- `TryFrom<SierraContractClass>` (types/class.rs:151-205). -/
def sierraToGateway (c : Sierra) : GwSierra :=
  ⟨e.encode (e.zip (.arr (c.program.map fun x => .str (e.feltText x)))), c.version, c.entryPoints.map fun x => (x.idx, x.selector), c.abi⟩
end
end Verif.Cls
