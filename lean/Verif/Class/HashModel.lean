import Verif.Block.Model
import Verif.Crypto.Felt
import Verif.Events.TokenText
/-!
# Class hashes

Model of `crates/class-hash/src/lib.rs`: what is hashed for a Cairo 0 class and for a Sierra class. The input is the class after its JSON text
has been parsed; the parser is not modelled.
-/
namespace Verif.Class
open Verif.Block (F felt feltText Hashes chain)
open Verif.Crypto (feltFromSlice fromHexStr beNat)
open Verif.Events.TokenText (showNat)

abbrev Str := List Char

/-- `serde_json::Value`. With the feature `arbitrary_precision` a number is its text. The fields of an object are in the order of the map,
which is that of the keys. -/
inductive Json
  | null
  | bool (b : Bool)
  | num (text : Str)
  | str (s : Str)
  | arr (l : List Json)
  | obj (l : List (Str × Json))

/-! ## Text -/

/-- A hexadecimal digit in lower case. -/
def hexDigit (n : Nat) : Char := if n < 10 then Char.ofNat (48 + n) else Char.ofNat (87 + n)

/-- `{:x}` of an integer. -/
def hexNat (n : Nat) : Str := if n < 16 then [hexDigit n] else hexNat (n / 16) ++ [hexDigit (n % 16)]

/-- `{:4x}`: padded to four characters with spaces. -/
def hexPadded (n : Nat) : Str := List.replicate (4 - (hexNat n).length) ' ' ++ hexNat n

/-- `char::encode_utf16`. -/
def utf16 (c : Char) : List Nat :=
  if c.toNat < 0x10000 then [c.toNat] else [0xd800 + (c.toNat - 0x10000) / 0x400, 0xdc00 + (c.toNat - 0x10000) % 0x400]

/-- `PythonDefaultFormatter::write_string_fragment` (lib.rs:702-720) for one character. -/
def fragmentChar (c : Char) : Str :=
  if c.toNat < 128 then [c] else (utf16 c).flatMap fun u => '\\' :: 'u' :: hexPadded u

/-- A character of a string: `serde_json` writes the escapes of quotes, backslashes and control characters itself and passes the other
characters to the formatter. -/
def escape (c : Char) : Str :=
  if c = '"' then ['\\', '"']
  else if c = '\\' then ['\\', '\\']
  else if c.toNat = 8 then ['\\', 'b']
  else if c.toNat = 12 then ['\\', 'f']
  else if c.toNat = 10 then ['\\', 'n']
  else if c.toNat = 13 then ['\\', 'r']
  else if c.toNat = 9 then ['\\', 't']
  else if c.toNat < 32 then ['\\', 'u', '0', '0', hexDigit (c.toNat / 16), hexDigit (c.toNat % 16)]
  else fragmentChar c

/-- A string in quotes. -/
def quote (s : Str) : Str := '"' :: (s.flatMap escape ++ ['"'])

/-- `begin_array_value` and `begin_object_key` (lib.rs:671-691): between two items. -/
def sep : Str := [',', ' ']

/-- `begin_object_value` (lib.rs:693-698). -/
def colon : Str := [':', ' ']

mutual
/-- `Value::serialize` with `PythonDefaultFormatter` (lib.rs:665-721). -/
def printJson : Json → Str
  | .null => ['n', 'u', 'l', 'l']
  | .bool b => if b then ['t', 'r', 'u', 'e'] else ['f', 'a', 'l', 's', 'e']
  | .num t => t
  | .str s => quote s
  | .arr l => '[' :: printItems l
  | .obj l => '{' :: printFields l
/-- The items of an array and the closing bracket. -/
def printItems : List Json → Str
  | [] => [']']
  | x :: l => printJson x ++ printRest l
/-- The items after the first. -/
def printRest : List Json → Str
  | [] => [']']
  | x :: l => sep ++ (printJson x ++ printRest l)
/-- The fields of an object and the closing brace. -/
def printFields : List (Str × Json) → Str
  | [] => ['}']
  | (k, v) :: l => quote k ++ (colon ++ (printJson v ++ printMore l))
/-- The fields after the first. -/
def printMore : List (Str × Json) → Str
  | [] => ['}']
  | (k, v) :: l => sep ++ (quote k ++ (colon ++ (printJson v ++ printMore l)))
end

/-! ## Cairo 0 classes -/

/-- `json::CairoProgram` (lib.rs:800-831), and the entry points. `debugInfo` is the text of a field that is not hashed; of `hints` the keys are
`u64`. -/
structure Program where
  attributes : List Json
  builtins : List Str
  compilerVersion : Option Str
  data : List Str
  debugInfo : Option Str
  hints : List (Nat × List Json)
  identifiers : Json
  mainScope : Str
  prime : Str
  referenceManager : Json

/-- The entry points by type: `External`, `L1Handler`, `Constructor`; a type may be missing. -/
structure EntryPoints (α : Type) where
  external : Option (List α)
  l1Handler : Option (List α)
  constructor : Option (List α)

/-- `json::CairoContractDefinition` (lib.rs:777-793). An entry point is a selector and an offset (common/src/class_definition.rs:150-157). -/
structure Cairo where
  abi : Json
  program : Program
  entryPoints : EntryPoints (F × F)

/-- `str::replace` of a pattern that is not empty: the occurrences from the left that do not overlap. `skip` characters are part of the last
one found. -/
def replaceFrom (pat to : Str) : Nat → Str → Str
  | _, [] => []
  | k + 1, _ :: s => replaceFrom pat to k s
  | 0, c :: s => if pat.isPrefixOf (c :: s) then to ++ replaceFrom pat to (pat.length - 1) s else c :: replaceFrom pat to 0 s

/-- `add_extra_space_before_colon` (lib.rs:529-533). -/
def spaceColon (s : Str) : Str := replaceFrom [' ', ' ', ':'] [' ', ':'] 0 (replaceFrom [':', ' '] [' ', ':', ' '] 0 s)

/-- The keys of `add_extra_space_to_named_tuple_type_definition` (lib.rs:518-527). -/
def spacedKey (k : Str) : Bool := k == "cairo_type".toList || k == "value".toList

mutual
/-- `add_extra_space_to_cairo_named_tuples` (lib.rs:490-496). -/
def spaced : Json → Json
  | .null => .null
  | .bool b => .bool b
  | .num t => .num t
  | .str s => .str s
  | .arr l => .arr (spacedItems l)
  | .obj l => .obj (spacedFields l)
/-- `walk_array` (lib.rs:498-502). -/
def spacedItems : List Json → List Json
  | [] => []
  | x :: l => spaced x :: spacedItems l
/-- `walk_map` (lib.rs:504-516). -/
def spacedFields : List (Str × Json) → List (Str × Json)
  | [] => []
  | (k, v) :: l => (k, spacedValue k v) :: spacedFields l
/-- The value of a field: a string may be changed, depending on the key. -/
def spacedValue (k : Str) : Json → Json
  | .null => .null
  | .bool b => .bool b
  | .num t => .num t
  | .str s => .str (if spacedKey k then spaceColon s else s)
  | .arr l => .arr (spacedItems l)
  | .obj l => .obj (spacedFields l)
end

/-- `Map::remove`. -/
def remove (k : Str) (l : List (Str × Json)) : List (Str × Json) := l.filter fun f => f.1 ≠ k

def scopesKey : Str := "accessible_scopes".toList
def flowKey : Str := "flow_tracking_data".toList

/-- The treatment of `accessible_scopes` (lib.rs:468-480); `none` is the error that it is not an array. -/
def dropScopes (l : List (Str × Json)) : Option (List (Str × Json)) :=
  match l.lookup scopesKey with
  | none => some l
  | some (.arr []) => some (remove scopesKey l)
  | some (.arr _) => some l
  | some _ => none

/-- The treatment of `flow_tracking_data` (lib.rs:481-485). -/
def dropFlow (l : List (Str × Json)) : List (Str × Json) :=
  match l.lookup flowKey with
  | some .null => remove flowKey l
  | _ => l

/-- One attribute (lib.rs:463-488); `none` is an error. -/
def prepareAttribute : Json → Option Json
  | .obj l => (dropScopes l).map fun l => .obj (dropFlow l)
  | _ => none

/-- `prepare_json_contract_definition` (lib.rs:446-543). -/
def prepare (p : Program) : Option Program :=
  (p.attributes.mapM prepareAttribute).map fun attributes =>
    { p with
      attributes := attributes
      debugInfo := none
      identifiers := if p.compilerVersion.isNone then spaced p.identifiers else p.identifiers
      referenceManager := if p.compilerVersion.isNone then spaced p.referenceManager else p.referenceManager }

/-- The hints: a `BTreeMap<u64, Vec<Value>>`, with the keys in quotes. -/
def hintsJson (l : List (Nat × List Json)) : Json := .obj (l.map fun p => (showNat p.1, .arr p.2))

/-- `CairoProgram::serialize` (lib.rs:795-831): the fields in their order. Attributes are left out if empty, the compiler version if missing. -/
def programJson (p : Program) : Json :=
  .obj ((if p.attributes.isEmpty then [] else [("attributes".toList, .arr p.attributes)]) ++
    ("builtins".toList, .arr (p.builtins.map .str)) ::
    ((match p.compilerVersion with
      | none => []
      | some v => [("compiler_version".toList, .str v)]) ++
    [("data".toList, .arr (p.data.map .str)),
     ("debug_info".toList, match p.debugInfo with
      | none => .null
      | some t => .str t),
     ("hints".toList, hintsJson p.hints),
     ("identifiers".toList, p.identifiers),
     ("main_scope".toList, .str p.mainScope),
     ("prime".toList, .str p.prime),
     ("reference_manager".toList, p.referenceManager)]))

/-- What `compute_cairo_hinted_class_hash` (lib.rs:134-160) hashes: the prepared definition without the entry points. -/
def hintedText (abi : Json) (p : Program) : Str := printJson (.obj [("abi".toList, abi), ("program".toList, programJson p)])

/-- The bytes of a text of which all characters are ASCII. -/
def asciiBytes (s : Str) : List UInt8 := s.map fun c => UInt8.ofNat c.toNat

/-- `truncated_keccak` (lib.rs:637-642) of the Keccak-256 hash. -/
def truncatedKeccak (h : Hashes) (s : List UInt8) : F := felt (h.keccak s % 2 ^ 250)

/-- `str::as_bytes`. -/
def utf8 (s : Str) : List Nat := (s.flatMap String.utf8EncodeChar).map (·.toNat)

/-- `Felt::from_be_slice` of the name of a builtin. -/
def builtinFelt (s : Str) : Option F := (feltFromSlice (utf8 s)).map fun b => felt (beNat b)

/-- `Felt::from_hex_str` of a word of the bytecode. -/
def wordFelt (s : Str) : Option F := (fromHexStr (utf8 s)).toOption.map fun b => felt (beNat b)

/-- Selectors and offsets one after the other (lib.rs:372). -/
def flatPairs (l : Option (List (F × F))) : List F := (l.getD []).flatMap fun e => [e.1, e.2]

/-- `compute_cairo_class_hash` (lib.rs:334-417). -/
def cairoHash (h : Hashes) (c : Cairo) : Option F :=
  (prepare c.program).bind fun p =>
  (p.builtins.mapM builtinFelt).bind fun builtins =>
  (p.data.mapM wordFelt).bind fun data =>
  some (chain h [0, chain h (flatPairs c.entryPoints.external), chain h (flatPairs c.entryPoints.l1Handler),
    chain h (flatPairs c.entryPoints.constructor), chain h builtins, truncatedKeccak h (asciiBytes (hintedText c.abi p)), chain h data])

/-! ## Sierra classes -/

/-- `json::SierraContractDefinition` (lib.rs:742-758). The ABI is a string, here its bytes. An entry point is a selector and a function index,
which is `u64`. -/
structure Sierra where
  abi : List UInt8
  program : List F
  version : Str
  entryPoints : EntryPoints (F × Nat)

/-- `CONTRACT_CLASS_V0.1.0` (lib.rs:566). -/
def sierraVersion : F := feltText "CONTRACT_CLASS_V0.1.0".toList

/-- Selectors and function indices one after the other (lib.rs:587). -/
def flatIndices (l : Option (List (F × Nat))) : List F := (l.getD []).flatMap fun e => [e.1, felt e.2]

/-- `compute_sierra_class_hash` (lib.rs:557-615). -/
def sierraHash (h : Hashes) (c : Sierra) : Option F :=
  if c.version ≠ "0.1.0".toList then none
  else some (h.many [sierraVersion, h.many (flatIndices c.entryPoints.external), h.many (flatIndices c.entryPoints.l1Handler),
    h.many (flatIndices c.entryPoints.constructor), truncatedKeccak h c.abi, h.many c.program])

/-- `json::ContractDefinition` (lib.rs:735-739). -/
inductive ClassDef
  | cairo (c : Cairo)
  | sierra (c : Sierra)

/-- `compute_class_hash` (lib.rs:96-131) after parsing. -/
def classHash (h : Hashes) : ClassDef → Option F
  | .cairo c => cairoHash h c
  | .sierra c => sierraHash h c

/-- `from_parts::compute_cairo_class_hash` (lib.rs:195-215), used for classes from peers. -/
def cairoPartsHash (h : Hashes) (abi : Json) (program : Program) (external l1Handler constructor : List (F × F)) : Option F :=
  cairoHash h ⟨abi, program, ⟨some external, some l1Handler, some constructor⟩⟩

/-- `from_parts::compute_sierra_class_hash` (lib.rs:217-238). -/
def sierraPartsHash (h : Hashes) (abi : List UInt8) (program : List F) (version : Str) (external l1Handler constructor : List (F × Nat)) :
    Option F := sierraHash h ⟨abi, program, version, ⟨some external, some l1Handler, some constructor⟩⟩

end Verif.Class
