import Verif.Class.HashModel
import Verif.Block.Spec
/-!
# What a class hash stands for

What two classes with the same hash have in common, and the text that the network hashes for a Cairo 0 class.
-/
namespace Verif.Class
open Verif.Block (F felt Hashes Query chainQ chain)

/-! ## Well-formed input -/

/-- A character of a JSON number. -/
def NumChar (c : Char) : Prop := ('0' ≤ c ∧ c ≤ '9') ∨ c = '-' ∨ c = '+' ∨ c = '.' ∨ c = 'e' ∨ c = 'E'

mutual
/-- The numbers are texts of JSON numbers. -/
def Json.Ok : Json → Prop
  | .null => True
  | .bool _ => True
  | .num t => t ≠ [] ∧ ∀ c ∈ t, NumChar c
  | .str _ => True
  | .arr l => ItemsOk l
  | .obj l => FieldsOk l
def ItemsOk : List Json → Prop
  | [] => True
  | x :: l => x.Ok ∧ ItemsOk l
def FieldsOk : List (Str × Json) → Prop
  | [] => True
  | (_, v) :: l => v.Ok ∧ FieldsOk l
end

/-- All JSON values of a class are well formed, and there are fewer than 2^63 entry points of a type. -/
structure Cairo.Ok (c : Cairo) : Prop where
  abi : c.abi.Ok
  attributes : ItemsOk c.program.attributes
  hints : ∀ p ∈ c.program.hints, ItemsOk p.2
  identifiers : c.program.identifiers.Ok
  referenceManager : c.program.referenceManager.Ok
  external : (c.entryPoints.external.getD []).length < 2 ^ 63
  l1Handler : (c.entryPoints.l1Handler.getD []).length < 2 ^ 63
  constructor : (c.entryPoints.constructor.getD []).length < 2 ^ 63

/-- Function indices are `u64`. -/
def Sierra.Ok (c : Sierra) : Prop :=
  ∀ l, l = c.entryPoints.external ∨ l = c.entryPoints.l1Handler ∨ l = c.entryPoints.constructor → ∀ e ∈ l.getD [], e.2 < 2 ^ 64

def ClassDef.Ok : ClassDef → Prop
  | .cairo c => c.Ok
  | .sierra c => c.Ok

/-! ## Classes that count as the same -/

/-- Two values of a field of an attribute count as the same: they are equal, or the field is one of the two that older compilers did not write
and has the value of a field that is not there. -/
def Alike (k : Str) (x y : Option Json) : Prop :=
  x = y ∨
  (k = "accessible_scopes".toList ∧ (x = none ∨ x = some (.arr [])) ∧ (y = none ∨ y = some (.arr []))) ∨
  (k = "flow_tracking_data".toList ∧ (x = none ∨ x = some .null) ∧ (y = none ∨ y = some .null))

def AlikeAttributes : Json → Json → Prop
  | .obj l, .obj l' => ∀ k, Alike k (l.lookup k) (l'.lookup k)
  | _, _ => False

/-- The items of two lists count pairwise as the same. -/
inductive Pairwise₂ {α : Type} (R : α → α → Prop) : List α → List α → Prop
  | nil : Pairwise₂ R [] []
  | cons {a b l l'} : R a b → Pairwise₂ R l l' → Pairwise₂ R (a :: l) (b :: l')

mutual
/-- The value without the spaces in the strings of the fields `cairo_type` and `value`. -/
def unspaced : Json → Json
  | .null => .null
  | .bool b => .bool b
  | .num t => .num t
  | .str s => .str s
  | .arr l => .arr (unspacedItems l)
  | .obj l => .obj (unspacedFields l)
def unspacedItems : List Json → List Json
  | [] => []
  | x :: l => unspaced x :: unspacedItems l
def unspacedFields : List (Str × Json) → List (Str × Json)
  | [] => []
  | (k, v) :: l => (k, if k = "cairo_type".toList ∨ k = "value".toList then unspacedString v else unspaced v) :: unspacedFields l
def unspacedString : Json → Json
  | .null => .null
  | .bool b => .bool b
  | .num t => .num t
  | .str s => .str (s.filter (· ≠ ' '))
  | .arr l => .arr (unspacedItems l)
  | .obj l => .obj (unspacedFields l)
end

/-- The entry points are the same; a type that is missing counts as empty. -/
def SameEntryPoints {α : Type} (a b : EntryPoints α) : Prop :=
  a.external.getD [] = b.external.getD [] ∧ a.l1Handler.getD [] = b.l1Handler.getD [] ∧ a.constructor.getD [] = b.constructor.getD []

/-- Two programs are the same except for the debug information, attribute fields without information, and, without a compiler version, spaces in
type names. -/
structure SameProgram (p q : Program) : Prop where
  attributes : Pairwise₂ AlikeAttributes p.attributes q.attributes
  builtins : p.builtins = q.builtins
  compilerVersion : p.compilerVersion = q.compilerVersion
  data : p.data = q.data
  hints : p.hints = q.hints
  identifiers : if p.compilerVersion = none then unspaced p.identifiers = unspaced q.identifiers else p.identifiers = q.identifiers
  mainScope : p.mainScope = q.mainScope
  prime : p.prime = q.prime
  referenceManager : if p.compilerVersion = none then unspaced p.referenceManager = unspaced q.referenceManager
    else p.referenceManager = q.referenceManager

/-- Two classes are the same. -/
def Same : ClassDef → ClassDef → Prop
  | .cairo a, .cairo b => a.abi = b.abi ∧ SameProgram a.program b.program ∧ SameEntryPoints a.entryPoints b.entryPoints
  | .sierra a, .sierra b => a.abi = b.abi ∧ a.program = b.program ∧ a.version = b.version ∧ SameEntryPoints a.entryPoints b.entryPoints
  | _, _ => False

/-! ## Queries to the hash functions -/

/-- The hashes computed for a Cairo 0 class. -/
def cairoQueries (h : Hashes) (c : Cairo) : List Query :=
  match prepare c.program with
  | none => []
  | some p =>
    [.reason (asciiBytes (hintedText c.abi p))] ++
    chainQ h (flatPairs c.entryPoints.external) ++ chainQ h (flatPairs c.entryPoints.l1Handler) ++ chainQ h (flatPairs c.entryPoints.constructor) ++
    (match p.builtins.mapM builtinFelt, p.data.mapM wordFelt with
      | some builtins, some data => chainQ h [0, chain h (flatPairs c.entryPoints.external), chain h (flatPairs c.entryPoints.l1Handler),
          chain h (flatPairs c.entryPoints.constructor), chain h builtins, truncatedKeccak h (asciiBytes (hintedText c.abi p)), chain h data]
      | _, _ => [])

/-- The hashes computed for a Sierra class. -/
def sierraQueries (h : Hashes) (c : Sierra) : List Query :=
  [.reason c.abi, .many (flatIndices c.entryPoints.external), .many (flatIndices c.entryPoints.l1Handler),
    .many (flatIndices c.entryPoints.constructor), .many c.program,
    .many [sierraVersion, h.many (flatIndices c.entryPoints.external), h.many (flatIndices c.entryPoints.l1Handler),
      h.many (flatIndices c.entryPoints.constructor), truncatedKeccak h c.abi, h.many c.program]]

def queries (h : Hashes) : ClassDef → List Query
  | .cairo c => cairoQueries h c
  | .sierra c => sierraQueries h c

/-! ## The text that the network hashes

`json.dumps` of Python with its default `ensure_ascii`: printable ASCII characters are written as they are and all others as `\uXXXX` with four
digits.
-/

/-- Four hexadecimal digits. -/
def hexFour (n : Nat) : Str := [hexDigit (n / 4096 % 16), hexDigit (n / 256 % 16), hexDigit (n / 16 % 16), hexDigit (n % 16)]

def pyEscape (c : Char) : Str :=
  if c = '"' then ['\\', '"']
  else if c = '\\' then ['\\', '\\']
  else if c.toNat = 8 then ['\\', 'b']
  else if c.toNat = 12 then ['\\', 'f']
  else if c.toNat = 10 then ['\\', 'n']
  else if c.toNat = 13 then ['\\', 'r']
  else if c.toNat = 9 then ['\\', 't']
  else if ' ' ≤ c ∧ c ≤ '~' then [c]
  else (utf16 c).flatMap fun u => '\\' :: 'u' :: hexFour u

def pyString (s : Str) : Str := '"' :: (s.flatMap pyEscape ++ ['"'])

mutual
def pyJson : Json → Str
  | .null => "null".toList
  | .bool b => if b then "true".toList else "false".toList
  | .num t => t
  | .str s => pyString s
  | .arr l => ['['] ++ List.intercalate ", ".toList (pyItems l) ++ [']']
  | .obj l => ['{'] ++ List.intercalate ", ".toList (pyFields l) ++ ['}']
def pyItems : List Json → List Str
  | [] => []
  | x :: l => pyJson x :: pyItems l
def pyFields : List (Str × Json) → List Str
  | [] => []
  | (k, v) :: l => (pyString k ++ ": ".toList ++ pyJson v) :: pyFields l
end

/-- A character that is neither printable ASCII nor written with four digits: U+007F to U+0FFF. -/
def Odd (c : Char) : Prop := 0x7f ≤ c.toNat ∧ c.toNat < 0x1000

mutual
/-- No string or key of the value has such a character. -/
def Json.Plain : Json → Prop
  | .null => True
  | .bool _ => True
  | .num _ => True
  | .str s => ∀ c ∈ s, ¬ Odd c
  | .arr l => ItemsPlain l
  | .obj l => FieldsPlain l
def ItemsPlain : List Json → Prop
  | [] => True
  | x :: l => x.Plain ∧ ItemsPlain l
def FieldsPlain : List (Str × Json) → Prop
  | [] => True
  | (k, v) :: l => (∀ c ∈ k, ¬ Odd c) ∧ v.Plain ∧ FieldsPlain l
end

/-- The text of a prepared definition as the network hashes it. -/
def officialText (abi : Json) (p : Program) : Str := pyJson (.obj [("abi".toList, abi), ("program".toList, programJson p)])

/-- The hashes of the text and of its result. -/
def officialQueries (h : Hashes) (c : Cairo) : List Query :=
  match prepare c.program with
  | none => []
  | some p =>
    .reason (asciiBytes (officialText c.abi p)) ::
    (match p.builtins.mapM builtinFelt, p.data.mapM wordFelt with
      | some builtins, some data => chainQ h [0, chain h (flatPairs c.entryPoints.external), chain h (flatPairs c.entryPoints.l1Handler),
          chain h (flatPairs c.entryPoints.constructor), chain h builtins, truncatedKeccak h (asciiBytes (officialText c.abi p)), chain h data]
      | _, _ => [])

/-- The class hash that the network gives a Cairo 0 class. -/
def officialHash (h : Hashes) (c : Cairo) : Option F :=
  (prepare c.program).bind fun p =>
  (p.builtins.mapM builtinFelt).bind fun builtins =>
  (p.data.mapM wordFelt).bind fun data =>
  some (chain h [0, chain h (flatPairs c.entryPoints.external), chain h (flatPairs c.entryPoints.l1Handler),
    chain h (flatPairs c.entryPoints.constructor), chain h builtins, truncatedKeccak h (asciiBytes (officialText c.abi p)), chain h data])

/-- Selector, index, selector, index and so on. -/
def officialEntries : List (F × Nat) → List F
  | [] => []
  | (selector, index) :: l => selector :: felt index :: officialEntries l

/-- The class hash that the network gives a Sierra class: the version, the three kinds of entry points in the order external, handler of messages
from L1, constructor, where a kind that is missing counts as empty, the lower 250 bits of the Keccak of the ABI, and the program. -/
def officialSierra (h : Hashes) (abi : List UInt8) (program : List F) (external l1Handler constructor : List (F × Nat)) : F :=
  h.many [Verif.Block.feltText ['C', 'O', 'N', 'T', 'R', 'A', 'C', 'T', '_', 'C', 'L', 'A', 'S', 'S', '_', 'V', '0', '.', '1', '.', '0'],
    h.many (officialEntries external), h.many (officialEntries l1Handler), h.many (officialEntries constructor),
    felt (h.keccak abi % 0x400000000000000000000000000000000000000000000000000000000000000), h.many program]

end Verif.Class
