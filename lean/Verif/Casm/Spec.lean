import Verif.Casm.Model

/-!
# Compiled classes: specification

The schemas `CASM_COMPILED_CONTRACT_CLASS` and `CASM_ENTRY_POINT`
(`/repo/specs/rpc/v08/starknet_executables.json` and later), as predicates on JSON and as a relation
that says that two documents agree in all documented fields.
-/

namespace Verif.Casm

/-- The value of a field of an object, the first one of that name. -/
def J.get (k : String) : J → Option J
  | .obj fs => fs.lookup k
  | _ => none

/-- No field occurs twice. -/
def Once (fs : List (String × J)) : Prop := (fs.map Prod.fst).Nodup

/-- `CASM_ENTRY_POINT`. -/
def IsEntry (j : J) : Prop := ∃ fs s o bs, j = .obj fs ∧ Once fs ∧
  j.get "selector" = some (.hex s) ∧ s < P ∧ j.get "offset" = some (.num o) ∧ o < 2 ^ 64 ∧
  j.get "builtins" = some (.arr bs) ∧ ∀ b ∈ bs, ∃ t, b = .str t

/-- The entry points of a class. -/
def IsEntries (j : J) : Prop := ∃ fs, j = .obj fs ∧ Once fs ∧
  ∀ k ∈ ["EXTERNAL", "L1_HANDLER", "CONSTRUCTOR"], ∃ es, j.get k = some (.arr es) ∧ ∀ e ∈ es, IsEntry e

/-- Lengths of segments: a number, or a list of lengths of segments. -/
inductive IsLengths : J → Prop
  | num (n : Nat) (h : n < 2 ^ 64) : IsLengths (.num n)
  | arr (l : List J) (h : ∀ j ∈ l, IsLengths j) : IsLengths (.arr l)

/-- `CASM_COMPILED_CONTRACT_CLASS`, with nested lengths of segments as the compiler writes them. -/
def IsClass (j : J) : Prop := ∃ fs bs v h e p, j = .obj fs ∧ Once fs ∧
  j.get "bytecode" = some (.arr bs) ∧ (∀ b ∈ bs, ∃ n, b = .hex n ∧ n < P) ∧
  (∀ s, j.get "bytecode_segment_lengths" = some s → IsLengths s) ∧
  j.get "compiler_version" = some (.str v) ∧ j.get "hints" = some h ∧
  j.get "entry_points_by_type" = some e ∧ IsEntries e ∧ j.get "prime" = some (.hex p)

/-- Two entry points agree. -/
def SameEntry (a b : J) : Prop := ∀ k ∈ ["selector", "offset", "builtins"], ∃ v,
  a.get k = some v ∧ b.get k = some v

/-- Two lists agree element by element. -/
inductive SameList : List J → List J → Prop
  | nil : SameList [] []
  | cons {a b : J} {as bs : List J} (h : SameEntry a b) (t : SameList as bs) :
      SameList (a :: as) (b :: bs)

/-- Two documents agree in all documented fields. -/
def Same (a b : J) : Prop :=
  (∀ k ∈ ["bytecode", "compiler_version", "hints", "prime"], ∃ v,
    a.get k = some v ∧ b.get k = some v) ∧
  (a.get "bytecode_segment_lengths" = b.get "bytecode_segment_lengths" ∨
    (a.get "bytecode_segment_lengths" = some .null ∧ b.get "bytecode_segment_lengths" = none)) ∧
  (∃ ea eb, a.get "entry_points_by_type" = some ea ∧ b.get "entry_points_by_type" = some eb ∧
    ∀ k ∈ ["EXTERNAL", "L1_HANDLER", "CONSTRUCTOR"], ∃ la lb,
      ea.get k = some (.arr la) ∧ eb.get k = some (.arr lb) ∧ SameList la lb)

/-- A class with numbers that fit. -/
def ValidEntry (e : Entry) : Prop := e.selector < P ∧ e.offset < 2 ^ 64

inductive ValidNested : Nested → Prop
  | leaf (n : Nat) (h : n < 2 ^ 64) : ValidNested (.leaf n)
  | node (l : List Nested) (h : ∀ n ∈ l, ValidNested n) : ValidNested (.node l)

def Valid (c : Casm) : Prop := (∀ b ∈ c.bytecode, b < P) ∧ (∀ s, c.segments = some s → ValidNested s) ∧
  (∀ e ∈ c.entries.external, ValidEntry e) ∧ (∀ e ∈ c.entries.l1Handler, ValidEntry e) ∧
  (∀ e ∈ c.entries.constructor, ValidEntry e)

end Verif.Casm
