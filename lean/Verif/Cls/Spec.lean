import Verif.Cls.Model
/-!
# What a class document says

Independent of how documents are read and written: when a JSON document describes a class, an entry point or an entry of an ABI.
-/
namespace Verif.Cls
open Verif.Block (F P)

/-- The document is an object in which the field has the value; of two fields with one name the last counts. -/
def Gives (j : J) (k : String) (v : J) : Prop := ∃ a b, j = .obj (a ++ (k, v) :: b) ∧ k ∉ b.map (·.1)

/-- The document is an object without the field. -/
def Lacks (j : J) (k : String) : Prop := ∃ l, j = .obj l ∧ k ∉ l.map (·.1)

/-- The document is an object with no other fields than these. -/
def Only (j : J) (names : List String) : Prop := ∃ l, j = .obj l ∧ ∀ p ∈ l, p.1 ∈ names

/-- Two lists of one length whose elements correspond. -/
inductive Each {α β : Type} (R : α → β → Prop) : List α → List β → Prop
  | nil : Each R [] []
  | cons {a b l m} : R a b → Each R l m → Each R (a :: l) (b :: m)

/-- A list of documents. -/
def ListOf {α : Type} (R : J → α → Prop) (v : J) (xs : List α) : Prop := ∃ l, v = .arr l ∧ Each R l xs

section
variable {B : Type} (e : Ext B)

/-- What is assumed of the texts: what is written can be read. -/
structure Ext.Ok : Prop where
  felt : ∀ x, e.felt (e.feltText x) = some x
  u64 : ∀ n, n < 2 ^ 64 → e.u64 (e.u64Text n) = some n
  u64_lt : ∀ s n, e.u64 s = some n → n < 2 ^ 64
  base64 : ∀ b, e.decode (e.encode b) = some b

/-- A field element. -/
def FeltDoc (v : J) (x : F) : Prop := ∃ s, v = .str s ∧ e.felt s = some x

/-- A 64-bit number. -/
def NumDoc (v : J) (n : Nat) : Prop := v = .num n ∧ n < 2 ^ 64

/-- An offset: hexadecimal text or a number. -/
def OffsetDoc (v : J) (n : Nat) : Prop := (∃ s, v = .str s ∧ e.u64 s = some n) ∨ NumDoc v n

/-- An entry point of a Cairo 0 class. -/
def EpDoc (j : J) (x : Ep) : Prop :=
  Only j ["offset", "selector"] ∧ (∃ v, Gives j "offset" v ∧ OffsetDoc e v x.offset) ∧ ∃ v, Gives j "selector" v ∧ FeltDoc e v x.selector

/-- An entry point of a Sierra class. -/
def SEpDoc (j : J) (x : SEp) : Prop :=
  Only j ["function_idx", "selector"] ∧ (∃ v, Gives j "function_idx" v ∧ NumDoc v x.idx) ∧ ∃ v, Gives j "selector" v ∧ FeltDoc e v x.selector

/-- The entry points. -/
def EpsDoc {α : Type} (R : J → α → Prop) (j : J) (x : Eps α) : Prop :=
  Only j ["CONSTRUCTOR", "EXTERNAL", "L1_HANDLER"] ∧ (∃ v, Gives j "CONSTRUCTOR" v ∧ ListOf R v x.constructor)
    ∧ (∃ v, Gives j "EXTERNAL" v ∧ ListOf R v x.external) ∧ ∃ v, Gives j "L1_HANDLER" v ∧ ListOf R v x.l1Handler
end

/-- A parameter. -/
def ParamDoc (j : J) (x : Param) : Prop := Only j ["name", "type"] ∧ Gives j "name" (.str x.name) ∧ Gives j "type" (.str x.type)

/-- A member of a struct. -/
def MemberDoc (j : J) (x : Member) : Prop :=
  Only j ["name", "type", "offset"] ∧ Gives j "name" (.str x.name) ∧ Gives j "type" (.str x.type) ∧ ∃ v, Gives j "offset" v ∧ NumDoc v x.offset

/-- An optional field: missing or `null`, or a value. -/
def OptDoc {α : Type} (R : J → α → Prop) (j : J) (k : String) : Option α → Prop
  | none => Lacks j k ∨ Gives j k .null
  | some x => ∃ v, Gives j k v ∧ v ≠ .null ∧ R v x

/-- A function, an event or a struct of an ABI. -/
def EntryDoc (j : J) : Entry → Prop
  | .fn f => Only j ["type", "name", "inputs", "outputs", "stateMutability"]
      ∧ Gives j "type" (.str (match f.type with | .function => "function" | .l1Handler => "l1_handler" | .constructor => "constructor"))
      ∧ Gives j "name" (.str f.name) ∧ OptDoc (ListOf ParamDoc) j "inputs" f.inputs ∧ OptDoc (ListOf ParamDoc) j "outputs" f.outputs
      ∧ OptDoc (fun v s => v = .str s) j "stateMutability" f.stateMutability
  | .ev v => Only j ["type", "name", "keys", "data", "inputs", "outputs"] ∧ Gives j "type" (.str "event") ∧ Gives j "name" (.str v.name)
      ∧ OptDoc (ListOf ParamDoc) j "keys" v.keys ∧ OptDoc (ListOf ParamDoc) j "data" v.data
      ∧ OptDoc (ListOf ParamDoc) j "inputs" v.inputs ∧ OptDoc (ListOf ParamDoc) j "outputs" v.outputs
  | .st s => Only j ["type", "name", "size", "members"] ∧ Gives j "type" (.str "struct") ∧ Gives j "name" (.str s.name)
      ∧ (∃ v, Gives j "size" v ∧ NumDoc v s.size) ∧ ∃ v, Gives j "members" v ∧ ListOf MemberDoc v s.members

section
variable {B : Type} (e : Ext B)

/-- A Sierra class. -/
def SierraDoc (j : J) (c : Sierra) : Prop :=
  Only j ["sierra_program", "contract_class_version", "entry_points_by_type", "abi"]
    ∧ (∃ v, Gives j "sierra_program" v ∧ ListOf (FeltDoc e) v c.program) ∧ Gives j "contract_class_version" (.str c.version)
    ∧ (∃ v, Gives j "entry_points_by_type" v ∧ EpsDoc (SEpDoc e) v c.entryPoints)
    ∧ (Gives j "abi" (.str c.abi) ∨ Lacks j "abi" ∧ c.abi = "")

/-- A Cairo 0 class as users declare it: the program is text. -/
def CairoDoc (j : J) (c : Cairo) : Prop :=
  Only j ["program", "entry_points_by_type", "abi"] ∧ Gives j "program" (.str c.program)
    ∧ (∃ v, Gives j "entry_points_by_type" v ∧ EpsDoc (EpDoc e) v c.entryPoints) ∧ OptDoc (ListOf EntryDoc) j "abi" c.abi

/-- A Cairo 0 class as it is stored: the program is JSON, and an ABI that is none counts as missing. -/
def StoredCairo (j : J) (p : J) (x : Eps Ep) (a : Option (List Entry)) : Prop :=
  Lacks j "sierra_program" ∧ Gives j "program" p ∧ (∃ v, Gives j "entry_points_by_type" v ∧ EpsDoc (EpDoc e) v x)
    ∧ match a with
      | some xs => ∃ v, Gives j "abi" v ∧ ListOf EntryDoc v xs
      | none => Lacks j "abi" ∨ ∃ v, Gives j "abi" v ∧ ¬ ∃ xs, ListOf EntryDoc v xs

/-- The text is the base64 form of the compressed JSON. -/
def Packed (s : String) (p : J) : Prop := e.decode s = some (e.zip p)

/-- The JSON is not too long to be decompressed: `CLASS_DEFINITION_MAX_ALLOWED_SIZE`. -/
def Fits (p : J) : Prop := e.unzip (e.zip p) = some p
end

/-- An entry as compilers write it: nothing is left out or foreign. -/
def Standard : Entry → Prop
  | .fn f => f.inputs ≠ none ∧ f.outputs ≠ none ∧ (f.stateMutability = none ∨ f.stateMutability = some "view")
  | .ev v => v.keys ≠ none ∧ v.data ≠ none ∧ v.inputs = none ∧ v.outputs = none
  | .st _ => True

/-- What an answer makes of an entry: lists that are missing become empty, a state mutability becomes `view`, inputs and outputs of events are dropped. -/
def tidy : Entry → Entry
  | .fn f => .fn { f with inputs := some (f.inputs.getD []), outputs := some (f.outputs.getD []), stateMutability := f.stateMutability.map fun _ => "view" }
  | .ev v => .ev { v with keys := some (v.keys.getD []), data := some (v.data.getD []), inputs := none, outputs := none }
  | .st s => .st s

/-- Nothing of a document is lost in another: field elements may be spelled in another way, a field that is `null` may be missing, and a field that is
missing may be `null` or an empty list. -/
inductive Kept {B : Type} (e : Ext B) : J → J → Prop
  | same (j : J) : Kept e j j
  | felt (a b : String) (x : F) : e.felt a = some x → e.felt b = some x → Kept e (.str a) (.str b)
  | arr (l m : List J) : l.length = m.length → (∀ (i : Nat) a b, l[i]? = some a → m[i]? = some b → Kept e a b) → Kept e (.arr l) (.arr m)
  | obj (l m : List (String × J)) : (∀ k v w, Gives (.obj l) k v → Gives (.obj m) k w → Kept e v w)
      → (∀ k v, Gives (.obj l) k v → Lacks (.obj m) k → v = .null)
      → (∀ k w, Lacks (.obj l) k → Gives (.obj m) k w → w = .null ∨ w = .arr []) → Kept e (.obj l) (.obj m)

/-- The same document up to the order of the fields of its objects. -/
inductive Eqv : J → J → Prop
  | same (j : J) : Eqv j j
  | arr (l m : List J) : l.length = m.length → (∀ (i : Nat) a b, l[i]? = some a → m[i]? = some b → Eqv a b) → Eqv (.arr l) (.arr m)
  | obj (l m : List (String × J)) : (∀ k v w, Gives (.obj l) k v → Gives (.obj m) k w → Eqv v w)
      → (∀ k, Lacks (.obj l) k ↔ Lacks (.obj m) k) → Eqv (.obj l) (.obj m)
end Verif.Cls
