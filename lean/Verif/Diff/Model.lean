/-!
# State updates: commitment, length, layering

Model of `crates/common/src/state_update.rs`. A field element is a number. A hash map or hash set is the list of its entries in the
order of iteration, which is arbitrary: the theorems hold for every order.
-/
namespace Verif.Diff

/-- `ContractClassUpdate` (state_update.rs:54-58). -/
inductive ClassUpd
  | deploy (h : Nat)
  | replace (h : Nat)
  deriving DecidableEq

/-- `ContractClassUpdate::class_hash` (state_update.rs:115-120). -/
def ClassUpd.hash : ClassUpd → Nat
  | .deploy h => h
  | .replace h => h

/-- `ContractUpdate` (state_update.rs:40-47). -/
structure CUpd where
  storage : List (Nat × Nat) := []
  cls : Option ClassUpd := none
  nonce : Option Nat := none
  deriving DecidableEq

/-- `StateUpdate` and `StateUpdateData` (state_update.rs:19-38) without the block hash and the two commitments. -/
structure SU where
  contracts : List (Nat × CUpd) := []
  system : List (Nat × List (Nat × Nat)) := []
  cairo : List Nat := []
  sierra : List (Nat × Nat) := []
  migrated : List (Nat × Nat) := []
  deriving DecidableEq

/-! ## The commitment -/

/-- Insertion into a sorted map or set: an element with the same key is replaced. -/
def btInsert {α κ : Type} [DecidableEq κ] (lt : κ → κ → Bool) (key : α → κ) (x : α) : List α → List α
  | [] => [x]
  | y :: ys =>
    if lt (key x) (key y) then x :: y :: ys
    else if key x = key y then x :: ys
    else y :: btInsert lt key x ys

/-- `collect` into a `BTreeMap` or `BTreeSet`, as the list it is iterated in. -/
def btree {α κ : Type} [DecidableEq κ] (lt : κ → κ → Bool) (key : α → κ) (l : List α) : List α :=
  l.foldl (fun m x => btInsert lt key x m) []

def natLt (a b : Nat) : Bool := decide (a < b)

/-- The order of pairs. -/
def pairLt (a b : Nat × Nat) : Bool := decide (a.1 < b.1) || (decide (a.1 = b.1) && decide (a.2 < b.2))

/-- `felt_bytes!(b"STARKNET_STATE_DIFF0")`, the bytes as a big-endian number. -/
def diffPrefix : Nat := 0x535441524b4e45545f53544154455f4449464630

/-- A count and the pairs. -/
def writePairs (l : List (Nat × Nat)) : List Nat := l.length :: l.flatMap fun p => [p.1, p.2]

/-- The deployed and replaced contracts (state_update.rs:626-634). -/
def deployed (u : SU) : List (Nat × Nat) :=
  btree natLt (·.1) (u.contracts.filterMap fun p => p.2.cls.map fun c => (p.1, c.hash))

/-- The declared and migrated classes (state_update.rs:641-645). -/
def classes (u : SU) : List (Nat × Nat) := btree pairLt id (u.sierra ++ u.migrated)

/-- The Cairo 0 classes (state_update.rs:652-653). -/
def cairoClasses (u : SU) : List Nat := btree natLt id u.cairo

/-- The storage differences (state_update.rs:661-679). -/
def storageDiffs (u : SU) : List (Nat × List (Nat × Nat)) :=
  btree natLt (·.1) (((u.contracts.map fun p => (p.1, p.2.storage)) ++ u.system).filterMap fun p =>
    if p.2.isEmpty then none else some (p.1, btree natLt (·.1) p.2))

/-- The nonces (state_update.rs:689-692). -/
def nonces (u : SU) : List (Nat × Nat) := btree natLt (·.1) (u.contracts.filterMap fun p => p.2.nonce.map fun n => (p.1, n))

/-- What `compute` (state_update.rs:616-699) writes to the hasher, in this order. -/
def diffStream (u : SU) : List Nat :=
  diffPrefix :: writePairs (deployed u) ++ writePairs (classes u) ++ ((cairoClasses u).length :: cairoClasses u) ++ [1, 0] ++
    ((storageDiffs u).length :: (storageDiffs u).flatMap fun p => p.1 :: writePairs p.2) ++ writePairs (nonces u)

/-- `compute_state_diff_commitment` (state_update.rs:323-331 and 394-402). `hash` is the Poseidon sponge over the elements written
(`Verif.Crypto.Poseidon`). -/
def commitment (hash : List Nat → Nat) (u : SU) : Nat := hash (diffStream u)

/-! ## The length -/

/-- The loops of `state_diff_length`. -/
def contractsLength (u : SU) : Nat :=
  (u.contracts.map fun p => p.2.storage.length + p.2.nonce.isSome.toNat + p.2.cls.isSome.toNat).sum

def systemLength (u : SU) : Nat := (u.system.map fun p => p.2.length).sum

/-- `StateUpdate::state_diff_length` (state_update.rs:333-347). -/
def lengthUpdate (u : SU) : Nat := contractsLength u + systemLength u + (u.cairo.length + u.sierra.length + u.migrated.length)

/-- `StateUpdateData::state_diff_length` (state_update.rs:418-430). The migrated classes are left out, as in the program. -/
def lengthData (u : SU) : Nat := contractsLength u + systemLength u + (u.cairo.length + u.sierra.length)

/-- `StateUpdateData::is_empty` (state_update.rs:404-409). -/
def isEmptyData (u : SU) : Bool := u.contracts.isEmpty && u.system.isEmpty && u.cairo.isEmpty && u.sierra.isEmpty

/-- `StateUpdate::change_count` (state_update.rs:215-233). -/
def changeCount (u : SU) : Nat :=
  u.cairo.length + u.sierra.length + systemLength u +
    (u.contracts.map fun p => p.2.storage.length + p.2.cls.isSome.toNat + p.2.nonce.isSome.toNat).sum

/-! ## Layering -/

/-- `entry(k).or_default()`, then a change of the entry. -/
def modify {α : Type} (d : α) (l : List (Nat × α)) (k : Nat) (f : α → α) : List (Nat × α) :=
  match l with
  | [] => [(k, f d)]
  | p :: ps => if p.1 = k then (k, f p.2) :: ps else p :: modify d ps k f

/-- `HashMap::insert`. -/
def insert (l : List (Nat × Nat)) (p : Nat × Nat) : List (Nat × Nat) := modify p.2 l p.1 fun _ => p.2

/-- `HashSet::insert`. -/
def insertSet (l : List Nat) (x : Nat) : List Nat := if x ∈ l then l else l ++ [x]

/-- The body of the loop over the contracts (state_update.rs:355-373). -/
def applyContract (e o : CUpd) : CUpd :=
  { storage := o.storage.foldl insert e.storage
    cls := match o.cls with
      | some c => some c
      | none => e.cls
    nonce := match o.nonce with
      | some n => some n
      | none => e.nonce }

/-- `StateUpdate::apply` (state_update.rs:350-390). The migrated classes of `other` are left out, as in the program. -/
def apply (u other : SU) : SU :=
  { u with
    contracts := other.contracts.foldl (fun l p => modify {} l p.1 fun e => applyContract e p.2) u.contracts
    system := other.system.foldl (fun l p => modify [] l p.1 fun e => p.2.foldl insert e) u.system
    cairo := other.cairo.foldl insertSet u.cairo
    sierra := other.sierra.foldl insert u.sierra }

/-- `FoundStorageValue` (state_update.rs:89-97). -/
inductive Found
  | zero
  | set (v : Nat)
  deriving DecidableEq

/-- `contract_nonce` (state_update.rs:240-253). -/
def contractNonce (u : SU) (a : Nat) : Option Nat :=
  (u.contracts.lookup a).bind fun x => x.nonce.or (x.cls.bind fun c => match c with
    | .deploy _ => some 0
    | .replace _ => none)

/-- `contract_class` (state_update.rs:257-261). -/
def contractClass (u : SU) (a : Nat) : Option Nat := (u.contracts.lookup a).bind fun x => x.cls.map (·.hash)

/-- `class_is_declared` (state_update.rs:265-272). -/
def classIsDeclared (u : SU) (c : Nat) : Bool := if u.cairo.contains c then true else (u.sierra.lookup c).isSome

/-- `storage_value_with_provenance` (state_update.rs:290-321). -/
def storageValue (u : SU) (a k : Nat) : Option Found :=
  ((u.contracts.lookup a).bind fun x => ((x.storage.lookup k).map Found.set).or (x.cls.bind fun c => match c with
    | .deploy _ => some .zero
    | .replace _ => none)).or
  ((u.system.lookup a).bind fun s => (s.lookup k).map Found.set)

end Verif.Diff
