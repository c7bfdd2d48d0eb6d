import Verif.State.Model
/-
Model of the migrations that rewrite the tables of headers, state updates and classes:
crates/storage/src/schema/revision_0056.rs, 0058, 0059, 0060, 0061, 0062, 0064, 0065, 0071, 0072, 0073 and 0075, from the
tables of crates/storage/src/schema/base.rs. The tables they lead to, and everything that reads and writes them later, are
those of Verif/State.

Simplifications for the whole file: those of Verif/State; a row of the old tables always has a block number (a row without
one makes revisions 56 and 59 fail); the blobs of class definitions are left out; a migration that reports an error is
`none`, and leaves the database as it was (schema migrations run in one transaction each, Verif/Schema).
-/
namespace Verif.Migrate
open Verif.State

/-- A row of the old `storage_updates`, base.rs 134-139. -/
structure OldStorage where
  block : Nat
  addr : Addr
  key : Key
  val : Val
deriving DecidableEq, Repr

/-- The tables before revision 56: `block_headers` (number and hash), `storage_updates`, `nonce_updates` and
`contract_updates` (base.rs 124-139), `class_definitions` (base.rs 6-10, hash and block number) and `casm_definitions`
(base.rs 97-103, class and compiled class hash). -/
structure Old where
  headers : List (Nat × Hash) := []
  storage : List OldStorage := []
  nonces : List (Row Addr Nonce) := []
  contracts : List (Row Addr Class) := []
  classDefs : List (Class × Option Nat) := []
  casmDefs : List (Class × Casm) := []
deriving DecidableEq, Repr

/-- The tables that revisions 56 and 59 replace: the two tables of addresses, and the rows that refer to them. -/
structure Norm where
  addrs : List Addr := []
  keys : List Key := []
  storage : List (Row (Nat × Nat) Val) := []
  nonces : List (Row Nat Nonce) := []
deriving DecidableEq, Repr

/-- One turn of the loop of revision 56, revision_0056.rs 72-114: look up both addresses, or insert them, and insert the row. -/
def storageStep (t : Norm) (r : OldStorage) : Norm :=
  let a := intern t.addrs r.addr
  let k := intern t.keys r.key
  { t with addrs := a.1, keys := k.1, storage := t.storage ++ [⟨r.block, (a.2, k.2), r.val⟩] }

/-- Revision 56, revision_0056.rs 6-136. -/
def revision56 (rows : List OldStorage) (t : Norm) : Norm := rows.foldl storageStep t

/-- One turn of the loop of revision 59, revision_0059.rs 49-76. -/
def nonceStep (t : Norm) (r : Row Addr Nonce) : Norm :=
  let a := intern t.addrs r.key
  { t with addrs := a.1, nonces := t.nonces ++ [⟨r.block, a.2, r.val⟩] }

/-- Revision 59, revision_0059.rs 6-98. -/
def revision59 (rows : List (Row Addr Nonce)) (t : Norm) : Norm := rows.foldl nonceStep t

/-- The two class hashes of revision_0073.rs 18-25. -/
def knownClasses : List Class := [
  0x045407B5C7D5823F2DB10470C48F1B18C40F6A9543399E650C9A38A0F6251FFC,
  0x07E4359644723B854E30F650297EDA37FACF490C93AC119FBFF079CA2667C461]

/-- One turn of the loop of revision 73, revision_0073.rs 27-43. -/
def forget (redeclared : List (Class × Nat)) (defs : List (Class × Option Nat)) (h : Class) : List (Class × Option Nat) :=
  if redeclared.any (fun r => r.1 == h) then defs else defs.map fun d => if d.1 = h then (d.1, none) else d

/-- Revision 73, revision_0073.rs 15-46. -/
def revision73 (redeclared : List (Class × Nat)) (defs : List (Class × Option Nat)) : List (Class × Option Nat) :=
  knownClasses.foldl (forget redeclared) defs

/-- Revision 75, revision_0075.rs 25-39: `class_definitions INNER JOIN casm_definitions ON hash`. Rows without a block number
are left out: the reads of Verif/State skip them (`block_number IS NOT NULL`, `block_number <= ?`, class.rs 478-521). -/
def revision75 (defs : List (Class × Option Nat)) (casm : List (Class × Casm)) : List CasmRow :=
  defs.flatMap fun d => (casm.filter fun c => c.1 == d.1).filterMap fun c => d.2.map fun b => ⟨d.1, b, c.2⟩

/-- All migrations of the tables of state updates and classes, in the order of schema.rs: 56, 59, 60 (a copy), 64 (an empty
table of re-declared classes), 71 (copies without the foreign keys, revision_0071.rs 163-184), 73 and 75. -/
def upgrade (o : Old) : Db :=
  let t := revision59 o.nonces (revision56 o.storage {})
  let defs := revision73 [] o.classDefs
  { headers := o.headers, addrs := t.addrs, keys := t.keys, contracts := o.contracts, nonces := t.nonces,
    storage := t.storage, classDefs := defs, redeclared := [], casm := revision75 defs o.casmDefs }

/-! ### headers -/

/-- The columns of `block_headers` that the migrations add. -/
structure Header where
  number : Nat
  hash : Hash
  parent : Hash
  ethL2 : Option Nat
  strkL2 : Option Nat
  receiptCommitment : Nat
  diffCommitment : Option Nat
  diffLength : Nat
deriving DecidableEq, Repr

/-- Revision 58, revision_0058.rs 9-16, and the columns' defaults in revisions 61 (revision_0061.rs 7-11), 62
(revision_0062.rs 8-12) and 65 (revision_0065.rs 6-9). -/
def addColumns (r : Nat × Hash) : Header :=
  { number := r.1, hash := r.2, parent := 0, ethL2 := none, strkL2 := none, receiptCommitment := 0, diffCommitment := none,
    diffLength := 0 }

/-- The update of revision 61, revision_0061.rs 16-22: the hash of the row with the number before it; `none` if there is no
such row, which fails because the column is `NOT NULL`. Genesis is left alone. -/
def setParent (hs : List Header) (h : Header) : Option Header :=
  if 0 < h.number then (hs.find? fun p => p.number == h.number - 1).map fun p => { h with parent := p.hash } else some h

/-- Revision 61, revision_0061.rs 3-25. -/
def revision61 (hs : List Header) : Option (List Header) := hs.mapM (setParent hs)

/-- One of the columns in revision 72. -/
def zeroToOne : Option Nat → Option Nat
  | some 0 => some 1
  | p => p

/-- Revision 72, revision_0072.rs 3-20: a stored price of zero becomes one. -/
def revision72 (hs : List Header) : List Header :=
  hs.map fun h => { h with ethL2 := zeroToOne h.ethL2, strkL2 := zeroToOne h.strkL2 }

/-- The columns of the headers after the upgrade. -/
def upgradeHeaders (hs : List (Nat × Hash)) : Option (List Header) := (revision61 (hs.map addColumns)).map revision72

/-- A block header as it is read, block.rs 588-648: prices and commitments that are NULL read as zero. -/
structure Read where
  parent : Hash
  ethL2 : Nat
  strkL2 : Nat
  receiptCommitment : Nat
  diffCommitment : Nat
  diffLength : Nat
deriving DecidableEq, Repr

/-- `parse_row_as_header`, block.rs 588-648. -/
def Header.read (h : Header) : Read :=
  { parent := h.parent, ethL2 := h.ethL2.getD 0, strkL2 := h.strkL2.getD 0, receiptCommitment := h.receiptCommitment,
    diffCommitment := h.diffCommitment.getD 0, diffLength := h.diffLength }

/-- `block_header` for a number, block.rs: the header of the block. -/
def blockHeader (hs : List Header) (n : Nat) : Option Read := (hs.find? fun h => h.number == n).map Header.read

/-- What the gateway's block and the checks of the sync say of a block: hash and parent hash, the L2 gas prices (which blocks before
Starknet 0.13.4 do not have), the receipt commitment, and commitment and length of the state diff. -/
structure Reply where
  hash : Hash
  parent : Hash
  l2Price : Option (Nat × Nat)
  receiptCommitment : Nat
  diffCommitment : Nat
  diffLength : Nat
deriving DecidableEq, Repr

/-- The header that `l2_block_from_fgw_reply` makes and `insert_block_header` stores, sync.rs 1436-1500 of
crates/pathfinder/src/state and block.rs 14-90: a missing L2 gas price is one. -/
def storeHeader (n : Nat) (b : Reply) : Header :=
  { number := n, hash := b.hash, parent := b.parent, ethL2 := some (b.l2Price.getD (1, 1)).1,
    strkL2 := some (b.l2Price.getD (1, 1)).2, receiptCommitment := b.receiptCommitment,
    diffCommitment := some b.diffCommitment, diffLength := b.diffLength }

end Verif.Migrate
