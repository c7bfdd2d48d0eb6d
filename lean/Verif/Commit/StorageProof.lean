import Verif.Commit.Model
import Verif.Trie.Proof
/-!
# Storage proofs

Model of `starknet_getStorageProof` (crates/rpc/src/method/get_storage_proof.rs) and of the `get_proofs` of the three tries
(crates/merkle-tree/src/{contract,class}.rs), on the database of `Verif.Commit.Model`.

Simplifications: a block is its number; `block_hash` and the JSON form are left out. What the root tables and the state tables hold for a
block is what the world held after that block (C14, C15), while the nodes are looked up in the node tables as they are now. A key of a
request is the list of the 252 bits of the felt, most significant bit first. Nodes removed by pruning are in `Verif.Trie.Prune`.
-/
namespace Verif.Commit
open Verif.Trie

/-- A felt in a request: 252 bits. The keys are not checked (get_storage_proof.rs:21-32, 84-105). -/
abbrev FKey := List Bool

/-- `Felt::view_bits`: the low 251 bits (crypto/src/algebra/field/felt.rs:177-180). -/
def viewBits (k : FKey) : Key := k.drop 1

/-- A felt as a key of an SQL table: the rows have keys below 2^251, other felts find no row. -/
def dbKey : FKey → Option Key
  | false :: k => some k
  | _ => none

/-- `Input` (get_storage_proof.rs:76-82) without the block. -/
structure ProofReq where
  classes : Option (List FKey) := none
  contracts : Option (List FKey) := none
  storage : Option (List (FKey × List FKey)) := none

/-- `Error` (get_storage_proof.rs:33-40). -/
inductive PErr
  | internal
  | blockNotFound
  | limit (requested : Nat)
  | notSupported
  | proofMissing
  deriving DecidableEq

/-- `ContractLeafData` (get_storage_proof.rs:163-168). -/
structure LeafData (F : Type) where
  nonce : F
  cls : F
  root : F
  deriving DecidableEq

/-- `Output` (get_storage_proof.rs:229-235). -/
structure ProofOut (F : Type) where
  classNodes : List (PNode F × F)
  contractNodes : List (PNode F × F)
  leaves : List (LeafData F)
  storageNodes : List (List (PNode F × F))
  contractsRoot : F
  classesRoot : F

/-- The number of keys (get_storage_proof.rs:262-271). -/
def ProofReq.total (r : ProofReq) : Nat :=
  (r.classes.map List.length).getD 0 + (r.contracts.map List.length).getD 0 +
    (r.storage.map fun l => (l.map fun p => p.2.length).sum).getD 0

/-- `From<GetProofError>` (get_storage_proof.rs:48-58). -/
def liftP {α : Type} : Except Err α → Except PErr α
  | .ok a => .ok a
  | .error .missingNode => .error .proofMissing
  | .error _ => .error .internal

/-- `get_proofs`, flattened into a hash set (get_storage_proof.rs:357-367). The order of a hash set is not fixed; the theorems speak of the
members only. -/
def proofNodes {F} [DecidableEq F] (T : Table F) (leaf : Key → Option F) (H i : Nat) (keys : List FKey) :
    Except PErr (List (PNode F × F)) :=
  (liftP (getProofs (T.storage leaf) H i (keys.map viewBits))).map fun ps => ps.flatten.eraseDups

/-- `class_trie_node_hash(..)?.context(..)?` and the same for the storage trie. -/
def rowHash {F} (T : Table F) (i : Nat) : Except PErr F :=
  match T.row i with
  | none => .error .internal
  | some r => .ok r.1

/-- `get_class_proofs` (get_storage_proof.rs:327-371) and the common part of `get_contract_proofs` (373-424): `now` is the trie with the
nodes of today, `then_` the trie after the block. -/
def trieProofs {F} [DecidableEq F] (o : FeltOps F) (H : Nat) (pruning : Bool) (now then_ : DbTrie F) (keys : Option (List FKey)) :
    Except PErr (F × List (PNode F × F)) :=
  match then_.root with
  | none => if pruning then .error .notSupported else .ok (o.zero, [])
  | some i => (rowHash now.table i).bind fun h =>
    match keys with
    | none => .ok (h, [])
    | some ks => (proofNodes now.table then_.leaf H i ks).map fun ns => (h, ns)

/-- The leaf data of one address (get_storage_proof.rs:426-449). -/
def leafData {F} (o : Ops F) (now w : World F) (a : FKey) : LeafData F :=
  { nonce := ((dbKey a).bind w.nonce).getD o.ped.zero
    cls := ((dbKey a).bind w.cls).getD o.ped.zero
    root := (dbKey a).elim o.ped.zero fun a => contractRoot o { w with table := now.table } a }

/-- The leaf data of `get_contract_proofs` (get_storage_proof.rs:378-393, 402-404, 426-450): none if the trie is empty. -/
def leavesData {F} (o : Ops F) (now w : World F) (keys : Option (List FKey)) : List (LeafData F) :=
  match w.storageTrie.root, keys with
  | some _, some ks => ks.map (leafData o now w)
  | _, _ => []

/-- The body of the loop of `get_contract_storage_proofs` (get_storage_proof.rs:466-494). -/
def storageProof {F} [DecidableEq F] (H : Nat) (now w : World F) (p : FKey × List FKey) : Except PErr (List (PNode F × F)) :=
  match (dbKey p.1).bind w.roots with
  | none => .ok []
  | some i => proofNodes now.table (fun k => (dbKey p.1).bind fun a => w.leaf a k) H i p.2

/-- `get_contract_storage_proofs` (get_storage_proof.rs:458-498). -/
def storageProofs {F} [DecidableEq F] (H : Nat) (now w : World F) : List (FKey × List FKey) → Except PErr (List (List (PNode F × F)))
  | [] => .ok []
  | p :: ps => (storageProof H now w p).bind fun ns => (storageProofs H now w ps).map fun nss => ns :: nss

/-- The answer for a stored block (get_storage_proof.rs:299-322). -/
def proofAt {F} [DecidableEq F] (o : Ops F) (H : Nat) (pruning : Bool) (now w : World F) (r : ProofReq) : Except PErr (ProofOut F) :=
  (trieProofs o.pos H pruning now.classTrie w.classTrie r.classes).bind fun c =>
  (trieProofs o.ped H pruning now.storageTrie w.storageTrie r.contracts).bind fun s =>
  (storageProofs H now w (r.storage.getD [])).map fun nss =>
    { classNodes := c.2, contractNodes := s.2, leaves := leavesData o now w r.contracts, storageNodes := nss
      contractsRoot := s.1, classesRoot := c.1 }

/-- `get_storage_proof` (get_storage_proof.rs:258-325): `worlds` are the database after each of the stored blocks, the last one is the
database now. Block `none` is the pre-confirmed block. -/
def getStorageProof {F} [DecidableEq F] (o : Ops F) (H : Nat) (pruning : Bool) (worlds : List (World F)) (block : Option Nat) (r : ProofReq) :
    Except PErr (ProofOut F) :=
  if r.total > 100 then .error (.limit r.total)
  else match block with
    | none => .error .proofMissing
    | some b => match worlds[b]?, worlds.getLast? with
      | some w, some now => proofAt o H pruning now w r
      | _, _ => .error .blockNotFound

/-- The databases after each block of a history. -/
def chain {F} [DecidableEq F] (o : Ops F) (H : Nat) (isSys : Key → Bool) (w : World F) : List (Update F) → Except CErr (List (World F))
  | [] => .ok []
  | u :: us => (applyUpdate o H isSys w u).bind fun x => (chain o H isSys x.1 us).map fun ws => x.1 :: ws

end Verif.Commit
