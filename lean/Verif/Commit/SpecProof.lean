import Verif.Commit.StorageProof
import Verif.Commit.SpecHist
/-!
# What a storage proof shows

A client has a root hash it trusts, a key, and a set of nodes. It follows the key from the root: a node of the set whose hash is the
hash it is looking for, then the child on the side of the key. The value of the key is where the key ends; the key has no value if an edge
leaves its path. A tree with root hash zero is empty.
-/
namespace Verif.Commit
open Verif.Trie

/-- The nodes lead from a hash along a key to an answer: a value, or absence. -/
inductive Leads {F} (o : FeltOps F) (ns : List (PNode F)) : F → Key → Option F → Prop
  | leaf (h : F) : Leads o ns h [] (some h)
  | binary {h l r : F} {b : Bool} {k : Key} {x : Option F} : PNode.binary l r ∈ ns → (PNode.binary l r).hash o = h →
      Leads o ns (if b then r else l) k x → Leads o ns h (b :: k) x
  | edge {h c : F} {p k : Key} {x : Option F} : PNode.edge c p ∈ ns → (PNode.edge c p).hash o = h → p ≠ [] →
      Leads o ns c k x → Leads o ns h (p ++ k) x
  | away {h c : F} {p k : Key} : PNode.edge c p ∈ ns → (PNode.edge c p).hash o = h → p ≠ [] → p.length ≤ k.length → ¬ p <+: k →
      Leads o ns h k none

/-- The nodes prove the answer for a key in the tree with the root hash. -/
def Proves {F} (o : FeltOps F) (root : F) (ns : List (PNode F)) (k : Key) (x : Option F) : Prop :=
  (root = o.zero ∧ x = none) ∨ Leads o ns root k x

/-- The requested keys are felts; those below 2^251 have first bit `false`. -/
def IsFelt (H : Nat) (k : FKey) : Prop := k.length = H + 1

/-- All keys of a request. -/
def ProofReq.keys (r : ProofReq) : List FKey :=
  (r.classes.getD []) ++ (r.contracts.getD []) ++ (r.storage.getD []).flatMap fun p => p.1 :: p.2

/-- How many keys are to be proved: classes, contracts and storage keys. -/
def ProofReq.count (r : ProofReq) : Nat :=
  (r.classes.getD [] ++ r.contracts.getD [] ++ (r.storage.getD []).flatMap (·.2)).length

/-- All keys are below 2^251. -/
def ProofReq.Valid (H : Nat) (r : ProofReq) : Prop := ∀ k ∈ r.keys, ∃ b, k = false :: b ∧ b.length = H

/-- The leaf data of a contract: class hash, nonce and storage root in the state, zero if there is none. -/
def IsLeafData {F} (o : Ops F) (H : Nat) (S : St F) (a : Key) (d : LeafData F) : Prop :=
  d.cls = (S.cls a).getD o.ped.zero ∧ d.nonce = (S.nonce a).getD o.ped.zero ∧ d.root = specRoot o.ped H (S.storage a)

/-- The answer is right for a state. -/
structure RightProof {F} [DecidableEq F] (o : Ops F) (H : Nat) (isSys : Key → Bool) (S : St F) (r : ProofReq) (out : ProofOut F) : Prop where
  /-- The two roots are the commitments of the state. -/
  roots : (out.contractsRoot, out.classesRoot) = S.commitments o H isSys
  /-- Every node is labelled with its hash. -/
  classHashes : ∀ x ∈ out.classNodes, x.2 = x.1.hash o.pos
  contractHashes : ∀ x ∈ out.contractNodes, x.2 = x.1.hash o.ped
  storageHashes : ∀ ns ∈ out.storageNodes, ∀ x ∈ ns, x.2 = x.1.hash o.ped
  /-- No node is there twice. -/
  nodup : out.classNodes.Nodup ∧ out.contractNodes.Nodup ∧ ∀ ns ∈ out.storageNodes, ns.Nodup
  /-- Every class asked for is proved. -/
  classes : ∀ b, false :: b ∈ r.classes.getD [] → Proves o.pos out.classesRoot (out.classNodes.map (·.1)) b (S.classLeaves o b)
  /-- Every contract asked for is proved. -/
  contracts : ∀ a, false :: a ∈ r.contracts.getD [] →
    Proves o.ped out.contractsRoot (out.contractNodes.map (·.1)) a (S.leaves o H isSys a)
  /-- One entry for each contract in the list of storage keys, in order, and every storage key is proved in the contract's tree. -/
  storageLen : out.storageNodes.length = (r.storage.getD []).length
  storage : ∀ (i : Nat) a ks ns, (r.storage.getD [])[i]? = some (false :: a, ks) → out.storageNodes[i]? = some ns →
    ∀ k, false :: k ∈ ks → Proves o.ped (specRoot o.ped H (S.storage a)) (ns.map (·.1)) k (S.storage a k)

/-- The leaf data are right for a state: one entry per contract, in order, and each entry hashes to the proved leaf. -/
def RightLeaves {F} [DecidableEq F] (o : Ops F) (H : Nat) (isSys : Key → Bool) (S : St F) (r : ProofReq) (out : ProofOut F) : Prop :=
  out.leaves.length = (r.contracts.getD []).length ∧
  ∀ (i : Nat) a d, (r.contracts.getD [])[i]? = some (false :: a) → out.leaves[i]? = some d → IsLeafData o H S a d ∧
    (S.present a = true → S.leaves o H isSys a = nonzero o.ped (contractStateHash o d.cls d.root d.nonce)) ∧
    (S.present a = false → S.leaves o H isSys a = none)

end Verif.Commit
