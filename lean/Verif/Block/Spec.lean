import Verif.Block.Model
/-!
# What a block hash stands for

The queries to the hash functions that are made for a block, collisions among them, and what two blocks have in common.
-/
namespace Verif.Block
open Verif.Trie (FeltOps Content specNode specVal)
open Verif.Common (Version)

/-- An input of a hash function. An edge of a tree is hashed as the hash of its child and its path, plus its length. -/
inductive Query
  | ped (a b : F)
  | two (a b : F)
  | many (l : List F)
  | edge (poseidon : Bool) (child : F) (path : List Bool)
  | reason (s : List UInt8)
  deriving DecidableEq

def Query.eval (h : Hashes) : Query → F
  | .ped a b => h.ped a b
  | .two a b => h.two a b
  | .many l => h.many l
  | .edge p c l => (if p then h.two else h.ped) c (ofBits l) + felt l.length
  | .reason s => felt (h.keccak s % 2 ^ 250)

/-- Two different inputs with the same hash. -/
def Collide (h : Hashes) (q q' : List Query) : Prop := ∃ a ∈ q, ∃ b ∈ q', a ≠ b ∧ a.eval h = b.eval h

/-- An input that hashes to zero. -/
def HitsZero (h : Hashes) (q : List Query) : Prop := ∃ a ∈ q, a.eval h = 0

/-- The hash functions fail on these inputs: a collision, or a hash that is zero. -/
def Broken (h : Hashes) (q q' : List Query) : Prop := Collide h q q' ∨ HitsZero h q ∨ HitsZero h q'

/-! ## Queries -/

/-- The queries of a hash chain. -/
def chainSteps (h : Hashes) : F → List F → List Query
  | _, [] => []
  | a, x :: l => .ped a x :: chainSteps h (h.ped a x) l

def chainQ (h : Hashes) (l : List F) : List Query := chainSteps h 0 l ++ [.ped (l.foldl h.ped 0) (felt l.length)]

/-- The hash functions of the two kinds of tree. -/
def ops (h : Hashes) (poseidon : Bool) : FeltOps F := if poseidon then posOps h else pedOps h

/-- The nodes of the tree with some content: at every position a binary node if both halves are there, an edge if one is. -/
def nodesQ (h : Hashes) (poseidon : Bool) : Nat → Content F → List Query
  | 0, _ => []
  | n + 1, m =>
    (match specNode (ops h poseidon) n (fun k => m (false :: k)), specNode (ops h poseidon) n (fun k => m (true :: k)) with
      | some x, some y =>
        let a := specVal (ops h poseidon) x
        let b := specVal (ops h poseidon) y
        [if poseidon then .two a b else .ped a b]
      | some (p, b), none => [.edge poseidon b (false :: p)]
      | none, some (p, b) => [.edge poseidon b (true :: p)]
      | none, none => []) ++
    nodesQ h poseidon n (fun k => m (false :: k)) ++ nodesQ h poseidon n (fun k => m (true :: k))

/-- The number with these bits. -/
def number (k : List Bool) : Nat := k.foldl (fun n b => n * 2 + b.toNat) 0

/-- The content of the tree of a list: the values at their positions, without zeros. -/
def listContent (l : List F) : Content F := fun k => if k.length = 64 then (l[number k]?).filter (· ≠ 0) else none

/-- The nodes of the tree of a list. -/
def treeQ (h : Hashes) (poseidon : Bool) (l : List F) : List Query := nodesQ h poseidon 64 (listContent l)

/-- The trees of a version. -/
def poseidonAt (v : Version) : Bool := !before v v0132

/-- The signature of an invoke transaction; before version 0.11.1 only these were part of the commitment. -/
def Variant.invokeSignature : Variant → List F
  | .invoke s => s
  | _ => []

/-- The signature as it is hashed. -/
def hashedSignature (v : Version) (t : Tx) : List F :=
  if before v v0111 then t.variant.invokeSignature
  else if !before v v0132 && before v v0134 && t.variant.signature = [] then [0]
  else t.variant.signature

/-- The queries of a transaction. -/
def txQ (h : Hashes) (v : Version) (t : Tx) : List Query :=
  if before v v0132 then .ped t.hash (chain h (hashedSignature v t)) :: chainQ h (hashedSignature v t)
  else [.many (t.hash :: hashedSignature v t)]

def transactionsQ (h : Hashes) (v : Version) (ts : List Tx) : List Query :=
  ts.flatMap (txQ h v) ++ treeQ h (poseidonAt v) (ts.map (txLeaf h v))

/-- The queries of a receipt. -/
def receiptQ (h : Hashes) (r : Receipt) : List Query :=
  [.many [r.txHash, r.fee, messagesHash h r.messages, statusHash h r.reverted, 0,
      felt r.l1Gas, felt r.l1DataGas],
    .many (felt r.messages.length :: r.messages.flatMap Msg.values)] ++ r.reverted.toList.map .reason

def receiptsQ (h : Hashes) (rs : List Receipt) : List Query := rs.flatMap (receiptQ h) ++ treeQ h true (rs.map (receiptHash h))

/-- The queries of an event. -/
def eventQ (h : Hashes) (v : Version) (p : F × Event) : List Query :=
  if before v v0132 then chainQ h [p.2.src, chain h p.2.keys, chain h p.2.data] ++ chainQ h p.2.keys ++ chainQ h p.2.data
  else [.many (p.2.src :: p.1 :: felt p.2.keys.length :: (p.2.keys ++ felt p.2.data.length :: p.2.data))]

def eventsQ (h : Hashes) (v : Version) (es : List (F × List Event)) : List Query :=
  (flatEvents es).flatMap (eventQ h v) ++ treeQ h (poseidonAt v) ((flatEvents es).map (eventLeaf h v))

/-- The ways of hashing a header. -/
inductive Era
  | pre07 | pre0132 | v0 | v1
  deriving DecidableEq, Repr

/-- Which way is used: by number first, then by version. -/
def eraOf (c : Chain) (number : Nat) (v : Version) : Era :=
  if number < c.first07 then .pre07 else if before v v0132 then .pre0132 else if before v v0134 then .v0 else .v1

/-- The values hashed for a header. -/
def headerValues (h : Hashes) (b : Header) (chainId : F) : Era → List F
  | .pre07 => [felt b.number, b.stateCommitment, 0, 0, felt b.transactionCount, b.transactionCommitment, 0, 0, 0, 0, chainId, b.parent]
  | .pre0132 => [felt b.number, b.stateCommitment, b.sequencer, felt b.timestamp, felt b.transactionCount, b.transactionCommitment,
      felt b.eventCount, b.eventCommitment, 0, 0, b.parent]
  | .v0 => [feltText "STARKNET_BLOCK_HASH0".toList, felt b.number, b.stateCommitment, b.sequencer, felt b.timestamp, concatCounts b,
      b.stateDiffCommitment, b.transactionCommitment, b.eventCommitment, b.receiptCommitment, felt b.ethL1Gas, felt b.strkL1Gas,
      felt b.ethL1DataGas, felt b.strkL1DataGas, feltText b.version.show, 0, b.parent]
  | .v1 => [feltText "STARKNET_BLOCK_HASH1".toList, felt b.number, b.stateCommitment, b.sequencer, felt b.timestamp, concatCounts b,
      b.stateDiffCommitment, b.transactionCommitment, b.eventCommitment, b.receiptCommitment, gasPricesHash h b,
      feltText b.version.show, 0, b.parent]

/-- The queries of a header. -/
def headerQ (h : Hashes) (c : Chain) (chainId : F) (b : Header) : List Query :=
  match eraOf c b.number b.version with
  | .pre07 => chainQ h (headerValues h b chainId .pre07)
  | .pre0132 => chainQ h (headerValues h b chainId .pre0132) ++
      c.fallback.toList.flatMap fun a => chainQ h (headerValues h { b with sequencer := a } chainId .pre0132)
  | .v0 => [.many (headerValues h b chainId .v0)]
  | .v1 => [.many (headerValues h b chainId .v1),
      .many [feltText "STARKNET_GAS_PRICES0".toList, felt b.ethL1Gas, felt b.strkL1Gas, felt b.ethL1DataGas, felt b.strkL1DataGas,
        felt b.ethL2Gas, felt b.strkL2Gas]]

/-! ## What the types of the program guarantee -/

structure Header.Ok (b : Header) : Prop where
  number : b.number < 2 ^ 63
  timestamp : b.timestamp < 2 ^ 63
  ethL1Gas : b.ethL1Gas < 2 ^ 128
  strkL1Gas : b.strkL1Gas < 2 ^ 128
  ethL1DataGas : b.ethL1DataGas < 2 ^ 128
  strkL1DataGas : b.strkL1DataGas < 2 ^ 128
  ethL2Gas : b.ethL2Gas < 2 ^ 128
  strkL2Gas : b.strkL2Gas < 2 ^ 128
  transactionCount : b.transactionCount < 2 ^ 64
  eventCount : b.eventCount < 2 ^ 64
  stateDiffLength : b.stateDiffLength < 2 ^ 64

/-! ## What two headers with the same hash have in common -/

structure SameHeader (c : Chain) (b b' : Header) : Prop where
  era : eraOf c b.number b.version = eraOf c b'.number b'.version
  number : b.number = b'.number
  parent : b.parent = b'.parent
  stateCommitment : b.stateCommitment = b'.stateCommitment
  transactionCount : b.transactionCount = b'.transactionCount
  transactionCommitment : b.transactionCommitment = b'.transactionCommitment
  /-- Since 0.7. -/
  since07 : eraOf c b.number b.version ≠ .pre07 →
    b.timestamp = b'.timestamp ∧ b.eventCount = b'.eventCount ∧ b.eventCommitment = b'.eventCommitment
  /-- Since 0.13.2, and for earlier blocks since 0.7 where no other address is tried. -/
  sequencer : eraOf c b.number b.version ≠ .pre07 → (eraOf c b.number b.version = .pre0132 → c.fallback = none) →
    b.sequencer = b'.sequencer
  /-- Since 0.13.2. -/
  since0132 : eraOf c b.number b.version = .v0 ∨ eraOf c b.number b.version = .v1 →
    b.version = b'.version ∧ b.blob = b'.blob ∧ b.stateDiffLength = b'.stateDiffLength ∧
    b.stateDiffCommitment = b'.stateDiffCommitment ∧ b.receiptCommitment = b'.receiptCommitment ∧
    b.ethL1Gas = b'.ethL1Gas ∧ b.strkL1Gas = b'.strkL1Gas ∧ b.ethL1DataGas = b'.ethL1DataGas ∧ b.strkL1DataGas = b'.strkL1DataGas
  /-- Since 0.13.4. -/
  since0134 : eraOf c b.number b.version = .v1 → b.ethL2Gas = b'.ethL2Gas ∧ b.strkL2Gas = b'.strkL2Gas

/-- What the receipt commitment covers. -/
def Receipt.covered (r : Receipt) : F × F × List Msg × Option (List UInt8) × Nat × Nat :=
  (r.txHash, r.fee, r.messages, r.reverted, r.l1Gas, r.l1DataGas)

/-- The gas is a 128 bit number, lengths are 64 bit numbers. -/
structure Receipt.Ok (r : Receipt) : Prop where
  l1Gas : r.l1Gas < 2 ^ 128
  l1DataGas : r.l1DataGas < 2 ^ 128
  messages : r.messages.length < 2 ^ 64
  payloads : ∀ m ∈ r.messages, m.payload.length < 2 ^ 64

structure Event.Ok (e : Event) : Prop where
  keys : e.keys.length < 2 ^ 64
  data : e.data.length < 2 ^ 64

/-- What the hash of an event covers: before 0.13.2 not the transaction. -/
def eventCovered (v : Version) (p : F × Event) : Option F × Event := (if before v v0132 then none else some p.1, p.2)

/-! ## Gateway blocks -/

/-- The values of a gateway block are in range, as the types of the program guarantee. -/
structure GwBlock.Ok (b : GwBlock) (sdl : Nat) : Prop where
  header : (headerOf b 0 sdl).Ok
  transactions : b.transactions.length < 2 ^ 64
  signatures : ∀ t ∈ b.transactions, (hashedSignature b.version t).length < 2 ^ 64
  receiptCount : b.receipts.length < 2 ^ 64
  receipts : ∀ p ∈ b.receipts, p.1.Ok
  events : ∀ p ∈ b.receipts, ∀ e ∈ p.2, e.Ok

/-- The header of a gateway block with the commitments of its contents. -/
def gwHeader (b : GwBlock) (sdc : F) (sdl : Nat) (tc ec rc : F) : Header :=
  { headerOf b sdc sdl with transactionCommitment := tc, receiptCommitment := rc, eventCommitment := ec }

/-- The queries for the contents of a gateway block. -/
def bodyQ (h : Hashes) (b : GwBlock) : List Query :=
  transactionsQ h b.version b.transactions ++ eventsQ h b.version b.events ++ receiptsQ h (b.receipts.map (·.1))

/-- What two gateway blocks with the same hash have in common. -/
structure SameBlock (c : Chain) (b b' : GwBlock) (sdc sdc' : F) (sdl sdl' : Nat) : Prop where
  number : b.number = b'.number
  parent : b.parent = b'.parent
  stateCommitment : b.stateCommitment = b'.stateCommitment
  /-- The transactions: their hashes, and the signatures as they were hashed. -/
  transactions : (b.transactions.map fun t => (t.hash, hashedSignature b.version t)) =
    b'.transactions.map fun t => (t.hash, hashedSignature b'.version t)
  /-- Since 0.7 the events, in order. -/
  since07 : eraOf c b.number b.version ≠ .pre07 → b.timestamp = b'.timestamp ∧
    (flatEvents b.events).map (eventCovered b.version) = (flatEvents b'.events).map (eventCovered b'.version)
  /-- Since 0.13.2 the version, the state diff, and the receipts with their events. -/
  since0132 : eraOf c b.number b.version = .v0 ∨ eraOf c b.number b.version = .v1 →
    b.version = b'.version ∧ sdc = sdc' ∧ sdl = sdl' ∧ b.blob = b'.blob ∧ b.l1Gas = b'.l1Gas ∧ b.l1DataGas = b'.l1DataGas ∧
    b.sequencer.getD 0 = b'.sequencer.getD 0 ∧ (b.receipts.map (·.1.covered)) = b'.receipts.map (·.1.covered) ∧
    ((b.receipts.map (·.1.txHash)).Nodup → (b.receipts.map fun p => (p.1.covered, p.2)) = b'.receipts.map fun p => (p.1.covered, p.2))
  /-- Since 0.13.4 the price of L2 gas. -/
  since0134 : eraOf c b.number b.version = .v1 → b.l2Gas.getD (0, 0) = b'.l2Gas.getD (0, 0)

end Verif.Block
