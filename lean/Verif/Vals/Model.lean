/-!
# Who votes and who proposes

Models crates/consensus-fetcher/src/lib.rs, crates/pathfinder/src/consensus/inner/
fetch_validators.rs and fetch_proposers.rs, the selection of proposers in
crates/consensus/src/lib.rs and crates/consensus/src/internal/malachite.rs, and the check of
the addresses in crates/pathfinder/src/config.rs.

Simplifications: field elements (and so addresses) are natural numbers, in the order of
their big-endian bytes, which is how `Felt` is compared; calling a contract is a function of
the chain's state; turning 32 bytes into an Ed25519 key is a function that may fail; keys
that are drawn at random are given by a function.
-/

namespace Verif.Vals

/-- What a call comes to: a value, an error or a panic. -/
inductive Out (α : Type) where
  | ok (a : α)
  | err
  | panic
deriving DecidableEq

def Out.bind {α β : Type} : Out α → (α → Out β) → Out β
  | .ok a, f => f a
  | .err, _ => .err
  | .panic, _ => .panic

/-- consensus/src/lib.rs:1071-1078, and consensus-fetcher/src/lib.rs:16-29 (`ValidatorInfo`,
and `ProposerInfo`, whose priority takes the place of the voting power:
fetch_proposers.rs:124-131). -/
structure Validator (K : Type) where
  address : Nat
  key : K
  power : Nat
deriving DecidableEq

/-- The last 8 of the 32 big-endian bytes of a field element, as a `u64`
(consensus-fetcher/src/lib.rs:260-262, 300-301). -/
def low64 (f : Nat) : Nat := f % 2 ^ 64

/-- consensus-fetcher/src/lib.rs:282-307: the loop over chunks of three.  `toKey` is
`felt_to_public_key` (lines 371-394). -/
def parseChunks {K : Type} (toKey : Nat → Option K) : List Nat → Out (List (Validator K))
  | [] => .ok []
  | a :: k :: v :: rest =>
    match toKey k with
    | none => .err
    | some key =>
      match parseChunks toKey rest with
      | .ok ps => .ok (⟨a, key, low64 v⟩ :: ps)
      | .err => .err
      | .panic => .panic
  | _ => .err

/-- consensus-fetcher/src/lib.rs:235-322 `parse_consensus_participants_from_result`.
`array_length * 3` is checked for overflow (the release profile has overflow checks). -/
def parse {K : Type} (toKey : Nat → Option K) (result : List Nat) : Out (List (Validator K)) :=
  match result with
  | [] => .err
  | first :: data =>
    let n := low64 first
    if 2 ^ 64 ≤ n * 3 then .panic
    else if data.length ≠ n * 3 then .err
    else
      match parseChunks toKey data with
      | .ok ps => if ps.isEmpty then .err else if ps.length ≠ n then .err else .ok ps
      | .err => .err
      | .panic => .panic

/-- `BTreeMap::insert`, keyed by address: a later value replaces an earlier one. -/
def insert {K : Type} (v : Validator K) : List (Validator K) → List (Validator K)
  | [] => [v]
  | w :: ws =>
    if v.address < w.address then v :: w :: ws
    else if v.address = w.address then v :: ws
    else w :: insert v ws

/-- consensus/src/lib.rs:1120-1129 `ValidatorSet::new`: collected into a map by address,
its values in order; a panic if there are none. -/
def newSet {K : Type} (vs : List (Validator K)) : Out (List (Validator K)) :=
  let m := vs.foldl (fun m v => insert v m) []
  if m.isEmpty then .panic else .ok m

/-- pathfinder/src/config.rs:1162-1164. -/
structure Config where
  me : Nat
  validators : List Nat
  proposers : List Nat
deriving DecidableEq

/-- A set of addresses: each once. -/
def dedup : List Nat → List Nat
  | [] => []
  | a :: as => if a ∈ as then dedup as else a :: dedup as

/-- config.rs:1310-1330 `parse_or_exit`: whether the node starts with these addresses. -/
def accepted (c : Config) : Bool := 3 ≤ (dedup (c.me :: c.validators)).length

/-- What a call of a contract at the state of the node's latest block gives: `S` is that
state, if there is a block. -/
structure Chain (S K : Type) where
  /-- the network is one for which a contract address is known
  (consensus-fetcher/src/lib.rs:72-115) -/
  known : Bool
  /-- `get_validator_info_at_height` -/
  validators : S → Nat → Out (List Nat)
  /-- `get_proposer_info_at_height` -/
  proposers : S → Nat → Out (List Nat)
  toKey : Nat → Option K

/-- consensus-fetcher/src/lib.rs:121-169 `get_validators_at_height` and 175-223
`get_proposers_at_height`: the contract is called at the latest block, with the height as
the argument. -/
def fetchAt {S K : Type} (known : Bool) (call : S → Nat → Out (List Nat)) (toKey : Nat → Option K)
    (latest : Option S) (height : Nat) : Out (List (Validator K)) :=
  match latest with
  | none => .err
  | some s => if known then (call s height).bind (parse toKey) else .err

/-- fetch_validators.rs:53-65 with 72-94 and 97-112; the keys of configured validators are
drawn at random. -/
def fetchValidators {S K : Type} (ch : Chain S K) (latest : Option S) (draw : Nat → K) (c : Config) (height : Nat) :
    Out (List (Validator K)) :=
  if c.validators.isEmpty then (fetchAt ch.known ch.validators ch.toKey latest height).bind newSet
  else newSet ((c.me :: c.validators).map (fun a => ⟨a, draw a, 1⟩))

/-- fetch_proposers.rs:74-85 with 90-112 and 117-133. -/
def fetchProposers {S K : Type} (ch : Chain S K) (latest : Option S) (draw : Nat → K) (c : Config) (height : Nat) :
    Out (List (Validator K)) :=
  if c.proposers.isEmpty then (fetchAt ch.known ch.proposers ch.toKey latest height).bind newSet
  else newSet (c.proposers.map (fun a => ⟨a, draw a, 1⟩))

/-- fetch_proposers.rs:27-51 `L2ProposerSelector::select_proposer`: each `expect` panics. -/
def selectL2 {S K : Type} (ch : Chain S K) (latest : Option S) (draw : Nat → K) (c : Config)
    (set : List (Validator K)) (height _round : Nat) : Out (Validator K) :=
  match fetchProposers ch latest draw c height with
  | .ok ps =>
    match ps.head? with
    | none => .panic
    | some p =>
      match set.find? (fun v => v.address = p.address) with
      | some v => .ok v
      | none => .panic
  | _ => .panic

/-- consensus/src/lib.rs:1313-1323 `RoundRobinProposerSelector`. -/
def selectRoundRobin {K : Type} (set : List (Validator K)) (_height round : Nat) : Out (Validator K) :=
  if set.length = 0 then .panic
  else
    match set[round % set.length]? with
    | some v => .ok v
    | none => .panic

/-- consensus/src/internal/malachite.rs:447-492 `select_proposer`: the validator with the
address that the selector chose; the round is `none` for `Nil`. -/
def selectProposer {K : Type} (select : List (Validator K) → Nat → Nat → Out (Validator K))
    (set : List (Validator K)) (height : Nat) (round : Option Nat) : Out (Validator K) :=
  match round with
  | none => .panic
  | some r =>
    match select set height r with
    | .ok w =>
      match set.find? (fun v => v.address = w.address) with
      | some v => .ok v
      | none => .panic
    | .err => .err
    | .panic => .panic

/-- malachite.rs:248-250 `total_voting_power`: a checked sum. -/
def totalPower {K : Type} (set : List (Validator K)) : Out Nat :=
  let s := (set.map (·.power)).sum
  if 2 ^ 64 ≤ s then .panic else .ok s

end Verif.Vals
