/-!
Model of the class definitions that come from peers: what is expected of them, the checks, storing,
and the checks while tracking the head.

Simplifications that hold for the whole file: class hashes and compiled classes are natural numbers;
a definition is a number with its kind; hash sets are lists. A stream is the list of its items and
what it ends with, as every stage and the final fold stop at the first error.
-/

namespace Verif.ClassSync

/-- The text of a class definition and whether it is Sierra. -/
structure Def where
  body : Nat
  sierra : Bool
deriving Repr, DecidableEq

/-- crates/p2p/src/sync/client/types.rs `ClassDefinition`: what a peer sends, with the block the client
takes it to be of. -/
structure Raw where
  block : Nat
  hash : Nat
  defn : Def
deriving Repr, DecidableEq

/-- The errors of crates/pathfinder/src/sync/error.rs that can end the class stage: with the peer that
is blamed, if any. `feed` is an error of the stream of class definitions, `db` one of the database. -/
inductive Err (P : Type) where
  | badLayout (p : P)
  | hashFailed (p : P)
  | badHash (p : P)
  | unexpected (p : P)
  | mismatch (p : P)
  | casm
  | feed
  | db
deriving Repr, DecidableEq

/-- error.rs `peer_id_and_data`: who is blamed. -/
def Err.blamed {P : Type} : Err P → Option P
  | .badLayout p => some p
  | .hashFailed p => some p
  | .badHash p => some p
  | .unexpected p => some p
  | .mismatch p => some p
  | .casm => none
  | .feed => none
  | .db => none

/-- What the model leaves to libraries: whether a definition parses, its class hash, and its compiled
class, from the compiler or else from the gateway. -/
structure Lib where
  parses : Def → Bool
  hashOf : Def → Option Nat
  casmOf : Def → Nat → Option Nat

/-! ### The database -/

/-- A row of `class_definitions`. -/
structure Row where
  hash : Nat
  defn : Option Def
  block : Option Nat
deriving Repr, DecidableEq

/-- The number of stored blocks, the tables `class_definitions`, `redeclared_classes` (class and
block) and `casm_definitions`. -/
structure Db where
  blocks : Nat
  rows : List Row
  redeclared : List (Nat × Nat)
  casm : Nat → Option Nat

/-- crates/storage/src/connection/state_update.rs 107-116 `upsert_declared_at`: the block of the class
after it. -/
def Db.upsert (db : Db) (h : Nat) : Db × Option Nat :=
  match db.rows.find? (·.hash == h) with
  | none => ({ db with rows := db.rows ++ [{ hash := h, defn := none, block := some db.blocks }] }, some db.blocks)
  | some r =>
    ({ db with rows := db.rows.map fun r => if r.hash = h then { r with block := r.block.or (some db.blocks) } else r },
      r.block.or (some db.blocks))

/-- state_update.rs 214-224: a declared class. -/
def Db.declare (db : Db) (h : Nat) : Db :=
  match db.upsert h with
  | (db', m) => if m = some db.blocks then db' else { db' with redeclared := db'.redeclared ++ [(h, db.blocks)] }

/-- state_update.rs 205-240: the declared classes, then those of deployed contracts, of the next
block. -/
def Db.storeBlock (db : Db) (declared deployed : List Nat) : Db :=
  let db' := deployed.foldl (fun s h => (s.upsert h).1) (declared.foldl Db.declare db)
  { db' with blocks := db.blocks + 1 }

/-- crates/storage/src/connection/block.rs 96-199 `purge_block` for the last block; the rows of
`redeclared_classes` go with the header. -/
def Db.purge (db : Db) : Db :=
  { db with
    blocks := db.blocks - 1
    rows := db.rows.map fun r => if r.block = some (db.blocks - 1) then { r with block := none } else r
    redeclared := db.redeclared.filter fun x => x.2 ≠ db.blocks - 1 }

/-- state_update.rs 576-621 `declared_classes_at`. Its length is what 543-573
`declared_classes_counts` says for the block. -/
def Db.declaredAt (db : Db) (b : Nat) : Option (List Nat) :=
  if b < db.blocks then
    some ((db.rows.filter fun r => r.block = some b).map (·.hash) ++
      (db.redeclared.filter fun x => x.2 = b).map (·.1))
  else none

/-- block.rs 462-473 `first_block_with_missing_class_definitions`. -/
def Db.firstMissing (db : Db) : Option Nat :=
  ((db.rows.filter fun r => r.defn.isNone).filterMap (·.block)).min?

/-- crates/pathfinder/src/sync/class_definitions.rs 69-93 `next_missing`. -/
def Db.nextMissing (db : Db) (head : Nat) : Option Nat :=
  match db.firstMissing with
  | some b => if b ≤ head then some b else none
  | none => none

/-- A class that passed all checks, with its compiled class if it is Sierra: `CompiledClass`. -/
structure Compiled where
  raw : Raw
  casm : Option Nat
deriving Repr, DecidableEq

/-- class_definitions.rs 613-638 `persist_impl`: crates/storage/src/connection/class.rs 76-122 and
146-164 change an existing row. -/
def Db.persist (db : Db) (c : Compiled) : Db :=
  { db with
    rows := db.rows.map fun r => if r.hash = c.raw.hash then { r with defn := some c.raw.defn } else r
    casm := fun h => if h = c.raw.hash then c.casm.or (db.casm h) else db.casm h }

/-! ### Streams -/

/-- A stream: its items and the error it ends with, if any. -/
structure Feed (P α : Type) where
  items : List α
  fail : Option (Err P)

/-- `and_then` of a stream: the first failure ends it. -/
def andThen {P α β : Type} (f : α → Except (Err P) β) (fail : Option (Err P)) : List α → Feed P β
  | [] => ⟨[], fail⟩
  | x :: xs =>
    match f x with
    | .error e => ⟨[], some e⟩
    | .ok y => ⟨y :: (andThen f fail xs).items, (andThen f fail xs).fail⟩

/-- The chunks of `n` items, and what is left over. -/
def chunks {α : Type} (n : Nat) (acc : List α) : List α → List (List α) × List α
  | [] => ([], acc)
  | x :: xs =>
    if n ≤ (acc ++ [x]).length then ((acc ++ [x]) :: (chunks n [] xs).1, (chunks n [] xs).2)
    else chunks n (acc ++ [x]) xs

/-- `try_chunks(n).map_err(|e| e.1)`: with an error the incomplete chunk is lost. -/
def Feed.tryChunks {P α : Type} (n : Nat) (s : Feed P α) : Feed P (List α) :=
  match s.fail, chunks n [] s.items with
  | some e, (full, _) => ⟨full, some e⟩
  | none, (full, []) => ⟨full, none⟩
  | none, (full, rest) => ⟨full ++ [rest], none⟩

/-- The errors among results. -/
def errorsOf {P β : Type} (l : List (Except (Err P) β)) : List (Err P) :=
  l.filterMap fun | .error e => some e | .ok _ => none

/-- The values among results. -/
def valuesOf {P β : Type} (l : List (Except (Err P) β)) : List β :=
  l.filterMap fun | .error _ => none | .ok y => some y

/-- Collecting results in parallel: some error if there is any. `pick` says which. -/
def collect {P β : Type} (pick : List (Err P) → Nat) (l : List (Except (Err P) β)) :
    Except (Err P) (List β) :=
  match (errorsOf l)[pick (errorsOf l) % (errorsOf l).length]? with
  | some e => .error e
  | none => .ok (valuesOf l)

/-! ### The checks -/

/-- class_definitions.rs 132-177 `verify_layout_impl`. -/
def verifyLayout {P : Type} (lib : Lib) (x : P × Raw) : Except (Err P) (P × Raw) :=
  if lib.parses x.2.defn then .ok x else .error (.badLayout x.1)

/-- class_definitions.rs 217-257 `verify_hash_impl`. -/
def verifyHash {P : Type} (lib : Lib) (x : P × Raw) : Except (Err P) (P × Raw) :=
  match lib.hashOf x.2.defn with
  | none => .error (.hashFailed x.1)
  | some h => if h = x.2.hash then .ok x else .error (.badHash x.1)

/-- How the loop over one block ends: with what is left of the stream, or for good, with the error
sent on. -/
inductive After (P : Type) where
  | go (rest : List (P × Raw))
  | stop (e : Option (Err P))
deriving Repr, DecidableEq

/-- class_definitions.rs 302-337, the inner loop of `verify_declared_at` for block `b` of which
`declared` is left; `fail` is what the stream of classes ends with. A stream that has ended ends the
loop without an error. -/
def verifyBlock {P : Type} (b : Nat) (fail : Option (Err P)) (declared : List Nat) :
    List (P × Raw) → List (P × Raw) × After P
  | [] => if declared.isEmpty then ([], .go []) else ([], .stop fail)
  | (p, r) :: rest =>
    if declared.isEmpty then ([], .go ((p, r) :: rest))
    else if b ≠ r.block then ([], .stop (some (.unexpected p)))
    else if r.hash ∈ declared then
      let (out, a) := verifyBlock b fail (declared.erase r.hash) rest
      ((p, r) :: out, a)
    else ([], .stop (some (.unexpected p)))

/-- class_definitions.rs 279-366 `verify_declared_at` with `ClassDechunker`, which takes the chunks
apart again (chunks are never empty). An error of the stream of expectations is given to `tx.send`
without awaiting it, so nothing is sent. -/
def verifyDeclared {P : Type} (fail : Option (Err P)) :
    List (Except Unit (Nat × List Nat)) → List (P × Raw) → Feed P (P × Raw)
  | [], _ => ⟨[], none⟩
  | .error () :: _, _ => ⟨[], none⟩
  | .ok (b, declared) :: expected, items =>
    match verifyBlock b fail declared items with
    | (out, .stop e) => ⟨out, e⟩
    | (out, .go rest) =>
      ⟨out ++ (verifyDeclared fail expected rest).items, (verifyDeclared fail expected rest).fail⟩

/-- class_definitions.rs 374-421 `expected_declarations_stream` for the `n` blocks from `start`;
`fault` says for which blocks the query fails. Blocks without declarations are left out. -/
def Db.expected (db : Db) (fault : Nat → Bool) (start : Nat) : Nat → List (Except Unit (Nat × List Nat))
  | 0 => []
  | n + 1 =>
    if fault start then [.error ()]
    else
      match db.declaredAt start with
      | none => [.error ()]
      | some l =>
        if l.isEmpty then db.expected fault (start + 1) n
        else .ok (start, l.eraseDups) :: db.expected fault (start + 1) n

/-- class_definitions.rs 492-556 `compile_or_fetch_impl`. -/
def compile {P : Type} (lib : Lib) (x : P × Raw) : Except (Err P) Compiled :=
  if x.2.defn.sierra then
    match lib.casmOf x.2.defn x.2.hash with
    | none => .error .casm
    | some c => .ok { raw := x.2, casm := some c }
  else .ok { raw := x.2, casm := none }

/-- The classes in the order in which they are written, each in a transaction of its own, and how the
run ends. -/
structure Outcome (P : Type) where
  written : List Compiled
  fail : Option (Err P)

/-- crates/pathfinder/src/sync/checkpoint.rs 377-417 `handle_class_stream`. -/
def run {P : Type} (lib : Lib) (pick : List (Err P) → Nat) (n : Nat)
    (expected : List (Except Unit (Nat × List Nat))) (feed : Feed P (P × Raw)) : Outcome P :=
  let laid := andThen (verifyLayout lib) feed.fail feed.items
  let chunked := laid.tryChunks n
  let hashed := andThen (fun c => collect pick (c.map (verifyHash lib))) chunked.fail chunked.items
  let declared := verifyDeclared hashed.fail expected hashed.items.flatten
  let again := declared.tryChunks n
  let compiled := andThen (fun c => collect pick (c.map (compile lib))) again.fail again.items
  { written := compiled.items.flatten, fail := compiled.fail }

/-- checkpoint.rs 245-278 `sync_class_definitions` after `next_missing` said `start`. -/
def syncClasses {P : Type} (lib : Lib) (pick : List (Err P) → Nat) (n : Nat) (fault : Nat → Bool) (db : Db)
    (start stop : Nat) (feed : Feed P (P × Raw)) : Outcome P :=
  run lib pick n (db.expected fault start (stop + 1 - start)) feed

/-- The database after the first `k` classes were written: all of them, or up to a crash. -/
def Db.after {P : Type} (db : Db) (o : Outcome P) (k : Nat) : Db := (o.written.take k).foldl Db.persist db

/-! ### Tracking the head -/

/-- class_definitions.rs 640-695 `VerifyClassHashes::map`: the classes of a block against the
declarations of its state diff. -/
def verifyTracked {P : Type} (p : P) (cairo : List Nat) (sierra : List Nat) : List Compiled → Except (Err P) Unit
  | [] => if cairo.isEmpty && sierra.isEmpty then .ok () else .error (.mismatch p)
  | c :: cs =>
    if c.raw.defn.sierra then
      if c.raw.hash ∈ sierra then verifyTracked p cairo (sierra.erase c.raw.hash) cs else .error (.mismatch p)
    else if c.raw.hash ∈ cairo then verifyTracked p (cairo.erase c.raw.hash) sierra cs
    else .error (.mismatch p)

/-- crates/p2p/src/sync/client/peer_agnostic.rs 463-549 `class_definitions_for_block` for one peer that
sends these classes and the end mark: their number must be that of the declarations. -/
def countTracked {P : Type} (p : P) (count : Nat) (sent : List Raw) : Except (Err P) (List Raw) :=
  if sent.length = count then .ok sent else .error (.mismatch p)

/-- crates/pathfinder/src/p2p_network/sync/sync_handlers.rs 153-221 `get_classes_for_block`: what a node
sends for a block. `none` is an error or an unknown block. -/
def Db.serve (db : Db) (b : Nat) : Option (List Raw) :=
  (db.declaredAt b).bind fun l => l.mapM fun h =>
    ((db.rows.find? (·.hash == h)).bind (·.defn)).map fun d =>
      { block := b, hash := h, defn := { body := d.body, sierra := (db.casm h).isSome } }

end Verif.ClassSync
