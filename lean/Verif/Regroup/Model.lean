import Verif.Body.Model
/-!
# Transactions are regrouped by block when an old database is opened

Model of crates/storage/src/schema/revision_0057.rs 11-235. The main thread reads the blocks in order and hands each to a pool of worker threads over a
channel; the workers decode the rows of the block and encode them as one; the main thread stores what comes back, in the order in which it comes back.
The tables that result, and how they are read, are those of `Verif/Body`.

Simplifications for the whole file: the columns `tx`, `receipt` and `events` of a row are one value of a type `E`, with a parameter that decodes it; encoding
the result again is the identity and does not fail; errors of the database other than violated constraints are left out; once the main thread has given up
its channels are no longer looked at.
-/
namespace Verif.Regroup
open Verif.Block (F Tx Receipt Event)
open Verif.Body (DB Row Hdr)

/-- A row of `starknet_transactions` (revision_0052.rs 89-98). -/
structure OldRow (E : Type) where
  hash : F
  idx : Nat
  number : Nat
  body : E
  deriving DecidableEq, Repr

/-- What the migration starts from: the headers, the rows, how a row is decoded (revision_0057.rs 34-57 and 66-77, `none` is a failed `unwrap`),
`BATCH_SIZE_IN_BLOCKS` (line 163) and the number of threads (lines 16-18). -/
structure World (E : Type) where
  headers : List Hdr
  old : List (OldRow E)
  decode : E → Option ((Tx × Receipt) × List Event)
  batch : Nat
  workers : Nat

/-- What is sent to the workers, revision_0057.rs 15. -/
structure Job (E : Type) where
  number : Nat
  rows : List E
  deriving DecidableEq, Repr

/-- `SELECT number FROM block_headers ORDER BY number`, revision_0057.rs 151-152. -/
def World.numbers {E : Type} (w : World E) : List Nat := (w.headers.map (·.number)).mergeSort fun a b => decide (a ≤ b)

/-- `SELECT … FROM starknet_transactions WHERE block_number = ? ORDER BY idx`, revision_0057.rs 143-150. -/
def World.rowsOf {E : Type} (w : World E) (n : Nat) : List (OldRow E) :=
  (w.old.filter fun r => r.number == n).mergeSort fun a b => decide (a.idx ≤ b.idx)

/-- The rows of a block are decoded one after the other, revision_0057.rs 31-59 and 65-79. -/
def decodeAll {E A : Type} (f : E → Option A) : List E → Option (List A)
  | [] => some []
  | e :: l => (f e).bind fun a => (decodeAll f l).map fun as => a :: as

/-- What a worker makes of a job, revision_0057.rs 28-104. -/
def regroup {E : Type} (w : World E) (j : Job E) : Option Row :=
  (decodeAll w.decode j.rows).map fun l => ⟨j.number, l.map (·.1), some (l.map (·.2))⟩

/-- The inserts into `transaction_hashes` for a block, revision_0057.rs 177-186. The hash is the primary key. -/
def insertIndex {E : Type} (n : Nat) : List (OldRow E) → List (F × Nat × Nat) → Option (List (F × Nat × Nat))
  | [], t => some t
  | r :: l, t => if t.any fun x => x.1 == r.hash then none else insertIndex n l (t ++ [(r.hash, n, r.idx)])

/-- The insert into `transactions`, revision_0057.rs 200 and 218. The number is the primary key and refers to a header. -/
def insertRow (db : DB) (r : Row) : Option DB :=
  if (db.header r.number).isNone || db.rows.any fun x => x.number == r.number then none else some { db with rows := db.rows ++ [r] }

/-- Where the main thread is: handing out blocks with so many not yet stored (lines 170-196); storing so many (lines 197-202); storing whatever is left
(lines 214-220); at the end (line 234); or an error or a panic. -/
inductive Phase
  | feed (submitted : Nat)
  | drain (left : Nat)
  | final
  | done
  | failed
  deriving DecidableEq, Repr

/-- The main thread, the two channels, and the workers: those with a job, idle ones, those that panicked and those that ended. -/
structure Sys (E : Type) where
  todo : List Nat
  phase : Phase
  queue : List (Job E)
  busy : List (Job E)
  idle : Nat
  dead : Nat
  left : Nat
  results : List Row
  db : DB
  inserted : Nat

/-- The workers that hold ends of the channels. -/
def Sys.alive {E : Type} (s : Sys E) : Nat := s.idle + s.busy.length

/-- revision_0057.rs 11-168. -/
def start {E : Type} (w : World E) : Sys E :=
  { todo := w.numbers, phase := .feed 0, queue := [], busy := [], idle := w.workers, dead := 0, left := 0, results := [],
    db := ⟨w.headers, [], [], 0⟩, inserted := 0 }

inductive Act
  /-- The main thread reads the next block and hands it out. -/
  | send
  /-- The main thread has handed out all blocks. -/
  | close
  /-- The main thread takes a result, or learns that none will come. -/
  | recv
  /-- An idle worker takes a job. -/
  | take
  /-- A worker ends the job it has, the one at this place. -/
  | work (i : Nat)
  /-- An idle worker ends as no job will come. -/
  | leave
  deriving DecidableEq, Repr

/-- A result is stored, revision_0057.rs 199-201 and 217-219. -/
def store {E : Type} (s : Sys E) (r : Row) (rs : List Row) (p : Phase) : Sys E :=
  match insertRow s.db r with
  | none => { s with phase := .failed }
  | some db => { s with db := db, results := rs, inserted := s.inserted + r.transactions.length, phase := p }

/-- One step of one thread; `none` is a thread that waits. The channels deliver in order and are unbounded. Sending fails if no worker is left, receiving if
none is left and nothing is in the channel. -/
def step {E : Type} (w : World E) (s : Sys E) : Act → Option (Sys E)
  -- lines 170-196
  | .send => match s.phase, s.todo with
    | .feed k, n :: rest =>
      match insertIndex n (w.rowsOf n) s.db.hashes with
      | none => some { s with phase := .failed }
      | some t =>
        if s.alive = 0 then some { s with phase := .failed }
        else some { s with
          todo := rest
          db := { s.db with hashes := t }
          queue := s.queue ++ [⟨n, (w.rowsOf n).map (·.body)⟩]
          phase := if k + 1 ≥ w.batch then .drain (k + 1) else .feed (k + 1) }
    | _, _ => none
  -- line 215
  | .close => match s.phase, s.todo with
    | .feed _, [] => some { s with phase := .final }
    | _, _ => none
  -- lines 197-203 and 216-230
  | .recv => match s.phase, s.results with
    | .drain (l + 1), r :: rs => some (store s r rs (if l = 0 then .feed 0 else .drain l))
    | .drain (_ + 1), [] => if s.alive = 0 then some { s with phase := .failed } else none
    | .final, r :: rs => some (store s r rs .final)
    | .final, [] =>
      if s.alive = 0 then some { s with phase := if s.inserted = w.old.length ∧ s.dead = 0 then .done else .failed } else none
    | _, _ => none
  -- line 28
  | .take => match s.queue, s.idle with
    | j :: q, i + 1 => some { s with queue := q, idle := i, busy := s.busy ++ [j] }
    | _, _ => none
  -- lines 29-104
  | .work i => match s.busy[i]? with
    | none => none
    | some j => match regroup w j with
      | some r => some { s with busy := s.busy.eraseIdx i, idle := s.idle + 1, results := s.results ++ [r] }
      | none => some { s with busy := s.busy.eraseIdx i, dead := s.dead + 1 }
  -- line 28
  | .leave => if s.phase = .final ∧ s.queue = [] ∧ 0 < s.idle then some { s with idle := s.idle - 1, left := s.left + 1 } else none

/-- The threads take turns in any order. -/
def run {E : Type} (w : World E) : Sys E → List Act → Option (Sys E)
  | s, [] => some s
  | s, a :: l => (step w s a).bind fun s' => run w s' l

end Verif.Regroup
