import Verif.Cons.Wal
/-!
# The engines of the consensus, one for each height: crates/consensus/src/lib.rs, and the task that drives them:
crates/pathfinder/src/consensus/inner/consensus_task.rs

The engine of a height is Malachite. It is modelled by what it may do to the state kept here: it writes entries to its log at any time
(`write`), and after a decision was written it hands out a decision event (`poll`). Events other than decisions, the rounds, timeouts and
the queue of events do not change this state. Logs are modelled by their entries; what a crash does to their bytes is in `Wal`.
-/
namespace Verif.Cons

variable {V A S : Type}

/-- `Consensus` (lib.rs:322-333): the engines with their `is_finalized` (internal.rs:171-173, the `has_decision` of the sink), the logs on
disk of this validator, `min_kept_height`, `last_decided_height`. -/
structure Node (V A S : Type) where
  engines : List (Nat × Bool)
  disk : List (Nat × List (Entry V A S))
  minKept : Option Nat
  lastDecided : Option Nat

/-- `HashMap::insert`. -/
def putEngine (h : Nat) (f : Bool) (l : List (Nat × Bool)) : List (Nat × Bool) := (h, f) :: l.filter fun e => e.1 != h

/-- `is_height_active` (lib.rs:849-851). -/
def Node.isActive (n : Node V A S) (h : Nat) : Bool := n.engines.any fun e => e.1 == h

/-- `max_active_height` (lib.rs:858-860). -/
def Node.maxActive (n : Node V A S) : Option Nat := (n.engines.map (·.1)).max?

/-- `is_height_finalized` (lib.rs:825-839). -/
def Node.isHeightFinalized (n : Node V A S) (h : Nat) : Bool :=
  match n.engines.find? (fun e => e.1 == h) with
  | some e => e.2
  | none => n.minKept.any fun m => decide (h < m)

/-- `StartHeight` in `handle_command` (lib.rs:669-680) with `create_consensus` (609-643): the log is opened, and created if missing; the
new sink has seen no decision. -/
def Node.create (n : Node V A S) (h : Nat) : Node V A S :=
  { n with
    engines := putEngine h false n.engines
    disk := if n.disk.any (fun f => f.1 == h) then n.disk else n.disk ++ [(h, [])] }

/-- `append` of the engine of a height (internal.rs: `WalAppend`, `Decide`; wal.rs:133-145). -/
def Node.write (n : Node V A S) (h : Nat) (e : Entry V A S) : Node V A S :=
  { n with
    engines := n.engines.map fun x => if x.1 = h then (x.1, x.2 || e.isDecision) else x
    disk := n.disk.map fun f => if f.1 = h then (f.1, f.2 ++ [e]) else f }

/-- `prune_old_engines` (lib.rs:764-805). -/
def Node.prune (depth : Nat) (n : Node V A S) : Node V A S :=
  match n.maxActive with
  | none => n
  | some m =>
    if m < depth then n
    else
      { n with
        minKept := some (m - depth)
        engines := n.engines.filter fun e => decide (m - depth ≤ e.1)
        disk := n.disk.filter fun f => !(n.engines.any fun e => e.1 == f.1 && decide (e.1 < m - depth)) }

/-- The part of `next_event` on decision events (lib.rs:738-757): `hs` are the heights of the events polled. -/
def Node.poll (depth : Nat) (n : Node V A S) (hs : List Nat) : Node V A S :=
  let n' := { n with lastDecided := hs.foldl (fun acc h => some (match acc with | some m => max m h | none => h)) n.lastDecided }
  if hs = [] then n' else n'.prune depth

/-- `recover_incomplete_heights` on readable logs (see `recoverFiles_readable`). -/
def recoverLogs (committed : Option Nat) (disk : List (Nat × List (Entry V A S))) : Recovered (Entry V A S) :=
  disk.foldl (fun r f => classify committed r f.1 f.2) ⟨[], [], none⟩

/-- `recover_inner` (lib.rs:505-607), the finished heights within the history and all unfinished ones; `recover_from_wal`
(internal.rs:110-158) marks the sink if there is a decision. Entries that the engine writes again while replaying are `write`s. -/
def recoverNode (depth : Nat) (committed : Option Nat) (disk : List (Nat × List (Entry V A S))) : Node V A S :=
  let r := recoverLogs committed disk
  let max := (((r.incomplete ++ r.finalized).map (·.1)).max?).or r.highestDecision
  let min := max.bind fun m => if m < depth then none else some (m - depth)
  let restored := r.finalized.filter fun f => min.all fun m => decide (m ≤ f.1)
  { engines := (restored ++ r.incomplete).foldl (fun acc f => putEngine f.1 (f.2.any Entry.isDecision) acc) []
    disk := disk
    minKept := min
    lastDecided := r.highestDecision }

/-- The consensus task: the engines and `next_height` (consensus_task.rs:93-100). -/
structure Task (V A S : Type) where
  node : Node V A S
  next : Nat

/-- `start_height` (consensus_task.rs:393-404). -/
def Task.start (t : Task V A S) (h : Nat) : Task V A S := if t.node.isActive h then t else { t with node := t.node.create h }

/-- A start of the task (consensus_task.rs:67-111) from logs that can be read. -/
def Task.boot (depth : Nat) (committed : Option Nat) (disk : List (Nat × List (Entry V A S))) : Task V A S :=
  let n := recoverNode depth committed disk
  let next := max (max (n.maxActive.getD 0) (n.lastDecided.getD 0)) (match committed with | some c => c + 1 | none => 0)
  Task.start ⟨n, next⟩ next

/-- A proposal or vote of a peer (consensus_task.rs:330-368). -/
def Task.message (t : Task V A S) (h : Nat) : Task V A S :=
  if t.node.lastDecided.any fun d => decide (h ≤ d) then t else t.start h

/-- A decision event (consensus_task.rs:238-282). -/
def Task.decided (t : Task V A S) (h : Nat) : Task V A S :=
  Task.start { t with next := max t.next h + 1 } (max t.next h + 1)

end Verif.Cons
