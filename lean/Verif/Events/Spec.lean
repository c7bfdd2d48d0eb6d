import Verif.Events.Model
/-
Specification of event queries and of the histories they are asked in.
-/
namespace Verif.Events

/-- An event is wanted if its contract is one of `addrs` (any contract if there are none) and, for every position with
a non-empty list of keys, the event has a key at that position which is in the list. -/
def wanted (addrs : List Felt) (keys : List (List Felt)) (e : Event) : Bool :=
  (addrs.isEmpty || addrs.contains e.addr) &&
  keys.zipIdx.all fun gi => gi.1.isEmpty || match e.keys[gi.2]? with
    | some k => gi.1.contains k
    | none => false

/-- All events of block number `n`, in the order in which they were emitted. -/
def emittedBy (n : Nat) (b : Body) : List Emitted :=
  b.txs.zipIdx.flatMap fun ti => ti.1.2.zipIdx.map fun ei => ⟨ei.1, b.hash, n, ti.1.1, ti.2, ei.2⟩

/-- The wanted events of block number `n`. -/
def wantedIn (chain : List Body) (addrs : List Felt) (keys : List (List Felt)) (n : Nat) : List Emitted :=
  match chain[n]? with
  | some b => (emittedBy n b).filter fun e => wanted addrs keys e.event
  | none => []

/-- The answer to a query: the wanted events of the blocks `first`, ..., `last`, in order. -/
def answer (chain : List Body) (addrs : List Felt) (keys : List (List Felt)) (first last : Nat) : List Emitted :=
  (List.range' first (last + 1 - first)).flatMap (wantedIn chain addrs keys)

/-- The last block of a query that names `to` as its last block, or none. -/
def lastOf (chain : List Body) (to : Option Nat) : Nat := to.getD (chain.length - 1)

/-- The history seen from outside: the canonical chain, the first block that is not pruned, and, for restarts, the
value `next` of the block that the index expects, the value it had when it was last saved, and whether what was saved
describes another chain than the current one. -/
structure Track where
  chain : List Body := []
  lo : Nat := 0
  next : Nat := 0
  saved : Nat := 0
  stale : Bool := false
deriving Repr

def Track.step (t : Track) : Op → Track
  | .block b => if (t.chain.drop t.lo).any (fun x => x.hash == b.hash) then t
    else { t with chain := t.chain ++ [b], next := t.chain.length + 1 }
  | .reorg tail => if t.lo ≤ tail ∧ tail < t.chain.length ∧ (tail = 0 ∨ t.lo ≤ tail - 1) then
      { t with chain := t.chain.take tail, next := tail - 1 + 1, stale := t.stale || decide (tail < t.saved) }
    else t
  | .prune point kept => if point < t.chain.length ∧ kept ≤ point then { t with lo := max t.lo (point - kept) } else t
  | .query .. => t
  | .evict _ => t
  | .shutdown => { t with saved := t.next, stale := decide (t.next ≠ t.chain.length), next := t.chain.length }
  | .crash => { t with next := t.chain.length }

def Track.run (ops : List Op) : Track := ops.foldl Track.step {}

/-- No restart after a crash finds a saved index that looks current (it ends at the head) but describes an abandoned
fork. See `C27_violated` for what happens otherwise. -/
def CrashOk (ops : List Op) : Prop :=
  ∀ pre post, ops = pre ++ .crash :: post →
    ¬ ((Track.run pre).stale = true ∧ (Track.run pre).saved = (Track.run pre).chain.length)

/-! ### following the tokens -/

/-- Empty lists of keys at the end of a filter are dropped (crates/rpc/src/method/get_events.rs 168-171). -/
def trimKeys (keys : List (List Felt)) : List (List Felt) :=
  match keys.reverse.dropWhile List.isEmpty with
  | [] => keys
  | r => r.reverse

/-- The page for a token (the first page without one) of a node that does not prune blocks, get_events.rs 234-262:
a token replaces the first block. -/
def pageAt (c : Cfg) (limit : Nat) (q : Constraints) (s : Sys) : Option Token → Except QueryError Page
  | none => (events c s.db s.mem false limit { q with keys := trimKeys q.keys, offset := 0 }).1
  | some t => (events c s.db s.mem false limit { q with keys := trimKeys q.keys, fromBlock := some t.block, offset := t.offset }).1

/-- Following the tokens of `q` from token `tok` on, with one page in each of the given states of the node, until there is
no token, gives these events. -/
inductive Paged (c : Cfg) (limit : Nat) (q : Constraints) : Option Token → List Sys → List Emitted → Prop
  | last {tok : Option Token} {s : Sys} {evs : List Emitted} (h : pageAt c limit q s tok = .ok ⟨evs, none⟩) :
      Paged c limit q tok [s] evs
  | more {tok : Option Token} {s : Sys} {evs rest : List Emitted} {t : Token} {ss : List Sys}
      (h : pageAt c limit q s tok = .ok ⟨evs, some t⟩) (hr : Paged c limit q (some t) ss rest) :
      Paged c limit q tok (s :: ss) (evs ++ rest)

/-- A state of an archive node: reached by a history without unsafe crashes, nothing pruned. -/
structure Reached (c : Cfg) (ops : List Op) (s : Sys) : Prop where
  crashOk : CrashOk ops
  run : Verif.Events.run c ops = some s
  archive : (Track.run ops).lo = 0

end Verif.Events
