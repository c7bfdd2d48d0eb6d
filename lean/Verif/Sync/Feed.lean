import Verif.Sync.Pipeline

/-!
# Streams of block data from peers

Models crates/p2p/src/sync/client/peer_agnostic.rs: the header stream, and the streams of transactions, state diffs, class
definitions and events, which share one loop. What peers do is an arbitrary list of replies: a failed request, or the responses
received until the reply ended. The loop asks peers again and again; the model is the state after any number of replies. Not
modelled: a receiver that goes away (the stream just ends), time, and which blocks are asked for (`make_request`; a peer may send
anything anyway).
-/

namespace Verif.Sync

variable {P R A C E : Type}

/-! ## Headers -/

/-- A response on the header stream, after parsing: a header, one that does not parse, the end mark or an I/O error. -/
inductive HeaderResp (A : Type) where
  | header (a : A)
  | unparsed
  | fin
  | err

/-- `done` (crates/p2p/src/sync/client/peer_agnostic.rs lines 736-741). The signed numbers of the code are integers. -/
def headerDone (reverse : Bool) (start stop : Int) : Bool := if reverse then start < stop else start > stop

/-- The step to the next header (crates/p2p/src/sync/client/peer_agnostic.rs lines 682-685). -/
def headerNext (reverse : Bool) (start : Int) : Int := if reverse then start - 1 else start + 1

/-- The responses of one peer (crates/p2p/src/sync/client/peer_agnostic.rs lines 643-655 and `handle_response` 662-718): what is
sent on, the next number, and whether the stream has ended. -/
def headerReply (reverse : Bool) (stop : Int) (peer : P) : Int → List (HeaderResp A) → List (P × A) × Int × Bool
  | start, [] => ([], start, headerDone reverse start stop)
  | start, .header a :: rs =>
    if headerDone reverse start stop then ([], start, true)
    else
      let (out, s, e) := headerReply reverse stop peer (headerNext reverse start) rs
      ((peer, a) :: out, s, e)
  | start, .unparsed :: _ => ([], start, headerDone reverse start stop)
  | start, .fin :: _ => ([], start, headerDone reverse start stop)
  | start, .err :: _ => ([], start, headerDone reverse start stop)

/-- The outer loop (crates/p2p/src/sync/client/peer_agnostic.rs lines 630-659). A reply is `none` if the request failed. -/
def headerLoop (reverse : Bool) (stop : Int) : Int → List (P × Option (List (HeaderResp A))) → List (P × A) × Int × Bool
  | start, [] => ([], start, false)
  | start, (_, none) :: more => headerLoop reverse stop start more
  | start, (peer, some rs) :: more =>
    let (out, s, e) := headerReply reverse stop peer start rs
    if e then (out, s, true)
    else
      let (out', s', e') := headerLoop reverse stop s more
      (out ++ out', s', e')

/-- `header_stream::make` (crates/p2p/src/sync/client/peer_agnostic.rs lines 606-660). -/
def headerStream (start stop : Nat) (reverse : Bool) (replies : List (P × Option (List (HeaderResp A)))) :
    List (P × A) × Int × Bool :=
  if reverse then headerLoop true start stop replies else headerLoop false stop start replies

/-! ## Block data -/

/-- `BlockProgress` (crates/p2p/src/sync/client/peer_agnostic.rs lines 1553-1582). -/
structure Progress where
  count : Nat
  backup : Nat
deriving DecidableEq

def Progress.new (n : Nat) : Progress := ⟨n, n⟩

def Progress.rollback (p : Progress) : Progress := { p with count := p.backup }

/-- What the handling of one response does: take it (with what is left to expect), go to the next peer, or panic. -/
inductive Took (C A : Type) where
  | ok (carry : C) (acc : A) (left : Nat)
  | nextPeer
  | panic

/-- What differs between the streams: the value kept while one peer replies, the empty block, and the handling of a response
given what is expected. -/
structure Kind (R C A : Type) where
  carry : C
  empty : A
  absorb : C → A → Nat → R → Took C A

/-- How the attempt to read one block ends. -/
inductive Filled (R C A : Type) where
  | full (carry : C) (acc : A) (rest : List R)
  | nextPeer (left : Nat)
  | panic

/-- The inner loop `while progress.get() > 0` (crates/p2p/src/sync/client/peer_agnostic.rs lines 791-803, 974-986, 1198-1211,
1390-1403). -/
def fill (k : Kind R C A) : C → A → Nat → List R → Filled R C A
  | c, a, 0, rs => .full c a rs
  | _, _, left + 1, [] => .nextPeer (left + 1)
  | c, a, left + 1, r :: rs =>
    match k.absorb c a (left + 1) r with
    | .ok c a left => fill k c a left rs
    | .nextPeer => .nextPeer (left + 1)
    | .panic => .panic

/-- The errors of the stream: one from the counts, or their premature end (`try_next`,
crates/p2p/src/sync/client/peer_agnostic.rs lines 1539-1551). -/
inductive FeedErr (E : Type) where
  | counts (e : E)
  | premature

/-- Where the stream stands: waiting for a peer at a block, over, or dead because its task panicked. -/
inductive FeedState (E : Type) where
  | waiting (start : Nat) (progress : Progress) (counts : List (Except E Nat))
  | ended
  | panicked

/-- The loop `while start <= stop` over the responses of one peer, with `yield_block`
(crates/p2p/src/sync/client/peer_agnostic.rs lines 787-822 and 886-926; 970-1005 and 1110-1150; 1193-1230 and 1305-1348; 1385-1420
and 1496-1535). An item is the peer, the data and the block. -/
def serve (k : Kind R C A) (stop : Nat) (peer : P) : List (Except E Nat) → Nat → Progress → C → List R →
    List (Except (FeedErr E) (P × A × Nat)) × FeedState E
  | counts, start, p, c, rs =>
    if start ≤ stop then
      match fill k c k.empty p.count rs with
      | .nextPeer left => ([], .waiting start { p with count := left } counts)
      | .panic => ([], .panicked)
      | .full c a rs =>
        if start = stop then ([.ok (peer, a, start)], .ended)
        else
          match counts with
          | [] => ([.ok (peer, a, start), .error .premature], .ended)
          | .error e :: _ => ([.ok (peer, a, start), .error (.counts e)], .ended)
          | .ok n :: counts =>
            let (out, s) := serve k stop peer counts (start + 1) (Progress.new n) c rs
            (.ok (peer, a, start) :: out, s)
    else ([], .ended)

/-- One peer of the outer loop (crates/p2p/src/sync/client/peer_agnostic.rs lines 777-787). A reply is `none` if the request
failed. -/
def attempt (k : Kind R C A) (stop : Nat) (s : FeedState E) (reply : P × Option (List R)) :
    List (Except (FeedErr E) (P × A × Nat)) × FeedState E :=
  match s, reply with
  | .waiting start p counts, (peer, some rs) => serve k stop peer counts start p.rollback k.carry rs
  | s, _ => ([], s)

/-- The outer loop after any number of replies. -/
def feedLoop (k : Kind R C A) (stop : Nat) : FeedState E → List (P × Option (List R)) →
    List (Except (FeedErr E) (P × A × Nat)) × FeedState E
  | s, [] => ([], s)
  | s, reply :: more =>
    let (out, s) := attempt k stop s reply
    let (out', s) := feedLoop k stop s more
    (out ++ out', s)

/-- `make` of the streams of transactions, state diffs and classes (crates/p2p/src/sync/client/peer_agnostic.rs lines 763-775,
943-957, 1167-1181). -/
def feed (k : Kind R C A) (start stop : Nat) (counts : List (Except E Nat)) (replies : List (P × Option (List R))) :
    List (Except (FeedErr E) (P × A × Nat)) × FeedState E :=
  match counts with
  | [] => ([.error .premature], .ended)
  | .error e :: _ => ([.error (.counts e)], .ended)
  | .ok n :: counts => feedLoop k stop (.waiting start (Progress.new n) counts) replies

/-- `make` of the event stream (crates/p2p/src/sync/client/peer_agnostic.rs lines 1350-1425): it ends without an error if there
is no first count. -/
def eventFeed (k : Kind R C A) (start stop : Nat) (counts : List (Except E Nat)) (replies : List (P × Option (List R))) :
    List (Except (FeedErr E) (P × A × Nat)) × FeedState E :=
  match counts with
  | .ok n :: counts => feedLoop k stop (.waiting start (Progress.new n) counts) replies
  | _ => ([], .ended)

/-- The stream of transactions, or of class definitions of a block: `parse` is the handling of a response given the position in
the block; `none` stands for anything else than a well-formed item (crates/p2p/src/sync/client/peer_agnostic.rs lines 791-803 and
829-858, 1198-1211 and 1257-1303). The block number that a class definition carries is that of the item here. -/
def listKind (parse : R → Nat → Option A) : Kind R Unit (List A) where
  carry := ()
  empty := []
  absorb _ acc left r := match parse r acc.length with
    | some x => .ok () (acc ++ [x]) (left - 1)
    | none => .nextPeer

/-! ### State diffs -/

/-- A response on the state diff stream: the difference of a contract, a declared class, or the end mark or an error. -/
inductive DiffResp where
  | contract (address : Nat) (nonce classHash : Option Nat) (values : List (Nat × Nat))
  | declared (classHash : Nat) (casm : Option Nat)
  | stop
deriving DecidableEq

/-- The part of `StateUpdateData` that the stream fills, with association lists in the place of maps and sets. -/
structure DiffAcc where
  touched : List Nat
  storage : List ((Nat × Nat) × Nat)
  nonces : List (Nat × Nat)
  deployed : List (Nat × Nat)
  sierra : List (Nat × Nat)
  cairo : List Nat
deriving DecidableEq

/-- `handle_response` of the state diff stream (crates/p2p/src/sync/client/peer_agnostic.rs lines 1012-1083). `system` is
`is_system_contract`. Each value counts once; a later entry for the same key goes in front of the earlier one. `touched` lists the
contracts that get an entry, changed or not. -/
def absorbDiff (system : Nat → Bool) (acc : DiffAcc) (left : Nat) : DiffResp → Took Unit DiffAcc
  | .contract address nonce classHash values =>
    if left < values.length then .nextPeer
    else
      let left := left - values.length
      let acc := { acc with touched := address :: acc.touched, storage := (values.map fun v => ((address, v.1), v.2)).reverse ++ acc.storage }
      if system address then .ok () acc left
      else
        match nonce, classHash with
        | none, none => .ok () acc left
        | some n, none =>
          if left < 1 then .nextPeer else .ok () { acc with nonces := (address, n) :: acc.nonces } (left - 1)
        | none, some h =>
          if left < 1 then .nextPeer else .ok () { acc with deployed := (address, h) :: acc.deployed } (left - 1)
        | some n, some h =>
          if left < 2 then .nextPeer
          else .ok () { acc with nonces := (address, n) :: acc.nonces, deployed := (address, h) :: acc.deployed } (left - 2)
  | .declared h (some casm) => if left < 1 then .nextPeer else .ok () { acc with sierra := (h, casm) :: acc.sierra } (left - 1)
  | .declared h none => if left < 1 then .nextPeer else .ok () { acc with cairo := h :: acc.cairo } (left - 1)
  | .stop => .nextPeer

def diffKind (system : Nat → Bool) : Kind DiffResp Unit DiffAcc where
  carry := ()
  empty := ⟨[], [], [], [], [], []⟩
  absorb _ := absorbDiff system

/-! ### Events -/

/-- A response on the event stream: the transaction hash and the event, or anything else. -/
abbrev EventResp (T V : Type) := Option (T × V)

/-- `handle_response` of the event stream (crates/p2p/src/sync/client/peer_agnostic.rs lines 1455-1490). The current transaction is
kept from block to block, the list of events is not: `events.last_mut().expect("not empty")`. -/
def absorbEvent {T V : Type} [DecidableEq T] (txn : Option T) (events : List (T × List V)) (left : Nat) :
    EventResp T V → Took (Option T) (List (T × List V))
  | none => .nextPeer
  | some (t, v) =>
    if txn = some t then
      match events.getLast? with
      | none => .panic
      | some last => .ok txn (events.dropLast ++ [(last.1, last.2 ++ [v])]) (left - 1)
    else .ok (some t) (events ++ [(t, [v])]) (left - 1)

def eventKind (T V : Type) [DecidableEq T] : Kind (EventResp T V) (Option T) (List (T × List V)) where
  carry := none
  empty := []
  absorb := absorbEvent

/-! ### Counts -/

/-- `counts_stream` (crates/pathfinder/src/sync/storage_adapters.rs lines 11-79), without cancellation. `get start n` is the
database query. Each round of the loop that asks the database adds a batch; `fuel` bounds the rounds: each batch is not empty,
so the number of blocks is enough. -/
def countsLoop (get : Nat → Nat → Except E (List Nat)) (batch stop : Nat) (empty : E) : Nat → Nat → List (Except E Nat)
  | 0, _ => []
  | fuel + 1, start =>
    if start ≤ stop then
      match get start (min batch (stop - start + 1)) with
      | .error e => [.error e]
      | .ok [] => [.error empty]
      | .ok (n :: ns) => (n :: ns).map .ok ++ countsLoop get batch stop empty fuel (start + (n :: ns).length)
    else []

def countsStream (get : Nat → Nat → Except E (List Nat)) (batch start stop : Nat) (empty : E) : List (Except E Nat) :=
  countsLoop get batch stop empty (stop + 1 - start) start

end Verif.Sync
