/-
Model of how requests to peers are carried: the request/streaming-response
protocol and the part of the sync behaviour that hands its outcomes to callers.

Code modelled (all in /repo/crates):
* p2p/src/sync/behaviour.rs:38-93    `handle_command`
* p2p/src/sync/behaviour.rs:95-306   `handle_event`, outbound requests
* p2p/src/sync/client.rs:33-52       the callers: one oneshot channel per request
* p2p_stream/src/lib.rs              `Behaviour`, outbound requests
* p2p_stream/src/handler.rs          `Handler`, outbound requests
* p2p/src/sync/protocol.rs:162-219   the framing of responses

There is one such protocol for each kind of data (headers, classes, state diffs,
transactions, events), with its own ids; the model is of one of them.  Inbound
requests (those of peers) are not modelled here, see C90; they take places among
the streams served on a connection too, so that these run out earlier.

What is modelled of libp2p: a connection has one handler, an event goes from the
handler to the behaviour as soon as the handler's `poll` returns it, a substream
asked for is later negotiated or fails once, connection ids are not reused, and
when a connection is closed its handler is dropped.  What libp2p and peers do, and
when, is left open: each is a step of its own.
-/

namespace Verif.Reqs

/-- The stages of the future that serves one outbound request
(p2p_stream/src/handler.rs:218-278): writing the request and closing its side;
waiting until the handler has taken the channel of responses from it (a channel
of capacity 0: `send` returns once the message was received); forwarding
responses. -/
inductive Phase where
  | writing
  | parked
  | streaming
deriving DecidableEq

/-- p2p_stream/src/handler.rs:342-380: events of the handler about outbound
requests. -/
inductive HEv where
  | awaiting (id : Nat)
  | closed (id : Nat)
  | timeout (id : Nat)
  | unsupported (id : Nat)
  | failed (id : Nat)
deriving DecidableEq

/-- p2p_stream/src/lib.rs:87-160: what the behaviour hands to libp2p: a request
for a handler, a peer to dial, or an event for the sync behaviour. -/
inductive QEv where
  | notify (cid id : Nat)
  | dial (peer : Nat)
  | awaiting (id : Nat)
  | failure (id : Nat)
  | closed (id : Nat)
deriving DecidableEq

/-- A connection: what the behaviour knows of it (p2p_stream/src/lib.rs:848-858;
`pend` is `pending_outbound_response_streams`) and its handler
(p2p_stream/src/handler.rs:54-98): `outq` is `pending_outbound`, `req`
`requested_outbound`, `hev` `pending_events`, `workers` `worker_streams`, `chan`
what is in the channel from the workers to the handler; `subs` counts the
substreams asked of libp2p that are still being negotiated. -/
structure Conn where
  cid : Nat
  peer : Nat
  pend : List Nat
  outq : List Nat
  req : List Nat
  subs : Nat
  hev : List HEv
  workers : List (Nat × Phase)
  chan : List Nat

/-- The whole.  `next`, `conns`, `waiting`, `queue` are the behaviour's
`next_outbound_request_id`, `connected`, `pending_outbound_requests` and
`pending_events` (p2p_stream/src/lib.rs:279-304); `pending` the keys of the sync
behaviour's `pending_requests`; `answers` what went out through the oneshot
channels: `true` for a channel of responses, `false` for an error. `panicked`: an
`expect` failed.  `nextCid`: ids of connections are not reused. -/
structure Sys where
  next : Nat
  conns : List Conn
  nextCid : Nat
  waiting : List (Nat × Nat)
  queue : List QEv
  pending : List Nat
  answers : List (Nat × Bool)
  panicked : Bool

/-- p2p_stream/src/lib.rs:337-360: nothing there yet; ids begin at 1. -/
def init : Sys :=
  { next := 1, conns := [], nextCid := 0, waiting := [], queue := [], pending := [],
    answers := [], panicked := false }

/-- `HashSet::remove`, `HashMap::remove`. -/
def del (id : Nat) (l : List Nat) : List Nat := l.filter fun x => x != id

/-- Change one connection. -/
def upd (cid : Nat) (f : Conn → Conn) (cs : List Conn) : List Conn :=
  cs.map fun c => if c.cid = cid then f c else c

/-- p2p_stream/src/lib.rs:363-433 `send_request`, `try_send_request`, and
p2p/src/sync/behaviour.rs:38-93: the connection is chosen by the id. -/
def send (peer : Nat) (s : Sys) : Sys :=
  let id := s.next
  let cs := s.conns.filter fun c => c.peer == peer
  match cs[id % cs.length]? with
  | some c =>
    { s with
      next := id + 1
      conns := upd c.cid (fun c => { c with pend := id :: c.pend }) s.conns
      queue := s.queue ++ [.notify c.cid id]
      pending := id :: s.pending }
  | none =>
    { s with
      next := id + 1
      queue := s.queue ++ [.dial peer]
      waiting := s.waiting ++ [(peer, id)]
      pending := id :: s.pending }

/-- p2p/src/sync/behaviour.rs:119-132 (and its like for the other protocols) and 246-301: an event about a request.
`lost`: this protocol ignores failures, as the one for classes does
(p2p/src/sync/behaviour.rs:258-264). -/
def deliver (lost : Bool) (e : QEv) (s : Sys) : Sys :=
  match e with
  | .awaiting id =>
    if id ∈ s.pending then
      { s with pending := del id s.pending, answers := (id, true) :: s.answers }
    else { s with panicked := true }
  | .failure id =>
    if lost then s
    else if id ∈ s.pending then
      { s with pending := del id s.pending, answers := (id, false) :: s.answers }
    else s
  | .notify cid id =>
    { s with conns := upd cid (fun c => { c with outq := c.outq ++ [id] }) s.conns }
  | .dial _ => s
  | .closed _ => s

/-- p2p_stream/src/lib.rs:830-838 `poll`: the first event goes out; one for a
handler that is gone is dropped by libp2p. -/
def poll (lost : Bool) (s : Sys) : Option Sys :=
  match s.queue with
  | [] => none
  | e :: q => some (deliver lost e { s with queue := q })

/-- p2p_stream/src/lib.rs:676-828 `on_connection_handler_event`: what the
behaviour adds to its queue.  In each of the cases the request is removed from
those pending on the connection.  (`debug_assert`s are not compiled into
releases.) -/
def toEvent : HEv → QEv × Nat
  | .awaiting id => (.awaiting id, id)
  | .closed id => (.closed id, id)
  | .timeout id => (.failure id, id)
  | .unsupported id => (.failure id, id)
  | .failed id => (.failure id, id)

/-- The same: the event is delivered to the behaviour, after the handler has
changed as `f` says. -/
def emit (cid : Nat) (f : Conn → Conn) (e : HEv) (s : Sys) : Sys :=
  { s with
    conns := upd cid (fun c => { f c with pend := del (toEvent e).2 (f c).pend }) s.conns
    queue := s.queue ++ [(toEvent e).1] }

/-- p2p_stream/src/lib.rs:567-594 `preload_new_handler`. -/
def connect (peer : Nat) (s : Sys) : Sys :=
  let mine := (s.waiting.filter fun w => w.1 == peer).map Prod.snd
  { s with
    conns := s.conns ++ [⟨s.nextCid, peer, mine, mine, [], 0, [], [], []⟩]
    nextCid := s.nextCid + 1
    waiting := s.waiting.filter fun w => w.1 != peer }

/-- p2p_stream/src/lib.rs:500-542 `on_connection_closed`. -/
def close (cid : Nat) (s : Sys) : Option Sys :=
  match s.conns.find? fun c => c.cid == cid with
  | none => none
  | some c =>
    some { s with
      conns := s.conns.filter fun c => c.cid != cid
      queue := s.queue ++ c.pend.map .failure }

/-- p2p_stream/src/lib.rs:544-565 `on_dial_failure`. -/
def dialFailure (peer : Nat) (s : Sys) : Sys :=
  { s with
    waiting := s.waiting.filter fun w => w.1 != peer
    queue := s.queue ++ ((s.waiting.filter fun w => w.1 == peer).map fun w => .failure w.2) }

/-- How negotiating a substream can fail: p2p_stream/src/handler.rs:306-327. -/
inductive UpgradeError where
  | timeout
  | unsupported
  | io
deriving DecidableEq

/-- How the future of a request goes on. -/
inductive Work where
  | written
  | writeFailed (timedOut : Bool)
  | ended
  | readFailed (timedOut : Bool)
  | streamTimeout
deriving DecidableEq

/-- What can happen. -/
inductive Act where
  | send (peer : Nat)
  | poll
  | connect (peer : Nat)
  | close (cid : Nat)
  | dialFailure (peer : Nat)
  | ask (cid : Nat)
  | negotiated (cid : Nat)
  | upgradeError (cid : Nat) (e : UpgradeError)
  | event (cid : Nat)
  | take (cid : Nat)
  | work (cid id : Nat) (w : Work)
deriving DecidableEq

/-- The connection with a given id. -/
def Sys.conn (s : Sys) (cid : Nat) : Option Conn := s.conns.find? fun c => c.cid == cid

/-- p2p_stream/src/handler.rs:546-554: the next request leaves `pending_outbound`
and a substream is asked for. -/
def ask (cid : Nat) (s : Sys) : Option Sys :=
  match s.conn cid with
  | none => none
  | some c =>
    match c.outq with
    | [] => none
    | id :: q =>
      some { s with conns := upd cid (fun c =>
        { c with outq := q, req := c.req ++ [id], subs := c.subs + 1 }) s.conns }

/-- p2p_stream/src/handler.rs:201-292 `on_fully_negotiated_outbound`: the request
asked for first is served on it, unless as many as `cap` are being served. -/
def negotiated (cap cid : Nat) (s : Sys) : Option Sys :=
  match s.conn cid with
  | none => none
  | some c =>
    if c.subs = 0 then none
    else
      match c.req with
      | [] => some { s with panicked := true }
      | id :: q =>
        some { s with conns := upd cid (fun c =>
          { c with
            subs := c.subs - 1
            req := q
            workers := if c.workers.length < cap then c.workers ++ [(id, .writing)]
              else c.workers }) s.conns }

/-- p2p_stream/src/handler.rs:294-329 `on_dial_upgrade_error`. -/
def upgradeError (cid : Nat) (e : UpgradeError) (s : Sys) : Option Sys :=
  match s.conn cid with
  | none => none
  | some c =>
    if c.subs = 0 then none
    else
      match c.req with
      | [] => some { s with panicked := true }
      | id :: q =>
        some { s with conns := upd cid (fun c =>
          match e with
          | .timeout => { c with subs := c.subs - 1, req := q, hev := c.hev ++ [.timeout id] }
          | .unsupported =>
            { c with subs := c.subs - 1, req := q, hev := c.hev ++ [.unsupported id] }
          | .io => { c with subs := c.subs - 1, req := q ++ [id] }) s.conns }

/-- p2p_stream/src/handler.rs:527-532: the next of the handler's own events. -/
def event (cid : Nat) (s : Sys) : Option Sys :=
  match s.conn cid with
  | none => none
  | some c =>
    match c.hev with
    | [] => none
    | e :: q => some (emit cid (fun c => { c with hev := q }) e s)

/-- The stage of one worker changes. -/
def setPhase (id : Nat) (p : Phase) (ws : List (Nat × Phase)) : List (Nat × Phase) :=
  ws.map fun w => if w.1 = id then (id, p) else w

/-- p2p_stream/src/handler.rs:556-564: the handler takes a channel of responses
from a worker, which goes on. -/
def take (cid : Nat) (s : Sys) : Option Sys :=
  match s.conn cid with
  | none => none
  | some c =>
    match c.chan with
    | [] => none
    | id :: q =>
      some (emit cid (fun c =>
        { c with chan := q, workers := setPhase id .streaming c.workers }) (.awaiting id) s)

/-- A worker is done. -/
def dropWorker (id : Nat) (ws : List (Nat × Phase)) : List (Nat × Phase) :=
  ws.filter fun w => w.1 != id

/-- p2p_stream/src/handler.rs:218-278 and 480-525: a step of a worker, and what
the handler makes of its end.  `none`: the worker is not at this point. -/
def work (cid id : Nat) (w : Work) (s : Sys) : Option Sys :=
  match s.conn cid with
  | none => none
  | some c =>
    match c.workers.find? (fun x => x.1 == id), w with
    | some (_, .writing), .written =>
      some { s with conns := upd cid (fun c =>
        { c with workers := setPhase id .parked c.workers, chan := c.chan ++ [id] }) s.conns }
    | some (_, .writing), .writeFailed timedOut =>
      some (emit cid (fun c => { c with workers := dropWorker id c.workers })
        (if timedOut then .timeout id else .failed id) s)
    | some (_, .streaming), .ended =>
      some (emit cid (fun c => { c with workers := dropWorker id c.workers }) (.closed id) s)
    | some (_, .streaming), .readFailed timedOut =>
      some (emit cid (fun c => { c with workers := dropWorker id c.workers })
        (if timedOut then .timeout id else .failed id) s)
    | some _, .streamTimeout =>
      some (emit cid (fun c => { c with workers := dropWorker id c.workers }) (.timeout id) s)
    | _, _ => none

/-- One step.  Nothing happens after a panic. -/
def step (lost : Bool) (cap : Nat) (s : Sys) (a : Act) : Option Sys :=
  if s.panicked then none
  else
    match a with
    | .send p => some (send p s)
    | .poll => poll lost s
    | .connect p => some (connect p s)
    | .close cid => close cid s
    | .dialFailure p => some (dialFailure p s)
    | .ask cid => ask cid s
    | .negotiated cid => negotiated cap cid s
    | .upgradeError cid e => upgradeError cid e s
    | .event cid => event cid s
    | .take cid => take cid s
    | .work cid id w => work cid id w s

/-- A run. -/
def run (lost : Bool) (cap : Nat) : Sys → List Act → Option Sys
  | s, [] => some s
  | s, a :: as =>
    match step lost cap s a with
    | none => none
    | some s' => run lost cap s' as

/-! ### Framing -/

/-- `prost`'s `encode_varint`: seven bits a byte, the lowest first. -/
def encVarint (n : Nat) : List Nat :=
  if n < 128 then [n] else (n % 128 + 128) :: encVarint (n / 128)
termination_by n

/-- What reading gives: the end of the stream, an error, or a value and what is
left of the stream. -/
inductive Read (α : Type) where
  | eof
  | err
  | ok (x : α) (rest : List Nat)

/-- The crate `unsigned_varint`, `aio::read_usize`: at most ten bytes, the shortest
form only.  `i`: how many were read, `acc`: their value. -/
def readVarint (i acc : Nat) : List Nat → Read Nat
  | [] => .eof
  | b :: bs =>
    if b < 128 then
      if b = 0 ∧ 0 < i then .err
      else if 2 ^ 64 ≤ acc + b * 128 ^ i then .err
      else .ok (acc + b * 128 ^ i) bs
    else if 9 ≤ i then .err
    else readVarint (i + 1) (acc + (b - 128) * 128 ^ i) bs

/-- p2p/src/sync/protocol.rs:162-190 `read_response`.  `dec`: decoding a message.
`read_exact` at the end of the stream is the error `UnexpectedEof`, the same as
when there was nothing more to read. -/
def readResponse {M : Type} (limit : Nat) (dec : List Nat → Option M) (bs : List Nat) : Read M :=
  match readVarint 0 0 bs with
  | .eof => .eof
  | .err => .err
  | .ok n rest =>
    if limit < n then .err
    else if rest.length < n then .eof
    else
      match dec (rest.take n) with
      | none => .err
      | some m => .ok m (rest.drop n)

/-- p2p/src/sync/protocol.rs:207-219 `write_response`. -/
def writeResponse {M : Type} (enc : M → List Nat) (m : M) : List Nat :=
  encVarint (enc m).length ++ enc m

/-- p2p_stream/src/handler.rs:231-276: what the caller finds in the channel of
responses when the peer has sent these bytes and closed: `none` is an error. The
first argument bounds the rounds of the loop; each takes at least one byte. -/
def receive {M : Type} (limit : Nat) (dec : List Nat → Option M) : Nat → List Nat → List (Option M)
  | 0, _ => []
  | n + 1, bs =>
    match readResponse limit dec bs with
    | .eof => []
    | .err => [none]
    | .ok m rest => some m :: receive limit dec n rest

end Verif.Reqs
