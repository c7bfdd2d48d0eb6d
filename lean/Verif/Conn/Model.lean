/-!
# Connections of a node with its peers: admission, limits, eviction

Models crates/p2p/src/core/behaviour.rs (the wrapper behaviour that manages connections),
crates/p2p/src/peers.rs (the record kept of every peer), and the part of
crates/p2p/src/main_loop.rs that reaches them.  libp2p's swarm is modelled as the environment: it
asks before a connection begins, asks again when the handshake is over, and reports what became
of it.
-/

namespace Verif.Conn

/-- A component of a multiaddress, behaviour.rs 725-749, peers.rs 37-51.  IP addresses and DNS
names are numbers (simplification); every protocol the code does not look at is `other`. -/
inductive Proto where
  | ip (n : Nat)
  | dns (n : Nat)
  | circuit
  | p2p (id : Nat)
  | other
deriving Repr, DecidableEq

/-- A multiaddress. -/
abbrev Addr := List Proto

/-- crates/p2p/src/core.rs 78-116 `Config`, with what the decisions take from outside: the
network group of an address and the rank of a peer (both SHA3 with the node's secret,
peers.rs 157-168, behaviour.rs 540-546 and 610-616) and the DNS.  Times are milliseconds
(simplification: the code has nanoseconds).  The secret is left inside `group` and `rank`. -/
structure Cfg where
  directTimeout : Nat
  relayTimeout : Nat
  maxDirect : Nat
  maxRelayed : Nat
  maxOut : Nat
  /-- "How long to prevent evicted peers from reconnecting." -/
  evictionTimeout : Nat
  whitelist : Nat → Bool
  rateMax : Nat
  rateInterval : Nat
  group : Nat → Nat
  rank : Nat → Nat
  resolve : Nat → Option Nat

/-- peers.rs 65-81 `Connectivity`. -/
inductive Link where
  | dialing
  | connected (since : Nat)
  | disconnecting (since : Option Nat)
  | disconnected (since : Option Nat) (ended : Nat)
deriving Repr, DecidableEq

/-- peers.rs 84-87 `Direction`. -/
inductive Dir where
  | inbound
  | outbound
deriving Repr, DecidableEq

/-- peers.rs 11-22 `Peer`. -/
structure Peer where
  link : Link
  dir : Dir
  addr : Option Addr
  group : Option Nat
  minPing : Option Nat
  evicted : Bool
  useful : Bool
deriving Repr, DecidableEq

/-- peers.rs 25-27 `is_connected`. -/
def Peer.isConnected (p : Peer) : Bool :=
  match p.link with
  | .connected _ => true
  | _ => false

/-- peers.rs 29-31 `is_inbound`. -/
def Peer.isInbound (p : Peer) : Bool := p.dir == .inbound

/-- peers.rs 33-35 `is_outbound`. -/
def Peer.isOutbound (p : Peer) : Bool := p.dir == .outbound

/-- peers.rs 37-41, behaviour.rs 137 and 363: does the address go over a relay? -/
def viaRelay (a : Addr) : Bool := a.contains .circuit

/-- peers.rs 37-41 `is_relayed`. -/
def Peer.isRelayed (p : Peer) : Bool :=
  match p.addr with
  | some a => viaRelay a
  | none => false

/-- The first IP written in an address, peers.rs 43-51. -/
def writtenIp : Addr → Option Nat
  | [] => none
  | .ip n :: _ => some n
  | _ :: r => writtenIp r

/-- peers.rs 43-51 `ip_addr`. -/
def Peer.ip (p : Peer) : Option Nat := p.addr.bind writtenIp

/-- behaviour.rs 725-749 `get_ip`: as `writtenIp`, but a DNS name that resolves counts. -/
def getIp (cfg : Cfg) : Addr → Option Nat
  | [] => none
  | .ip n :: _ => some n
  | .dns d :: r => (cfg.resolve d).orElse fun _ => getIp cfg r
  | _ :: r => getIp cfg r

/-- The peer written in an address, behaviour.rs 399-403. -/
def writtenPeer : Addr → Option Nat
  | [] => none
  | .p2p i :: _ => some i
  | _ :: r => writtenPeer r

/-- peers.rs 54-61 `connected_at`. -/
def Peer.since (p : Peer) : Option Nat :=
  match p.link with
  | .connected t => some t
  | .disconnecting t => t
  | .disconnected t _ => t
  | .dialing => none

/-- The set of peer records, peers.rs 90-94 `PeerSet`: a hash map, here a list of pairs whose
order is the order of iteration.  The action `shuffle` below lets that order change at any
moment. -/
abbrev Peers := List (Nat × Peer)

/-- A record out of date: disconnected for the retention period, which is the eviction timeout
(core/behaviour/builder.rs 105). -/
def stale (cfg : Cfg) (now : Nat) (p : Peer) : Bool :=
  match p.link with
  | .disconnected _ t => cfg.evictionTimeout ≤ now - t
  | _ => false

/-- peers.rs 131-133 `get`. -/
def get (ps : Peers) (id : Nat) : Option Peer :=
  (ps.find? (fun e => e.1 == id)).map (·.2)

/-- peers.rs 135-146 `iter`. -/
def iter (cfg : Cfg) (now : Nat) (ps : Peers) : Peers :=
  ps.filter fun e => !stale cfg now e.2

/-- Apply `f` to the record of one peer. -/
def modify (ps : Peers) (id : Nat) (f : Peer → Peer) : Peers :=
  ps.map fun e => if e.1 = id then (e.1, f e.2) else e

/-- peers.rs 112-129 `upsert`: stale records go first. -/
def upsert (cfg : Cfg) (now : Nat) (ps : Peers) (id : Nat) (f : Peer → Peer) (new : Peer) : Peers :=
  let kept := iter cfg now ps
  if (get kept id).isSome then modify kept id f else kept ++ [(id, new)]

/-- peers.rs 107-109 `update`: panics (`none`) for an unknown peer. -/
def update (cfg : Cfg) (now : Nat) (ps : Peers) (id : Nat) (f : Peer → Peer) : Option Peers :=
  let kept := iter cfg now ps
  if (get kept id).isSome then some (modify kept id f) else none

/-- A record as made for a peer seen for the first time, behaviour.rs 210-220, 238-248, 266-277,
472-480. -/
def fresh (link : Link) (dir : Dir) (addr : Option Addr) (group : Option Nat) : Peer :=
  { link, dir, addr, group, minPing := none, evicted := false, useful := true }

/-! ## Whom to evict -/

/-- What eviction looks at in a connected inbound peer; the two `expect`s of behaviour.rs 597 and
641 are `candOf` below. -/
structure Cand where
  id : Nat
  group : Nat
  ping : Option Nat
  since : Nat
deriving Repr, DecidableEq

/-- behaviour.rs 597 and 641: both must be there, else the node panics. -/
def candOf (e : Nat × Peer) : Option Cand :=
  match e.2.group, e.2.since with
  | some g, some t => some { id := e.1, group := g, ping := e.2.minPing, since := t }
  | _, _ => none

/-- All or nothing. -/
def allSome {α : Type} : List (Option α) → Option (List α)
  | [] => some []
  | none :: _ => none
  | some a :: r => (allSome r).map (a :: ·)

/-- How many candidates share a network group, behaviour.rs 593-601. -/
def groupSize (cs : List Cand) (g : Nat) : Nat := (cs.filter fun c => c.group == g).length

/-- `min_by_key`: the first of the least. -/
def minBy (f : Cand → Nat) : List Cand → Option Cand
  | [] => none
  | c :: r =>
    match minBy f r with
    | none => some c
    | some m => if f c ≤ f m then some c else some m

/-- behaviour.rs 604-619: one peer of each of the four least groups. -/
def guards (rank : Nat → Nat) (cs : List Cand) : List Nat :=
  (((cs.map (·.group)).eraseDups.mergeSort (fun a b => decide (a ≤ b))).take 4).filterMap fun g =>
    (minBy (fun c => rank c.id) (cs.filter fun c => c.group == g)).map (·.id)

/-- behaviour.rs 624-631: the eight with the least ping, of those with one. -/
def fastest (cs : List Cand) : List Nat :=
  (((cs.filterMap fun c => c.ping.map fun p => (c.id, p)).mergeSort
      (fun a b => decide (a.2 ≤ b.2))).take 8).map (·.1)

/-- behaviour.rs 637-646: the comment says half of the rest, those connected the longest; the sort
is by `Reverse(connected_at)`. -/
def settled (cs : List Cand) : List Nat :=
  ((cs.mergeSort (fun a b => decide (b.since ≤ a.since))).take (cs.length / 2)).map (·.id)

/-- Remove the protected from the candidates. -/
def without (cs : List Cand) (ids : List Nat) : List Cand := cs.filter fun c => !ids.contains c.id

/-- The order of behaviour.rs 655-673: by size of group, then greater group first, then by the time
of connection. -/
def before (all : List Cand) (a b : Cand) : Bool :=
  decide (groupSize all a.group < groupSize all b.group) ||
    (decide (groupSize all a.group = groupSize all b.group) &&
      (decide (b.group < a.group) || (decide (a.group = b.group) && decide (a.since ≤ b.since))))

/-- behaviour.rs 580-681 `evict_inbound_peer`: the peer chosen, if any. -/
def choose (rank : Nat → Nat) (cs : List Cand) : Option Cand :=
  let c1 := without cs (guards rank cs)
  let c2 := without c1 (fastest c1)
  let c3 := without c2 (settled c2)
  (c3.mergeSort (before cs)).head?

/-- The last of the greatest: behaviour.rs 540-547 sorts by rank and pops the last. -/
def maxRank (rank : Nat → Nat) : List Nat → Option Nat
  | [] => none
  | c :: r =>
    match maxRank rank r with
    | none => some c
    | some m => if rank m < rank c then some c else some m

/-! ## The behaviour -/

/-- behaviour.rs 53-63 `Behaviour`: the records, and the requests to close not yet handed to the
swarm. -/
structure B where
  peers : Peers
  queue : List Nat
deriving Repr, DecidableEq

/-- What a handler of the behaviour answers: allowed, denied, or a panic. -/
inductive Ans where
  | ok (b : B)
  | deny (b : B)
  | panic

/-- behaviour.rs 757-780: the connected peers of a kind. -/
def outboundPeers (cfg : Cfg) (now : Nat) (b : B) : Peers :=
  (iter cfg now b.peers).filter fun e => e.2.isConnected && e.2.isOutbound

/-- See `outboundPeers`. -/
def inboundDirect (cfg : Cfg) (now : Nat) (b : B) : Peers :=
  (iter cfg now b.peers).filter fun e => e.2.isConnected && e.2.isInbound && !e.2.isRelayed

/-- See `outboundPeers`. -/
def inboundRelayed (cfg : Cfg) (now : Nat) (b : B) : Peers :=
  (iter cfg now b.peers).filter fun e => e.2.isConnected && e.2.isInbound && e.2.isRelayed

/-- behaviour.rs 557-569 and 683-694: mark the peer evicted and ask the swarm to close it. -/
def evict (cfg : Cfg) (now : Nat) (b : B) (id : Nat) : Ans :=
  match update cfg now b.peers id (fun p =>
      { p with link := .disconnecting p.since, evicted := true }) with
  | none => .panic
  | some ps => .ok { peers := ps, queue := b.queue ++ [id] }

/-- behaviour.rs 580-696 `evict_inbound_peer`. -/
def evictInbound (cfg : Cfg) (now : Nat) (b : B) (cands : Peers) : Ans :=
  match allSome (cands.map candOf) with
  | none => .panic
  | some cs =>
    match choose cfg.rank cs with
    | none => .deny b
    | some c => evict cfg now b c.id

/-- behaviour.rs 531-572 `evict_outbound_peer`: only peers marked not useful. -/
def evictOutbound (cfg : Cfg) (now : Nat) (b : B) : Ans :=
  match maxRank cfg.rank
      (((outboundPeers cfg now b).filter fun e => !e.2.useful).map (·.1)) with
  | none => .deny b
  | some id => evict cfg now b id

/-- behaviour.rs 515-526 `check_duplicate_connection`. -/
def duplicate (b : B) (id : Nat) : Bool := (get b.peers id).any (·.isConnected)

/-- behaviour.rs 700-704: thirty seconds. -/
def banTime : Nat := 30000

/-- behaviour.rs 699-721 `prevent_evicted_peer_reconnections`. -/
def banned (now : Nat) (b : B) (id : Nat) : Bool :=
  match get b.peers id with
  | some p =>
    match p.evicted, p.link with
    | true, .disconnected _ t => now - t < banTime
    | _, _ => false
  | none => false

/-- behaviour.rs 136-155 and 420-436: make room for an inbound peer. -/
def makeRoom (cfg : Cfg) (now : Nat) (b : B) (a : Addr) : Ans :=
  if viaRelay a then
    if cfg.maxRelayed ≤ (inboundRelayed cfg now b).length then
      evictInbound cfg now b (inboundRelayed cfg now b)
    else .ok b
  else if cfg.maxDirect ≤ (inboundDirect cfg now b).length then
    evictInbound cfg now b (inboundDirect cfg now b)
  else .ok b

/-- behaviour.rs 333-334: connected at a time in the last interval.  The two readings of the clock
are one here, and the subtraction does not underflow (simplifications). -/
def inWindow (cfg : Cfg) (now t : Nat) : Bool := decide (now - cfg.rateInterval ≤ t ∧ t < now)

/-- behaviour.rs 332-344: how many inbound peers were connected in the last interval. -/
def recentCount (cfg : Cfg) (now : Nat) (b : B) : Nat :=
  (((iter cfg now b.peers).filter fun e => e.2.isInbound).filterMap fun e => e.2.since).countP
    (inWindow cfg now)

/-- behaviour.rs 367-391: the addresses of inbound peers of the same kind, connected within the
timeout of that kind. -/
def recentIps (cfg : Cfg) (now : Nat) (b : B) (relayed : Bool) : List Nat :=
  (iter cfg now b.peers).filterMap fun e =>
    if e.2.isInbound then
      e.2.since.bind fun t =>
        if relayed then
          if !e.2.isRelayed || decide (cfg.relayTimeout ≤ now - t) then none else e.2.ip
        else
          if e.2.isRelayed || decide (cfg.directTimeout ≤ now - t) then none else e.2.ip
    else none

/-- behaviour.rs 326-440 `handle_pending_inbound_connection`. -/
def pendingInbound (cfg : Cfg) (now : Nat) (b : B) (a : Addr) : Ans :=
  if cfg.rateMax ≤ recentCount cfg now b then .deny b
  else
    match getIp cfg a with
    | none => .deny b
    | some ip =>
      if !cfg.whitelist ip then .deny b
      else if (recentIps cfg now b (viaRelay a)).contains ip then .deny b
      else if (writtenPeer a).any (banned now b) then .deny b
      else makeRoom cfg now b a

/-- behaviour.rs 123-163 `handle_established_inbound_connection`. -/
def establishedInbound (cfg : Cfg) (now : Nat) (b : B) (id : Nat) (a : Addr) : Ans :=
  if (getIp cfg a).isNone then .deny b
  else if duplicate b id then .deny b
  else if banned now b id then .deny b
  else makeRoom cfg now b a

/-- behaviour.rs 165-186 `handle_established_outbound_connection`. -/
def establishedOutbound (cfg : Cfg) (now : Nat) (b : B) (id : Nat) (a : Addr) : Ans :=
  if (getIp cfg a).isNone then .deny b
  else if duplicate b id then .deny b
  else if banned now b id then .deny b
  else .ok b

/-- behaviour.rs 442-490 `handle_pending_outbound_connection`. -/
def pendingOutbound (cfg : Cfg) (now : Nat) (b : B) (peer : Option Nat) (dialer : Bool) : Ans :=
  match peer with
  | none => .ok b
  | some id =>
    if !dialer then .ok b
    else if banned now b id then .deny b
    else
      let room : Ans :=
        if cfg.maxOut ≤ (outboundPeers cfg now b).length then evictOutbound cfg now b else .ok b
      match room with
      | .ok b =>
        .ok { b with
          peers := upsert cfg now b.peers id
            (fun p => if p.isConnected then p else { p with link := .dialing })
            (fresh .dialing .outbound none none) }
      | r => r

/-- behaviour.rs 190-250: a connection is established. -/
def onEstablished (cfg : Cfg) (now : Nat) (b : B) (id : Nat) (a : Addr) (dialer : Bool) : B :=
  let dir : Dir := if dialer then .outbound else .inbound
  match getIp cfg a with
  | none =>
    { peers := upsert cfg now b.peers id (fun p => { p with link := .disconnecting (some now) })
        (fresh (.disconnecting (some now)) dir none none)
      queue := b.queue ++ [id] }
  | some ip =>
    { b with
      peers := upsert cfg now b.peers id
        (fun p => { p with
          link := .connected now, addr := some a, group := some (cfg.group ip) })
        (fresh (.connected now) dir (some a) (some (cfg.group ip))) }

/-- behaviour.rs 251-281: a dial failed. -/
def onDialFailure (cfg : Cfg) (now : Nat) (b : B) (peer : Option Nat) : B :=
  match peer with
  | none => b
  | some id =>
    { b with
      peers := upsert cfg now b.peers id
        (fun p => if p.isConnected then p else { p with link := .disconnected none now })
        (fresh (.disconnected none now) .outbound none none) }

/-- behaviour.rs 282-300: a connection is closed, `remaining` others of the peer are left. -/
def onClosed (cfg : Cfg) (now : Nat) (b : B) (id : Nat) (remaining : Nat) : Option B :=
  if remaining = 0 then
    (update cfg now b.peers id fun p => { p with link := .disconnected p.since now }).map
      fun ps => { b with peers := ps }
  else some b

/-- behaviour.rs 497-510 `pinged`, a ping that came back. -/
def onPing (cfg : Cfg) (now : Nat) (b : B) (id : Nat) (d : Nat) : Option B :=
  (update cfg now b.peers id fun p =>
    { p with minPing := some (match p.minPing with | some m => min m d | none => d) }).map
      fun ps => { b with peers := ps }

/-- behaviour.rs 751-755 `not_useful`, main_loop.rs 576-579. -/
def onNotUseful (cfg : Cfg) (now : Nat) (b : B) (id : Nat) : Option B :=
  (update cfg now b.peers id fun p => { p with useful := false }).map
    fun ps => { b with peers := ps }

/-! ## The swarm around it -/

/-- A connection that exists. `closing`: the swarm has been told to close it. -/
structure Conn where
  peer : Nat
  addr : Addr
  dialer : Bool
  closing : Bool
deriving Repr, DecidableEq

/-- The node: the clock, the behaviour, and libp2p's connections: being accepted, being dialled,
established. -/
structure Sys where
  now : Nat
  b : B
  arriving : List Addr
  dials : List (Option Nat)
  live : List Conn
  crashed : Bool
deriving Repr, DecidableEq

/-- A node just started. -/
def start (t : Nat) : Sys :=
  { now := t, b := { peers := [], queue := [] }, arriving := [], dials := [], live := [],
    crashed := false }

/-- What may happen: time passes, the iteration order of the hash map changes, the peers, the
network and the other behaviours do anything, libp2p reports it. -/
inductive Act where
  | tick (d : Nat)
  | shuffle (ps : Peers)
  /-- A connection from outside begins, from address `a`. -/
  | arrive (a : Addr)
  /-- The handshake of the `i`th arriving connection shows peer `id`; `inner`: the other
  behaviours allow it. -/
  | accept (i : Nat) (id : Nat) (inner : Bool)
  /-- The `i`th arriving connection comes to nothing. -/
  | lost (i : Nat)
  /-- Someone inside the node dials; `dialer = false` is hole punching. -/
  | dial (peer : Option Nat) (dialer : Bool)
  /-- The `i`th dial reaches peer `id` at `a`. -/
  | reach (i : Nat) (id : Nat) (a : Addr) (inner : Bool)
  /-- The `i`th dial fails. -/
  | fail (i : Nat)
  /-- The swarm takes a request to close from the behaviour. -/
  | poll
  /-- The user disconnects a peer, main_loop.rs 592-600. -/
  | disconnect (id : Nat)
  /-- The `i`th connection ends. -/
  | close (i : Nat)
  | ping (i : Nat) (d : Nat)
  | notUseful (id : Nat)

/-- The swarm's answer to an allowed or denied arriving connection. -/
def Sys.setB (s : Sys) (b : B) : Sys := { s with b := b }

/-- The node stops. -/
def Sys.crash (s : Sys) : Sys := { s with crashed := true }

/-- Tell the swarm to close every connection of a peer. -/
def closeAll (live : List Conn) (id : Nat) : List Conn :=
  live.map fun c => if c.peer = id then { c with closing := true } else c

/-- One step.  `none`: the action is not possible.  The libp2p side follows libp2p-swarm's
documented order of calls: a denied or failed dial is reported as a dial failure, an accepted
connection at once as established. -/
def step (cfg : Cfg) (s : Sys) (act : Act) : Option Sys :=
  if s.crashed then none
  else
    match act with
    | .tick d => some { s with now := s.now + d }
    | .shuffle ps => if ps.isPerm s.b.peers then some (s.setB { s.b with peers := ps }) else none
    | .arrive a =>
      match pendingInbound cfg s.now s.b a with
      | .ok b => some { s with b := b, arriving := s.arriving ++ [a] }
      | .deny b => some (s.setB b)
      | .panic => some s.crash
    | .accept i id inner =>
      match s.arriving[i]? with
      | none => none
      | some a =>
        let s := { s with arriving := s.arriving.eraseIdx i }
        match establishedInbound cfg s.now s.b id a with
        | .ok b =>
          if inner then
            some { s with
              b := onEstablished cfg s.now b id a false
              live := s.live ++ [{ peer := id, addr := a, dialer := false, closing := false }] }
          else some (s.setB b)
        | .deny b => some (s.setB b)
        | .panic => some s.crash
    | .lost i =>
      if i < s.arriving.length then some { s with arriving := s.arriving.eraseIdx i } else none
    | .dial peer dialer =>
      match pendingOutbound cfg s.now s.b peer dialer with
      | .ok b => some { s with b := b, dials := s.dials ++ [peer] }
      | .deny b => some (s.setB (onDialFailure cfg s.now b peer))
      | .panic => some s.crash
    | .reach i id a inner =>
      match s.dials[i]? with
      | none => none
      | some peer =>
        if peer.isSome && peer != some id then none
        else
          let s := { s with dials := s.dials.eraseIdx i }
          match establishedOutbound cfg s.now s.b id a with
          | .ok b =>
            if inner then
              some { s with
                b := onEstablished cfg s.now b id a true
                live := s.live ++ [{ peer := id, addr := a, dialer := true, closing := false }] }
            else some (s.setB (onDialFailure cfg s.now b (some id)))
          | .deny b => some (s.setB (onDialFailure cfg s.now b (some id)))
          | .panic => some s.crash
    | .fail i =>
      match s.dials[i]? with
      | none => none
      | some peer =>
        some { s with dials := s.dials.eraseIdx i, b := onDialFailure cfg s.now s.b peer }
    | .poll =>
      match s.b.queue with
      | [] => none
      | id :: q => some { s with b := { s.b with queue := q }, live := closeAll s.live id }
    | .disconnect id => some { s with live := closeAll s.live id }
    | .close i =>
      match s.live[i]? with
      | none => none
      | some c =>
        let live := s.live.eraseIdx i
        match onClosed cfg s.now s.b c.peer (live.countP fun d => d.peer == c.peer) with
        | some b => some { s with b := b, live := live }
        | none => some s.crash
    | .ping i d =>
      match s.live[i]? with
      | none => none
      | some c =>
        match onPing cfg s.now s.b c.peer d with
        | some b => some (s.setB b)
        | none => some s.crash
    | .notUseful id =>
      match onNotUseful cfg s.now s.b id with
      | some b => some (s.setB b)
      | none => some s.crash

/-- A history. -/
def run (cfg : Cfg) : Sys → List Act → Option Sys
  | s, [] => some s
  | s, a :: r => (step cfg s a).bind fun s' => run cfg s' r

end Verif.Conn
