import Verif.Conn.Model
/-!
# What the eviction policy and the limits promise

Nothing here uses the functions of the model that choose a peer.
-/

namespace Verif.Conn

/-- The group `g` is among the four least groups of the candidates. -/
def FourLeast (cs : List Cand) (g : Nat) : Prop :=
  ∀ gs : List Nat, gs.Nodup → (∀ x ∈ gs, x < g ∧ ∃ c ∈ cs, c.group = x) → gs.length < 4

/-- The peer that stands for its group, in one of the four least groups. -/
def Guard (rank : Nat → Nat) (cs : List Cand) (c : Cand) : Prop :=
  FourLeast cs c.group ∧ ∀ d ∈ cs, d.group = c.group → d ≠ c → rank c.id < rank d.id

/-- A peer with fewer than eight others as fast as it. -/
def Fast (cs : List Cand) (c : Cand) : Prop :=
  ∃ p, c.ping = some p ∧
    (cs.filter fun d => decide (d ≠ c ∧ ∃ q, d.ping = some q ∧ q ≤ p)).length < 8

/-- The inbound peers of a kind recorded as connected, as eviction sees them. -/
def rivals (ps : Peers) (relayed : Bool) : List Cand :=
  ps.filterMap fun e =>
    if e.2.isConnected && e.2.isInbound && (e.2.isRelayed == relayed) then candOf e else none

/-- The limit on the inbound peers of a kind. -/
def Cfg.maxInbound (cfg : Cfg) (relayed : Bool) : Nat := if relayed then cfg.maxRelayed else cfg.maxDirect

/-- An attack from one network: the peers `evil` all come from one network group, have been
connected for less time than every other peer, and are more than any other network group. -/
structure OneNetworkAttack (cs : List Cand) (evil : Nat → Bool) (g : Nat) : Prop where
  group : ∀ c ∈ cs, evil c.id = true → c.group = g
  younger : ∀ c ∈ cs, evil c.id = true → ∀ d ∈ cs, evil d.id = false → d.since < c.since
  larger : ∀ d ∈ cs, evil d.id = false →
    (cs.filter fun c => c.group == d.group).length < (cs.filter fun c => evil c.id).length

/-- How many of the candidates are not the attacker's. -/
def honest (cs : List Cand) (evil : Nat → Bool) : Nat := (cs.filter fun c => !evil c.id).length

/-- The attacker connects peers `new` one after the other; each takes the place of the peer that
`pick` evicts, or is turned away. -/
def siege (pick : List Cand → Option Cand) (cs : List Cand) : List Cand → List Cand
  | [] => cs
  | n :: new =>
    match pick cs with
    | none => siege pick cs new
    | some c => siege pick (cs.filter (fun d => d.id != c.id) ++ [n]) new

/-- A connection the node keeps: nobody has asked for it to be closed. -/
def Sys.keeps (s : Sys) (c : Conn) : Bool := !c.closing && !s.b.queue.contains c.peer

/-- The inbound connections kept, direct ones or those over a relay. -/
def Sys.inboundKept (s : Sys) (relayed : Bool) : List Conn :=
  s.live.filter fun c => s.keeps c && !c.dialer && (viaRelay c.addr == relayed)

/-- The outbound connections kept. -/
def Sys.outboundKept (s : Sys) : List Conn := s.live.filter fun c => s.keeps c && c.dialer

/-- Histories in which every peer is met in one direction only: those in `D` are dialled and never
connect to the node by themselves, the others are never dialled. -/
def OneWay (D : Nat → Bool) : Act → Prop
  | .accept _ id _ => D id = false
  | .dial (some id) _ => D id = true
  | .reach _ id _ _ => D id = true
  | _ => True

/-- Dials one at a time, of a known peer, without hole punching. -/
def OneDial (s : Sys) : Act → Prop
  | .dial peer dialer => s.dials = [] ∧ peer.isSome = true ∧ dialer = true
  | _ => True

/-- Each action of a history satisfies a condition on the state it meets. -/
def Along (cfg : Cfg) (ok : Sys → Act → Prop) : Sys → List Act → Prop
  | _, [] => True
  | s, a :: r => ok s a ∧ ∀ s', step cfg s a = some s' → Along cfg ok s' r

/-- A peer that still has a connection is not dialled unless it is recorded as connected, and only
peers with a connection are reported as not useful. -/
def Calm (s : Sys) : Act → Prop
  | .dial (some id) _ => Quiet s id
  | .reach _ id _ _ => Quiet s id
  | .fail i => ∀ id, s.dials[i]? = some (some id) → Quiet s id
  | .notUseful id => ∃ c ∈ s.live, c.peer = id
  | _ => True
where
  /-- No connection of the peer is being closed. -/
  Quiet (s : Sys) (id : Nat) : Prop :=
    (∃ c ∈ s.live, c.peer = id) → ∃ c ∈ s.live, c.peer = id ∧ s.keeps c = true

end Verif.Conn
