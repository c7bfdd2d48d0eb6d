import Verif.Reqs.Model

/-
What a caller may expect of requests to peers, said without the queues through
which they go.
-/

namespace Verif.Reqs.Spec

open Verif.Reqs

/-- Whether a step is a request by a caller. -/
def isSend : Act → Bool
  | .send _ => true
  | _ => false

/-- The requests made in a run are numbered from 1; this is how many there are. -/
def asked (acts : List Act) : Nat := acts.countP isSend

/-- The caller has got an outcome. -/
def Answered (s : Sys) (id : Nat) : Prop := ∃ ok, (id, ok) ∈ s.answers

/-- The request waits for a connection with its peer. -/
def WaitsForPeer (s : Sys) (id : Nat) : Prop := ∃ p, (p, id) ∈ s.waiting

/-- There is nothing left to do for the node or, in opening streams and sending
requests on them, for the network. -/
def Idle (lost : Bool) (cap : Nat) (s : Sys) : Prop :=
  s.panicked = false ∧ step lost cap s .poll = none ∧
    ∀ cid, step lost cap s (.ask cid) = none ∧ step lost cap s (.negotiated cid) = none ∧
      step lost cap s (.event cid) = none ∧ step lost cap s (.take cid) = none ∧
      ∀ id, step lost cap s (.work cid id .written) = none

/-- Along this run no substream fails with an error of the connection, and a stream
that was opened always finds a place among those that are served. -/
def Calm (lost : Bool) (cap : Nat) : Sys → List Act → Prop
  | _, [] => True
  | s, a :: as =>
    (match a with
      | .upgradeError _ e => e ≠ .io
      | .negotiated cid => ∀ c, s.conn cid = some c → c.workers.length < cap
      | _ => True) ∧
    match step lost cap s a with
    | none => True
    | some s' => Calm lost cap s' as

/-- Along this run no stream times out between the moment when the request was
written and the moment when the handler takes note of that. -/
def Prompt (lost : Bool) (cap : Nat) : Sys → List Act → Prop
  | _, [] => True
  | s, a :: as =>
    (match a with
      | .work cid id .streamTimeout => ∀ c, s.conn cid = some c → (id, .parked) ∉ c.workers
      | _ => True) ∧
    match step lost cap s a with
    | none => True
    | some s' => Prompt lost cap s' as

end Verif.Reqs.Spec
