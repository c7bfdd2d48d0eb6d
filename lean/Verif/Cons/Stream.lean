/-!
# Streams of proposal parts between peers

Model of `crates/p2p/src/consensus.rs` and `consensus/stream.rs`. A part is any `T`; `isFin` tells the `ProposalFin` part.
-/
namespace Verif.Cons

/-- `HeightAndRound` (height_and_round.rs:7-10). -/
abbrev Hnr := Nat × Nat

/-- `StreamMessageBody` (stream.rs:62-67). -/
inductive Body (T : Type)
  | content (part : T)
  | fin
  deriving DecidableEq

/-- `StreamMessage` (stream.rs:12-19) without the stream id. -/
structure Msg (T : Type) where
  id : Nat
  body : Body T
  deriving DecidableEq

/-- `IncomingStreamState` (stream.rs:93-100). Only messages with content are buffered. -/
structure Incoming (T : Type) where
  next : Nat := 0
  buf : List (Nat × T) := []
  fin : Option Nat := none

/-- `OutgoingStreamState` (stream.rs:114-121), the id sent last. -/
structure Outgoing where
  last : Option Nat := none

/-- `StreamState` (stream.rs:74-79). -/
inductive StreamState (T : Type)
  | incoming (s : Incoming T)
  | outgoing (s : Outgoing)

variable {T : Type}

/-- `HashMap::remove`. -/
def removeId (n : Nat) (buf : List (Nat × T)) : List (Nat × T) := buf.filter (·.1 != n)

theorem removeId_length {buf : List (Nat × T)} {n : Nat} {c : T} (h : buf.lookup n = some c) :
    (removeId n buf).length < buf.length := by
  unfold removeId
  induction buf with
  | nil => cases h
  | cons p buf ih =>
    obtain ⟨k, v⟩ := p
    rw [List.lookup_cons] at h
    by_cases hk : n = k
    · subst hk
      simp only [List.filter_cons, bne_self_eq_false, Bool.false_eq_true, if_false, List.length_cons]
      exact Nat.lt_succ_of_le (List.length_filter_le _ _)
    · rw [beq_eq_false_iff_ne.2 hk] at h
      have := ih h
      have hb : (k != n) = true := bne_iff_ne.2 (Ne.symm hk)
      simp only [List.filter_cons, hb, if_true, List.length_cons]
      omega

/-- The loop over buffered messages that are now in order (consensus.rs:223-232): the next id, the buffer and the parts delivered. -/
def drain (next : Nat) (buf : List (Nat × T)) : Nat × List (Nat × T) × List T :=
  match h : buf.lookup next with
  | none => (next, buf, [])
  | some c =>
    let r := drain (next + 1) (removeId next buf)
    (r.1, r.2.1, c :: r.2.2)
termination_by buf.length
decreasing_by exact removeId_length h

/-- `handle_incoming_proposal_message` on an incoming stream (consensus.rs:187-234). The id counter is not bounded by 2^64. -/
def Incoming.receive (s : Incoming T) (m : Msg T) : Incoming T × List T :=
  if s.fin.any fun f => decide (f ≤ m.id) then (s, [])
  else match m.body with
    | .fin => ({ s with fin := some m.id, buf := s.buf.filter fun x => decide (x.1 < m.id) }, [])
    | .content c =>
      if m.id ≠ s.next then ({ s with buf := (m.id, c) :: removeId m.id s.buf }, [])
      else
        let r := drain (s.next + 1) s.buf
        ({ s with next := r.1, buf := r.2.1 }, c :: r.2.2)

/-- All streams (consensus.rs:109-112). -/
abbrev Streams (T : Type) := List (Hnr × StreamState T)

/-- `entry(..).or_insert_with(..)` followed by an update. -/
def setStream (st : Streams T) (k : Hnr) (s : StreamState T) : Streams T := (k, s) :: st.filter (·.1 != k)

/-- `handle_incoming_proposal_message` (consensus.rs:174-238); `none` is the panic. -/
def handleIncoming (st : Streams T) (k : Hnr) (m : Msg T) : Option (Streams T × List T) :=
  match (st.lookup k).getD (.incoming {}) with
  | .incoming s => some (setStream st k (.incoming (s.receive m).1), (s.receive m).2)
  | .outgoing _ => none

/-- `create_outgoing_proposal_message` on an outgoing stream (consensus.rs:137-164). -/
def Outgoing.send (isFin : T → Bool) (s : Outgoing) (part : T) : Outgoing × List (Msg T) :=
  let id := match s.last with | none => 0 | some i => i + 1
  ({ last := some id }, ⟨id, .content part⟩ :: if isFin part then [⟨id + 1, .fin⟩] else [])

/-- `create_outgoing_proposal_message` (consensus.rs:124-171); `none` is the panic. -/
def createOutgoing (isFin : T → Bool) (st : Streams T) (k : Hnr) (part : T) : Option (Streams T × List (Msg T)) :=
  match (st.lookup k).getD (.outgoing {}) with
  | .outgoing s => some (setStream st k (.outgoing (s.send isFin part).1), (s.send isFin part).2)
  | .incoming _ => none

/-- The `Proposal` command (behaviour.rs:39-50): the messages of all parts, before they are published. A retry
(gossip_retry.rs:57-74) issues the command again. -/
def gossip (isFin : T → Bool) (st : Streams T) (k : Hnr) : List T → Option (Streams T × List (Msg T))
  | [] => some (st, [])
  | p :: ps => (createOutgoing isFin st k p).bind fun r => (gossip isFin r.1 k ps).map fun r' => (r'.1, r.2 ++ r'.2)

/-- Messages arriving one after the other: the parts delivered, with their streams. -/
def arrive (st : Streams T) : List (Hnr × Msg T) → Option (Streams T × List (Hnr × T))
  | [] => some (st, [])
  | m :: ms => (handleIncoming st m.1 m.2).bind fun r => (arrive r.1 ms).map fun r' => (r'.1, r.2.map (fun t => (m.1, t)) ++ r'.2)

end Verif.Cons
