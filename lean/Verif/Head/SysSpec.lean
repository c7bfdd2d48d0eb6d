import Verif.Head.Spec
/-! The producer of the blocks of the gateway, the queue and the consumer together; what subscribers make of notifications; what L1 finalized. -/
namespace Verif.Head

/-- The producer, the events in the channel, oldest first, and the consumer. An event leaves the channel when it is committed. -/
structure Sys where
  producer : Producer
  queue : List Event
  consumer : Consumer
  deriving DecidableEq, Repr

/-- The number that the producer asks for next. -/
def Producer.next (p : Producer) : Nat := p.head.elim 0 (·.1 + 1)

/-- What can happen in a node that keeps all blocks. The blocks that the gateway gives have the number that was asked for, and their state roots come out right.
With `race`, the producer may be started again while events are in the channel (sync.rs:615-646). -/
inductive Sys.Step (race : Bool) : Sys → Sys → Prop
  | round {p p' : Producer} {q es : List Event} {c : Consumer} (a : Ans) (ans : Nat → Ans) (full : Bool) :
      (∀ b v, a = .block b v → b.number = p.next) → p.round a ans true full = some (p', es) → Step race ⟨p, q, c⟩ ⟨p', q ++ es, c⟩
  | finalize {p : Producer} {q : List Event} {c : Consumer} (h : Hash) (full : Bool) :
      Step race ⟨p, q, c⟩ ⟨⟨some (p.next, h), p.cache.push p.next h full⟩, q ++ [.finalized p.next h true], c⟩
  | l1 {p : Producer} {q : List Event} {c : Consumer} (n : Nat) (h : Hash) : Step race ⟨p, q, c⟩ ⟨p, q ++ [.l1 n h], c⟩
  | consume {p : Producer} {e : Event} {q : List Event} {c c' : Consumer} : c.step none e = some c' → Step race ⟨p, e :: q, c⟩ ⟨p, q, c'⟩
  | restart {p : Producer} {q : List Event} {c : Consumer} (size : Nat) : (race = true ∨ q = []) → Step race ⟨p, q, c⟩ ⟨Producer.start c.db size, q, c⟩
  | reboot {p : Producer} {q : List Event} {c : Consumer} (size : Nat) : Step race ⟨p, q, c⟩ ⟨Producer.start c.db size, [], Consumer.start c.db⟩

/-- The states of a node that began with nothing. -/
inductive Sys.Reach (race : Bool) : Sys → Prop
  | init (size : Nat) : Sys.Reach race ⟨Producer.start DB.empty size, [], Consumer.start DB.empty⟩
  | step {s s' : Sys} : Sys.Reach race s → Sys.Step race s s' → Sys.Reach race s'

/-- The consumer ends with an error at the next event. -/
def Sys.Stops (s : Sys) : Prop := ∃ e q, s.queue = e :: q ∧ s.consumer.step none e = none

/-- A gateway with the chain `g` that answers alike for all questions. -/
def gateway (g : List Blk) (k : Nat) : Ans := match g[k]? with
  | some b => .block b true
  | none => .notFound (g.getLast?.map fun b => (b.number, b.hash))

/-- The node and the gateway have the same block `j`. -/
def Common (g : List Blk) (c : Cache) (j : Nat) : Prop := ∃ b, g[j]? = some b ∧ c.get j = some b.hash

/-- The blocks have the numbers `n`, `n + 1`, ..., and each has the hash of the one before as parent; the first has `h`, if that is known. -/
def Chains : Option Hash → Nat → List Blk → Prop
  | _, _, [] => True
  | h, n, b :: l => b.number = n ∧ (∀ x, h = some x → b.parent = x) ∧ Chains (some b.hash) (n + 1) l

/-- What a subscriber does with a notification: a new block is added, the blocks of a reorg are taken away. -/
def applyNote (l : List Blk) : Option Note → List Blk
  | none => l
  | some (.block b) => l ++ [b]
  | some (.reorg r) => l.filter fun b => !(r.start ≤ b.number && b.number ≤ r.ending)

/-- Several events, with the notifications. -/
inductive Run (kept : Option Nat) : Consumer → List (Option Note) → Consumer → Prop
  | nil (s : Consumer) : Run kept s [] s
  | cons {s s' s'' : Consumer} {note : Option Note} {notes : List (Option Note)} (e : Event) :
      Follows s e → s.handle kept e = some (s', note) → Run kept s' notes s'' → Run kept s (note :: notes) s''

/-- The state update that the logs leave in an L1 block: the last one, if the logs of the block were not removed after it. -/
def live (es : List L1Event) (k : Nat) : Option (Nat × Hash) := es.foldl (fun u e => match e with
  | .log e n h => if e = k then some (n, h) else u
  | .removed e => if e = k then none else u
  | .finalized _ => u) none

/-- The number of L1 blocks, from 0, that are finalized. -/
def finalizedUpTo (es : List L1Event) : Nat := es.foldl (fun m e => match e with
  | .finalized f => max m (f + 1)
  | _ => m) 0

/-- A finalized L1 block does not change. -/
def Finality (es : List L1Event) : Prop := ∀ (pre : List L1Event) (f : Nat) (post : List L1Event), es = pre ++ .finalized f :: post →
  (∀ k n h, .log k n h ∈ post → f < k) ∧ (∀ k, .removed k ∈ post → f < k)

end Verif.Head
