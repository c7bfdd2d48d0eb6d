import Verif.Drive.Model
/-! # Specification: what a driver of a consensus engine does -/

namespace Verif.Drive

variable {P W Q V L H S : Type}

/-- The event that the caller is to see for an effect. -/
def eventOf : Effect P W Q V → List (Event P W V)
  | .publishProposal p => [.gossipProposal p]
  | .publishVote w => [.gossipVote w]
  | .restream p => [.gossipProposal p]
  | .republish w => [.gossipVote w]
  | .getValue h (some r) => [.request h r]
  | .decide h (some r) v => [.decision h r v]
  | _ => []

/-- The line that is to be in the log for an effect. -/
def entryOf : Effect P W Q V → List (Entry P W Q V)
  | .decide h _ v => [.decision h v]
  | .append (.proposal p) => [.proposal p]
  | .append (.vote w) => [.vote w]
  | .append (.timeout ⟨.propose, r⟩) => [.timeout "propose" r]
  | .append (.timeout ⟨.prevote, r⟩) => [.timeout "prevote" r]
  | .append (.timeout ⟨.precommit, r⟩) => [.timeout "precommit" r]
  | .append (.timeout ⟨.rebroadcast, r⟩) => [.timeout "rebroadcast" r]
  | .append (.proposed q) => [.proposed q]
  | _ => []

/-- What the core comes to with these inputs: its state, all events and all lines. -/
def outcome (core : S → Input P W Q L H → S × List (Effect P W Q V) × Bool) (s : S) :
    List (Input P W Q L H) → S × List (Event P W V) × List (Entry P W Q V)
  | [] => (s, [], [])
  | i :: is =>
    ((outcome core (core s i).1 is).1,
      (core s i).2.1.flatMap eventOf ++ (if (core s i).2.2 then [.error] else []) ++ (outcome core (core s i).1 is).2.1,
      (core s i).2.1.flatMap entryOf ++ (outcome core (core s i).1 is).2.2)

/-- The inputs that the core was given. -/
def inputs (h : List (Hist P W Q L H)) : List (Input P W Q L H) :=
  h.filterMap fun x => match x with | .fed i => some i | _ => none

def isTimeout : Input P W Q L H → Bool
  | .timeout _ => true
  | _ => false

/-- The commands that a caller gave. -/
def submitted (ops : List (Op P W L H)) : List (Cmd P W L H) :=
  ops.filterMap fun o => match o with | .submit c => some c | _ => none

/-- Readings of a clock do not go back. -/
def Monotone (clock : Nat → Nat) : Prop := ∀ i, clock i ≤ clock (i + 1)

/-- A heap gives one of those with the least due time. -/
def Least (first : List Sched → Option Sched) : Prop :=
  ∀ l, (first l = none → l = []) ∧ ∀ s, first l = some s → s ∈ l ∧ ∀ x ∈ l, s.due ≤ x.due

/-- In this history timeout `t` is waiting and may be over at `now`: it was scheduled, was not
cancelled since, and its duration has passed since then and since every reset. -/
def Over (duration : Kind → Nat) (h : List (Hist P W Q L H)) (t : Timeout) (now : Nat) : Prop :=
  ∃ a b at', h = a ++ .scheduled t at' :: b ∧ .cancelled t ∉ b ∧ .cancelledAll ∉ b ∧ at' + duration t.kind ≤ now ∧
    ∀ r, .reset r ∈ b → r + duration t.kind ≤ now

def firedCount (h : List (Hist P W Q L H)) (t : Timeout) : Nat :=
  h.countP fun x => match x with | .fired u _ => u == t | _ => false

def scheduledCount (h : List (Hist P W Q L H)) (t : Timeout) : Nat :=
  h.countP fun x => match x with | .scheduled u _ => u == t | _ => false

/-- The timeouts that were found to be over, in order. -/
def overs (h : List (Hist P W Q L H)) : List Timeout := h.filterMap fun x => match x with | .fired t _ => some t | _ => none

/-- The timeouts among these inputs. -/
def timeouts (is : List (Input P W Q L H)) : List Timeout := is.filterMap fun x => match x with | .timeout t => some t | _ => none

/-- The core asks for nothing in a round that is nil. -/
def RoundsDefined (core : S → Input P W Q L H → S × List (Effect P W Q V) × Bool) : Prop :=
  ∀ s i e, e ∈ (core s i).2.1 → (∀ h, e ≠ .getValue h none) ∧ ∀ h v, e ≠ .decide h none v

/-- The input that a line stands for, if it was written by an engine. -/
def CoreEntry.input : CoreEntry P W Q → Input P W Q L H
  | .proposal p => .proposal p
  | .vote w => .vote w
  | .timeout t => .timeout t
  | .proposed q => .proposed q

end Verif.Drive
