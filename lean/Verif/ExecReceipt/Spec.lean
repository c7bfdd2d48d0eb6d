import Verif.ExecReceipt.Model
import Verif.GwTrace.Spec

/-!
# Receipts of executed transactions: specification
-/

namespace Verif.ExecReceipt

open Verif.GwTrace (Text XResources XEvent XMsg XCall XTree Revertible)
open Verif.TraceOut (Body Total)

/-- The calls of a transaction that took effect, by their role: a part that was reverted has none. -/
inductive HasPart : Body → XTree → Prop
  | declareValidate (f : Option XTree) (t : XTree) : HasPart (.declare f (some t)) t
  | declareFee (v : Option XTree) (t : XTree) : HasPart (.declare (some t) v) t
  | deployConstructor (f v : Option XTree) (t : XTree) : HasPart (.deployAccount (some t) f v) t
  | deployFee (c v : Option XTree) (t : XTree) : HasPart (.deployAccount c (some t) v) t
  | deployValidate (c f : Option XTree) (t : XTree) : HasPart (.deployAccount c f (some t)) t
  | invokeExecute (f v : Option XTree) (t : XTree) : HasPart (.invoke (.invocation (some t)) f v) t
  | invokeFee (e : Revertible) (v : Option XTree) (t : XTree) : HasPart (.invoke e (some t) v) t
  | invokeValidate (e : Revertible) (f : Option XTree) (t : XTree) : HasPart (.invoke e f (some t)) t
  | handler (t : XTree) : HasPart (.l1Handler (.invocation (some t))) t

/-- The call at a path emitted the event as its `i`-th one. -/
def EmittedAt (t : XTree) (path : List Nat) (i : Nat) (order : Int) (e : Event) : Prop :=
  ∃ c x, t.at path = some c ∧ c.events[i]? = some x ∧ x.order = order ∧ e = ⟨c.contract, x.keys, x.data⟩

def SentAt (t : XTree) (path : List Nat) (i : Nat) (order : Int) (m : Message) : Prop :=
  ∃ c x, t.at path = some c ∧ c.messages[i]? = some x ∧ (x.order : Int) = order ∧
    m = ⟨x.sender, x.to, x.payload⟩

mutual
/-- All calls of a tree. -/
def allCalls : XTree → List XCall
  | .node c l => c :: allCallsList l

def allCallsList : List XTree → List XCall
  | [] => []
  | t :: l => allCalls t ++ allCallsList l
end

/-- The events that a call emitted itself, with their numbers. -/
def eventsOf (c : XCall) : List (Int × Event) := c.events.map fun x => (x.order, ⟨c.contract, x.keys, x.data⟩)

/-- The messages that a call sent itself, with their numbers. -/
def messagesOf (c : XCall) : List (Int × Message) :=
  c.messages.map fun x => ((x.order : Int), ⟨x.sender, x.to, x.payload⟩)

/-- The parts that took effect, validation first and the transfer of the fee last: a part that was reverted has
none. -/
def effective : Body → List XTree
  | .declare fee validate => [validate, fee].filterMap id
  | .deployAccount constructor fee validate => [validate, constructor, fee].filterMap id
  | .invoke (.invocation execute) fee validate => [validate, execute, fee].filterMap id
  | .invoke (.reverted _) fee validate => [validate, fee].filterMap id
  | .l1Handler (.invocation function) => [function].filterMap id
  | .l1Handler (.reverted _) => []

/-- The events of all calls of a part. -/
def emitted (t : XTree) : List (Int × Event) := (allCalls t).flatMap eventsOf

/-- The messages of all calls of a part. -/
def sent (t : XTree) : List (Int × Message) := (allCalls t).flatMap messagesOf

/-- The numbers are different. -/
def Distinct {α : Type} (l : List (Int × α)) : Prop := (l.map (·.1)).Nodup

instance {α : Type} (l : List (Int × α)) : Decidable (Distinct l) := inferInstanceAs (Decidable (List.Nodup _))

/-- The list is in the order of the numbers. -/
def InOrder {α : Type} (l : List (Int × α)) : Prop := l.Pairwise fun a b => a.1 < b.1

/-- Every item with how many items before it have its number. -/
def ranked {α : Type} (before : List Int) : List (Int × α) → List (Nat × Int × α)
  | [] => []
  | x :: l => (before.count x.1, x.1, x.2) :: ranked (before ++ [x.1]) l

/-- First the items that are the first with their number, by number, then those that are the second, and so on. -/
def Earlier {α : Type} (a b : Nat × Int × α) : Prop := a.1 < b.1 ∨ (a.1 = b.1 ∧ a.2.1 < b.2.1)

end Verif.ExecReceipt
