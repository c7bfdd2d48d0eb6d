import Verif.BatchExec.Model

/-!
# Executing a proposal in batches: specification
-/

namespace Verif.BatchExec

/-- The batches of a proposal, all without an error. -/
inductive Batches (lib : Library) : List (List Tx) → Stage → Prop
  | start : Batches lib [] Stage.new
  | next {bs : List (List Tx)} {s s' : Stage} {b : List Tx} (h : Batches lib bs s) (he : s.batch lib b = (s', true)) :
      Batches lib (bs ++ [b]) s'

/-- The block is what executing the transactions one by one gives: every transaction has a receipt with its hash
and its position and the outcome of executing it after those before it, and its events; and the state has the changes
of exactly these transactions. -/
def AsExecuted (lib : Library) (l : List Tx) (s : Stage) : Prop :=
  s.txs = l ∧ s.committed = l ∧ s.receipts.length = l.length ∧ s.events.length = l.length ∧
  ∀ i t, l[i]? = some t → ∃ c, lib (l.take (i + 1)) = some c ∧
    s.receipts[i]? = some ⟨t.hash, i, c.receipt⟩ ∧ s.events[i]? = some c.events

/-- The lists have the same length, and every receipt has the hash and the position of its transaction. -/
def Aligned (s : Stage) : Prop :=
  s.receipts.length = s.txs.length ∧ s.events.length = s.txs.length ∧
  ∀ (i : Nat) (t : Tx), s.txs[i]? = some t → ∃ c : Nat, s.receipts[i]? = some (⟨t.hash, i, c⟩ : Receipt)

/-- Any use of a stage: batches with and without errors, and rollbacks. -/
inductive Uses (lib : Library) : Stage → Prop
  | start : Uses lib Stage.new
  | batch {s : Stage} (h : Uses lib s) (b : List Tx) : Uses lib (s.batch lib b).1
  | rollback {s s' : Stage} (h : Uses lib s) (n : Nat) (hr : s.rollback n = some s') : Uses lib s'

end Verif.BatchExec
