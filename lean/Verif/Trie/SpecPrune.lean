/-
Specification of trie pruning and trie rollback: which blocks have to stay readable and which trie root belongs
to which block.  Independent of the trie code; only the root index updates reported by the operations are used.
-/
import Verif.Trie.Prune
import Verif.Trie.SpecStore

namespace Verif.Trie

variable {C F : Type} [DecidableEq C] [DecidableEq F]

/-- The root index update an operation reported for contract `c` (`unchanged` if it reported none). -/
def logUpdate : List (C × RootIndexUpdate) → C → RootIndexUpdate
  | [], _ => .unchanged
  | (c, ru) :: log, c' => if c = c' then ru else logUpdate log c'

/-- Bookkeeping of the history, outside the database. -/
structure Track (C : Type) where
  /-- number of blocks on the chain -/
  next : Nat
  /-- lowest block the node promises to keep: highest block processed minus the number of blocks kept -/
  lo : Nat
  /-- root of the trie of a contract at a block on the chain -/
  root : C → Nat → Option Nat
  /-- target of the last reorg (0 if there was none) -/
  base : Nat

/-- Before the first block. -/
def Track.init : Track C := ⟨0, 0, fun _ _ => none, 0⟩

/-- Lowest block to keep when block `n` is written. -/
def lowest (mode : Option Nat) (n : Nat) : Nat :=
  match mode with
  | none => 0
  | some kept => n - kept

/-- Root at the parent of block `n`. -/
def Track.parent (tr : Track C) (n : Nat) (c : C) : Option Nat :=
  match n with
  | 0 => none
  | p + 1 => tr.root c p

/-- Bookkeeping of one operation. -/
def Track.step (mode : Option Nat) (tr : Track C) (op : POp C F) (log : List (C × RootIndexUpdate)) : Track C :=
  match op with
  | .block _ =>
    { next := tr.next + 1
      lo := max tr.lo (lowest mode tr.next)
      root := fun c b => if b = tr.next then (logUpdate log c).apply (tr.parent b c) else tr.root c b
      base := tr.base }
  | .reorg t _ =>
    { next := t + 1
      lo := min (max tr.lo (lowest mode t)) t
      root := fun c b => if b = t then (logUpdate log c).apply (tr.root c b) else tr.root c b
      base := t }
  | .reorgAll => { next := 0, lo := 0, root := tr.root, base := 0 }

/-- All reverse writes of one contract. -/
def revWrites (revs : List (C × List (List Bool × F))) (c : C) : List (List Bool × F) :=
  revs.flatMap fun e => if e.1 = c then e.2 else []

/-- The operation makes sense in state `s`: keys have the height of the trie, every contract occurs once in a block,
and the reverse writes of a reorg lead from the content at the head to the content at the target; a contract without
reverse writes has not been written since the target, or did not exist at the target. -/
def OpOk (o : FeltOps F) (H : Nat) (s : PState C F) : POp C F → Prop
  | .block ups => (ups.map (·.2.1)).Nodup ∧ ∀ u ∈ ups, ∀ w ∈ u.2.2, w.1.length = H
  | .reorg t revs => t + 1 < s.next ∧ (revs.map (·.1)).Nodup ∧ (∀ e ∈ revs, ∀ w ∈ e.2, w.1.length = H) ∧ ∀ c,
      (revWrites revs c ≠ [] → Content.writes o (s.headLeaf c) (revWrites revs c) = s.leaf t c) ∧
      (revWrites revs c = [] →
        (s.leaf t c = s.headLeaf c ∧ ∀ b, t < b → b < s.next → c ∉ s.touched b) ∨ s.leaf t c = Content.empty)
  | .reorgAll => True

/-- With pruning, no reorg goes below the target of an earlier reorg.  (Without pruning there is no restriction.) -/
def AboveLast (mode : Option Nat) (tr : Track C) : POp C F → Prop
  | .reorg t _ => mode ≠ none → tr.base ≤ t
  | _ => True

/-- States reached by sensible operations; `allow` restricts the operations. -/
inductive Hist (o : FeltOps F) (H : Nat) (mode : Option Nat) (allow : Track C → POp C F → Prop) :
    PState C F → Track C → Prop
  | init : Hist o H mode allow PState.init Track.init
  | step {s tr op s' log} : Hist o H mode allow s tr → OpOk o H s op → allow tr op →
      s.step o H mode op = .ok (s', log) → Hist o H mode allow s' (tr.step mode op log)

/-- The trie under root index `root` in table `T` is intact and holds exactly the content `c`: a tree loaded from it
answers every sequence of reads and writes like the map `c`, and writing to it commits to the root hash of the
resulting map. -/
def Readable (o : FeltOps F) (H : Nat) (T : Table F) (root : Option Nat) (c : Content F) : Prop :=
  (∀ ops : List (Op F), (∀ op ∈ ops, op.key.length = H) →
    ∃ t, (MTree.open root).run o (T.storage c) H ops = .ok (Op.spec o c ops, t)) ∧
  (∀ ws : List (List Bool × F), (∀ w ∈ ws, w.1.length = H) →
    ∃ u, computeUpdate o H T root c ws = .ok u ∧ u.rootCommitment = specRoot o H (Content.writes o c ws))

end Verif.Trie
