import Verif.Head.Model
/-! What is said about the head of the chain, without the code. -/
namespace Verif.Head

/-- `c` comes right after `b`. -/
def Next (b c : Blk) : Prop := c.number = b.number + 1 ∧ c.parent = b.hash

/-- `b` is `c`, or `c` is reached from `b` by blocks that each come right after the one before. -/
inductive Anc (b : Blk) : Blk → Prop
  | refl : Anc b b
  | step {d c : Blk} : Anc b d → Next d c → Anc b c

/-- The blocks are one chain, in order. -/
def Linked : List Blk → Prop
  | [] => True
  | [_] => True
  | a :: b :: l => Next a b ∧ Linked (b :: l)

/-- The chain begins with block 0. -/
def FromGenesis (l : List Blk) : Prop := ∀ b, l.head? = some b → b.number = 0

/-- The empty database. -/
def DB.empty : DB := ⟨[], [], none⟩

/-- The block continues the stored chain: it is block 0 and nothing is stored, or it comes right after the last one. -/
def Continues (l : List Blk) (b : Blk) : Prop := match l.getLast? with
  | none => b.number = 0
  | some h => Next h b

/-- What the senders of events see to: a block continues the chain, unless it is one that the consumer leaves out. `C73` is about the sender of the blocks of
the gateway. -/
def Follows (s : Consumer) : Event → Prop
  | .l1 _ _ => True
  | .downloaded b _ => b.number < s.next ∨ Continues s.db.blocks b
  | .finalized n _ _ => n < s.next ∨ n = s.db.blocks.getLast?.elim 0 (·.number + 1)
  | .reorg _ => True

/-- The L1 updates among the events. -/
def announced : Event → List (Nat × Hash)
  | .l1 n h => [(n, h)]
  | _ => []

/-- The states of a node that began with nothing, with the L1 updates that it saw. It may be stopped after any event and started again. -/
inductive Reach (kept : Option Nat) : Consumer → List (Nat × Hash) → Prop
  | init : Reach kept (Consumer.start DB.empty) []
  | step {s s' : Consumer} {ann : List (Nat × Hash)} (e : Event) :
      Reach kept s ann → Follows s e → s.step kept e = some s' → Reach kept s' (ann ++ announced e)
  | restart {s : Consumer} {ann : List (Nat × Hash)} : Reach kept s ann → Reach kept (Consumer.start s.db) ann

end Verif.Head
