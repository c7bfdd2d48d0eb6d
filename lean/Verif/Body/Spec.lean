import Verif.Body.Model
/-!
# Histories of the tables, and what is read of a block
-/
namespace Verif.Body
open Verif.Block (F Tx Receipt Event)

/-- The histories of the tables: headers, bodies with or without events, events for bodies that have as many transactions, and reverted blocks. -/
inductive Reach : DB → Prop
  | empty (k : Nat) : Reach ⟨[], [], [], k⟩
  | header {db db' : DB} (h : Reach db) (x : Hdr) (e : db.insertHeader x = some db') : Reach db'
  | block {db db' : DB} (h : Reach db) (n : Nat) (l : List ((Tx × Receipt) × List Event))
      (e : db.insertData n (l.map (·.1)) (some (l.map (·.2))) = some db') : Reach db'
  | transactions {db db' : DB} (h : Reach db) (n : Nat) (l : List (Tx × Receipt)) (e : db.insertData n l none = some db') : Reach db'
  | events {db : DB} (h : Reach db) (n : Nat) (es : List (List Event)) (hl : ∀ l, db.transactionsFor n = some l → es.length = l.length) :
      Reach (db.updateEvents n es)
  | purge {db : DB} (h : Reach db) (n : Nat) : Reach (db.purge n)
  | restart {db : DB} (h : Reach db) : Reach db.restart

/-- What is read of a block is this list, whichever way it is read. -/
structure Reads (db : DB) (n : Nat) (l : List ((Tx × Receipt) × List Event)) : Prop where
  data : db.dataFor n = some l
  transactions : db.transactionsFor n = some (l.map (·.1))
  hashes : db.hashesFor n = some (l.map (·.1.1.hash))
  events : db.eventsFor n = .ok (some (((l.map (·.1.1.hash)).zipIdx).zip (l.map (·.2))))
  index : ∀ i, db.transactionAt n i = (l[i]?).map (·.1.1)

/-- What is read of a block is the same in both. -/
structure SameReads (db db' : DB) (n : Nat) : Prop where
  data : db.dataFor n = db'.dataFor n
  transactions : db.transactionsFor n = db'.transactionsFor n
  hashes : db.hashesFor n = db'.hashesFor n
  events : db.eventsFor n = db'.eventsFor n
  index : ∀ i, db.transactionAt n i = db'.transactionAt n i

end Verif.Body
