/-!
# Updates for blocks that are not stored yet

Models the bookkeeping with which `starknet_subscribeNewTransactions` and `starknet_subscribeNewTransactionReceipts`
(`crates/rpc/src/method/subscribe_new_transactions.rs` 190-345 and 427-460; `subscribe_new_transaction_receipts.rs`
147-330 is the same without candidates) avoid sending an update twice.

A transaction is known by its hash; `pass h f` is `Params::matches` for its sender and the finality `f`.  Updates with
finality "received" come from another source and are not modelled.  The inputs are what `tokio::select!` gives the task, in
the order it gives them.
-/

namespace Verif.Subs.Pending

/-- `TxnFinalityStatusWithoutL1Accepted` without `Received`. -/
inductive Fin where
  | candidate
  | preConfirmed
  | acceptedOnL2
deriving DecidableEq, Repr

/-- An update: block number, transaction, finality. -/
structure Upd where
  number : Nat
  tx : Nat
  fin : Fin
deriving DecidableEq, Repr

/-- What the client gets. -/
inductive Out where
  | upd (u : Upd)
  | reorg (start : Nat)
deriving DecidableEq, Repr

/-- `PendingData`: the pre-confirmed block with its candidates, and the pre-latest block if there is one. -/
structure View where
  number : Nat
  txs : List Nat
  candidates : List Nat
  preLatest : Option (Nat × List Nat)
deriving DecidableEq, Repr

/-- `sent_updates_per_block`, as one list (an entry without updates is as good as no entry), and what was sent. -/
structure St where
  sent : List Upd
  out : List Out
deriving DecidableEq, Repr

/-- One round of the loop in `send_tx_updates` (lines 440-457): not asked for, sent before, or sent now. -/
def sendOne (pass : Nat → Fin → Bool) (s : St) (u : Upd) : St :=
  if pass u.tx u.fin = false then s
  else if u ∈ s.sent then s
  else { sent := s.sent ++ [u], out := s.out ++ [.upd u] }

/-- `send_tx_updates` (lines 427-460). -/
def sendAll (pass : Nat → Fin → Bool) (s : St) (us : List Upd) : St := us.foldl (sendOne pass) s

/-- The updates for the pre-confirmed block (lines 300-312). -/
def View.updates (v : View) : List Upd :=
  v.txs.map (⟨v.number, ·, .preConfirmed⟩) ++ v.candidates.map (⟨v.number, ·, .candidate⟩)

/-- The pre-latest block (lines 328-360): nothing if any update was sent for that number. -/
def onPreLatest (pass : Nat → Fin → Bool) (s : St) (n : Nat) (txs : List Nat) : St :=
  if s.sent.any (fun u => u.number == n) then s else sendAll pass s (txs.map (⟨n, ·, .preConfirmed⟩))

/-- `pending_data.changed()` (lines 279-362). -/
def onPending (pass : Nat → Fin → Bool) (s : St) (v : View) : St :=
  v.preLatest.elim (sendAll pass s v.updates) fun p => onPreLatest pass (sendAll pass s v.updates) p.1 p.2

/-- One round of the loop over an announced block (lines 252-276). -/
def blockOne (pass : Nat → Fin → Bool) (old : List Upd) (out : List Out) (u : Upd) : List Out :=
  if pass u.tx u.fin = false then out else if u ∈ old then out else out ++ [.upd u]

/-- `blocks.recv()` (lines 235-278). -/
def onBlock (pass : Nat → Fin → Bool) (s : St) (n : Nat) (txs : List Nat) : St :=
  let old := s.sent.filter (fun u => u.number == n)
  { sent := s.sent.filter (fun u => !(u.number == n)), out := (txs.map (⟨n, ·, .acceptedOnL2⟩)).foldl (blockOne pass old) s.out }

/-- `reorgs.recv()` (lines 215-234). -/
def onReorg (s : St) (k : Nat) : St := { sent := s.sent.filter (fun u => decide (u.number < k)), out := s.out ++ [.reorg k] }

inductive Input where
  | pending (v : View)
  | block (n : Nat) (txs : List Nat)
  | reorg (k : Nat)
deriving DecidableEq, Repr

def stepIn (pass : Nat → Fin → Bool) (s : St) : Input → St
  | .pending v => onPending pass s v
  | .block n txs => onBlock pass s n txs
  | .reorg k => onReorg s k

/-- The task after these inputs. -/
def runIn (pass : Nat → Fin → Bool) (s : St) (is : List Input) : St := is.foldl (stepIn pass) s

def fresh : St := ⟨[], []⟩

end Verif.Subs.Pending
