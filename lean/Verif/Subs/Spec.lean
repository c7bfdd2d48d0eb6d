import Verif.Subs.Model

/-!
# What a subscriber is owed

Stated over the chain alone: nothing here mentions batches, channels or queues.
-/

namespace Verif.Subs

/-- The messages a client that subscribed from block `start` is owed for this chain: those of the blocks `start`,
`start + 1`, … in order, each once. -/
def wanted (items : Nat → List Nat) (chain : List Nat) (start : Nat) : List Msg :=
  (chain.zipIdx.drop start).flatMap fun p => (items p.1).map (Msg.item p.2 p.1)

/-- A client that keeps the blocks it was sent and drops those a reorg notice takes back. -/
def view : List Msg → List (Nat × Nat)
  | [] => []
  | ms => ms.foldl (fun v m => match m with
    | .item n id _ => v ++ [(id, n)]
    | .reorg k => v.filter (·.2 < k)) []

end Verif.Subs
