import Verif.Gate.Model
import Verif.Crypto.FeltSpec

/-
The words in which the claims about the gateway client are put: how a server reads a URL,
what it takes a request to ask for, and which answers are final.
-/

namespace Verif.Gate.Spec

open Verif.Crypto (Bytes)

/-! ### How a server reads a URL (the URL standard, `application/x-www-form-urlencoded`) -/

/-- Everything before the first `c`, and what follows it, if there is one. -/
def cut (c : Nat) : Bytes → Bytes × Option Bytes
  | [] => ([], none)
  | b :: bs => if b = c then ([], some bs) else ((b :: (cut c bs).1), (cut c bs).2)

/-- The pieces between the `c`s. -/
def pieces (c : Nat) : Bytes → List Bytes
  | [] => [[]]
  | b :: bs =>
    if b = c then [] :: pieces c bs
    else
      match pieces c bs with
      | p :: ps => (b :: p) :: ps
      | [] => [[b]]

/-- The value of a hexadecimal digit. -/
def hexVal (b : Nat) : Option Nat :=
  if 48 ≤ b ∧ b ≤ 57 then some (b - 48)
  else if 65 ≤ b ∧ b ≤ 70 then some (b - 55)
  else if 97 ≤ b ∧ b ≤ 102 then some (b - 87)
  else none

/-- A `+` is a space, `%` and two digits are a byte, anything else is itself. -/
def unescape : Bytes → Bytes
  | [] => []
  | 43 :: bs => 32 :: unescape bs
  | 37 :: x :: y :: bs =>
    match hexVal x, hexVal y with
    | some h, some l => (16 * h + l) :: unescape bs
    | _, _ => 37 :: unescape (x :: y :: bs)
  | b :: bs => b :: unescape bs

/-- A query: pieces between `&`, name and value about the first `=`; empty pieces are
left out. -/
def readQuery (q : Bytes) : List (Bytes × Bytes) :=
  ((pieces 38 q).filter (fun p => !p.isEmpty)).map fun p =>
    (unescape (cut 61 p).1, unescape ((cut 61 p).2.getD []))

/-- The method and the parameters that a URL under `base` asks for. -/
def readUrl (base url : Bytes) : Option (Bytes × List (Bytes × Bytes)) :=
  if base ++ [47] <+: url then
    let rest := url.drop (base.length + 1)
    some ((cut 63 rest).1, readQuery ((cut 63 rest).2.getD []))
  else none

/-! ### What the feeder gateway takes it to mean -/

/-- The value of a parameter. -/
def param (ps : List (Bytes × Bytes)) (name : String) : Option Bytes :=
  (ps.find? (fun p => p.1 == str name)).map Prod.snd

/-- A number in decimal digits. -/
def readDec (b : Bytes) : Option Nat :=
  if b ≠ [] ∧ b.all (fun c => decide (48 ≤ c ∧ c ≤ 57)) then some (b.foldl (fun a c => 10 * a + (c - 48)) 0) else none

/-- A hash in hexadecimal. -/
def readHash (b : Bytes) : Option Bytes :=
  match Crypto.fromHexStr b with
  | .ok h => some h
  | .error _ => none

/-- The block that is meant: `blockHash` is a hash, `blockNumber` a number or a tag. -/
def readBlock (ps : List (Bytes × Bytes)) : Option BlockId :=
  match param ps "blockHash" with
  | some h => (readHash h).map .hash
  | none =>
    match param ps "blockNumber" with
    | some v =>
      if v = str "latest" then some .latest
      else if v = str "pending" then some .pending
      else (readDec v).map .number
    | none => none

/-- The call of the feeder gateway that a request means. -/
def readCall (m : Bytes) (ps : List (Bytes × Bytes)) : Option Call :=
  if m = str "get_state_update" then
    if param ps "includeBlock" = some (str "true") then
      match readBlock ps with
      | some .pending => some .pendingBlock
      | some (.number n) => some (.stateUpdateWithBlock n)
      | _ => none
    else none
  else if m = str "get_block" then
    if param ps "headerOnly" = some (str "true") then (readBlock ps).map .blockHeader else none
  else if m = str "get_preconfirmed_block" then (readBlock ps).map .preconfirmedBlock
  else if m = str "get_class_by_hash" then
    match (param ps "classHash").bind readHash, readBlock ps with
    | some h, some b => some (.classByHash h b)
    | _, _ => none
  else if m = str "get_compiled_class_by_class_hash" then
    match (param ps "classHash").bind readHash, readBlock ps with
    | some h, some b => some (.casmByHash h b)
    | _, _ => none
  else if m = str "get_transaction_status" then
    ((param ps "transactionHash").bind readHash).map .transactionStatus
  else if m = str "get_contract_addresses" then some .ethContractAddresses
  else if m = str "get_block_traces" then (readBlock ps).map .blockTraces
  else if m = str "get_transaction_trace" then
    ((param ps "transactionHash").bind readHash).map .transactionTrace
  else if m = str "get_signature" then (readBlock ps).map .signature
  else if m = str "get_public_key" then some .publicKey
  else none

/-! ### Calls -/

/-- Calls that submit a transaction. -/
def Submits : Call → Prop
  | .addInvoke _ _ => True
  | .addDeclare _ _ => True
  | .addDeployAccount _ => True
  | _ => False

/-- Calls that are made once: those that submit, and the pre-confirmed block, which is
polled. -/
def Once : Call → Prop
  | .preconfirmedBlock _ => True
  | c => Submits c

/-- A block number of 64 bits, a hash below the prime. -/
def BlockOk : BlockId → Prop
  | .number n => n < 2 ^ 64
  | .hash h => ∃ n, Crypto.FeltOf h n
  | _ => True

/-- The arguments of a call are values of their types. -/
def CallOk : Call → Prop
  | .preconfirmedBlock b => BlockOk b
  | .blockHeader b => BlockOk b
  | .classByHash c b => (∃ n, Crypto.FeltOf c n) ∧ BlockOk b
  | .casmByHash c b => (∃ n, Crypto.FeltOf c n) ∧ BlockOk b
  | .transactionStatus t => ∃ n, Crypto.FeltOf t n
  | .stateUpdateWithBlock n => n < 2 ^ 64
  | .addDeclare _ (some t) => ∀ b ∈ t, b < 256
  | .blockTraces b => BlockOk b
  | .transactionTrace t => ∃ n, Crypto.FeltOf t n
  | .signature b => BlockOk b
  | _ => True

/-- The transaction that a call submits, as JSON. -/
def submitted : Call → Option Bytes
  | .addInvoke json _ => some json
  | .addDeclare json _ => some json
  | .addDeployAccount json => some json
  | _ => none

/-- The body that a server sees, which knows how to uncompress. -/
def seenBody (gunzip : Bytes → Bytes) (s : Sent) : Bytes := if s.gzip then gunzip s.body else s.body

/-! ### Answers -/

/-- The wait before attempt `n + 1`, in seconds, that the documentation of the client
(gateway-client/src/lib.rs:252-259) states. -/
def documentedWait (n : Nat) : Nat := min (2 ^ n * 15) 600

/-- What came back settles the call: a success with a body that can be read, or an error
that the gateway states.  Everything else may be different the next time. -/
def Settles {E V : Type} (rdErr : Bytes → Option E) (rd : Bytes → Option V) (asBytes : Bool) (n : Net) : Prop :=
  ∃ status b, n = .response status (.ok b) ∧
    ((status = 400 ∨ status = 500) ∧ rdErr b ≠ none ∨
     (status < 400 ∨ 600 ≤ status) ∧ (asBytes = true ∨ rd b ≠ none))

end Verif.Gate.Spec
