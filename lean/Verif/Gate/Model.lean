import Verif.Crypto.Felt
import Verif.Events.TokenText

/-
Model of the client for the gateway and the feeder gateway.

Code modelled (all in /repo/crates):
* gateway-client/src/lib.rs:24-50, 340-480   `BlockId`, `Client`, `refresh`
* gateway-client/src/lib.rs:490-750          the calls
* gateway-client/src/builder.rs:24-434       building and sending a request
* gateway-client/src/builder.rs:437-543      reading the response, retries
* retry/src/lib.rs                           `Retry`
* pathfinder/src/bin/pathfinder/http_client_refresh.rs

Text is a list of bytes.  A request body is the JSON text that `serde_json` makes (see
C92 for what is in it).  Reading the JSON of an answer is a function of its bytes.

What is modelled of libraries that are not in /repo: `url` (a segment is appended after a
slash, pairs are appended to the query in the `application/x-www-form-urlencoded` form;
the base URLs have a path and no query), `reqwest` (one call of `send` sends the request
once and gives an error or a response; redirects are not modelled), `flate2` (an
arbitrary function) and `tokio-retry` (the sequence of waits).
-/

namespace Verif.Gate

open Verif.Crypto (Bytes toHexStr)

/-- The bytes of a text in the source. -/
def str (s : String) : Bytes := s.toList.map Char.toNat

/-- gateway-client/src/lib.rs:24-30; a hash is its 32 bytes. -/
inductive BlockId where
  | number (n : Nat)
  | hash (h : Bytes)
  | latest
  | pending
deriving DecidableEq

/-- The calls (`GatewayApi for Client`, lib.rs:490-750).  Of a transaction the JSON text
and, for an invoke transaction, whether its proof is empty. -/
inductive Call where
  | pendingBlock
  | preconfirmedBlock (b : BlockId)
  | blockHeader (b : BlockId)
  | classByHash (c : Bytes) (b : BlockId)
  | casmByHash (c : Bytes) (b : BlockId)
  | transactionStatus (t : Bytes)
  | stateUpdateWithBlock (n : Nat)
  | ethContractAddresses
  | addInvoke (json : Bytes) (proofEmpty : Bool)
  | addDeclare (json : Bytes) (token : Option Bytes)
  | addDeployAccount (json : Bytes)
  | blockTraces (b : BlockId)
  | transactionTrace (t : Bytes)
  | signature (b : BlockId)
  | publicKey
deriving DecidableEq

/-- Addresses that a host name resolves to. -/
abbrev Addrs := List Nat

/-- lib.rs:264-300.  The HTTP client is a number that tells the clients that were built
apart; `madeFor` is, for the statements only, what the names resolved to when it was
built. -/
structure Client where
  http : Nat
  madeFor : Addrs × Addrs
  gateway : Bytes
  feeder : Bytes
  retry : Bool := true
  apiKey : Option Bytes := none
  compress : Bool := true
  gatewayAddrs : Addrs
  feederAddrs : Addrs
deriving DecidableEq

/-- lib.rs:340-369 `with_urls`. -/
def withUrls (gateway feeder : Bytes) (ga fa : Addrs) : Client :=
  { http := 0, madeFor := (ga, fa), gateway := gateway, feeder := feeder, gatewayAddrs := ga, feederAddrs := fa }

/-- What a refresh finds: the addresses, if they can be resolved, and whether building an
HTTP client works. -/
structure Found where
  gateway : Option Addrs
  feeder : Option Addrs
  builds : Bool
deriving DecidableEq

/-- lib.rs:381-434 `refresh`; the second part tells whether it returned `Ok`. -/
def refresh (c : Client) (f : Found) : Client × Bool :=
  match f.gateway, f.feeder with
  | some ga, some fa =>
    let changed := c.gatewayAddrs != ga || c.feederAddrs != fa
    let c := { c with gatewayAddrs := ga, feederAddrs := fa }
    if changed then
      if f.builds then ({ c with http := c.http + 1, madeFor := (ga, fa) }, true) else (c, false)
    else (c, true)
  | _, _ => (c, false)

/-- http_client_refresh.rs:13-23: again and again, errors ignored. -/
def refreshes (c : Client) (fs : List Found) : Client := fs.foldl (fun c f => (refresh c f).1) c

/-- builder.rs:27-32 and the stages: a request that can be sent. -/
structure Request where
  http : Nat
  base : Bytes
  method : Bytes
  query : List (Bytes × Bytes)
  apiKey : Option Bytes
  /-- the JSON of a POST; a GET has none -/
  body : Option Bytes
  retry : Bool
  compress : Bool
  /-- the whole response is taken as bytes (`get_as_bytes`), not read as JSON -/
  asBytes : Bool
deriving DecidableEq

/-- builder.rs:182-199 `block`. -/
def blockParam : BlockId → Bytes × Bytes
  | .number n => (str "blockNumber", (Events.TokenText.showNat n).map Char.toNat)
  | .hash h => (str "blockHash", toHexStr h)
  | .latest => (str "blockNumber", str "latest")
  | .pending => (str "blockNumber", str "pending")

/-- lib.rs:468-475 with a method, parameters and `retry`: a GET from the feeder. -/
def feederGet (c : Client) (method : String) (query : List (Bytes × Bytes)) (retry asBytes : Bool) : Request :=
  { http := c.http, base := c.feeder, method := str method, query := query, apiKey := c.apiKey
    body := none, retry := retry, compress := false, asBytes := asBytes }

/-- lib.rs:459-466 with `add_transaction` and no retry: a POST to the gateway. -/
def gatewayPost (c : Client) (query : List (Bytes × Bytes)) (json : Bytes) (compress : Bool) : Request :=
  { http := c.http, base := c.gateway, method := str "add_transaction", query := query, apiKey := c.apiKey
    body := some json, retry := false, compress := compress, asBytes := false }

/-- lib.rs:490-750: the request of each call. -/
def request (c : Client) : Call → Request
  | .pendingBlock => feederGet c "get_state_update" [blockParam .pending, (str "includeBlock", str "true")] c.retry false
  | .preconfirmedBlock b => feederGet c "get_preconfirmed_block" [blockParam b] false false
  | .blockHeader b => feederGet c "get_block" [blockParam b, (str "headerOnly", str "true")] c.retry false
  | .classByHash h b => feederGet c "get_class_by_hash" [(str "classHash", toHexStr h), blockParam b] c.retry true
  | .casmByHash h b =>
    feederGet c "get_compiled_class_by_class_hash" [(str "classHash", toHexStr h), blockParam b] c.retry true
  | .transactionStatus t => feederGet c "get_transaction_status" [(str "transactionHash", toHexStr t)] c.retry false
  | .stateUpdateWithBlock n =>
    feederGet c "get_state_update" [blockParam (.number n), (str "includeBlock", str "true")] c.retry false
  | .ethContractAddresses => feederGet c "get_contract_addresses" [] c.retry false
  | .addInvoke json empty => gatewayPost c [] json (c.compress && !empty)
  | .addDeclare json token =>
    gatewayPost c (match token with | some t => [(str "token", t)] | none => []) json false
  | .addDeployAccount json => gatewayPost c [] json false
  | .blockTraces b => feederGet c "get_block_traces" [blockParam b] c.retry false
  | .transactionTrace t => feederGet c "get_transaction_trace" [(str "transactionHash", toHexStr t)] c.retry false
  | .signature b => feederGet c "get_signature" [blockParam b] c.retry false
  | .publicKey => feederGet c "get_public_key" [] c.retry false

/-- An upper-case hexadecimal digit. -/
def hexDigit (n : Nat) : Nat := if n < 10 then 48 + n else 55 + n

/-- `form_urlencoded::byte_serialize`: letters, digits and `*-._` stay, a space becomes
`+`, any other byte is percent-encoded. -/
def encByte (b : Nat) : Bytes :=
  if (48 ≤ b ∧ b ≤ 57) ∨ (65 ≤ b ∧ b ≤ 90) ∨ (97 ≤ b ∧ b ≤ 122) ∨ b = 42 ∨ b = 45 ∨ b = 46 ∨ b = 95 then [b]
  else if b = 32 then [43]
  else [37, hexDigit (b / 16), hexDigit (b % 16)]

/-- `Serializer::append_pair`: pairs are joined by `&`, a name and its value by `=`. -/
def encQuery : List (Bytes × Bytes) → Bytes
  | [] => []
  | [(k, v)] => k.flatMap encByte ++ 61 :: v.flatMap encByte
  | (k, v) :: ps => k.flatMap encByte ++ 61 :: (v.flatMap encByte ++ 38 :: encQuery ps)

/-- builder.rs:164-177 and 216-219: the URL that is asked for.  Without parameters there
is no `?`. -/
def urlOf (r : Request) : Bytes :=
  r.base ++ 47 :: r.method ++ (if r.query.isEmpty then [] else 63 :: encQuery r.query)

/-- What goes over the wire. -/
structure Sent where
  http : Nat
  url : Bytes
  post : Bool
  apiKey : Option Bytes
  gzip : Bool
  body : Bytes
deriving DecidableEq

/-- builder.rs:261-281, 298-318, 355-402: one attempt sends this. `gz` is the compressor. -/
def wire (gz : Bytes → Bytes) (r : Request) : Sent :=
  match r.body with
  | none => ⟨r.http, urlOf r, false, r.apiKey, false, []⟩
  | some json =>
    if r.compress then ⟨r.http, urlOf r, true, r.apiKey, true, gz json⟩
    else ⟨r.http, urlOf r, true, r.apiKey, false, json⟩

/-- Kinds of `reqwest::Error`. -/
inductive NetErr where
  | timeout
  | connect
  | body
  | decode
  | status (n : Nat)
  | other
deriving DecidableEq

/-- gateway-types/src/error.rs:6-20 (without `GatewayRequestCreationError`, which needs a
serializer or a compressor that fails). -/
inductive SeqErr (E : Type) where
  | starknet (e : E)
  | net (e : NetErr)
  | invalidVariant
deriving DecidableEq

/-- What comes of sending a request: an error before there is a response, or a status and
a body, which may break off. -/
inductive Net where
  | noResponse (e : NetErr)
  | response (status : Nat) (body : Except NetErr Bytes)

/-- builder.rs:448-469 `parse_raw`; `rdErr` reads a Starknet error. -/
def parseRaw {E : Type} (rdErr : Bytes → Option E) (status : Nat) (body : Except NetErr Bytes) :
    Except (SeqErr E) (Except NetErr Bytes) :=
  if status = 500 ∨ status = 400 then
    match body with
    | .ok b =>
      match rdErr b with
      | some e => .error (.starknet e)
      | none => .error .invalidVariant
    | .error .decode => .error .invalidVariant
    | .error e => .error (.net e)
  else if 400 ≤ status ∧ status < 600 then .error (.net (.status status))
  else .ok body

/-- builder.rs:437-445 `parse` and 311-315: the body is read as JSON, or taken as it is. -/
def answer {E V : Type} (rdErr : Bytes → Option E) (rd : Bytes → Option V) (raw : Bytes → V) (asBytes : Bool) :
    Net → Except (SeqErr E) V
  | .noResponse e => .error (.net e)
  | .response status body =>
    match parseRaw rdErr status body with
    | .error e => .error e
    | .ok (.error e) => .error (.net e)
    | .ok (.ok b) =>
      if asBytes then .ok (raw b)
      else
        match rd b with
        | some v => .ok v
        | none => .error (.net .decode)

/-- builder.rs:494-543 `retry_condition`. -/
def retryCondition {E : Type} : SeqErr E → Bool
  | .net _ => true
  | .starknet _ => false
  | .invalidVariant => true

/-- `ExponentialBackoff` of tokio-retry, and how retry/src/lib.rs:83-127 sets it up; in
milliseconds. -/
structure Backoff where
  current : Nat
  base : Nat
  factor : Nat
  maxDelay : Option Nat
deriving DecidableEq

/-- `u64` arithmetic that stops at the largest value. -/
def sat (n : Nat) : Nat := min n (2 ^ 64 - 1)

/-- `ExponentialBackoff::next`: there is always another wait. -/
def Backoff.next (b : Backoff) : Nat × Backoff :=
  let d := sat (b.current * b.factor)
  match b.maxDelay with
  | some m => if m < d then (m, b) else (d, { b with current := sat (b.current * b.base) })
  | none => (d, { b with current := sat (b.current * b.base) })

/-- builder.rs:484-490 with retry/src/lib.rs:29-39, 106-126: base 2, factor 1 s, at most
10 s; no limit on the number of retries. -/
def backoff0 : Backoff := { current := 2, base := 2, factor := 1000, maxDelay := some 10000 }

/-- What a call has done so far. -/
structure Trace (α : Type) where
  sent : List Sent
  waits : List Nat
  result : Option α
deriving DecidableEq

/-- retry/src/lib.rs:72-82 `when` with tokio-retry's `RetryIf`: attempts until one is not
to be retried; `env i` is what comes of attempt `i`.  Follows the first `fuel` attempts. -/
def retryLoop {E V : Type} (s : Sent) (att : Net → Except (SeqErr E) V) (env : Nat → Net) :
    Nat → Nat → Backoff → Trace (Except (SeqErr E) V)
  | 0, _, _ => ⟨[], [], none⟩
  | fuel + 1, i, b =>
    match att (env i) with
    | .ok v => ⟨[s], [], some (.ok v)⟩
    | .error e =>
      if retryCondition e then
        let t := retryLoop s att env fuel (i + 1) b.next.2
        ⟨s :: t.sent, b.next.1 :: t.waits, t.result⟩
      else ⟨[s], [], some (.error e)⟩

/-- builder.rs:283-297, 320-334, 404-434: with or without retries.  The request keeps its
HTTP client for all attempts. -/
def perform {E V : Type} (gz : Bytes → Bytes) (rdErr : Bytes → Option E) (rd : Bytes → Option V) (raw : Bytes → V)
    (c : Client) (call : Call) (env : Nat → Net) (fuel : Nat) : Trace (Except (SeqErr E) V) :=
  let r := request c call
  let s := wire gz r
  let att := answer rdErr rd raw r.asBytes
  if r.retry then retryLoop s att env fuel 0 backoff0
  else ⟨[s], [], some (att (env 0))⟩

end Verif.Gate
