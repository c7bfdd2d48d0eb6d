/-!
# JSON-RPC requests and answers

Model of `crates/rpc/src/jsonrpc/{request,response,error,router}.rs`, `router/method.rs` (`handle_json_rpc_body`) and the message loop of
`router/subscription.rs` (`handle_json_rpc_socket`, `handle_request`).

Simplifications: a text is its JSON value, or the fact that it is none; the `data` of an error and HTTP headers, status and metrics are left
out. What a method returns is given by the environment, for each position of a batch: it may be anything, also a panic. What subscribing and
unsubscribing do to the connection is in `Verif.Rpc.Subs`; here they are calls like others, except that their panics are not modelled.
-/
namespace Verif.Rpc

/-- A JSON value. A number is an integer or it is not; no other property of numbers is used. The fields of an object are in the order of
the text and may repeat. -/
inductive Json
  | null
  | bool (b : Bool)
  | int (i : Int)
  | frac (s : String)
  | str (s : String)
  | arr (l : List Json)
  | obj (l : List (String × Json))

/-- `RequestId` (jsonrpc.rs:27-33). -/
inductive Id
  | num (i : Int)
  | str (s : String)
  | null
  | notification

/-- `RpcRequest` (request.rs:10-15). -/
structure Req where
  method : String
  params : Option Json
  id : Id

/-- `Option<IdHelper>` with `IdHelper` an `i64` or a string (request.rs:78-83, 88-92). -/
def parseId : Json → Option Id
  | .null => some .null
  | .int i => if -2 ^ 63 ≤ i ∧ i < 2 ^ 63 then some (.num i) else none
  | .str s => some (.str s)
  | _ => none

/-- The value of a field for the derived `Deserialize`: a field that is there twice is an error (outer `none`), other fields are ignored. -/
def field (k : String) (l : List (String × Json)) : Option (Option Json) :=
  match l.filter fun p => p.1 == k with
  | [] => some none
  | [p] => some (some p.2)
  | _ => none

/-- `RawParams`: `null` is none (request.rs:17-18). -/
def params : Option Json → Option Json
  | none => none
  | some .null => none
  | some v => some v

/-- From the four fields to the request (request.rs:85-96, 107-123). `jsonrpc` and `method` must be strings. -/
def build (jsonrpc id method ps : Option Json) : Option Req :=
  match jsonrpc, method with
  | some (.str v), some (.str m) =>
    if v = "2.0" then
      match id with
      | none => some ⟨m, params ps, .notification⟩
      | some i => (parseId i).map fun i => ⟨m, params ps, i⟩
    else none
  | _, _ => none

/-- `RpcRequest::deserialize` (request.rs:66-124). `serde_json` reads a derived struct from an object or from an array with the fields in
order; only the last field, `params`, may be missing there. -/
def parseReq : Json → Option Req
  | .obj l => (field "jsonrpc" l).bind fun j => (field "id" l).bind fun i => (field "method" l).bind fun m => (field "params" l).bind fun p =>
      build j i m p
  | .arr [j, i, m] => build (some j) (some i) (some m) none
  | .arr [j, i, m, p] => build (some j) (some i) (some m) (some p)
  | _ => none

/-- What a method does: a result, an error with a code and a message, or a panic. -/
inductive MRes
  | ok (v : Json)
  | err (code : Int) (message : String)
  | panic

/-- `RpcError` (error.rs:8-20) without the data. -/
inductive RErr
  | parse
  | invalidRequest
  | methodNotFound
  | internal
  | other (code : Int) (message : String)

/-- `RpcError::code` (error.rs:32-43). -/
def RErr.code : RErr → Int
  | .parse => -32700
  | .invalidRequest => -32600
  | .methodNotFound => -32601
  | .internal => -32603
  | .other c _ => c

/-- `RpcError::message` (error.rs:45-55). -/
def RErr.message : RErr → String
  | .parse => "Parse error"
  | .invalidRequest => "Invalid request"
  | .methodNotFound => "Method not found"
  | .internal => "Internal error"
  | .other _ m => m

/-- `RpcResponse` (response.rs:10-15). -/
structure Resp where
  output : Json ⊕ RErr
  id : Id

/-- `SerializeForVersion for RpcResponse` (response.rs:62-86). -/
def Resp.toJson (r : Resp) : Json :=
  .obj ([("jsonrpc", .str "2.0"),
    match r.output with
    | .inl v => ("result", v)
    | .inr e => ("error", .obj [("code", .int e.code), ("message", .str e.message)])] ++
    match r.id with
    | .num i => [("id", .int i)]
    | .str s => [("id", .str s)]
    | .null => [("id", .null)]
    | .notification => [])

/-- The router: the registered methods and subscriptions, and what the calls at each position of a batch do. -/
structure Env where
  isMethod : String → Bool
  isSub : String → Bool
  run : Nat → String → Option Json → MRes

/-- A call of a method at a position of the batch. -/
structure Call where
  pos : Nat
  method : String
  params : Option Json

/-- What handling one request does. -/
structure Done where
  resp : Option Resp
  calls : List Call

/-- The output of a call; a panic is caught (router.rs:131-145). -/
def MRes.output : MRes → Json ⊕ RErr
  | .ok v => .inl v
  | .err c m => .inr (.other c m)
  | .panic => .inr .internal

/-- `run_request` (router.rs:101-156). -/
def runRequest (env : Env) (pos : Nat) (raw : Json) : Done :=
  match parseReq raw with
  | none => ⟨some ⟨.inr .invalidRequest, .null⟩, []⟩
  | some r => match r.id with
    | .notification => ⟨none, []⟩
    | id =>
      if env.isMethod r.method then ⟨some ⟨(env.run pos r.method r.params).output, id⟩, [⟨pos, r.method, r.params⟩]⟩
      else ⟨some ⟨.inr .methodNotFound, id⟩, []⟩

/-- `run_concurrently` (router.rs:343-388): the tasks finish in the order of the schedule, the results are sorted by index. A channel with
capacity zero panics: outer `none`. -/
def runConcurrently {α : Type} (n : Nat) (sched : List Nat) (work : Nat → α) : Option (List α) :=
  if n = 0 then none
  else some (((sched.map fun i => (i, work i)).mergeSort fun a b => a.1 ≤ b.1).map (·.2))

/-- The body of a request: not UTF-8, a text that does not start with `[`, or one that does; `none` if it is not JSON. -/
inductive Body
  | notUtf8
  | one (j : Option Json)
  | many (js : Option (List Json))

/-- `RpcResponses` (router.rs:249-254), with the errors of `handle_json_rpc_body` (router.rs:229-234); `crash` is a panic. -/
inductive Answer
  | empty
  | single (r : Resp)
  | multiple (rs : List Resp)
  | crash

/-- An answer together with the calls that were made. -/
structure Handled where
  answer : Answer
  calls : List Call

/-- The work at one position of a batch. -/
def workAt (f : Nat → Json → Done) (js : List Json) (i : Nat) : Done :=
  match js[i]? with
  | some j => f i j
  | none => ⟨none, []⟩

/-- `.flatten().collect()` and the check for notifications only (method.rs:93-101; subscription.rs:632-638). -/
def collect (ds : List Done) : Answer :=
  match ds.filterMap (·.resp) with
  | [] => .empty
  | r :: rs => .multiple (r :: rs)

/-- A batch that is not empty. The calls are made in the order of the schedule. -/
def runBatch (f : Nat → Json → Done) (js : List Json) (sched : List Nat) : Handled :=
  match runConcurrently js.length sched (workAt f js) with
  | none => ⟨.crash, []⟩
  | some ds => ⟨collect ds, (sched.map (workAt f js)).flatMap (·.calls)⟩

/-- The answer to a text that is no batch (method.rs:50-62). -/
def runOne (d : Done) : Handled :=
  match d.resp with
  | some r => ⟨.single r, d.calls⟩
  | none => ⟨.empty, d.calls⟩

def parseError : Handled := ⟨.single ⟨.inr .parse, .null⟩, []⟩
def invalidRequest : Handled := ⟨.single ⟨.inr .invalidRequest, .null⟩, []⟩

/-- `handle_json_rpc_body` (method.rs:38-105) and what `rpc_handler` makes of it (router.rs:212-234). -/
def http (env : Env) (disableBatch : Bool) (sched : List Nat) : Body → Handled
  | .notUtf8 => parseError
  | .one none => parseError
  | .one (some j) => runOne (runRequest env 0 j)
  | .many js =>
    if disableBatch then invalidRequest
    else match js with
      | none => parseError
      | some [] => invalidRequest
      | some js => runBatch (runRequest env) js sched

/-- `handle_request` (subscription.rs:664-777). -/
def handleRequest (env : Env) (pos : Nat) (raw : Json) : Done :=
  match parseReq raw with
  | none => ⟨some ⟨.inr .invalidRequest, .null⟩, []⟩
  | some r => match r.id with
    | .notification => ⟨none, []⟩
    | id =>
      if env.isMethod r.method then runRequest env pos raw
      else if r.method = "starknet_unsubscribe" ∨ env.isSub r.method then
        ⟨some ⟨(env.run pos r.method r.params).output, id⟩, [⟨pos, r.method, r.params⟩]⟩
      else ⟨some ⟨.inr .methodNotFound, id⟩, []⟩

/-- A message on a websocket. -/
inductive WsMsg
  | body (b : Body)
  | ping
  | close

/-- The loop of a connection: `alive` until it returns or panics. `out`: the messages sent, newest last; `calls`: the calls made. -/
structure Conn where
  alive : Bool := true
  out : List Answer := []
  calls : List Call := []

/-- Sends an answer, if it is one. -/
def Conn.send (c : Conn) (h : Handled) : Conn :=
  { c with
    out := match h.answer with
      | .empty | .crash => c.out
      | a => c.out ++ [a]
    calls := c.calls ++ h.calls
    alive := match h.answer with
      | .crash => false
      | _ => c.alive }

/-- One round of the loop in `handle_json_rpc_socket` (subscription.rs:484-657). After the answer to an empty batch there is no `continue`
(595-609): the empty batch is run. -/
def wsStep (env : Env) (sched : List Nat) (c : Conn) (m : WsMsg) : Conn :=
  if c.alive then
    match m with
    | .ping => c
    | .close => { c with alive := false }
    | .body .notUtf8 => c.send parseError
    | .body (.one none) => c.send parseError
    | .body (.one (some j)) => c.send (runOne (handleRequest env 0 j))
    | .body (.many none) => c.send parseError
    | .body (.many (some js)) =>
      let c := if js.isEmpty then c.send invalidRequest else c
      c.send (runBatch (handleRequest env) js sched)
  else c

/-- A message with what the node does while it is handled: the environment and the order in which the tasks of the batch finish. -/
structure Round where
  msg : WsMsg
  env : Env
  sched : List Nat

/-- All rounds of a connection. -/
def wsRun (c : Conn) (rs : List Round) : Conn := rs.foldl (fun c r => wsStep r.env r.sched c r.msg) c

end Verif.Rpc
