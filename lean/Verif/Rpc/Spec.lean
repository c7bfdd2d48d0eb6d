import Verif.Rpc.Model
/-!
# What JSON-RPC 2.0 asks for

A request is an object with `jsonrpc: "2.0"`, a `method`, and maybe `params` and an `id`, which is a string, a number or null. A request
with an `id` has exactly one answer, with this `id`. A request without is a notification: it has no answer. What is no request is answered
with the error -32600 and the id null. A batch has one answer for each request in it that is no notification.
-/
namespace Verif.Rpc

/-- The values of a field. -/
def values (k : String) (l : List (String × Json)) : List Json := (l.filter fun p => p.1 == k).map (·.2)

/-- The value is a request for a method, with params and id if they are there. -/
def IsReq (j : Json) (m : String) (p id : Option Json) : Prop :=
  ∃ l, j = .obj l ∧ values "jsonrpc" l = [.str "2.0"] ∧ values "method" l = [.str m] ∧ values "params" l = p.toList ∧ values "id" l = id.toList

/-- The values that JSON-RPC allows as an id. -/
inductive IdOk : Json → Prop
  | null : IdOk .null
  | str (s : String) : IdOk (.str s)
  | int (i : Int) : IdOk (.int i)
  | frac (s : String) : IdOk (.frac s)

/-- The ids that the node takes: null, strings and integers of 64 bits. -/
inductive IdTaken : Json → Prop
  | null : IdTaken .null
  | str (s : String) : IdTaken (.str s)
  | int (i : Int) : -2 ^ 63 ≤ i → i < 2 ^ 63 → IdTaken (.int i)

/-- The params that a method gets: `null` counts as none. -/
def given : Option Json → Option Json
  | some .null => none
  | p => p

/-- An error answer. -/
def errorAnswer (code : Int) (message : String) (id : Json) : Json :=
  .obj [("jsonrpc", .str "2.0"), ("error", .obj [("code", .int code), ("message", .str message)]), ("id", id)]

/-- The answer to a request with an id, at a position of a batch. -/
def expected (known : String → Bool) (run : Nat → String → Option Json → MRes) (pos : Nat) (m : String) (p : Option Json) (id : Json) : Json :=
  if known m then
    match run pos m (given p) with
    | .ok v => .obj [("jsonrpc", .str "2.0"), ("result", v), ("id", id)]
    | .err c s => errorAnswer c s id
    | .panic => errorAnswer (-32603) "Internal error" id
  else errorAnswer (-32601) "Method not found" id

/-- The answer to one element of a batch is right. Arrays and ids that the node does not take are left out. -/
def RightAnswer (known : String → Bool) (run : Nat → String → Option Json → MRes) (pos : Nat) (j : Json) (r : Option Json) : Prop :=
  (∀ m p id, IsReq j m p (some id) → IdTaken id → r = some (expected known run pos m p id)) ∧
  (∀ m p, IsReq j m p none → r = none) ∧
  ((∀ m p id, ¬ IsReq j m p id) → (∀ l, j ≠ .arr l) → r = some (errorAnswer (-32600) "Invalid request" .null))

/-- The call that a request asks for. -/
def Asks (known : String → Bool) (j : Json) (m : String) (p : Option Json) : Prop :=
  ∃ p' id, IsReq j m p' (some id) ∧ IdTaken id ∧ known m = true ∧ p = given p'

/-- A batch is answered right: one answer or none for each element, in the order of the batch; nothing is sent if there is no answer. -/
def RightBatch (known : String → Bool) (run : Nat → String → Option Json → MRes) (js : List Json) (a : Answer) : Prop :=
  ∃ rs : List (Option Json), rs.length = js.length ∧ (∀ (i : Nat) j r, js[i]? = some j → rs[i]? = some r → RightAnswer known run i j r) ∧
    match a with
    | .empty => rs.filterMap id = []
    | .multiple out => out ≠ [] ∧ out.map Resp.toJson = rs.filterMap id
    | _ => False

/-- Every method that is asked for is called exactly once, and nothing else is, at the positions that hold no array. -/
def RightCalls (known : String → Bool) (js : List Json) (calls : List Call) : Prop :=
  (calls.map (·.pos)).Nodup ∧ (∀ c ∈ calls, c.pos < js.length) ∧
  ∀ (i : Nat) j, js[i]? = some j → (∀ l, j ≠ .arr l) → ∀ m p, (⟨i, m, p⟩ ∈ calls ↔ Asks known j m p)

/-- An answer that is one error with the id null. -/
def OneError (code : Int) (message : String) (a : Answer) : Prop := ∃ r, a = .single r ∧ r.toJson = errorAnswer code message .null

/-- A message is answered right: what is no JSON with a parse error, an empty batch with an invalid request. -/
def RightMsg (known : String → Bool) (run : Nat → String → Option Json → MRes) (b : Body) (a : Answer) (calls : List Call) : Prop :=
  match b with
  | .notUtf8 | .one none | .many none => OneError (-32700) "Parse error" a ∧ calls = []
  | .one (some j) => (∃ r, RightAnswer known run 0 j r ∧ match a with
      | .empty => r = none
      | .single x => r = some x.toJson
      | _ => False) ∧ RightCalls known [j] calls
  | .many (some []) => OneError (-32600) "Invalid request" a ∧ calls = []
  | .many (some (j :: js)) => RightBatch known run (j :: js) a ∧ RightCalls known (j :: js) calls

/-- The size of a batch; the order in which its tasks finish is an order of its positions. -/
def Body.size : Body → Nat
  | .many (some js) => js.length
  | _ => 0

/-- What goes out on a connection for an answer: nothing if all were notifications. -/
def Answer.sent : Answer → List Answer
  | .empty | .crash => []
  | a => [a]

end Verif.Rpc
