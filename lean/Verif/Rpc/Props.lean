import Verif.Rpc.Lemmas
/-!
# C88: JSON-RPC answers

Every request of a message is answered, once, with its own id and with what its method returned, whatever the order in which the requests
of a batch finish. The partial theorems leave out arrays in a batch, ids that are numbers outside 64 bits, and on websockets the empty batch.
-/
namespace Verif.Rpc

/-! Some requests for the examples. -/

def exEnv : Env where
  isMethod m := m == "a" || m == "b"
  isSub m := m == "s"
  run pos m _ := if m = "a" then .ok (.int pos) else if m = "b" then .panic else .err 7 "no"

def exReq (m : String) (id : Json) : Json := .obj [("jsonrpc", .str "2.0"), ("id", id), ("method", .str m)]
def exNote : Json := .obj [("jsonrpc", .str "2.0"), ("method", .str "a")]
def exBatch : List Json := [exReq "a" (.int 5), exNote, exReq "b" (.str "x"), exReq "c" .null, .bool true]

theorem exReq_isReq (m : String) (id : Json) : IsReq (exReq m id) m none (some id) := ⟨_, rfl, rfl, rfl, rfl, rfl⟩
theorem exNote_isReq : IsReq exNote "a" none none := ⟨_, rfl, rfl, rfl, rfl, rfl⟩

/-- HTTP with batches allowed: every body is answered right, for every order in which the requests of a batch finish. -/
theorem C88_http_partial (env : Env) (sched : List Nat) (b : Body) (hs : sched.Perm (List.range b.size)) :
    RightMsg env.isMethod env.run b (http env false sched b).answer (http env false sched b).calls := by
  cases b with
  | notUtf8 => exact ⟨parseError_right, rfl⟩
  | one j =>
    cases j with
    | none => exact ⟨parseError_right, rfl⟩
    | some j => exact runOne_right env j
  | many js =>
    cases js with
    | none => exact ⟨parseError_right, rfl⟩
    | some js =>
      cases js with
      | nil => exact ⟨invalidRequest_right, rfl⟩
      | cons j js => exact right_many hs (by simp)

/-- The requests finish in the order 3, 1, 4, 0, 2; the answers come in the order of the batch, the notification has none. -/
example : [3, 1, 4, 0, 2].Perm (List.range (Body.many (some exBatch)).size) ∧
    (http exEnv false [3, 1, 4, 0, 2] (.many (some exBatch))).answer =
      .multiple [⟨.inl (.int 0), .num 5⟩, ⟨.inr .internal, .str "x"⟩, ⟨.inr .methodNotFound, .null⟩, ⟨.inr .invalidRequest, .null⟩] ∧
    (http exEnv false [3, 1, 4, 0, 2] (.many (some exBatch))).calls = [⟨0, "a", none⟩, ⟨2, "b", none⟩] := by
  have hp : [3, 1, 4, 0, 2].Perm (List.range (Body.many (some exBatch)).size) := by decide
  refine ⟨hp, ?_, rfl⟩
  have : http exEnv false [3, 1, 4, 0, 2] (.many (some exBatch)) = runBatch (runRequest exEnv) exBatch [3, 1, 4, 0, 2] := rfl
  rw [this, runBatch, runConcurrently_eq (n := exBatch.length) hp (by decide)]
  rfl

/-- HTTP with batches disabled: a batch is refused and nothing is called, other bodies are answered as ever. -/
theorem C88_http_disabled (env : Env) (sched : List Nat) (b : Body) :
    match b with
    | .many _ => OneError (-32600) "Invalid request" (http env true sched b).answer ∧ (http env true sched b).calls = []
    | _ => RightMsg env.isMethod env.run b (http env true sched b).answer (http env true sched b).calls := by
  cases b with
  | notUtf8 => exact ⟨parseError_right, rfl⟩
  | one j =>
    cases j with
    | none => exact ⟨parseError_right, rfl⟩
    | some j => exact runOne_right env j
  | many js => exact ⟨invalidRequest_right, rfl⟩

example : (http exEnv true [] (.one (some (exReq "a" (.int 5))))).answer = .single ⟨.inl (.int 0), .num 5⟩ := rfl

/-- What one message on a connection must lead to: a ping to nothing, a body to its answer. -/
def RightRound (r : Round) (out : List Answer) (calls : List Call) : Prop :=
  match r.msg with
  | .body b => ∃ a, RightMsg (fun m => r.env.isMethod m || m == "starknet_unsubscribe" || r.env.isSub m) r.env.run b a calls ∧ out = a.sent
  | _ => out = [] ∧ calls = []

/-- The messages a connection is proved to survive: all but closing and the empty batch; with a schedule that runs every request. -/
def Fair (r : Round) : Prop :=
  match r.msg with
  | .body b => r.sched.Perm (List.range b.size) ∧ b ≠ .many (some [])
  | .ping => True
  | .close => False

/-- Websockets: over every history of messages without an empty batch, the connection lives on and sends, in order, the right answer to
each message. -/
theorem C88_ws_partial (rs : List Round) (h : ∀ r ∈ rs, Fair r) :
    ∃ per : List (List Answer × List Call), per.length = rs.length ∧
      (∀ (i : Nat) r o, rs[i]? = some r → per[i]? = some o → RightRound r o.1 o.2) ∧
      (wsRun {} rs).alive = true ∧ (wsRun {} rs).out = (per.map (·.1)).flatten ∧ (wsRun {} rs).calls = (per.map (·.2)).flatten := by
  suffices ∀ (rs : List Round), (∀ r ∈ rs, Fair r) → ∀ c : Conn, c.alive = true → ∃ per : List (List Answer × List Call), per.length = rs.length ∧
      (∀ (i : Nat) r o, rs[i]? = some r → per[i]? = some o → RightRound r o.1 o.2) ∧
      (wsRun c rs).alive = true ∧ (wsRun c rs).out = c.out ++ (per.map (·.1)).flatten ∧
      (wsRun c rs).calls = c.calls ++ (per.map (·.2)).flatten by
    obtain ⟨per, h1, h2, h3, h4, h5⟩ := this rs h {} rfl
    exact ⟨per, h1, h2, h3, h4, h5⟩
  intro rs
  induction rs with
  | nil => intro _ c hc; exact ⟨[], rfl, by simp, hc, by simp [wsRun], by simp [wsRun]⟩
  | cons r rs ih =>
    intro hf c hc
    have hr := hf r List.mem_cons_self
    have step : ∃ o : List Answer × List Call, RightRound r o.1 o.2 ∧ (wsStep r.env r.sched c r.msg).alive = true ∧
        (wsStep r.env r.sched c r.msg).out = c.out ++ o.1 ∧ (wsStep r.env r.sched c r.msg).calls = c.calls ++ o.2 := by
      obtain ⟨m, env, sched⟩ := r
      cases m with
      | body b =>
        obtain ⟨a, calls, h1, h2, h3, h4⟩ := wsStep_right (env := env) hc hr.1 hr.2
        exact ⟨(a.sent, calls), ⟨a, h1, rfl⟩, h2, h3, h4⟩
      | ping => exact ⟨([], []), ⟨rfl, rfl⟩, by simp [wsStep, hc], by simp [wsStep], by simp [wsStep]⟩
      | close => exact absurd hr (by simp [Fair])
    obtain ⟨o, ho, ha, hout, hcalls⟩ := step
    obtain ⟨per, h1, h2, h3, h4, h5⟩ := ih (fun r hr => hf r (List.mem_cons_of_mem _ hr)) _ ha
    refine ⟨o :: per, by simp [h1], ?_, h3, ?_, ?_⟩
    · intro i r' o' hi ho'
      cases i with
      | zero => cases hi; cases ho'; exact ho
      | succ i => exact h2 i r' o' hi ho'
    · show (wsRun _ rs).out = _
      rw [h4, hout]
      simp [List.append_assoc]
    · show (wsRun _ rs).calls = _
      rw [h5, hcalls]
      simp [List.append_assoc]

def exRounds : List Round :=
  [⟨.body (.one (some (exReq "s" (.int 1)))), exEnv, []⟩, ⟨.ping, exEnv, []⟩, ⟨.body (.many (some [exReq "a" (.int 2)])), exEnv, [0]⟩]

example : (∀ r ∈ exRounds, Fair r) ∧ (wsRun {} exRounds).calls = [⟨0, "s", none⟩, ⟨0, "a", none⟩] := by
  refine ⟨?_, rfl⟩
  intro r hr
  simp only [exRounds, List.mem_cons, List.not_mem_nil, or_false] at hr
  rcases hr with rfl | rfl | rfl
  · exact ⟨by decide, by simp⟩
  · trivial
  · exact ⟨by decide, by simp⟩

/-- If the methods return the same, two orders in which the requests of a batch finish give the same answer. -/
theorem C88_order (env : Env) (b : Body) (d : Bool) (s t : List Nat) (hs : s.Perm (List.range b.size)) (ht : t.Perm (List.range b.size)) :
    (http env d s b).answer = (http env d t b).answer := by
  cases b with
  | many js =>
    cases js with
    | some js =>
      cases js with
      | cons j js =>
        cases d
        · have e : ∀ s, http env false s (.many (some (j :: js))) = runBatch (runRequest env) (j :: js) s := fun _ => rfl
          rw [e, e, runBatch, runBatch, runConcurrently_eq (n := (j :: js).length) hs (by simp), runConcurrently_eq (n := (j :: js).length) ht (by simp)]
        · rfl
      | nil => rfl
    | none => rfl
  | one j => cases j <;> rfl
  | notUtf8 => rfl

example : [1, 0].Perm (List.range (Body.many (some [exNote, exNote])).size) ∧ [0, 1].Perm (List.range (Body.many (some [exNote, exNote])).size) := by decide

theorem wsRun_dead {c : Conn} (h : c.alive = false) (rs : List Round) : wsRun c rs = c := by
  induction rs generalizing c with
  | nil => rfl
  | cons r rs ih =>
    have : wsStep r.env r.sched c r.msg = c := by unfold wsStep; simp [h]
    show wsRun (wsStep r.env r.sched c r.msg) rs = c
    rw [this]
    exact ih h

/-- F51 (a). After an empty batch a living connection never answers anything more, whatever is sent to it. -/
theorem C88_ws_empty_violated (env : Env) (sched : List Nat) (c : Conn) (hc : c.alive = true) (rs : List Round) :
    (wsRun (wsStep env sched c (.body (.many (some [])))) rs).alive = false ∧
      (wsRun (wsStep env sched c (.body (.many (some [])))) rs).out = c.out ++ [.single ⟨.inr .invalidRequest, .null⟩] ∧
      (wsRun (wsStep env sched c (.body (.many (some [])))) rs).calls = c.calls := by
  have ha : (wsStep env sched c (.body (.many (some [])))).alive = false := by unfold wsStep; rw [if_pos hc]; rfl
  have ho : (wsStep env sched c (.body (.many (some [])))).out = c.out ++ [.single ⟨.inr .invalidRequest, .null⟩] := by
    unfold wsStep; rw [if_pos hc]; rfl
  have hk : (wsStep env sched c (.body (.many (some [])))).calls = c.calls := by
    unfold wsStep; rw [if_pos hc]; simp [Conn.send, invalidRequest, runBatch, runConcurrently]
  rw [wsRun_dead ha]
  exact ⟨ha, ho, hk⟩

/-- A new connection is alive. -/
example : ({} : Conn).alive = true := rfl

/-- F51 (b). Batches that HTTP refuses when they are disabled are run on a websocket: the loop does not ask for the setting. -/
theorem C88_ws_disabled_violated :
    ∃ (env : Env) (js : List Json), (http env true [0] (.many (some js))).calls = [] ∧
      OneError (-32600) "Invalid request" (http env true [0] (.many (some js))).answer ∧
      (wsStep env [0] {} (.body (.many (some js)))).calls = [⟨0, "a", none⟩] ∧
      (wsStep env [0] {} (.body (.many (some js)))).out = [.multiple [⟨.inl (.int 0), .num 1⟩]] := by
  refine ⟨exEnv, [exReq "a" (.int 1)], rfl, invalidRequest_right, rfl, ?_⟩
  have hp : [0].Perm (List.range [exReq "a" (.int 1)].length) := by decide
  show (Conn.send _ (runBatch _ _ _)).out = _
  unfold runBatch
  rw [runConcurrently_eq hp (by decide)]
  rfl

/-- F51 (c). A notification is never run, although its method exists. -/
theorem C88_notification_violated (env : Env) (pos : Nat) (j : Json) (m : String) (p : Option Json) (h : IsReq j m p none) :
    (runRequest env pos j).calls = [] ∧ (handleRequest env pos j).calls = [] := by
  rw [handleRequest_eq]
  have hp := parse_isReq h
  simp only at hp
  unfold runRequest
  simp only [hp, and_self]

example : IsReq exNote "a" none none ∧ exEnv.isMethod "a" = true := ⟨exNote_isReq, rfl⟩

/-- F51 (d). A request with an id that JSON-RPC allows but the node does not take is not run, and answered with another id. -/
theorem C88_id_violated (env : Env) (pos : Nat) (j : Json) (m : String) (p : Option Json) (id : Json) (h : IsReq j m p (some id)) (hid : ¬ IdTaken id) :
    runRequest env pos j = ⟨some ⟨.inr .invalidRequest, .null⟩, []⟩ := by
  have hp := parse_isReq h
  simp only at hp
  cases hx : parseId id with
  | some x => exact absurd (taken_parseId hx).1 hid
  | none =>
    rw [hx] at hp
    unfold runRequest
    rw [hp]
    rfl

example : IsReq (exReq "a" (.int (2 ^ 63))) "a" none (some (.int (2 ^ 63))) ∧ IdOk (.int (2 ^ 63)) ∧ ¬ IdTaken (.int (2 ^ 63)) ∧
    IdOk (.frac "1.0") ∧ ¬ IdTaken (.frac "1.0") := by
  refine ⟨exReq_isReq _ _, .int _, ?_, .frac _, ?_⟩
  · intro h
    cases h with
    | int i h1 h2 => exact absurd h2 (by decide)
  · intro h; cases h

/-- F51 (e). An array in a batch, which is no request, is run as one. -/
theorem C88_array_violated :
    ∃ (env : Env) (j : Json), (∀ m p id, ¬ IsReq j m p id) ∧ (http env false [0] (.many (some [j]))).calls = [⟨0, "a", none⟩] :=
  ⟨exEnv, .arr [.str "2.0", .int 1, .str "a"], (fun _ _ _ ⟨_, h, _⟩ => by cases h), rfl⟩

end Verif.Rpc
