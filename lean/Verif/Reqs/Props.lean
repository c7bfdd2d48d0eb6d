import Verif.Reqs.CalmInv
import Verif.Reqs.PromptInv
import Verif.Reqs.Frame

/-
C95. Requests to peers: every request gets one outcome, and what the peer sent.

In all of this a run starts when the node does (`init`), `cap` is the number of streams
that are served at a time on a connection, and `lost` says whether the protocol ignores
failures, as the one for classes does.
-/

namespace Verif.Reqs

open Verif.Reqs.Spec

/-- A request is answered at most once, and nothing is answered that was not asked. -/
theorem C95_at_most_once (lost : Bool) (cap : Nat) (acts : List Act) (s : Sys)
    (h : run lost cap init acts = some s) :
    (s.answers.map Prod.fst).Nodup ∧ ∀ id, Answered s id → 1 ≤ id ∧ id ≤ asked acts := by
  have hi := inv_run h
  have hn := next_run h
  refine ⟨hi.nodup, ?_⟩
  rintro id ⟨b, hb⟩
  have := (hi.range id).mpr (Or.inr (List.mem_map.mpr ⟨_, hb, rfl⟩))
  simp only [init] at hn
  omega

/-- A run: a peer connects, is asked, and the request is written. -/
def exOk : List Act :=
  [.connect 7, .send 7, .poll, .ask 0, .negotiated 0, .work 0 1 .written, .take 0, .poll,
    .work 0 1 .ended, .poll]

example : ∃ s, run false 100 init exOk = some s ∧ s.answers = [(1, true)] := ⟨_, rfl, rfl⟩

theorem unanswered_pending {lost : Bool} {cap : Nat} {acts : List Act} {s : Sys} {id : Nat}
    (h : run lost cap init acts = some s) (h1 : 1 ≤ id) (h2 : id ≤ asked acts)
    (hu : ¬ Answered s id) : id ∈ s.pending := by
  have hi := inv_run h
  have hn := next_run h
  simp only [init] at hn
  rcases (hi.range id).mp ⟨h1, by omega⟩ with hm | hm
  · exact hm
  · obtain ⟨⟨i, b⟩, hb, rfl⟩ := List.mem_map.mp hm
    exact absurd ⟨b, hb⟩ hu

theorem acc_run {cap : Nat} {acts : List Act} {s : Sys} (h : run false cap init acts = some s) :
    Acc s := by
  have : Inv s ∧ Acc s := by
    refine run_induct (fun s => Inv s ∧ Acc s) ?_ init acts s ⟨inv_init, by simp [Acc, init]⟩ h
    rintro s a s' ⟨hi, ha⟩ hs
    exact ⟨inv_step hi (step_step hs), acc_step hi ha (step_step hs)⟩
  exact this.2

/-- No request is forgotten: while it is not answered it waits for a connection, some
connection has it, or its outcome is about to be handed over. -/
theorem C95_accounted (cap : Nat) (acts : List Act) (s : Sys)
    (h : run false cap init acts = some s) (id : Nat) (h1 : 1 ≤ id) (h2 : id ≤ asked acts) :
    Answered s id ∨ WaitsForPeer s id ∨ (∃ c ∈ s.conns, id ∈ c.pend) ∨
      .awaiting id ∈ s.queue ∨ .failure id ∈ s.queue := by
  by_cases hu : Answered s id
  · exact Or.inl hu
  · refine Or.inr ?_
    rcases acc_run h id (unanswered_pending h h1 h2 hu) with h3 | h3 | ⟨e, he, ho⟩
    · exact Or.inl h3
    · exact Or.inr (Or.inl h3)
    · refine Or.inr (Or.inr ?_)
      cases e <;> simp only [outcome, Option.some.injEq, reduceCtorEq] at ho
      · subst ho; exact Or.inl he
      · subst ho; exact Or.inr he

example : ∃ s, run false 100 init [.connect 7, .send 7, .poll, .ask 0] = some s ∧
    ¬ Answered s 1 ∧ ∃ c ∈ s.conns, 1 ∈ c.pend :=
  ⟨_, rfl, by rintro ⟨b, hb⟩; simp [init, connect, send, upd, deliver] at hb,
    _, List.mem_cons_self, by decide⟩

/-- When the connections are gone, dialling is over and all events were handled, every
request was answered: with failures in between or not, at whatever point the connections
were lost. -/
theorem C95_answered_when_closed (cap : Nat) (acts : List Act) (s : Sys)
    (h : run false cap init acts = some s) (hc : s.conns = []) (hw : s.waiting = [])
    (hq : s.queue = []) (id : Nat) (h1 : 1 ≤ id) (h2 : id ≤ asked acts) : Answered s id := by
  rcases C95_accounted cap acts s h id h1 h2 with h3 | ⟨p, h3⟩ | ⟨c, h3, _⟩ | h3 | h3
  · exact h3
  · rw [hw] at h3; cases h3
  · rw [hc] at h3; cases h3
  · rw [hq] at h3; cases h3
  · rw [hq] at h3; cases h3

example : ∃ s, run false 1 init [.send 5, .connect 7, .send 7, .send 7, .poll, .poll, .poll, .ask 0,
      .ask 0, .negotiated 0, .negotiated 0, .work 0 2 .written, .take 0, .poll, .close 0,
      .dialFailure 5, .poll, .poll] = some s ∧
    s.conns = [] ∧ s.waiting = [] ∧ s.queue = [] ∧
      s.answers = [(1, false), (3, false), (2, true)] := ⟨_, rfl, rfl, rfl, rfl, rfl⟩

/-- When nothing is left to do, every request was answered or waits for a connection with
its peer, provided that no stream was lost on the way: no stream was opened when all
places were taken, and no opening failed with an error of the connection
(`C95_capacity_violated`, `C95_retry_violated`). -/
theorem C95_answered_when_idle_partial (cap : Nat) (acts : List Act) (s : Sys)
    (h : run false cap init acts = some s) (hc : Calm false cap init acts)
    (hidle : Idle false cap s) (id : Nat) (h1 : 1 ≤ id) (h2 : id ≤ asked acts) :
    Answered s id ∨ WaitsForPeer s id := by
  have hi := inv_run h
  have calm := calm_run inv_init (by simp [CalmInv, init]) hc h
  have hp := idle_pend hi calm hidle
  have hq := (idle_conns hi hidle).1
  rcases C95_accounted cap acts s h id h1 h2 with h3 | h3 | ⟨c, h3, h4⟩ | h3 | h3
  · exact Or.inl h3
  · exact Or.inr h3
  · rw [hp c h3] at h4; cases h4
  · rw [hq] at h3; cases h3
  · rw [hq] at h3; cases h3

/-- A state with nothing left to do. -/
theorem idle_of {lost : Bool} {cap : Nat} {s : Sys} (hp : s.panicked = false) (hq : s.queue = [])
    (h : ∀ c ∈ s.conns, c.outq = [] ∧ c.subs = 0 ∧ c.hev = [] ∧ c.chan = [] ∧
      ∀ w ∈ c.workers, w.2 = .streaming) : Idle lost cap s := by
  have pf : (s.panicked = true) = False := by simp [hp]
  refine ⟨hp, ?_, ?_⟩
  · simp only [step, pf, if_false, poll, hq]
  · intro cid
    simp only [step, pf, if_false, ask, negotiated, event, take, work]
    rcases e : s.conn cid with _ | c
    · simp
    · obtain ⟨h1, h2, h3, h4, h5⟩ := h c (conn_mem e).1
      simp only [h1, h2, h3, h4, if_true, true_and]
      intro id
      split
      · rename_i e2 _
        have := h5 _ (List.mem_of_find?_eq_some e2)
        simp at this
      all_goals first | rfl | simp_all

example : ∃ s, run false 100 init exOk = some s ∧ Calm false 100 init exOk ∧ Idle false 100 s ∧
    1 ≤ asked exOk := by
  refine ⟨_, rfl, ?_, idle_of rfl rfl ?_, by decide⟩
  · simp [Calm, exOk, step, connect, send, poll, ask, negotiated, init, Sys.conn, upd, deliver, work,
      take, emit, setPhase, dropWorker, toEvent]
  · decide

/-- The limit on streams.  One at a time, two requests: when the second stream is opened
the first is still served, so the request is dropped with it. The node then has nothing
left to do, the connection is there, and as long as it is there the caller hears nothing,
whatever happens. -/
theorem C95_capacity_violated : ∃ acts s, run false 1 init acts = some s ∧ asked acts = 2 ∧
    Idle false 1 s ∧ s.waiting = [] ∧
    ∀ more t, (∀ cid, .close cid ∉ more) → run false 1 s more = some t → ¬ Answered t 2 := by
  refine ⟨[.connect 7, .send 7, .send 7, .poll, .poll, .ask 0, .ask 0, .negotiated 0,
    .negotiated 0, .work 0 1 .written, .take 0, .poll], _, rfl, rfl,
    idle_of rfl rfl (by decide), rfl, ?_⟩
  intro more t hm hr
  have hi : Inv _ := inv_run (lost := false) (cap := 1) (acts := [.connect 7, .send 7, .send 7, .poll,
    .poll, .ask 0, .ask 0, .negotiated 0, .negotiated 0, .work 0 1 .written, .take 0, .poll]) rfl
  have st := stuck_run (id := 2) hi ⟨by decide, by decide, by decide,
    fun e he => absurd (show e ∈ ([] : List QEv) from he) List.not_mem_nil, by decide⟩
    (fun _ => hm) hr
  rintro ⟨b, hb⟩
  exact st.pending (List.mem_map.mpr ⟨_, hb, rfl⟩)

/-- The same for any limit: a request whose stream is opened when all places are taken
disappears from the handler. -/
theorem C95_capacity_drops (cap : Nat) (s s' : Sys) (c : Conn) (id : Nat) (q : List Nat)
    (hp : s.panicked = false) (hf : s.conn c.cid = some c) (hr : c.req = id :: q)
    (hs : c.subs ≠ 0) (hfull : cap ≤ c.workers.length)
    (h : step false cap s (.negotiated c.cid) = some s') :
    s'.queue = s.queue ∧ s'.answers = s.answers ∧
      s'.conn c.cid = some { c with req := q, subs := c.subs - 1 } := by
  have pf : (s.panicked = true) = False := by simp [hp]
  simp only [step, pf, if_false, negotiated, hf, if_neg hs, hr, Option.some.injEq] at h
  subst h
  refine ⟨rfl, rfl, ?_⟩
  have hc : c.cid = c.cid := rfl
  revert hf
  simp only [Sys.conn, upd]
  generalize s.conns = cs
  intro hf
  induction cs with
  | nil => simp at hf
  | cons x xs ih =>
    simp only [List.map_cons, List.find?_cons] at hf ⊢
    by_cases e : x.cid = c.cid
    · simp only [e, beq_self_eq_true, Option.some.injEq] at hf
      subst hf
      have : ¬ x.workers.length < cap := by omega
      simp [this]
    · have e' : (x.cid == c.cid) = false := by simp [e]
      simp only [e'] at hf
      simp only [e, if_false, e']
      exact ih hf

example : ∃ s c, run false 1 init [.connect 7, .send 7, .send 7, .poll, .poll, .ask 0, .ask 0,
    .negotiated 0] = some s ∧ s.conn 0 = some c ∧ c.cid = 0 ∧ c.req = [2] ∧ c.subs ≠ 0 ∧
      1 ≤ c.workers.length := ⟨_, _, rfl, rfl, rfl, rfl, by decide, by decide⟩

/-- An error of the connection while a stream is opened: the request is put back ("retrying")
but no other stream is asked for. Nothing is left to do, and the caller has no answer. -/
theorem C95_retry_violated (cap : Nat) : ∃ acts s, run false cap init acts = some s ∧
    asked acts = 1 ∧ Idle false cap s ∧ s.waiting = [] ∧ ¬ Answered s 1 := by
  refine ⟨[.connect 7, .send 7, .poll, .ask 0, .upgradeError 0 .io], _, rfl, rfl,
    idle_of rfl rfl (by decide), rfl, ?_⟩
  rintro ⟨b, hb⟩
  cases hb

/-- The protocol for classes ignores failures: if the peer cannot be reached the caller is
never told, whatever happens later. -/
theorem C95_classes_violated (cap : Nat) : ∃ acts s, run true cap init acts = some s ∧
    asked acts = 1 ∧ s.conns = [] ∧ s.waiting = [] ∧ s.queue = [] ∧
    ∀ more t, run true cap s more = some t → ¬ Answered t 1 := by
  refine ⟨[.send 7, .poll, .dialFailure 7, .poll], _, rfl, rfl, rfl, rfl, rfl, ?_⟩
  intro more t hr
  have hi : Inv _ := inv_run (lost := true) (cap := cap)
    (acts := [.send 7, .poll, .dialFailure 7, .poll]) rfl
  have st := stuck_run (id := 1) hi ⟨by decide, by decide, by decide,
    fun e he => absurd (show e ∈ ([] : List QEv) from he) List.not_mem_nil, by decide⟩
    (by simp) hr
  rintro ⟨b, hb⟩
  exact st.pending (List.mem_map.mpr ⟨_, hb, rfl⟩)

/-- The handler never finds a stream without a request for it. -/
theorem C95_stream_has_request (lost : Bool) (cap : Nat) (acts : List Act) (s : Sys)
    (h : run lost cap init acts = some s) (a : Act) (ha : a ≠ .poll) (s' : Sys)
    (hs : step lost cap s a = some s') : s'.panicked = false := by
  have hi := inv_run h
  have hp : s.panicked = false := by
    unfold step at hs
    split at hs
    · cases hs
    · rename_i hp; simpa using hp
  have st := step_step hs
  cases st with
  | noReq c hc hs hr a ha =>
    have := hi.subs c hc
    rw [hr] at this
    simp only [List.length_nil] at this
    omega
  | poll e q hq => exact absurd rfl ha
  | _ => exact hp

example : ∃ s s', run false 100 init [.connect 7, .send 7, .poll, .ask 0] = some s ∧
    step false 100 s (.negotiated 0) = some s' := ⟨_, _, rfl, rfl⟩

/-- The node panics if a stream times out just after its request was written: the failure
is handed over first, and then there is nobody to take the responses. -/
theorem C95_panic_violated (cap : Nat) (hcap : 0 < cap) :
    ∃ acts s, run false cap init acts = some s ∧ s.panicked = true := by
  have hlt : ([] : List (Nat × Phase)).length < cap := hcap
  refine ⟨[.connect 7, .send 7, .poll, .ask 0, .negotiated 0, .work 0 1 .written,
    .work 0 1 .streamTimeout, .take 0, .poll, .poll],
    ⟨2, [⟨0, 7, [], [], [], 0, [], [], []⟩], 1, [], [], [], [(1, false)], true⟩, ?_, rfl⟩
  simp [run, step, connect, send, poll, ask, negotiated, init, Sys.conn, upd, deliver, work,
    take, emit, setPhase, dropWorker, toEvent, del, hcap]

/-- Otherwise it does not panic. -/
theorem C95_no_panic_partial (lost : Bool) (cap : Nat) (acts : List Act) (s : Sys)
    (h : run lost cap init acts = some s) (hp : Prompt lost cap init acts) : s.panicked = false :=
  (prompt_run inv_init pinv_init rfl hp h).2

/-- Two requests, one of which times out before it was written, the other while responses
arrive. -/
def exPrompt : List Act :=
  [.connect 7, .send 7, .send 7, .poll, .poll, .ask 0, .ask 0, .negotiated 0, .negotiated 0,
    .work 0 1 .streamTimeout, .work 0 2 .written, .take 0, .work 0 2 .streamTimeout, .poll, .poll,
    .poll]

example : ∃ s, run false 100 init exPrompt = some s ∧ Prompt false 100 init exPrompt ∧
    s.answers = [(2, true), (1, false)] := by
  refine ⟨_, rfl, ?_, rfl⟩
  simp [Prompt, exPrompt, step, connect, send, poll, ask, negotiated, init, Sys.conn, upd, deliver,
    work, take, emit, setPhase, dropWorker, toEvent, del]

/-- Also: an answer tells the first of the outcomes that the connection reported. A request
that failed before its responses came is not answered by responses, and the other way
round: in a run as above, an outcome that is handed over is the first for its request. -/
theorem C95_first_outcome_partial (lost : Bool) (cap : Nat) (acts : List Act) (s : Sys)
    (h : run lost cap init acts = some s) (hp : Prompt lost cap init acts) (q1 q2 : List QEv)
    (id : Nat) (hq : s.queue = q1 ++ .awaiting id :: q2) :
    ¬ Answered s id ∧ .failure id ∉ q1 ∧ .awaiting id ∉ q1 := by
  obtain ⟨h1, h2⟩ := (prompt_run inv_init pinv_init rfl hp h).1.glob.ok q1 id q2 hq
  refine ⟨?_, fun hm => h2 _ hm rfl, fun hm => h2 _ hm rfl⟩
  rintro ⟨b, hb⟩
  exact (inv_run h).disj id h1 (List.mem_map.mpr ⟨_, hb, rfl⟩)

example : ∃ s q, run false 100 init (exPrompt.take 13) = some s ∧
    Prompt false 100 init (exPrompt.take 13) ∧ s.queue = [.failure 1] ++ .awaiting 2 :: q := by
  refine ⟨_, _, rfl, ?_, rfl⟩
  simp [Prompt, exPrompt, step, connect, send, poll, ask, negotiated, init, Sys.conn, upd, deliver,
    work, take, emit, setPhase, dropWorker, toEvent, del]

/-- The responses in the channel are those that the peer wrote, in their order. -/
theorem C95_responses_roundtrip {M : Type} (limit : Nat) (hl : limit < 2 ^ 64)
    (dec : List Nat → Option M) (enc : M → List Nat) (hd : ∀ m, dec (enc m) = some m) (ms : List M)
    (hm : ∀ m ∈ ms, (enc m).length ≤ limit) (n : Nat) (hn : ms.length < n) :
    receive limit dec n (ms.flatMap (writeResponse enc)) = ms.map some :=
  receive_stream limit hl dec enc hd ms hm n hn

example : (∀ m : List Nat, some ((fun x => x) m) = some m) ∧
    ∀ m ∈ [List.replicate 5 1, [], [2, 3]], m.length ≤ 1048576 := by
  constructor
  · intro _; rfl
  · decide

/-- After the responses comes a message that is too long or that makes no sense: the caller gets
the responses and then an error, and nothing after it. -/
theorem C95_bad_response {M : Type} (limit : Nat) (hl : limit < 2 ^ 64)
    (dec : List Nat → Option M) (enc : M → List Nat) (hd : ∀ m, dec (enc m) = some m) (ms : List M)
    (hm : ∀ m ∈ ms, (enc m).length ≤ limit) (len : Nat) (body : List Nat) (hlen : len < 2 ^ 64)
    (hbad : limit < len ∨ (len ≤ body.length ∧ dec (body.take len) = none)) (n : Nat)
    (hn : ms.length < n) :
    receive limit dec n (ms.flatMap (writeResponse enc) ++ (encVarint len ++ body)) =
      ms.map some ++ [none] := by
  obtain ⟨k, rfl⟩ : ∃ k, n = ms.length + (k + 1) := ⟨n - ms.length - 1, by omega⟩
  rw [show ms.flatMap (writeResponse enc) = stream enc ms from rfl,
    receive_append limit hl dec enc hd _ ms hm]
  simp only [receive]
  rw [readResponse_bad limit dec len body hlen hbad]

example : (100 < 101 ∨ (101 ≤ [1].length ∧ some ([1].take 101) = none)) ∧
    ∀ m ∈ [[1, 2], [3]], m.length ≤ 100 := ⟨Or.inl (by decide), by decide⟩

/-- What the peer wrote is cut anywhere, for instance because the connection was lost or it
took too long: the caller gets some of the responses, and then the same end as if that were
all. -/
theorem C95_truncated_violated {M : Type} (limit : Nat) (hl : limit < 2 ^ 64)
    (dec : List Nat → Option M) (enc : M → List Nat) (hd : ∀ m, dec (enc m) = some m) (ms : List M)
    (hm : ∀ m ∈ ms, (enc m).length ≤ limit) (n : Nat) (got missing : List Nat)
    (hcut : ms.flatMap (writeResponse enc) = got ++ missing) (hne : missing ≠ []) :
    ∃ k, k < ms.length ∧ receive limit dec n got = (ms.take k).map some :=
  receive_cut limit hl dec enc hd ms hm n got missing hcut hne

example : [[5, 6], [7]].flatMap (writeResponse (fun m : List Nat => m)) = [2, 5, 6, 1] ++ [7] ∧
    receive 100 some 9 [2, 5, 6, 1] = [some [5, 6]] := by
  constructor
  · simp [writeResponse, encVarint]
  · decide

end Verif.Reqs
