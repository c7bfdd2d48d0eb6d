import Verif.Quit.Lemmas

/-! # Shutdown (C109) -/

namespace Verif.Quit

/-- A signal arrives while a request is being answered: a server, a connection, and the database
query of the request, which ends in time. -/
def demoActs : List Act :=
  [.spawnMain 1 .task, .spawnMain 2 .rawTask, .enter ⟨2, .rawTask, false⟩,
   .spawn ⟨2, .rawTask, true⟩ 3 .blocking, .await ⟨2, .rawTask, true⟩, .enter ⟨3, .blocking, false⟩,
   .signal, .cancel ⟨1, .task, false⟩, .tick, .finish ⟨3, .blocking, true⟩, .waited, .stored true,
   .drop ⟨2, .rawTask, false⟩, .exit]

def demoEnd : Sys :=
  ⟨.exited, [], 10, 1, 0, true, false, [⟨3, .blocking, true⟩],
   [⟨2, .rawTask, false⟩, ⟨1, .task, false⟩]⟩

theorem demo_run : run (start 10 []) demoActs = some demoEnd := by decide

/-- **C109 (work is not torn).** However a shutdown goes, whether or not the grace period runs out,
a task is dropped only at a waiting point, never in the middle of work. -/
theorem C109_not_torn {g : Nat} {s : Sys} (h : Reach g s) : ∀ t ∈ s.cut, t.busy = false := by
  obtain ⟨tasks, acts, _, hr⟩ := h
  exact run_inv (P := CutIdle) cutIdle_step acts _ s (fun t ht => by simp [start] at ht) hr

example : Reach 10 demoEnd ∧ demoEnd.cut ≠ [] := ⟨⟨[], demoActs, by simp, demo_run⟩, by decide⟩

/-- **C109 (blocking work is completed).** When the process ends, every closure that had begun on
the blocking pool (such as a database transaction) has run to its end, and no task is left. -/
theorem C109_completed {g : Nat} {tasks : List Task} {acts : List Act} {s : Sys}
    (h : run (start g tasks) acts = some s) (he : s.phase = .exited) :
    s.tasks = [] ∧ ∀ t : Task, t.kind.isBlocking = true → Act.enter t ∈ acts →
      { t with busy := true } ∈ s.done := by
  have ht : Times s := run_inv (P := Times) times_step acts _ s
    ⟨fun x => absurd x (by simp [start]), fun x => absurd x (by simp [start])⟩ h
  have hnil := ht.1 he
  refine ⟨hnil, fun t hk hm => ?_⟩
  rcases entered_kept hk acts _ s hm h with hx | hx
  · rw [hnil] at hx; simp at hx
  · exact hx

example : run (start 10 []) demoActs = some demoEnd ∧ demoEnd.phase = .exited ∧
    Act.enter ⟨3, .blocking, false⟩ ∈ demoActs := ⟨demo_run, rfl, by decide⟩

/-- **C109 (tracked work comes first), partial.** If the grace period did not run out, then from the
storing of the index on no tracked task is left, and the only tracked tasks that were dropped are
those that may be cancelled: no tracked blocking closure was dropped, also not before it began.

Partial: this needs that no untracked task starts a tracked one after the wait
(`C109_late_violated`). -/
theorem C109_tracked_partial {g : Nat} {tasks : List Task} {acts : List Act} {s : Sys}
    (h : run (start g tasks) acts = some s) (hl : NoLate acts) (hx : s.expired = false) :
    (After s → ∀ t ∈ s.tasks, Raw t.kind) ∧
    (∀ t ∈ s.cut, t.kind = .task ∨ Raw t.kind) := by
  have key : (After s → ∀ t ∈ s.tasks, t.kind.tracked = false) ∧
      (∀ t ∈ s.cut, t.kind.tracked = true → t.kind = .task) := ?_
  · refine ⟨fun ha t ht => (raw_iff _).2 (key.1 ha t ht), fun t ht => ?_⟩
    cases hk : t.kind.tracked with
    | true => exact Or.inl (key.2 t ht hk)
    | false => exact Or.inr ((raw_iff _).2 hk)
  refine run_inv_acts (P := QuietInv)
    (Q := fun a => ∀ p n k, a = .spawn p n k → p.kind.tracked = false → k.tracked = false)
    (fun s s' a hq hp hs => quiet_step s s' a hq hp hs) acts _ s ?_ ?_ h hx
  · intro a ha p n k e hp
    exact (raw_iff _).1 (hl p n k (e ▸ ha) ((raw_iff _).2 hp))
  · intro _
    refine ⟨fun ha => ?_, fun t ht => by simp [start] at ht⟩
    rcases ha with ha | ha | ha <;> exact absurd ha (by simp [start])

example : run (start 10 [⟨5, .blocking, false⟩]) [.enter ⟨5, .blocking, false⟩, .signal,
      .finish ⟨5, .blocking, true⟩, .waited] =
      some ⟨.storing, [], 10, 0, 0, true, false, [⟨5, .blocking, true⟩], []⟩ ∧
    NoLate [.enter ⟨5, .blocking, false⟩, .signal, .finish ⟨5, .blocking, true⟩, .waited] := by
  refine ⟨by decide, ?_⟩
  intro p n k hm
  simp at hm

/-- **C109 (tracked work comes first), violated.** A connection of the RPC server is not tracked. It
can start a tracked database query after the wait for tracked work has ended, while the index is
being stored or after that. -/
theorem C109_late_violated (g : Nat) : ∃ s, Reach g s ∧ s.expired = false ∧ After s ∧
    ∃ t ∈ s.tasks, t.kind = .blocking ∧ t.busy = true := by
  refine ⟨⟨.storing, [⟨3, .blocking, true⟩, ⟨2, .rawTask, true⟩], g, 0, 0, true, false, [], []⟩,
    ⟨[⟨2, .rawTask, false⟩], [.enter ⟨2, .rawTask, false⟩, .signal, .waited,
      .spawn ⟨2, .rawTask, true⟩ 3 .blocking, .enter ⟨3, .blocking, false⟩], by simp, ?_⟩, rfl,
    Or.inl rfl, ⟨3, .blocking, true⟩, by simp, rfl, rfl⟩
  simp [run, step, start, close, trackerEmpty, Kind.tracked]

/-- **C109 (untracked work), violated.** The wait ends with success although a closure that the
tracker does not know, such as a write of the repair of classes, is in the middle of its work. -/
theorem C109_untracked_violated (g : Nat) : ∃ s, Reach g s ∧ s.expired = false ∧ After s ∧
    ∃ t ∈ s.tasks, t.kind = .rawBlocking ∧ t.busy = true := by
  refine ⟨⟨.storing, [⟨2, .rawBlocking, true⟩], g, 0, 0, true, false, [], []⟩,
    ⟨[⟨2, .rawBlocking, false⟩], [.enter ⟨2, .rawBlocking, false⟩, .signal, .waited], by simp, ?_⟩,
    rfl, Or.inl rfl, ⟨2, .rawBlocking, true⟩, by simp, rfl, rfl⟩
  simp [run, step, start, close, trackerEmpty, Kind.tracked]

/-- **C109 (requests), violated.** A request in progress at the signal can be left without an
answer, although its database query was waited for and the grace period did not run out: the server
task is cancelled and nothing waits for its connections. -/
theorem C109_request_violated : ∃ s, run (start 10 []) demoActs = some s ∧ s.phase = .exited ∧
    s.expired = false ∧ s.clock < s.since + s.grace ∧ (⟨3, .blocking, true⟩ : Task) ∈ s.done ∧
    (⟨2, .rawTask, false⟩ : Task) ∈ s.cut := ⟨demoEnd, demo_run, rfl, rfl, by decide, by decide, by decide⟩

/-- **C109 (the wait is bounded).** The wait for tracked work never lasts longer than the grace
period; at its end the shutdown goes on, whatever the tasks do. -/
theorem C109_wait_bounded {g : Nat} {s : Sys} (h : Reach g s) (hw : s.phase = .waiting) :
    s.clock ≤ s.since + s.grace ∧
    (s.clock = s.since + s.grace → step s .tick = none ∧
      ∃ s', step s .expire = some s' ∧ s'.phase = .storing ∧ s'.tasks = s.tasks) := by
  obtain ⟨tasks, acts, _, hr⟩ := h
  have ht : Times s := run_inv (P := Times) times_step acts _ s
    ⟨fun x => absurd x (by simp [start]), fun x => absurd x (by simp [start])⟩ hr
  refine ⟨ht.2 hw, fun he => ⟨?_, { s with phase := .storing, expired := true },
    by simp [step, hw, he], rfl, rfl⟩⟩
  simp [step, hw, he]

example : Reach 10 (close (start 10 [⟨5, .coop, false⟩]) true) :=
  ⟨[⟨5, .coop, false⟩], [.signal], by simp, by decide⟩

/-- **C109 (the exit is possible).** From every state after the shutdown began, if the work that is
going on ends, the process ends: there is a way to the end on which no time passes beyond what was
left of the grace period, and no new work begins except that waiting tasks end. -/
theorem C109_can_exit {g : Nat} {s : Sys} (h : Reach g s) (hr : s.phase ≠ .running) :
    ∃ acts s', (∀ a ∈ acts, a.ending) ∧ run s acts = some s' ∧ s'.phase = .exited := by
  obtain ⟨tasks, acts0, _, h0⟩ := h
  obtain ⟨acts, m, ha, hm, hnil, hph⟩ := drain _ s rfl hr
  have key : ∀ (m : Sys), m.tasks = [] → m.phase ≠ .running →
      ∃ acts s', (∀ a ∈ acts, a.ending) ∧ run m acts = some s' ∧ s'.phase = .exited := by
    intro m hnil hne
    cases hp : m.phase with
    | running => exact absurd hp hne
    | waiting =>
      refine ⟨[.waited, .stored true, .exit], { m with phase := .exited, result := m.result && true },
        ?_, ?_, rfl⟩
      · intro a ha
        simp at ha
        rcases ha with rfl | rfl | rfl <;> trivial
      · simp [run, step, hp, trackerEmpty, hnil]
    | storing =>
      refine ⟨[.stored true, .exit], { m with phase := .exited, result := m.result && true },
        ?_, ?_, rfl⟩
      · intro a ha
        simp at ha
        rcases ha with rfl | rfl <;> trivial
      · simp [run, step, hp, hnil]
    | dropping =>
      refine ⟨[.exit], { m with phase := .exited }, ?_, ?_, rfl⟩
      · intro a ha
        simp at ha
        subst ha
        trivial
      · simp [run, step, hp, hnil]
    | exited => exact ⟨[], m, by simp, rfl, hp⟩
  obtain ⟨acts', s', ha', hs', he⟩ := key m hnil (by rw [hph]; exact hr)
  refine ⟨acts ++ acts', s', ?_, run_append hm hs', he⟩
  intro a hx
  rcases List.mem_append.1 hx with hx | hx
  · exact ha a hx
  · exact ha' a hx

example : Reach 10 (close (start 10 [⟨5, .coop, false⟩, ⟨6, .blocking, false⟩]) true) ∧
    (close (start 10 [⟨5, .coop, false⟩, ⟨6, .blocking, false⟩]) true).phase ≠ .running :=
  ⟨⟨[⟨5, .coop, false⟩, ⟨6, .blocking, false⟩], [.signal], by simp, by decide⟩, by decide⟩

/-- **C109 (the grace period), violated.** The process does not end when the grace period is over:
a blocking closure that has begun keeps it alive. However long the grace period and whatever `d`,
there is a run in which the process is still there `d` ticks after the grace period. -/
theorem C109_grace_violated (g d : Nat) : ∃ s, Reach g s ∧ s.expired = true ∧
    s.phase = .dropping ∧ s.clock = s.since + s.grace + d ∧
    ∀ acts s', run s acts = some s' → s'.phase = .exited →
      (⟨1, .blocking, true⟩ : Task) ∈ s'.done := by
  let s1 : Sys := ⟨.waiting, [⟨1, .blocking, true⟩], g, 0, 0, true, false, [], []⟩
  have h1 : run (start g [⟨1, .blocking, false⟩]) [.enter ⟨1, .blocking, false⟩, .signal] =
      some s1 := by
    simp [run, step, start, close, s1]
  have h2 : run s1 (List.replicate g .tick) = some { s1 with clock := 0 + g } :=
    run_ticks g s1 (by simp [s1]) (fun _ => by simp [s1])
  let s2 : Sys := ⟨.dropping, [⟨1, .blocking, true⟩], g, g, 0, true, true, [], []⟩
  have h3 : run { s1 with clock := 0 + g } [.expire, .stored true] = some s2 := by
    simp [run, step, s1, s2]
  have h4 : run s2 (List.replicate d .tick) = some { s2 with clock := g + d } :=
    run_ticks d s2 (by simp [s2]) (fun x => absurd x (by simp [s2]))
  have hall := run_append (run_append (run_append h1 h2) h3) h4
  refine ⟨{ s2 with clock := g + d }, ⟨_, _, by simp, hall⟩, rfl, rfl, by simp [s2], ?_⟩
  intro acts s' hr he
  have hk : Kept ⟨1, .blocking, true⟩ s' := run_inv (P := Kept ⟨1, .blocking, true⟩)
    (fun s s' a => kept_step rfl rfl s s' a) acts _ s' (Or.inl (by simp [s2])) hr
  obtain ⟨hnil, _⟩ := C109_completed (run_append hall hr) he
  rcases hk with hk | hk
  · rw [hnil] at hk; simp at hk
  · exact hk

/-- **C109 (exit status), partial.** The process ends with a failing status exactly if a critical
task failed, panicked or was aborted, or the index could not be stored.

Partial: a critical task that ends without an error also stops the node, and then the status is that
of success (`C109_status_violated`). -/
theorem C109_status_partial {g : Nat} {tasks : List Task} {acts : List Act} {s : Sys}
    (h : run (start g tasks) acts = some s) : s.result = false ↔ Failed acts := by
  have hr := result_run acts _ s (fun _ => rfl) h
  rw [hr, ← failing_iff]
  simp only [start, Bool.true_and]
  cases acts.any failing <;> simp

example : run (start 10 []) [.critical .error, .waited, .stored true, .exit] =
      some ⟨.exited, [], 10, 0, 0, false, false, [], []⟩ ∧
    Failed [.critical .error, .waited, .stored true, .exit] := ⟨by decide, Or.inl (by decide)⟩

/-- **C109 (exit status), violated.** A node that stops because a critical task ended unexpectedly
reports success if the task ended without an error. -/
theorem C109_status_violated : ∃ s, run (start 10 []) [.critical .ok, .waited, .stored true, .exit] =
    some s ∧ s.phase = .exited ∧ s.result = true ∧ Act.signal ∉ [Act.critical .ok, .waited,
      .stored true, .exit] := ⟨⟨.exited, [], 10, 0, 0, true, false, [], []⟩, by decide, rfl, rfl, by decide⟩

end Verif.Quit
