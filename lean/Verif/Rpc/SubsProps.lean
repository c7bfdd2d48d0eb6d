import Verif.Rpc.SubsLemmas
/-!
# C89: the life of a subscription on a websocket
-/
namespace Verif.Rpc.Subs

/-- For every interleaving of the loop and of the tasks of all subscriptions: a client gets the id of a subscription before its first
notification, no id twice, unsubscribing succeeds only for ids given out and only once, and after the answer to it there is at most one more
data notification (and at most one error from each of the two tasks, two messages in all). -/
theorem C89_wire_partial (acts : List Act) (s : Sys) (h : runs {} acts = some s) :
    AnswerFirst s.wire ∧ IdsUnique s.wire ∧ EndsOnce s.wire ∧ EndsKnown s.wire ∧ EndsSoon s.wire := by
  obtain ⟨h1, h2⟩ := inv_runs inv1_init inv2_init h
  refine ⟨h2.first, ?_, ?_, h2.known, ?_⟩
  · have hn := h1.subNodup
    rw [Sys.ans, List.filterMap_append, List.nodup_append] at hn
    have e : IdsUnique s.wire = ((answers s.wire).filterMap Ans.sub).Nodup := by
      unfold IdsUnique; congr
    rw [e]; exact hn.1
  · have hn := h1.finNodup
    rw [Sys.ans, List.filterMap_append, List.nodup_append] at hn
    have e : EndsOnce s.wire = ((answers s.wire).filterMap Ans.fin).Nodup := by
      unfold EndsOnce; congr
    rw [e]; exact hn.1
  · intro p as q k e ha
    obtain ⟨t, ht, _⟩ := (h1.fin k).1 (List.mem_append_left _ (reply_answers e ha))
    have := h2.soon p as q k t e ha ht
    omega

/-- A batch with two subscriptions, notifications of both, an unsubscription. -/
def exActs : List Act :=
  [.recv [.subscribe true, .subscribe false, .subscribe true], .alloc 2, .alloc 0, .alloc 1, .start 0, .start 1, .start 2, .reply,
    .spawn 0, .check 1 5, .push 1, .check 1 6, .recv [.unsubscribe 1], .check 0 7, .unsub 0, .push 0, .reply, .die 1]

example : ∃ s, runs {} exActs = some s ∧
    s.wire = [.reply [.subscribed 1, .refused, .subscribed 0], .note 1 (.data 5), .note 0 (.data 7), .reply [.unsubscribed 1]] ∧
    (answers s.wire).filterMap Ans.fin = [1] := ⟨_, rfl, rfl, rfl⟩

/-- What a client gets are the data that the subscription made, in their order and without a gap; all of them up to now, unless it has been
asked to end. -/
theorem C89_data (acts : List Act) (s : Sys) (h : runs {} acts = some s) (k : Nat) (t : Task) (ht : s.tasks k = some t) :
    dataOf k s.wire <+: t.offered ∧ (t.aborted = false → t.pend = none → dataOf k s.wire = t.offered) := by
  obtain ⟨_, h2⟩ := inv_runs inv1_init inv2_init h
  have := h2.data k t ht
  refine ⟨(List.prefix_append _ _).trans this.1, ?_⟩
  intro ha hp
  have e := this.2 ha
  simpa [Task.pd, hp] using e

example : ∃ s t, runs {} (exActs.take 11) = some s ∧ s.tasks 1 = some t ∧ t.aborted = false ∧ t.pend = none ∧ t.offered = [5] := ⟨_, _, rfl, rfl, rfl, rfl, rfl⟩

/-- Unsubscribing is answered at once: with success exactly if the subscription was started, its task has not ended and nobody has
unsubscribed it. -/
theorem C89_unsubscribe (acts : List Act) (s : Sys) (h : runs {} acts = some s) (slots : List Slot) (i k : Nat) (hr : s.round = some slots)
    (hi : slots[i]? = some (.todo (.unsubscribe k))) :
    ∃ s', step s (.unsub i) = some s' ∧
      ((∃ t, s.tasks k = some t ∧ t.gone = false ∧ t.aborted = false) → s'.round = some (slots.set i (.answered (.unsubscribed k)))) ∧
      ((∀ t, s.tasks k = some t → t.gone = true ∨ t.aborted = true) → s'.round = some (slots.set i (.answered (.invalidId k)))) := by
  obtain ⟨h1, _⟩ := inv_runs inv1_init inv2_init h
  simp only [step, hr, Option.bind_some, hi]
  cases hc : s.registry.contains k with
  | true =>
    obtain ⟨t, ht, hg, ha⟩ := (h1.reg k).1 (by simpa using hc)
    simp only [if_true, ht, Option.bind_some]
    refine ⟨_, rfl, fun _ => rfl, ?_⟩
    intro hn
    rcases hn t rfl with hh | hh
    · rw [hg] at hh; cases hh
    · rw [ha] at hh; cases hh
  | false =>
    simp only [Bool.false_eq_true, if_false]
    refine ⟨_, rfl, ?_, fun _ => rfl⟩
    intro hn
    have := (h1.reg k).2 hn
    rw [List.contains_eq_mem, decide_eq_false_iff_not] at hc
    exact absurd this hc

example : ∃ s slots, runs {} (exActs.take 14) = some s ∧ s.round = some slots ∧ slots[0]? = some (.todo (.unsubscribe 1)) := ⟨_, _, rfl, rfl, rfl⟩

/-- A subscription that ends as it could not catch up tells so, unless it has been asked to end. -/
theorem C89_told_partial (acts : List Act) (s : Sys) (h : runs {} acts = some s) (k : Nat) (t : Task) (ht : s.tasks k = some t)
    (hc : t.closing = true) (ha : t.aborted = false) (hp : t.pend = none) : .note k .err ∈ s.wire := by
  obtain ⟨_, h2⟩ := inv_runs inv1_init inv2_init h
  rcases h2.told k t ht hc ha with e | e
  · rw [hp] at e; cases e
  · exact e

def exFail : List Act := [.recv [.subscribe true], .alloc 0, .start 0, .reply, .fail 0, .push 0, .exit 0]

example : ∃ s t, runs {} exFail = some s ∧ s.tasks 0 = some t ∧ t.closing = true ∧ t.aborted = false ∧ t.pend = none ∧ t.gone = true :=
  ⟨_, _, rfl, rfl, rfl, rfl, rfl, rfl⟩

/-! ## What does not hold -/

/-- F52 (a). A notification after the answer to unsubscribing: the task has looked up the id just before. -/
theorem C89_after_end_violated : ∃ acts s, runs {} acts = some s ∧
    s.wire = [.reply [.subscribed 0], .reply [.unsubscribed 0], .note 0 (.data 7)] :=
  ⟨[.recv [.subscribe true], .alloc 0, .start 0, .reply, .check 0 7, .recv [.unsubscribe 0], .unsub 0, .reply, .push 0], _, rfl, rfl⟩

/-- The main task has ended, the inner task has nothing to send. -/
structure Dead (s : Sys) (k : Nat) : Prop where
  inv : Inv1 s
  task : ∃ t, s.tasks k = some t ∧ t.gone = true ∧ t.pend = none ∧ t.inner ≠ .sending

theorem Dead.contains {s : Sys} {k : Nat} (h : Dead s k) : s.registry.contains k = false := by
  obtain ⟨t, ht, hg, _⟩ := h.task
  have : k ∉ s.registry := by
    intro hk
    obtain ⟨t', ht', hg', _⟩ := (h.inv.reg k).1 hk
    rw [ht] at ht'; cases ht'
    rw [hg] at hg'; cases hg'
  simpa using this

theorem dead_step {s s' : Sys} {a : Act} {k : Nat} (h : Dead s k) (e : step s a = some s') : Dead s' k ∧ notesOf k s'.wire = notesOf k s.wire := by
  have hi := inv1_step h.inv e
  have hc := h.contains
  obtain ⟨t, ht, hg, hp, hin⟩ := h.task
  have same : s'.tasks k = s.tasks k → s'.wire = s.wire → Dead s' k ∧ notesOf k s'.wire = notesOf k s.wire := by
    intro h1 h2
    exact ⟨⟨hi, t, h1.trans ht, hg, hp, hin⟩, by rw [h2]⟩
  have upd : ∀ (j : Nat) (u : Task), (∀ i, s'.tasks i = if i = j then some u else s.tasks i) → s'.wire = s.wire →
      (j = k → u.gone = true ∧ u.pend = none ∧ u.inner ≠ .sending) → Dead s' k ∧ notesOf k s'.wire = notesOf k s.wire := by
    intro j u h1 h2 h3
    by_cases ej : j = k
    · exact ⟨⟨hi, u, by rw [h1, if_pos ej.symm], h3 ej⟩, by rw [h2]⟩
    · exact same (by rw [h1, if_neg (Ne.symm ej)]) h2
  have nr : ∀ u, s.tasks k = some u → u.ready = true → False := by
    intro u hu hr
    rw [ht] at hu; cases hu
    have := (ready_iff hr).2.1
    rw [hg] at this; cases this
  cases a with
  | recv rqs =>
    simp only [step] at e
    split at e
    · cases e; exact same rfl rfl
    · cases e
  | alloc i =>
    simp only [step, Option.bind_eq_some_iff] at e
    obtain ⟨slots, hr, e⟩ := e
    split at e
    · split at e
      · cases e; exact same rfl rfl
      · cases e
    · cases e
  | start i =>
    simp only [step, Option.bind_eq_some_iff] at e
    obtain ⟨slots, hr, e⟩ := e
    split at e
    · rename_i j hy
      cases e
      have hj : j ∈ s.slots.filterMap Slot.alloc := by
        rw [List.mem_filterMap]
        refine ⟨.allocated j true, ?_, rfl⟩
        simp only [Sys.slots, hr, Option.getD_some]
        exact List.mem_of_getElem? hy
      refine upd j {} (fun _ => rfl) rfl ?_
      rintro rfl
      have := (h.inv.alloc j hj).2
      rw [ht] at this; cases this
    · cases e; exact same rfl rfl
    · cases e
  | unsub i =>
    simp only [step, Option.bind_eq_some_iff] at e
    obtain ⟨slots, hr, e⟩ := e
    split at e
    · rename_i j hy
      split at e
      · rename_i hk
        simp only [Option.bind_eq_some_iff] at e
        obtain ⟨u, hu, e⟩ := e
        cases e
        refine upd j { u with aborted := true } (fun _ => rfl) rfl ?_
        rintro rfl
        rw [hc] at hk; cases hk
      · cases e; exact same rfl rfl
    · cases e
  | other i =>
    simp only [step, Option.bind_eq_some_iff] at e
    obtain ⟨slots, hr, e⟩ := e
    split at e
    · cases e; exact same rfl rfl
    · cases e
  | reply =>
    simp only [step, Option.bind_eq_some_iff] at e
    obtain ⟨slots, hr, as, ha, e⟩ := e
    cases e
    refine ⟨⟨hi, { t with locked := false }, ?_, hg, hp, hin⟩, ?_⟩
    · show (s.tasks k).map _ = _
      rw [ht]; rfl
    · show notesOf k (s.wire ++ [.reply as]) = _
      rw [notesOf_append]; rfl
  | check j n =>
    simp only [step, Option.bind_eq_some_iff] at e
    obtain ⟨u, hu, e⟩ := e
    split at e
    · rename_i hr
      cases e
      refine upd j _ (setTask_tasks _ _ _) rfl ?_
      rintro rfl; exact (nr u hu hr).elim
    · cases e
  | fail j =>
    simp only [step, Option.bind_eq_some_iff] at e
    obtain ⟨u, hu, e⟩ := e
    split at e
    · rename_i hr
      cases e
      refine upd j _ (setTask_tasks _ _ _) rfl ?_
      rintro rfl; exact (nr u hu hr).elim
    · cases e
  | push j =>
    simp only [step, Option.bind_eq_some_iff] at e
    obtain ⟨u, hu, n, hn, e⟩ := e
    cases e
    have hne : j ≠ k := by
      rintro rfl
      rw [ht] at hu; cases hu
      rw [hp] at hn; cases hn
    refine ⟨⟨hi, t, ?_, hg, hp, hin⟩, ?_⟩
    · show (if k = j then _ else s.tasks k) = some t
      rw [if_neg (Ne.symm hne)]; exact ht
    · show notesOf k (s.wire ++ [.note j n]) = _
      rw [notesOf_append, notesOf_note, if_neg hne]; rfl
  | spawn j =>
    simp only [step, Option.bind_eq_some_iff] at e
    obtain ⟨u, hu, e⟩ := e
    split at e
    · rename_i hr
      cases e
      refine upd j _ (setTask_tasks _ _ _) rfl ?_
      rintro rfl
      exact (nr u hu (by simp only [Bool.and_eq_true] at hr; exact hr.1)).elim
    · cases e
  | innerEnd j f =>
    simp only [step, Option.bind_eq_some_iff] at e
    obtain ⟨u, hu, e⟩ := e
    split at e
    · cases e
      refine upd j _ (setTask_tasks _ _ _) rfl ?_
      rintro rfl
      rw [ht] at hu; cases hu
      exact ⟨hg, hp, by cases f <;> simp⟩
    · cases e
  | innerCheck j =>
    simp only [step, Option.bind_eq_some_iff] at e
    obtain ⟨u, hu, e⟩ := e
    split at e
    · cases e
      refine upd j _ (setTask_tasks _ _ _) rfl ?_
      rintro rfl
      rw [ht] at hu; cases hu
      refine ⟨hg, hp, ?_⟩
      simp only
      rw [if_neg (by rw [hc]; decide)]
      decide
    · cases e
  | innerPush j =>
    simp only [step, Option.bind_eq_some_iff] at e
    obtain ⟨u, hu, e⟩ := e
    split at e
    · rename_i hs
      cases e
      have hne : j ≠ k := by
        rintro rfl
        rw [ht] at hu; cases hu
        exact hin hs
      refine ⟨⟨hi, t, ?_, hg, hp, hin⟩, ?_⟩
      · show (if k = j then _ else s.tasks k) = some t
        rw [if_neg (Ne.symm hne)]; exact ht
      · show notesOf k (s.wire ++ [.note j .err]) = _
        rw [notesOf_append, notesOf_note, if_neg hne]; rfl
    · cases e
  | exit j =>
    simp only [step, Option.bind_eq_some_iff] at e
    obtain ⟨u, hu, e⟩ := e
    split at e
    · cases e
      refine upd j { u with gone := true } (fun _ => rfl) rfl ?_
      rintro rfl
      rw [ht] at hu; cases hu
      exact ⟨rfl, hp, hin⟩
    · cases e
  | die j =>
    simp only [step, Option.bind_eq_some_iff] at e
    obtain ⟨u, hu, e⟩ := e
    split at e
    · cases e
      refine upd j { u with gone := true, pend := none } (fun _ => rfl) rfl ?_
      rintro rfl
      rw [ht] at hu; cases hu
      exact ⟨rfl, rfl, hin⟩
    · cases e

theorem dead_runs {s s' : Sys} {k : Nat} {as : List Act} (h : Dead s k) (e : runs s as = some s') : notesOf k s'.wire = notesOf k s.wire := by
  induction as generalizing s with
  | nil => cases e; rfl
  | cons a as ih =>
    simp only [runs, Option.bind_eq_some_iff] at e
    obtain ⟨m, hm, e⟩ := e
    obtain ⟨hd, hn⟩ := dead_step h hm
    rw [← hn]
    exact ih hd e

/-- Once the task of a subscription has ended, with nothing in flight, the client never gets a notification of it again, whatever happens. -/
theorem C89_ended (acts more : List Act) (s s' : Sys) (h : runs {} acts = some s) (h' : runs s more = some s') (k : Nat) (t : Task)
    (ht : s.tasks k = some t) (hg : t.gone = true) (hp : t.pend = none) (hi : t.inner ≠ .sending) : notesOf k s'.wire = notesOf k s.wire :=
  dead_runs ⟨(inv_runs inv1_init inv2_init h).1, t, ht, hg, hp, hi⟩ h'

def exLost : List Act := [.recv [.subscribe true], .alloc 0, .start 0, .reply, .spawn 0, .innerEnd 0 true, .exit 0]
def exLag : List Act := [.recv [.subscribe true], .alloc 0, .start 0, .reply, .spawn 0, .innerEnd 0 false, .exit 0]

/-- F52 (b). `T::subscribe` fails, and the main task ends before the error is sent: the client is never told, whatever happens later. -/
theorem C89_error_lost_violated : ∃ acts s t, runs {} acts = some s ∧ .subscribed 0 ∈ answers s.wire ∧ s.tasks 0 = some t ∧ t.inner = .failed ∧
    t.aborted = false ∧ ∀ more s', runs s more = some s' → notesOf 0 s'.wire = 0 :=
  ⟨exLost, _, _, rfl, by decide, rfl, rfl, rfl,
    fun _ _ h' => C89_ended exLost _ _ _ rfl h' 0 _ rfl rfl rfl (by decide)⟩

/-- F52 (c). `T::subscribe` returns without an error, as it does when it lags behind: the subscription ends and the client is never told. -/
theorem C89_lag_violated : ∃ acts s t, runs {} acts = some s ∧ .subscribed 0 ∈ answers s.wire ∧ s.tasks 0 = some t ∧ t.gone = true ∧
    t.aborted = false ∧ ∀ more s', runs s more = some s' → notesOf 0 s'.wire = 0 :=
  ⟨exLag, _, _, rfl, by decide, rfl, rfl, rfl,
    fun _ _ h' => C89_ended exLag _ _ _ rfl h' 0 _ rfl rfl rfl (by decide)⟩

end Verif.Rpc.Subs
