import Verif.Sync.Pipeline

/-!
# Pipelines deliver a faithful prefix (C41)
-/

namespace Verif.Sync

variable {P E α β σ : Type}

/-! ## Specification -/

/-- The values before the first error. -/
def leading : List (Item P E α) → List (P × α)
  | .ok x :: rest => x :: leading rest
  | _ => []

/-- The first error. -/
def firstError (xs : List (Item P E α)) : Option E :=
  xs.findSome? fun x => match x with | .error e => some e | .ok _ => none

/-- The stage processes the given values one after the other and all of them succeed. -/
inductive Worked (map : σ → P → α → Except E (β × σ)) : σ → List (P × α) → List (P × β) → σ → Prop
  | nil (s : σ) : Worked map s [] [] s
  | cons {s s' s'' : σ} {p : P} {a : α} {b : β} {xs : List (P × α)} {ys : List (P × β)} :
    map s p a = .ok (b, s') → Worked map s' xs ys s'' → Worked map s ((p, a) :: xs) ((p, b) :: ys) s''

/-- What a task that runs alone sends, given everything that arrives on its channel. -/
def alone {V : Type} (p : Program V) : p.State → List V → List V
  | s, [] => p.finish s
  | s, v :: rest => let r := p.step s v; r.2.1 ++ if r.2.2 then alone p r.1 rest else []

/-- The stages one after the other, each run to the end before the next one starts. -/
def sequentially {V : Type} (input : List V) (stages : List (Program V × Nat)) : List V :=
  stages.foldl (fun xs s => alone s.1 s.1.init xs) input

/-- A number of steps, in any order the tasks are scheduled. -/
inductive Steps {V : Type} : Nat → Network V → Network V → Prop
  | refl (n : Network V) : Steps 0 n n
  | step {k : Nat} {a b c : Network V} : Steps k a b → Step b c → Steps (k + 1) a c

/-! ## The stages on their own -/

/-- C41. A source forwards the values before the first error, then that error and nothing else. -/
theorem C41_source (xs : List (Item P E α)) :
    source xs = (leading xs).map .ok ++ (firstError xs).toList.map .error := by
  induction xs with
  | nil => rfl
  | cons x xs ih =>
    cases x with
    | error e => rfl
    | ok x => simp [source, leading, firstError, ih]

example : source (E := Nat) [.ok (1, 'a'), .ok (1, 'b'), .error 7, .ok (2, 'c')] =
    [.ok (1, 'a'), .ok (1, 'b'), .error 7] := rfl

/-- C41. A stage outputs the results of the values it processes, in order and with their peers, up to the first error.
Then it outputs that error, whether it is its own or one it received, and nothing else. -/
theorem C41_stage (map : σ → P → α → Except E (β × σ)) (s : σ) (xs : List (Item P E α)) :
    ∃ n done s', n ≤ (leading xs).length ∧ Worked map s ((leading xs).take n) done s' ∧
      ((n = (leading xs).length ∧ pipe map s xs = done.map .ok ++ (firstError xs).toList.map .error) ∨
       (∃ p a e, (leading xs)[n]? = some (p, a) ∧ map s' p a = .error e ∧
          pipe map s xs = done.map .ok ++ [.error e])) := by
  induction xs generalizing s with
  | nil => exact ⟨0, [], s, by simp [leading], .nil s, .inl ⟨rfl, rfl⟩⟩
  | cons x xs ih =>
    cases x with
    | error e => exact ⟨0, [], s, by simp [leading], .nil s, .inl ⟨rfl, rfl⟩⟩
    | ok x =>
      obtain ⟨p, a⟩ := x
      cases h : map s p a with
      | error e =>
        exact ⟨0, [], s, by simp, .nil s, .inr ⟨p, a, e, by simp [leading], h, by simp [pipe, h]⟩⟩
      | ok r =>
        obtain ⟨b, s₁⟩ := r
        obtain ⟨n, done, s', hn, hw, hc⟩ := ih s₁
        refine ⟨n + 1, (p, b) :: done, s', by simpa [leading] using hn, ?_, ?_⟩
        · simpa [leading] using Worked.cons h hw
        · rcases hc with ⟨hn', hp⟩ | ⟨p', a', e, hi, he, hp⟩
          · exact .inl ⟨by simp [leading, hn'], by simp [pipe, h, hp, firstError]⟩
          · exact .inr ⟨p', a', e, by simpa [leading] using hi, he, by simp [pipe, h, hp]⟩

example : pipe (P := Nat) (E := String) (fun s _ a => if a < 9 then .ok (s + a, s + a) else .error "big") 0
    [.ok (1, 3), .ok (2, 4), .ok (2, 9), .ok (1, 1)] = [.ok (1, 3), .ok (2, 7), .error "big"] := by
  rfl

/-- A stage accepts everything exactly when every value passes and no error arrives. -/
theorem pipe_eq_of_worked (map : σ → P → α → Except E (β × σ)) (s s' : σ) (xs : List (P × α)) (ys : List (P × β))
    (h : Worked map s xs ys s') : pipe map s (xs.map .ok) = ys.map .ok := by
  induction h with
  | nil s => rfl
  | cons hm _ ih => simp [pipe, hm, ih]

/-- The groups of a chunk loop that has collected the values `got`. -/
theorem chunkLoop_groups (capacity : Nat) (hc : 0 < capacity) (xs : List (Item P E α)) (got : List (P × α))
    (peer : Option P) (hp : peer = (got.head?.map (·.1)).or peer) (hl : got.length < capacity) :
    ∃ groups : List (List (P × α)), groups.flatten = got ++ leading xs ∧
      (∀ g ∈ groups, g ≠ [] ∧ g.length ≤ capacity) ∧ (∀ g ∈ groups.dropLast, g.length = capacity) ∧
      chunkLoop capacity peer (got.map (·.2)) xs =
        (groups.filterMap fun g => g.head?.map fun x => .ok (x.1, g.map (·.2))) ++
          (firstError xs).toList.map .error := by
  have rest : ∀ (tail : List (Item P E (List α))),
      ∃ groups : List (List (P × α)), groups.flatten = got ++ [] ∧
      (∀ g ∈ groups, g ≠ [] ∧ g.length ≤ capacity) ∧ (∀ g ∈ groups.dropLast, g.length = capacity) ∧
      chunkRest peer (got.map (·.2)) ++ tail =
        (groups.filterMap fun g => g.head?.map fun x => .ok (x.1, g.map (·.2))) ++ tail := by
    intro tail
    cases got with
    | nil => exact ⟨[], by simp, by simp, by simp, by cases peer <;> simp [chunkRest]⟩
    | cons g gs =>
      refine ⟨[g :: gs], by simp, by simp at hl ⊢; omega, by simp, ?_⟩
      simp at hp
      simp [chunkRest, hp]
  induction xs generalizing got peer with
  | nil =>
    obtain ⟨groups, h1, h2, h3, h4⟩ := rest []
    exact ⟨groups, by simpa [leading] using h1, h2, h3, by simpa [chunkLoop, firstError] using h4⟩
  | cons x xs ih =>
    cases x with
    | error e =>
      obtain ⟨groups, h1, h2, h3, h4⟩ := rest [.error e]
      exact ⟨groups, by simpa [leading] using h1, h2, h3, by simpa [chunkLoop, firstError] using h4⟩
    | ok x =>
      obtain ⟨p, a⟩ := x
      have hpeer : ∃ q, (if (got.map (·.2)).isEmpty = true then some p else peer) = some q ∧
          ((got ++ [(p, a)]).head?.map (·.1)) = some q := by
        cases got with
        | nil => exact ⟨p, by simp, by simp⟩
        | cons g gs => exact ⟨g.1, by simp at hp ⊢; exact hp, by simp⟩
      obtain ⟨q, hq, hh⟩ := hpeer
      by_cases hfull : (got.map (·.2)).length + 1 = capacity
      · obtain ⟨groups, h1, h2, h3, h4⟩ := ih [] (some q) (by simp) (by simpa using hc) (by
          intro tail
          exact ⟨[], by simp, by simp, by simp, by simp [chunkRest]⟩)
        refine ⟨(got ++ [(p, a)]) :: groups, by simp [h1, leading], ?_, ?_, ?_⟩
        · intro g hg
          rcases List.mem_cons.mp hg with rfl | hg
          · simp at hfull ⊢; omega
          · exact h2 g hg
        · intro g hg
          cases groups with
          | nil => simp at hg
          | cons g' gs =>
            rw [List.dropLast_cons_of_ne_nil (by simp)] at hg
            rcases List.mem_cons.mp hg with rfl | hg
            · simpa using hfull
            · exact h3 g hg
        · have hh' : (got ++ [(p, a)]).head? = some ((got ++ [(p, a)]).head (by simp)) := List.head?_eq_some_head _
          rw [hh'] at hh
          simp only [Option.map_some, Option.some.injEq] at hh
          rw [List.filterMap_cons]
          simp only [hh', Option.map_some, hh]
          simp only [chunkLoop, hq, List.length_append, List.length_singleton, hfull, if_true]
          simp only [List.map_nil] at h4
          rw [h4]
          simp [firstError]
      · obtain ⟨groups, h1, h2, h3, h4⟩ := ih (got ++ [(p, a)]) (some q) (by rw [hh]; rfl)
          (by simp at hfull ⊢; omega) (by
            intro tail
            refine ⟨[got ++ [(p, a)]], by simp, by simp at hfull ⊢; omega, by simp, ?_⟩
            have hh' : (got ++ [(p, a)]).head? = some ((got ++ [(p, a)]).head (by simp)) := List.head?_eq_some_head _
            rw [hh'] at hh
            simp only [Option.map_some, Option.some.injEq] at hh
            rw [List.filterMap_cons]
            simp only [hh', Option.map_some, hh]
            simp [chunkRest])
        refine ⟨groups, by simpa [leading] using h1, h2, h3, ?_⟩
        simp only [chunkLoop, hq, List.length_append, List.length_singleton, hfull, if_false]
        rw [show List.map (fun x => x.2) got ++ [a] = (got ++ [(p, a)]).map (·.2) by simp, h4]
        simp [firstError]

/-- C41. Chunking splits the values before the first error into consecutive groups: none is empty, all but the last have
exactly the capacity, and each carries the peer of its first value. The error follows the last group. Nothing is lost or
reordered. -/
theorem C41_chunks (capacity : Nat) (hc : 0 < capacity) (xs : List (Item P E α)) :
    ∃ groups : List (List (P × α)), groups.flatten = leading xs ∧
      (∀ g ∈ groups, g ≠ [] ∧ g.length ≤ capacity) ∧ (∀ g ∈ groups.dropLast, g.length = capacity) ∧
      tryChunks capacity xs =
        (groups.filterMap fun g => g.head?.map fun x => .ok (x.1, g.map (·.2))) ++
          (firstError xs).toList.map .error := by
  simpa [tryChunks] using chunkLoop_groups capacity hc xs [] none (by simp) (by simpa using hc)

example : tryChunks (E := String) 2 [.ok (1, 'a'), .ok (2, 'b'), .ok (3, 'c'), .error "x", .ok (1, 'd')] =
    [.ok (1, ['a', 'b']), .ok (3, ['c']), .error "x"] := by rfl

/-! ## The tasks -/

/-- C41. The task of a stage, run alone, sends what the stage outputs. -/
theorem C41_stage_task (map : σ → P → α → Except E (α × σ)) (s₀ s : σ) (xs : List (Item P E α)) :
    alone (pipeProgram map s₀) s xs = pipe map s xs := by
  induction xs generalizing s with
  | nil => rfl
  | cons x xs ih =>
    cases x with
    | error e => rfl
    | ok x =>
      obtain ⟨p, a⟩ := x
      cases h : map s p a with
      | error e => simp [alone, pipeProgram, pipe, h]
      | ok r =>
        have := ih r.2
        simp only [alone, pipeProgram, pipe, h] at this ⊢
        simp [this]

/-- C41. The task that chunks, run alone, sends the chunks. -/
theorem C41_chunk_task (capacity : Nat) (wrap : List α → α) (s : Option P × List α) (xs : List (Item P E α)) :
    alone (chunkProgram capacity wrap) s xs =
      (chunkLoop capacity s.1 s.2 xs).map (·.map fun x => (x.1, wrap x.2)) := by
  induction xs generalizing s with
  | nil => rfl
  | cons x xs ih =>
    cases x with
    | error e => simp [alone, chunkProgram, chunkLoop]; rfl
    | ok x =>
      obtain ⟨p, a⟩ := x
      by_cases hf : s.2.length + 1 = capacity
      · have := ih (if s.2.isEmpty then some p else s.1, [])
        simp only [alone, chunkProgram, chunkLoop, List.length_append, List.length_singleton, hf, if_true,
          List.map_append] at this ⊢
        rw [this]
        cases (if s.2.isEmpty = true then some p else s.1) <;> simp <;> rfl
      · have := ih (if s.2.isEmpty then some p else s.1, s.2 ++ [a])
        simp only [alone, chunkProgram, chunkLoop, List.length_append, List.length_singleton, hf, if_false] at this ⊢
        simpa using this

variable {V : Type}

/-- Everything a task will still send, given what will still be sent to it. -/
def Task.future (t : Task V) (r : List V) : List V :=
  match t.phase with
  | .gone => []
  | .closing => t.out
  | .running => t.out ++ alone t.program t.state (t.queue ++ r)

/-- Everything the last of some tasks will still send. -/
def future (ts : List (Task V)) (r : List V) : List V := ts.foldl (fun r t => t.future r) r

/-- A bound on the steps a task will still make. -/
def Task.work (t : Task V) (r : List V) : Nat :=
  match t.phase with
  | .gone => 0
  | .closing => t.out.length + 1
  | .running => t.out.length + (t.queue ++ r).length + (alone t.program t.state (t.queue ++ r)).length + 2

/-- A bound on the steps some tasks will still make. -/
def work : List (Task V) → List V → Nat
  | [], _ => 0
  | t :: ts, r => t.work r + work ts (t.future r)

theorem future_append (pre post : List (Task V)) (r : List V) : future (pre ++ post) r = future post (future pre r) := by
  simp [future]

theorem work_append (pre post : List (Task V)) (r : List V) :
    work (pre ++ post) r = work pre r + work post (future pre r) := by
  induction pre generalizing r with
  | nil => simp [work, future]
  | cons t ts ih => simp only [List.cons_append, work, ih, future, List.foldl_cons]; omega

/-- A step changes neither what was received together with what will be, nor can it be repeated for ever. -/
theorem Step.progress {a b : Network V} (h : Step a b) :
    b.received ++ future b.tasks [] = a.received ++ future a.tasks [] ∧ work b.tasks [] < work a.tasks [] := by
  cases h with
  | receive pre post t v rest r hp ho hq =>
    have hf : ∀ r', (t.receive v rest).future r' = t.future r' := by
      intro r'
      simp only [Task.future, Task.receive, hp, hq, ho, List.nil_append, List.cons_append, alone]
      cases (t.program.step t.state v).2.2 <;> simp
    have hw : ∀ r', (t.receive v rest).work r' < t.work r' := by
      intro r'
      simp only [Task.work, Task.receive, hp, hq, ho, List.cons_append, alone, List.length_nil,
        List.length_cons, List.length_append]
      cases (t.program.step t.state v).2.2 <;> simp <;> omega
    simp only [future_append, work_append]
    simp only [future, List.foldl_cons, work, hf, true_and]
    have := hw (List.foldl (fun r t => t.future r) [] pre)
    omega
  | finish pre post u t r hu hp ho hq =>
    have hun : ∀ r', u.future r' = [] := by intro r'; simp [Task.future, hu]
    have hf : Task.future { t with out := t.program.finish t.state, phase := .closing } [] = t.future [] := by
      simp [Task.future, hp, hq, ho, alone]
    have hw : Task.work { t with out := t.program.finish t.state, phase := .closing } [] < t.work [] := by
      simp [Task.work, hp, hq, ho, alone]
    simp only [future_append, work_append]
    simp only [future, List.foldl_cons, work, hun, hf, true_and]
    omega
  | send pre post t u v rest r ht ho hu hl =>
    have hf : ∀ r', (Task.future { u with queue := u.queue ++ [v] } (Task.future { t with out := rest } r')) =
        u.future (t.future r') := by
      intro r'
      cases htp : t.phase <;> cases hup : u.phase <;> simp_all [Task.future]
    have hw : ∀ r', Task.work { t with out := rest } r' +
        Task.work { u with queue := u.queue ++ [v] } (Task.future { t with out := rest } r') <
        t.work r' + u.work (t.future r') := by
      intro r'
      cases htp : t.phase <;> cases hup : u.phase <;> simp_all [Task.future, Task.work] <;> omega
    simp only [future_append, work_append]
    simp only [future, List.foldl_cons, work]
    refine ⟨by rw [hf], ?_⟩
    rw [hf]
    have := hw (List.foldl (fun r t => t.future r) [] pre)
    omega
  | hangup pre post t u r ht ho hu =>
    have hun : ∀ r', u.future r' = [] := by intro r'; simp [Task.future, hu]
    have huw : ∀ r', u.work r' = 0 := by intro r'; simp [Task.work, hu]
    simp only [future_append, work_append]
    simp only [future, List.foldl_cons, work, hun, huw, true_and]
    cases htp : t.phase <;> simp_all [Task.work] <;> omega
  | deliver pre t v rest r ht ho =>
    simp only [future_append, work_append]
    simp only [future, List.foldl_cons, List.foldl_nil, work]
    cases htp : t.phase <;> simp_all [Task.future, Task.work] <;> omega
  | close pre post t r hp ho =>
    have hf : ∀ r', Task.future { t with phase := .gone } r' = t.future r' := by
      intro r'; simp [Task.future, hp, ho]
    simp only [future_append, work_append]
    simp only [future, List.foldl_cons, work, hf, true_and]
    simp [Task.work, hp]

theorem Steps.progress {k : Nat} {a b : Network V} (h : Steps k a b) :
    b.received ++ future b.tasks [] = a.received ++ future a.tasks [] ∧ work b.tasks [] + k ≤ work a.tasks [] := by
  induction h with
  | refl n => exact ⟨rfl, by omega⟩
  | step _ hs ih =>
    obtain ⟨h1, h2⟩ := hs.progress
    exact ⟨h1.trans ih.1, by omega⟩

theorem Step.rooms {a b : Network V} (h : Step a b) : b.tasks.map (·.room) = a.tasks.map (·.room) := by
  cases h <;> simp [Task.receive]

theorem Step.first {a b : Network V} (h : Step a b) (ha : ∃ t ts, a.tasks = t :: ts ∧ t.phase ≠ .running) :
    ∃ t ts, b.tasks = t :: ts ∧ t.phase ≠ .running := by
  obtain ⟨x, xs, hx, hp⟩ := ha
  cases h with
  | receive pre post t v rest r h1 h2 h3 =>
    cases pre with
    | nil => simp at hx; exact absurd (hx.1 ▸ h1) hp
    | cons y ys => simp at hx; exact ⟨y, _, rfl, hx.1 ▸ hp⟩
  | finish pre post u t r h1 h2 h3 h4 =>
    cases pre with
    | nil => simp at hx; exact ⟨u, _, rfl, hx.1 ▸ hp⟩
    | cons y ys => simp at hx; exact ⟨y, _, rfl, hx.1 ▸ hp⟩
  | send pre post t u v rest r h1 h2 h3 h4 =>
    cases pre with
    | nil => simp at hx; exact ⟨_, _, rfl, by simpa [hx.1] using hp⟩
    | cons y ys => simp at hx; exact ⟨y, _, rfl, hx.1 ▸ hp⟩
  | hangup pre post t u r h1 h2 h3 =>
    cases pre with
    | nil => simp at hx; exact ⟨_, _, rfl, by simp⟩
    | cons y ys => simp at hx; exact ⟨y, _, rfl, hx.1 ▸ hp⟩
  | deliver pre t v rest r h1 h2 =>
    cases pre with
    | nil => simp at hx; exact ⟨_, _, rfl, by simpa [hx.1] using hp⟩
    | cons y ys => simp at hx; exact ⟨y, _, rfl, hx.1 ▸ hp⟩
  | close pre post t r h1 h2 =>
    cases pre with
    | nil => simp at hx; exact ⟨_, _, rfl, by simp⟩
    | cons y ys => simp at hx; exact ⟨y, _, rfl, hx.1 ▸ hp⟩

/-- If a task is not gone and all after it are, some task up to it can make a step. -/
theorem can_step (pre post : List (Task V)) (t : Task V) (r : List V) (hrooms : ∀ x ∈ pre ++ t :: post, 0 < x.room ∨ x.phase ≠ .running)
    (hfirst : ∃ x xs, pre ++ t :: post = x :: xs ∧ x.phase ≠ .running) (ht : t.phase ≠ .gone)
    (hpost : (∃ u us, post = u :: us ∧ (u.phase = .gone ∨ (u.phase = .running ∧ u.queue = []))) ∨ post = []) :
    ∃ b, Step ⟨pre ++ t :: post, r⟩ b := by
  induction hn : pre.length generalizing pre post t with
  | zero =>
    have hpre : pre = [] := List.eq_nil_of_length_eq_zero hn
    subst hpre
    obtain ⟨x, xs, hx, hph⟩ := hfirst
    simp at hx
    have htc : t.phase = .closing := by
      cases h : t.phase with
      | running => exact absurd h (hx.1 ▸ hph)
      | closing => rfl
      | gone => exact absurd h ht
    cases ho : t.out with
    | nil => exact ⟨_, .close [] post t r htc ho⟩
    | cons v rest =>
      rcases hpost with ⟨u, us, rfl, hu⟩ | rfl
      · rcases hu with hu | ⟨hu, hq⟩
        · exact ⟨_, .hangup [] us t u r ht (by simp [ho]) hu⟩
        · refine ⟨_, .send [] us t u v rest r ht ho (by simp [hu]) ?_⟩
          have := hrooms u (by simp)
          simp [hu] at this
          simpa [hq] using this
      · exact ⟨_, .deliver [] t v rest r ht ho⟩
  | succ n ih =>
    cases ho : t.out with
    | cons v rest =>
      rcases hpost with ⟨u, us, rfl, hu⟩ | rfl
      · rcases hu with hu | ⟨hu, hq⟩
        · exact ⟨_, .hangup pre us t u r ht (by simp [ho]) hu⟩
        · refine ⟨_, .send pre us t u v rest r ht ho (by simp [hu]) ?_⟩
          have := hrooms u (by simp)
          simp [hu] at this
          simpa [hq] using this
      · exact ⟨_, .deliver pre t v rest r ht ho⟩
    | nil =>
      cases hp : t.phase with
      | gone => exact absurd hp ht
      | closing => exact ⟨_, .close pre post t r hp ho⟩
      | running =>
        cases hq : t.queue with
        | cons v rest => exact ⟨_, .receive pre post t v rest r hp ho hq⟩
        | nil =>
          rcases List.eq_nil_or_concat pre with rfl | ⟨pre', u, rfl⟩
          · simp at hn
          · by_cases hu : u.phase = .gone
            · have := Step.finish pre' post u t r hu hp ho hq
              exact ⟨_, by simpa using this⟩
            · have := ih pre' (t :: post) u (by simpa using hrooms) (by simpa using hfirst) hu
                (.inl ⟨t, post, rfl, .inr ⟨hp, hq⟩⟩) (by simpa using hn)
              simpa using this

/-- If no task can make a step, every task is gone. -/
theorem all_gone (ts : List (Task V)) (r : List V) (hrooms : ∀ x ∈ ts, 0 < x.room ∨ x.phase ≠ .running)
    (hfirst : ∃ x xs, ts = x :: xs ∧ x.phase ≠ .running) (hstuck : ∀ b, ¬ Step ⟨ts, r⟩ b) :
    ∀ t ∈ ts, t.phase = .gone := by
  intro t ht
  -- the last task that is not gone
  suffices h : ∀ post pre, ts = pre ++ post → ∀ x ∈ post, x.phase = .gone from h ts [] rfl t ht
  intro post
  induction post with
  | nil => simp
  | cons u us ih =>
    intro pre hts x hx
    have hus := ih (pre ++ [u]) (by simpa using hts)
    rcases List.mem_cons.mp hx with rfl | hx
    · by_cases hg : x.phase = .gone
      · exact hg
      · exfalso
        obtain ⟨b, hb⟩ := can_step pre us x r (hts ▸ hrooms) (hts ▸ hfirst) hg (by
          cases us with
          | nil => exact .inr rfl
          | cons y ys => exact .inl ⟨y, ys, rfl, .inl (hus y (by simp))⟩)
        exact hstuck b (hts ▸ hb)
    · exact hus x hx

theorem future_start (input : List V) (stages : List (Program V × Nat)) :
    future (start input stages).tasks [] = sequentially input stages := by
  simp only [start, future, List.foldl_cons, sequentially]
  rw [List.foldl_map]
  congr 1

theorem Steps.rooms {k : Nat} {a b : Network V} (h : Steps k a b) : b.tasks.map (·.room) = a.tasks.map (·.room) := by
  induction h with
  | refl => rfl
  | step _ hs ih => exact hs.rooms.trans ih

theorem Steps.first {k : Nat} {a b : Network V} (h : Steps k a b)
    (ha : ∃ t ts, a.tasks = t :: ts ∧ t.phase ≠ .running) : ∃ t ts, b.tasks = t :: ts ∧ t.phase ≠ .running := by
  induction h with
  | refl => exact ha
  | step _ hs ih => exact hs.first (ih ha)

/-- C41. However the tasks of a pipeline are scheduled, the consumer has at every moment received a prefix of what the
stages output when they are run one after the other. No schedule goes on for ever: the number of steps is bounded. -/
theorem C41_schedule_prefix (input : List V) (stages : List (Program V × Nat)) :
    ∃ bound, ∀ k net, Steps k (start input stages) net →
      k ≤ bound ∧ ∃ rest, net.received ++ rest = sequentially input stages := by
  refine ⟨work (start input stages).tasks [], fun k net h => ?_⟩
  obtain ⟨h1, h2⟩ := h.progress
  refine ⟨by omega, future net.tasks [], ?_⟩
  rw [h1, future_start]
  rfl

/-- C41. With channels that have room for at least one item no schedule gets stuck before the end: when no task can make
a step, the consumer has received exactly what the stages output when they are run one after the other. -/
theorem C41_schedule_complete (input : List V) (stages : List (Program V × Nat)) (hroom : ∀ s ∈ stages, 0 < s.2)
    (k : Nat) (net : Network V) (h : Steps k (start input stages) net) (hstuck : ∀ b, ¬ Step net b) :
    net.received = sequentially input stages := by
  have hfirst : ∃ t ts, (start input stages).tasks = t :: ts ∧ t.phase ≠ .running := ⟨_, _, rfl, by simp⟩
  obtain ⟨x, xs, hx, hp⟩ := h.first hfirst
  have hr : ∀ t ∈ net.tasks, 0 < t.room ∨ t.phase ≠ .running := by
    have hrr := h.rooms
    rw [hx] at hrr ⊢
    simp only [start, List.map_cons, List.map_map, List.cons.injEq] at hrr
    intro t ht
    rcases List.mem_cons.mp ht with rfl | ht
    · exact .inr hp
    · left
      have : t.room ∈ xs.map (·.room) := List.mem_map_of_mem ht
      rw [hrr.2] at this
      obtain ⟨s, hs, he⟩ := List.mem_map.mp this
      rw [← he]
      exact hroom s hs
  have hg := all_gone net.tasks net.received hr ⟨x, xs, hx, hp⟩ hstuck
  have hnil : ∀ (ts : List (Task V)) r, ts ≠ [] → (∀ t ∈ ts, t.phase = .gone) → future ts r = [] := by
    intro ts
    induction ts with
    | nil => intro r h; exact absurd rfl h
    | cons t ts ih =>
      intro r _ hg
      have ht : t.future r = [] := by simp [Task.future, hg t (by simp)]
      simp only [future, List.foldl_cons, ht]
      cases ts with
      | nil => rfl
      | cons u us => exact ih [] (by simp) (fun x hx => hg x (by simp at hx ⊢; exact .inr hx))
  obtain ⟨h1, -⟩ := h.progress
  rw [hnil net.tasks [] (by simp [hx]) hg, future_start] at h1
  simpa [start] using h1

/-- Every run can be continued to its end, so `C41_schedule_complete` speaks about every pipeline. -/
theorem run_to_end (a : Network V) : ∃ k b, Steps k a b ∧ ∀ c, ¬ Step b c := by
  suffices h : ∀ w k b, Steps k a b → work b.tasks [] ≤ w → ∃ k b, Steps k a b ∧ ∀ c, ¬ Step b c from
    h _ 0 a (.refl a) (Nat.le_refl _)
  intro w
  induction w with
  | zero =>
    intro k b hb hw
    exact ⟨k, b, hb, fun c hc => by have := hc.progress.2; omega⟩
  | succ w ih =>
    intro k b hb hw
    by_cases hs : ∃ c, Step b c
    · obtain ⟨c, hc⟩ := hs
      exact ih (k + 1) c (.step hb hc) (by have := hc.progress.2; omega)
    · exact ⟨k, b, hb, fun c hc => hs ⟨c, hc⟩⟩

/-- The stage of the example: it adds up the values it sees and refuses values from nine on. -/
def sumStage : Program (Item Nat String Nat) :=
  pipeProgram (fun s _ a => if a < 9 then .ok (s + a, s + a) else .error "big") 0

/-- Whatever the schedule, the consumer of this pipeline of two stages receives these three items. -/
example : ∃ k net, Steps k (start [.ok (1, 3), .ok (2, 4), .ok (2, 9), .ok (1, 1)] [(sumStage, 1), (sumStage, 2)]) net ∧
    (∀ c, ¬ Step net c) ∧ net.received = [.ok (1, 3), .ok (2, 10), .error "big"] := by
  obtain ⟨k, net, h, hs⟩ := run_to_end
    (start [.ok (1, 3), .ok (2, 4), .ok (2, 9), .ok (1, 1)] [(sumStage, 1), (sumStage, 2)])
  refine ⟨k, net, h, hs, ?_⟩
  rw [C41_schedule_complete _ _ (by simp) k net h hs]
  rfl

end Verif.Sync
