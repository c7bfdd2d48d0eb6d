import Verif.Natv.Lemmas

/-! # The cache of natively compiled classes (C110) -/

namespace Verif.Natv

/-- Definition 9 does not compile, definition 8 makes the compiler panic. -/
def demoCompile (d : Nat) : Outcome := if d = 9 then .error else if d = 8 then .panic else .ok (d + 100)

def demoActs : List Act := [.get 1 5, .take, .get 1 5, .done, .get 1 5]

def demoEnd : Sys :=
  ⟨2, [(1, .compiled 105)], [], .idle, [(1, 5, some 105), (1, 5, none), (1, 5, none)]⟩

theorem demo_run : run demoCompile (start 2) demoActs = some demoEnd := by decide

theorem prov {compile : Nat → Outcome} {cap : Nat} {s : Sys} (h : Reach compile cap s) :
    Prov compile s := by
  obtain ⟨acts, hr⟩ := h
  refine run_inv (P := Prov compile) (Q := fun _ => True) (fun s s' a _ => prov_step s s' a) acts _ s
    (fun _ _ => trivial) ?_ hr
  constructor <;> intros <;> simp_all [start]

/-- **C110 (right code).** Whatever native code the cache gives for a class, at any moment of any
interleaving, is the compiler's result for a definition with which this class was asked for.  If
every class is asked for with one definition, it is the result for that definition. -/
theorem C110_correct {compile : Nat → Outcome} {cap : Nat} {acts : List Act} {s : Sys}
    (h : run compile (start cap) acts = some s) {k d n : Nat} (ha : (k, d, some n) ∈ s.asked) :
    (∃ d', Asked s k d' ∧ compile d' = .ok n) ∧
    (∀ defn, Proper defn acts → compile (defn k) = .ok n) := by
  have P := prov ⟨acts, h⟩
  obtain ⟨d', h1, h2⟩ := P.asked k d n ha
  refine ⟨⟨d', h1, h2⟩, fun defn hp => ?_⟩
  have key : ∀ x y, Asked s x y → y = defn x := by
    refine run_inv (compile := compile) (P := fun s => ∀ x y, Asked s x y → y = defn x)
      (Q := fun a => ∀ x y, a = .get x y → y = defn x) ?_ acts _ s ?_ ?_ h
    · intro s s' a hq hP e x y hx
      cases a with
      | get u v =>
        simp only [step, Option.some.injEq] at e
        have : Asked s x y ∨ (x = u ∧ y = v) := by
          obtain ⟨o, ho⟩ := hx
          rcases get_cases s u v with ⟨n, _, hg⟩ | ⟨_, hg⟩ | ⟨_, hg⟩ <;> rw [hg] at e <;> subst e <;>
            · rcases List.mem_cons.1 ho with ho | ho
              · simp only [Prod.mk.injEq] at ho
                exact Or.inr ⟨ho.1, ho.2.1⟩
              · exact Or.inl ⟨o, ho⟩
        rcases this with hx | ⟨rfl, rfl⟩
        · exact hP x y hx
        · exact hq x y rfl
      | _ =>
        refine hP x y ?_
        obtain ⟨o, ho⟩ := hx
        rcases step_thread (by simp) e with ⟨_, _, _, _, _, _, rfl⟩ | ⟨_, _, _, _, _, _, rfl⟩ |
          ⟨_, _, _, _, _, rfl⟩ | ⟨_, _, _, _, _, rfl⟩ <;> exact ⟨o, ho⟩
    · intro a ha x y e
      exact hp x y (e ▸ ha)
    · rintro x y ⟨o, ho⟩
      simp [start] at ho
  rw [← key k d' h1]
  exact h2

example : run demoCompile (start 2) demoActs = some demoEnd ∧ (1, 5, some 105) ∈ demoEnd.asked ∧
    Proper (fun _ => 5) demoActs := by
  refine ⟨demo_run, by decide, ?_⟩
  intro h d hm
  simp only [demoActs, List.mem_cons, Act.get.injEq, List.not_mem_nil, or_false, reduceCtorEq,
    false_or] at hm
  rcases hm with hm | hm | hm <;> exact hm.2

/-- **C110 (the code that is run).** The code that is run for a class is the CASM code of the
definition at hand, or native code which the compiler made from a definition of this class; native
code is run only if native execution applies. CASM code that stands in for native code is not put
into the cache of all classes. -/
theorem C110_runnable {compile : Nat → Outcome} {cap : Nat} {s : Sys} (h : Reach compile cap s)
    (enabled force : Bool) (version : Nat × Nat × Nat) (k d : Nat) :
    let r := (runnable enabled force version s k d).1
    let applies := enabled = true ∧
      (force = true ∨ 1 < version.1 ∨ (version.1 = 1 ∧ 7 ≤ version.2.1))
    (∀ d', r.1 = .casm d' → d' = d ∧ (r.2 = true ↔ ¬ applies)) ∧
    (∀ n, r.1 = .native n → applies ∧ r.2 = true ∧ ∃ d', Asked s k d' ∧ compile d' = .ok n) := by
  have P := prov h
  simp only [runnable]
  by_cases hv : (force || decide (1 < version.1 ∨ (version.1 = 1 ∧ 7 ≤ version.2.1))) = true
  · have hv' : force = true ∨ 1 < version.1 ∨ (version.1 = 1 ∧ 7 ≤ version.2.1) := by
      simpa using hv
    rw [if_pos hv]
    cases enabled with
    | false => simp
    | true =>
      simp only [if_true]
      rcases get_cases s k d with ⟨n, hm, hg⟩ | ⟨_, hg⟩ | ⟨_, hg⟩ <;> rw [hg] <;> simp only
      · obtain ⟨d', h1, h2⟩ := P.cache k n hm
        refine ⟨fun d' e => absurd e (by simp), fun m e => ?_⟩
        simp only [Code.native.injEq] at e
        exact ⟨⟨trivial, hv'⟩, trivial, d', h1, e ▸ h2⟩
      · refine ⟨fun d' e => ?_, fun m e => absurd e (by simp)⟩
        simp only [Code.casm.injEq] at e
        exact ⟨e.symm, by simp [hv']⟩
      · refine ⟨fun d' e => ?_, fun m e => absurd e (by simp)⟩
        simp only [Code.casm.injEq] at e
        exact ⟨e.symm, by simp [hv']⟩
  · have hv' : ¬ (force = true ∨ 1 < version.1 ∨ (version.1 = 1 ∧ 7 ≤ version.2.1)) := by
      simpa using hv
    rw [if_neg hv]
    refine ⟨fun d' e => ?_, fun m e => absurd e (by simp)⟩
    simp only [Code.casm.injEq] at e
    exact ⟨e.symm, by simp [hv']⟩

example : Reach demoCompile 2 demoEnd ∧
    (runnable true false (1, 7, 0) demoEnd 1 5).1 = (.native 105, true) ∧
    (runnable true false (1, 6, 0) demoEnd 1 5).1 = (.casm 5, true) ∧
    (runnable true false (1, 7, 0) demoEnd 2 6).1 = (.casm 6, false) :=
  ⟨⟨demoActs, demo_run⟩, by decide, by decide, by decide⟩

/-- **C110 (bounded).** The cache never holds more classes than its size. -/
theorem C110_bounded {compile : Nat → Outcome} {cap : Nat} {s : Sys} (h : Reach compile cap s) :
    s.cache.length ≤ cap ∧ (s.cache.map Prod.fst).Nodup := by
  obtain ⟨acts, hr⟩ := h
  have hs := run_inv (P := fun s => Sized s ∧ s.cap = cap) (Q := fun _ => True)
    (fun s s' a _ hP e => ⟨sized_step s s' a hP.1 e, by
      cases a with
      | get u v =>
        simp only [step, Option.some.injEq] at e
        rcases get_cases s u v with ⟨n, _, hg⟩ | ⟨_, hg⟩ | ⟨_, hg⟩ <;> rw [hg] at e <;> subst e <;>
          exact hP.2
      | _ =>
        rcases step_thread (by simp) e with ⟨_, _, _, _, _, _, rfl⟩ | ⟨_, _, _, _, _, _, rfl⟩ |
          ⟨_, _, _, _, _, rfl⟩ | ⟨_, _, _, _, _, rfl⟩ <;> exact hP.2⟩) acts _ s
    (fun _ _ => trivial) ⟨⟨by simp [start], by simp [start]⟩, rfl⟩ hr
  exact ⟨by rw [← hs.2]; exact hs.1.2, hs.1.1⟩

example : Reach demoCompile 2 demoEnd ∧ demoEnd.cache ≠ [] := ⟨⟨demoActs, demo_run⟩, by decide⟩

/-- **C110 (compiled once), partial.** If the classes that are asked for fit into the cache, then no
class is compiled twice, however the requests and the thread interleave.

Partial: with one class more this fails, see `C110_queue_violated`. -/
theorem C110_once_partial {compile : Nat → Outcome} {cap : Nat} {acts : List Act} {s : Sys}
    (h : run compile (start cap) acts = some s) (S : List Nat) (hS : S.length ≤ cap)
    (hall : ∀ k d, Act.get k d ∈ acts → k ∈ S) : (begun compile (start cap) acts).Nodup := by
  have F := few_run acts (start cap) s [] hall
    ⟨hS, by simp [start], by simp [start], by simp [start], by simp [start],
      by rintro k d ⟨o, ho⟩; simp [start] at ho, by simp [start]⟩ h
  have := F.once
  rw [List.nil_append] at this
  exact (List.sublist_append_left _ _).nodup this

example : begun demoCompile (start 2) demoActs = [1] ∧ ∀ k d, Act.get k d ∈ demoActs → k ∈ [1] := by
  refine ⟨by decide, ?_⟩
  intro h d hm
  simp only [demoActs, List.mem_cons, Act.get.injEq, List.not_mem_nil, or_false, reduceCtorEq,
    false_or] at hm
  rcases hm with hm | hm | hm <;> simp [hm.1]

/-- **C110 (native code is used), partial.** If the classes that are asked for fit into the cache and
all their definitions compile, then once the thread has worked off its queue every class that was
asked for is answered with native code.

Partial: a class that failed once is never tried again while it is in the cache
(`C110_retry_violated`), and after a panic nothing is compiled any more (`C110_panic_violated`). -/
theorem C110_served_partial {compile : Nat → Outcome} {cap : Nat} {acts : List Act} {s : Sys}
    (h : run compile (start cap) acts = some s) (S : List Nat) (hS : S.length ≤ cap)
    (hall : ∀ k d, Act.get k d ∈ acts → k ∈ S ∧ ∃ n, compile d = .ok n)
    (hi : s.thread = .idle) (hq : s.queue = []) {k d : Nat} (ha : Asked s k d) (d' : Nat) :
    ∃ n, (get s k d').1 = some n := by
  have F := few_run acts (start cap) s [] (fun k d hm => (hall k d hm).1)
    ⟨hS, by simp [start], by simp [start], by simp [start], by simp [start],
      by rintro k d ⟨o, ho⟩; simp [start] at ho, by simp [start]⟩ h
  have W := run_inv (compile := compile) (P := fun s => Waits s ∧ Fine compile s)
    (Q := fun a => ∀ h d, a = .get h d → ∃ n, compile d = .ok n)
    (fun s s' a hq => waits_step s s' a hq) acts _ s
    (fun a hm x y e => (hall x y (e ▸ hm)).2)
    ⟨⟨by simp [start], by simp [start]⟩, by simp [start], by simp [start]⟩ h
  have hnp : (k, Item.pending) ∉ s.cache := by
    intro hp
    rcases W.1.2 k hp with h1 | ⟨x, h1⟩
    · rw [hq] at h1; simp at h1
    · rw [hi] at h1; exact absurd h1 (by simp)
  rcases get_cases s k d' with ⟨n, _, hg⟩ | ⟨hm, _⟩ | ⟨hno, _⟩
  · exact ⟨n, by rw [hg]⟩
  · exact absurd hm hnp
  · obtain ⟨i, hx⟩ := F.asked k d ha
    exact absurd rfl (hno _ hx)

example : demoEnd.thread = .idle ∧ demoEnd.queue = [] ∧ Asked demoEnd 1 5 ∧
    (∃ n, demoCompile 5 = .ok n) := ⟨rfl, rfl, ⟨none, by simp [demoEnd]⟩, 105, rfl⟩

/-- **C110 (retry), violated.** A class whose compilation failed stays pending: it is never given to
the compiler again while it is in the cache, however often it is asked for, also if the failure was
transient.  Each of these requests runs CASM code that is not put into the cache of all classes. -/
theorem C110_retry_violated (cap k d : Nat) (hcap : 0 < cap) (compile : Nat → Outcome)
    (hfail : compile d = .error) : ∃ s, Reach compile cap s ∧ Asked s k d ∧
    ∀ (compile' : Nat → Outcome) (n : Nat), ∃ s',
      run compile' s (List.replicate n (.get k d)) = some s' ∧ s'.thread = .idle ∧ s'.queue = [] ∧
      (runnable true false (1, 7, 0) s' k d).1 = (.casm d, false) := by
  let s0 : Sys := ⟨cap, [(k, .pending)], [], .idle, [(k, d, none)]⟩
  refine ⟨s0, ⟨[.get k d, .take, .done], ?_⟩, ⟨none, by simp [s0]⟩, ?_⟩
  · obtain ⟨c, rfl⟩ : ∃ c, cap = c + 1 := ⟨cap - 1, by omega⟩
    simp [run, step, start, get, cacheGet, cacheSet, hfail, s0]
  · intro compile' n
    have key : ∀ n (s : Sys), s.cache = [(k, .pending)] → s.thread = .idle → s.queue = [] →
        ∃ s', run compile' s (List.replicate n (.get k d)) = some s' ∧ s'.cache = [(k, .pending)] ∧
          s'.thread = .idle ∧ s'.queue = [] := by
      intro n
      induction n with
      | zero => intro s h1 h2 h3; exact ⟨s, rfl, h1, h2, h3⟩
      | succ n ih =>
        intro s h1 h2 h3
        have hg : get s k d = (none, { s with
            cache := [(k, .pending)], asked := (k, d, none) :: s.asked }) := by
          simp [get, cacheGet, h1]
        simp only [List.replicate_succ, run, step, hg, Option.bind_some]
        exact ih _ rfl h2 h3
    obtain ⟨s', h1, h2, h3, h4⟩ := key n s0 rfl rfl rfl
    refine ⟨s', h1, h3, h4, ?_⟩
    simp [runnable, get, cacheGet, h2]

example : demoCompile 9 = .error := by decide

/-- **C110 (a panic), violated.** If compiling one class panics outside the guarded call, the thread
ends, and from then on no class is compiled: a class that has no native code then never gets any. -/
theorem C110_panic_violated {compile : Nat → Outcome} {s : Sys} (he : s.thread = .ended) {k : Nat}
    (hk : ∀ n, (k, Item.compiled n) ∉ s.cache) (acts : List Act) (s' : Sys)
    (h : run compile s acts = some s') :
    s'.thread = .ended ∧ ∀ d, (get s' k d).1 = none := by
  have := run_inv (compile := compile) (P := fun s => s.thread = .ended ∧
      ∀ n, (k, Item.compiled n) ∉ s.cache) (Q := fun _ => True) ?_ acts s s'
    (fun _ _ => trivial) ⟨he, hk⟩ h
  · refine ⟨this.1, fun d => ?_⟩
    rcases get_cases s' k d with ⟨n, hm, _⟩ | ⟨_, hg⟩ | ⟨_, hg⟩
    · exact absurd hm (this.2 n)
    · rw [hg]
    · rw [hg]
  · rintro s s' a - ⟨p1, p2⟩ e
    cases a with
    | get u v =>
      simp only [step, Option.some.injEq] at e
      rcases get_cases s u v with ⟨n, hm, hg⟩ | ⟨hm, hg⟩ | ⟨_, hg⟩ <;> rw [hg] at e <;> subst e
      · exact ⟨p1, fun m hx => p2 m (mem_front hm hx)⟩
      · exact ⟨p1, fun m hx => p2 m (mem_front hm hx)⟩
      · refine ⟨p1, fun m hx => ?_⟩
        rcases mem_cacheSet hx with hx | ⟨hx, _⟩
        · simp at hx
        · exact p2 m hx
    | _ =>
      rcases step_thread (by simp) e with ⟨_, _, _, _, ht, _⟩ | ⟨_, _, _, _, ht, _⟩ |
        ⟨_, _, _, ht, _⟩ | ⟨_, _, _, ht, _⟩ <;> rw [p1] at ht <;> exact absurd ht (by simp)

example : ∃ s, run demoCompile (start 2) [.get 3 8, .take, .done] = some s ∧ s.thread = .ended ∧
    ∀ n, (3, Item.compiled n) ∉ s.cache :=
  ⟨⟨2, [(3, .pending)], [], .ended, [(3, 8, none)]⟩, by decide, rfl, by simp⟩

/-- **C110 (the queue), violated.** The size of the cache does not bound the work: with one class more
than fit into the cache, asked for in turn while the thread is compiling, each request adds a class
with its definitions to the queue, although all of them are waiting there already. -/
theorem C110_queue_violated (compile : Nat → Outcome) (cap n : Nat) (hcap : 0 < cap) :
    ∃ s, Reach compile cap s ∧ n ≤ s.queue.length ∧
      (∀ k d, Asked s k d → k ≤ cap) ∧ (∀ x ∈ s.queue, x.1 ≤ cap) := by
  have lt : ∀ j, j % (cap + 1) ≤ cap := fun j => Nat.le_of_lt_succ (Nat.mod_lt _ (by omega))
  obtain ⟨c, rfl⟩ : ∃ c, cap = c + 1 := ⟨cap - 1, by omega⟩
  -- the first request is taken by the thread; the cache then turns round
  let s1 : Sys := ⟨c + 1, [(0, .pending)], [], .working 0 0, [(0, 0, none)]⟩
  have h1 : run compile (start (c + 1)) [.get 0 0, .take] = some s1 := by
    simp [run, step, start, get, cacheGet, cacheSet, s1]
  -- `circle` without its first element of the queue
  have sim : ∀ m, run compile s1 ((List.range m).map fun j =>
        Act.get ((j + 1) % (c + 1 + 1)) ((j + 1) % (c + 1 + 1))) =
      some { circle (c + 1) (m + 1) with queue := (circle (c + 1) (m + 1)).queue.tail } := by
    intro m
    induction m with
    | zero => simp [run, s1, circle, List.range_succ]
    | succ m ih =>
      rw [List.range_succ, List.map_append]
      refine run_append ih ?_
      simp only [List.map_cons, List.map_nil, run, step, Option.bind_some, Option.some.injEq]
      have hs := circle_step (c + 1) (m + 1)
      have hno : ∀ x ∈ (circle (c + 1) (m + 1)).cache, x.1 ≠ (m + 1) % (c + 1 + 1) := by
        intro x hx he
        simp only [circle] at hx
        obtain ⟨j, hj, rfl⟩ := List.mem_map.1 hx
        obtain ⟨h1, h2⟩ := mem_recent hj
        simp only at he
        have h3 := Nat.sub_mod_eq_zero_of_mod_eq he.symm
        rw [Nat.mod_eq_of_lt (by omega)] at h3
        omega
      rcases get_cases (circle (c + 1) (m + 1)) ((m + 1) % (c + 1 + 1)) ((m + 1) % (c + 1 + 1)) with
        ⟨n, hm, _⟩ | ⟨hm, _⟩ | ⟨_, hg⟩
      · exact absurd rfl (hno _ hm)
      · exact absurd rfl (hno _ hm)
      rcases get_cases { circle (c + 1) (m + 1) with queue := (circle (c + 1) (m + 1)).queue.tail }
          ((m + 1) % (c + 1 + 1)) ((m + 1) % (c + 1 + 1)) with ⟨n, hm, _⟩ | ⟨hm, _⟩ | ⟨_, hg'⟩
      · exact absurd rfl (hno _ hm)
      · exact absurd rfl (hno _ hm)
      rw [hg']
      rw [hg] at hs
      rw [← hs]
      simp [circle, List.range_succ_eq_map]
  refine ⟨_, ⟨_, run_append h1 (sim n)⟩, ?_, ?_, ?_⟩
  · simp [circle]
  · rintro k d ⟨o, ho⟩
    simp only [circle] at ho
    obtain ⟨j, _, e⟩ := List.mem_map.1 ho
    simp only [Prod.mk.injEq] at e
    rw [← e.1]
    exact lt j
  · intro x hx
    have hx' := List.mem_of_mem_tail hx
    simp only [circle] at hx'
    obtain ⟨j, _, e⟩ := List.mem_map.1 hx'
    rw [← e]
    exact lt j

example : (0 : Nat) < 512 := by decide

end Verif.Natv
