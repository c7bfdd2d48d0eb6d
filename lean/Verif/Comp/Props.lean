import Verif.Comp.Lemmas
/-! # C99: what compiling a class in a child process gives -/

namespace Verif.Comp

/-- Compilers for the examples: the text of a class is its program. -/
def exTools : Tools :=
  { read := fun b => if b = [] then none else some ⟨b, []⟩
    alpha6 := fun _ => .ok [6]
    rc0 := fun _ => .panic [9]
    v111 := fun _ => .err [1]
    v2 := fun l max s => if max < s.program.length then .err [2] else if l = .audited then .ok s.program.reverse else .ok [8]
    text := fun _ => [0] }

def exStart : Start := ⟨none, none, none, none⟩

variable (t : Tools) (cs : Start) (cap : Nat) (sierra : Bytes)

/-- Every way in which the two processes and the pipes may run: a result is the whole
output of the compiler for the whole class, never a part of it, and an error means that the
class does not compile or that the child was killed. -/
theorem C99_result (as : List Act) (s : Sys) (r : Result) (h : run t cs cap (start sierra) as = some s)
    (hd : s.parent = .done r) :
    (∀ casm, r = .ok casm → CompilesTo t cs.libfuncs cs.size sierra casm) ∧
      (r = .err → .kill ∈ as ∨ ∀ casm, ¬ CompilesTo t cs.libfuncs cs.size sierra casm) := by
  have hi := inv_run t cs cap sierra as _ _ (inv_start t cs sierra) h
  obtain ⟨parent, child, stdin, op, stdout, stderr, reaped⟩ := s
  simp only at hd
  subst hd
  constructor
  · intro casm hr
    subst hr
    simp only [Inv] at hi
    rw [← compile_ok, hi.2.1]
    exact (childMain_code t cs sierra).mp hi.2.2.1
  · intro hr
    subst hr
    simp only [Inv] at hi
    rcases hi with hi | ⟨c, _, hc, h0, _⟩
    · by_cases hk : Act.kill ∈ as
      · exact Or.inl hk
      · exact absurd hi (not_killed t cs cap as (start sierra) _ (by simp [start]) hk h)
    · refine Or.inr (fun casm hcasm => ?_)
      rw [← compile_ok] at hcasm
      refine h0 (hc.trans ?_)
      simp [childMain, hcasm]

example : (run exTools exStart 2 (start [3, 2, 1]) [.put 2, .get 1, .put 1, .get 2, .close, .compile, .putOut 1, .takeOut 1, .putOut 2, .exit, .takeOut 2, .wait]).map (·.parent) =
    some (.done (.ok [1, 2, 3])) := by decide
example : (run exTools exStart 2 (start [1, 1, 0]) [.put 2, .get 2, .put 1, .get 1, .close, .compile, .putErr 1, .takeErr 1, .exit, .wait]).map (·.parent) =
    some (.done .err) := by decide
example : (run exTools exStart 2 (start [3, 2, 1]) [.put 2, .get 2, .put 1, .get 1, .close, .compile, .putOut 2, .takeOut 2, .kill, .wait]).map (·.parent) =
    some (.done .err) := by decide

/-- Two calls for the same class that nobody disturbs give the same result, however the
processes were scheduled and whatever the capacity of the pipes. -/
theorem C99_same (cap' : Nat) (as as' : List Act) (s s' : Sys) (r r' : Result) (hk : .kill ∉ as) (hk' : .kill ∉ as')
    (h : run t cs cap (start sierra) as = some s) (h' : run t cs cap' (start sierra) as' = some s')
    (hd : s.parent = .done r) (hd' : s'.parent = .done r') : r = r' := by
  obtain ⟨h1, h2⟩ := C99_result t cs cap sierra as s r h hd
  obtain ⟨h3, h4⟩ := C99_result t cs cap' sierra as' s' r' h' hd'
  cases r with
  | ok a =>
    cases r' with
    | ok b =>
      have ha := (compile_ok _ _ _ _ _).mpr (h1 a rfl)
      have hb := (compile_ok _ _ _ _ _).mpr (h3 b rfl)
      rw [ha] at hb
      simpa using hb
    | err =>
      rcases h4 rfl with hx | hx
      · exact absurd hx hk'
      · exact absurd (h1 a rfl) (hx a)
  | err =>
    cases r' with
    | ok b =>
      rcases h2 rfl with hx | hx
      · exact absurd hx hk
      · exact absurd (h3 b rfl) (hx b)
    | err => rfl

/-- The two processes never wait for each other for ever, however large the class, its
compiled form or its error is: wherever the call has come to, it can go on to its end
without the child being killed. -/
theorem C99_no_deadlock (hcap : 0 < cap) (as : List Act) (s : Sys) (h : run t cs cap (start sierra) as = some s) :
    ∃ more s', .kill ∉ more ∧ run t cs cap s more = some s' ∧ ∃ r, s'.parent = .done r :=
  can_end t cs cap sierra hcap _ s (inv_run t cs cap sierra as _ _ (inv_start t cs sierra) h) (Nat.le_refl _)

/-- ... and it does come to its end: the number of steps that anything can take is bounded by
what there is to transfer, and as long as the call has no result there is a next step. -/
theorem C99_ends (hcap : 0 < cap) (as : List Act) (s : Sys) (h : run t cs cap (start sierra) as = some s) :
    as.length ≤ 2 * sierra.length + 2 * ((childMain t cs sierra).1.length + (childMain t cs sierra).2.1.length) + 4 ∧
      ((¬ ∃ r, s.parent = .done r) → ∃ a s', a ≠ .kill ∧ step t cs cap s a = some s') := by
  constructor
  · have := todo_run t cs cap sierra as _ _ (inv_start t cs sierra) h
    simp only [start, todo, List.length_nil] at this
    omega
  · exact progress t cs cap sierra hcap s (inv_run t cs cap sierra as _ _ (inv_start t cs sierra) h)

example : run exTools exStart 1 (start [3, 2, 1]) [.put 1, .get 1, .put 1] ≠ none := by decide

/-- Which compiler: a class compiles to what the compiler for the version that it states
gives, and does not compile if it states none. -/
theorem C99_version (l : Libfuncs) (max : Nat) (c : Sierra) (input : Bytes) (hr : t.read input = some c) :
    (∀ v casm, States c.program v → (compileImpl t l max input = .ok casm ↔ compilerFor t l max v c = .ok casm)) ∧
      ((∀ v, ¬ States c.program v) → ∃ m, compileImpl t l max input = .err m) := by
  constructor
  · intro v casm hv
    rw [compile_ok]
    constructor
    · rintro ⟨c', v', hc, hv', h⟩
      rw [hr] at hc
      simp only [Option.some.injEq] at hc
      subst hc
      have : v' = v := by
        have h1 := (version_states _ _).mpr hv'
        rw [(version_states _ _).mpr hv] at h1
        simpa using h1.symm
      subst this
      exact h
    · intro h
      exact ⟨c, v, hr, hv, h⟩
  · intro h
    simp only [compileImpl, hr, compileClass]
    cases hv : version c.program with
    | none => exact ⟨_, rfl⟩
    | some v => exact absurd ((version_states _ _).mp hv) (h v)

example : States [shortString "0.1.0", 7] (0, 1, 0) := .text _
example : States [1, 7, 0, 9] (1, 7, 0) := .numbers 1 7 0 _ (by decide) (by decide) (by decide) (by decide)
example : version [1, 7] = none ∧ version [1, 2 ^ 64, 0] = none := by decide

/-- A compiler that panics gives an error, whichever it is; the panic goes no further. -/
theorem C99_panic (l : Libfuncs) (max : Nat) (input : Bytes) :
    (∀ m, compileImpl t l max input ≠ .panic m) ∧
      ∀ c v m, t.read input = some c → States c.program v → compilerFor t l max v c = .panic m → compileImpl t l max input = .err m := by
  refine ⟨fun m => compile_no_panic t l max input m, ?_⟩
  intro c v m hr hv h
  rw [compilerFor_eq] at h
  simp only [compileImpl, hr, compileClass, (version_states _ _).mpr hv, h]

example : compileImpl exTools .audited 10 [1, 0, 0] = .err [9] := by decide

/-- The child uses the list of library functions with which the node was started. -/
theorem C99_libfuncs (s : Start) : (childStart s).libfuncs = s.libfuncs ∧
    (∀ l, s.libfuncsOption = some l → (childStart s).libfuncs = l) ∧
    (∀ l, s.libfuncsOption = none → s.libfuncsEnv = some l → (childStart s).libfuncs = l) := by
  refine ⟨by simp [childStart, Start.libfuncs, setting], ?_, ?_⟩
  · intro l h
    simp [childStart, Start.libfuncs, setting, h]
  · intro l h h'
    simp [childStart, Start.libfuncs, setting, h, h']

/-- The greatest size that the child accepts is that of the node if it is not an option on
the node's command line. -/
theorem C99_size_partial (s : Start) (h : s.sizeOption = none) : (childStart s).size = s.size ∧
    (∀ n, s.sizeEnv = some n → (childStart s).size = n) := by
  refine ⟨by simp [childStart, Start.size, setting, h], ?_⟩
  intro n hn
  simp [childStart, Start.size, setting, hn]

example : (childStart ⟨some .all, none, some .audited, some 100⟩).libfuncs = .all ∧
    (childStart ⟨some .all, none, some .audited, some 100⟩).size = 100 := by decide

/-- An option for the size on the node's command line has no effect: whatever it is, classes
compile as without it. -/
theorem C99_size_violated (s : Start) (n : Nat) (input : Bytes) :
    childMain t (childStart { s with sizeOption := some n }) input = childMain t (childStart { s with sizeOption := none }) input ∧
      ({ s with sizeOption := some n } : Start).size = n ∧
      (s.sizeEnv = none → (childStart { s with sizeOption := some n }).size = 81920) := by
  refine ⟨rfl, rfl, ?_⟩
  intro h
  simp [childStart, Start.size, setting, h]

example : (childStart { exStart with sizeOption := some 180000 }).size = 81920 := by decide

/-- Neither the list nor the size counts for a class that states one of three old versions:
with any setting it compiles to the same. -/
theorem C99_old_versions_violated (l l' : Libfuncs) (max max' : Nat) (c : Sierra) (input : Bytes) (v : Nat × Nat × Nat)
    (hr : t.read input = some c) (hv : States c.program v) (ho : v ∈ [(0, 1, 0), (1, 0, 0), (1, 1, 0)]) :
    compileImpl t l max input = compileImpl t l' max' input := by
  simp only [compileImpl, hr, compileClass, (version_states _ _).mpr hv]
  simp only [List.mem_cons, List.not_mem_nil, or_false] at ho
  rcases ho with rfl | rfl | rfl <;> simp

example : compileImpl exTools .audited 1 [shortString "0.1.0", 7, 7, 7] = .ok [6] ∧ compileImpl exTools .audited 1 [1, 2, 0, 7] = .err [2] := by decide

/-- A child that has been given the whole class is waited for before the call ends. -/
theorem C99_reaped_partial (as : List Act) (s : Sys) (r : Result) (h : run t cs cap (start sierra) as = some s)
    (hd : s.parent = .done r) (hb : .broken ∉ as) : s.reaped = true ∧ s.child.isGone = true := by
  have key : ∀ (as : List Act) (a s : Sys), run t cs cap a as = some s → .broken ∉ as →
      ((∃ r, a.parent = .done r) → a.reaped = true ∧ a.child.isGone = true) →
      (∃ r, s.parent = .done r) → s.reaped = true ∧ s.child.isGone = true := by
    intro as
    induction as with
    | nil =>
      intro a s hr _ h0 hd
      simp only [run, Option.some.injEq] at hr
      subst hr
      exact h0 hd
    | cons x xs ih =>
      intro a s hr hb h0 hd
      simp only [List.mem_cons, not_or] at hb
      simp only [run] at hr
      split at hr
      · rename_i b h1
        refine ih b s hr hb.2 ?_ hd
        obtain ⟨parent, child, stdin, op, stdout, stderr, reaped⟩ := a
        cases x with
        | broken => exact absurd rfl hb.1
        | put n =>
          cases parent <;> simp only [step, reduceCtorEq] at h1
          split at h1 <;> simp only [Option.some.injEq, reduceCtorEq] at h1
          subst h1; simp
        | close =>
          simp only [step] at h1
          split at h1 <;> simp only [Option.some.injEq, reduceCtorEq] at h1
          subst h1; simp
        | takeOut n =>
          cases parent <;> simp only [step, reduceCtorEq] at h1
          split at h1 <;> simp only [Option.some.injEq, reduceCtorEq] at h1
          subst h1; simp
        | takeErr n =>
          cases parent <;> simp only [step, reduceCtorEq] at h1
          split at h1 <;> simp only [Option.some.injEq, reduceCtorEq] at h1
          subst h1; simp
        | wait =>
          cases parent <;> cases child <;> simp only [step, reduceCtorEq] at h1
          split at h1 <;> simp only [Option.some.injEq, reduceCtorEq] at h1
          subst h1; intro _; exact ⟨rfl, rfl⟩
        | get n =>
          cases child <;> simp only [step, reduceCtorEq] at h1
          split at h1 <;> simp only [Option.some.injEq, reduceCtorEq] at h1
          subst h1; intro hp; exact absurd (h0 hp).2 (by simp [Child.isGone])
        | compile =>
          cases child <;> simp only [step, reduceCtorEq] at h1
          split at h1 <;> simp only [Option.some.injEq, reduceCtorEq] at h1
          subst h1; intro hp; exact absurd (h0 hp).2 (by simp [Child.isGone])
        | putOut n =>
          cases child <;> simp only [step, reduceCtorEq] at h1
          split at h1 <;> simp only [Option.some.injEq, reduceCtorEq] at h1
          subst h1; intro hp; exact absurd (h0 hp).2 (by simp [Child.isGone])
        | putErr n =>
          cases child <;> simp only [step, reduceCtorEq] at h1
          split at h1 <;> simp only [Option.some.injEq, reduceCtorEq] at h1
          subst h1; intro hp; exact absurd (h0 hp).2 (by simp [Child.isGone])
        | exit =>
          cases child with
          | writing o e c =>
            cases o <;> cases e <;> simp only [step, Option.some.injEq, reduceCtorEq] at h1
            subst h1; intro hp; exact absurd (h0 hp).2 (by simp [Child.isGone])
          | reading got => simp [step] at h1
          | gone st => simp [step] at h1
        | kill =>
          simp only [step] at h1
          split at h1 <;> simp only [Option.some.injEq, reduceCtorEq] at h1
          rename_i hg
          subst h1; intro hp; exact absurd (h0 hp).2 hg
      · simp at hr
  exact key as _ s h hb (by rintro ⟨r, hr⟩; simp [start] at hr) ⟨r, hd⟩

/-- The result is known from then on: nothing changes it. -/
theorem C99_final (as : List Act) (s s' : Sys) (r : Result) (hd : s.parent = .done r) (h : run t cs cap s as = some s') :
    s'.parent = .done r ∧ s'.reaped = s.reaped := by
  induction as generalizing s with
  | nil => simp only [run, Option.some.injEq] at h; subst h; exact ⟨hd, rfl⟩
  | cons a as ih =>
    simp only [run] at h
    split at h
    · rename_i s1 h1
      obtain ⟨parent, child, stdin, op, stdout, stderr, reaped⟩ := s
      simp only at hd
      subst hd
      have hs : s1.parent = .done r ∧ s1.reaped = reaped := by
        cases a with
        | put n => simp [step] at h1
        | close => simp [step] at h1
        | broken => simp [step] at h1
        | takeOut n => simp [step] at h1
        | takeErr n => simp [step] at h1
        | wait => simp [step] at h1
        | get n =>
          cases child <;> simp only [step, reduceCtorEq] at h1
          split at h1 <;> simp only [Option.some.injEq, reduceCtorEq] at h1
          subst h1; exact ⟨rfl, rfl⟩
        | compile =>
          cases child <;> simp only [step, reduceCtorEq] at h1
          split at h1 <;> simp only [Option.some.injEq, reduceCtorEq] at h1
          subst h1; exact ⟨rfl, rfl⟩
        | putOut n =>
          cases child <;> simp only [step, reduceCtorEq] at h1
          split at h1 <;> simp only [Option.some.injEq, reduceCtorEq] at h1
          subst h1; exact ⟨rfl, rfl⟩
        | putErr n =>
          cases child <;> simp only [step, reduceCtorEq] at h1
          split at h1 <;> simp only [Option.some.injEq, reduceCtorEq] at h1
          subst h1; exact ⟨rfl, rfl⟩
        | exit =>
          cases child with
          | writing o e c =>
            cases o <;> cases e <;> simp only [step, Option.some.injEq, reduceCtorEq] at h1
            subst h1; exact ⟨rfl, rfl⟩
          | reading got => simp [step] at h1
          | gone st => simp [step] at h1
        | kill =>
          simp only [step] at h1
          split at h1 <;> simp only [Option.some.injEq, reduceCtorEq] at h1
          subst h1; exact ⟨rfl, rfl⟩
      obtain ⟨h2, h3⟩ := ih s1 hs.1 h
      exact ⟨h2, h3.trans hs.2⟩
    · simp at h

/-- A child that dies before it has been given the whole class is never waited for: it is
left as a zombie, for every class. -/
theorem C99_zombie_violated (x : Nat) (rest : Bytes) :
    ∃ s, run t cs cap (start (x :: rest)) [.kill, .broken] = some s ∧ s.parent = .done .err ∧ s.child.isGone = true ∧
      ∀ more s', run t cs cap s more = some s' → s'.reaped = false := by
  refine ⟨_, rfl, rfl, rfl, ?_⟩
  intro more s' h
  exact (C99_final t cs cap more _ s' .err rfl h).2

end Verif.Comp
