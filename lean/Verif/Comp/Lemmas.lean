import Verif.Comp.Spec
/-! # Lemmas about compiling in a child process -/

namespace Verif.Comp

variable (t : Tools) (cs : Start) (cap : Nat) (sierra : Bytes)

/-! ### The version -/

theorem version_states (p : List Nat) (v : Nat × Nat × Nat) : version p = some v ↔ States p v := by
  have hs : shortString "0.1.0" = 0x302e312e30 := by decide
  constructor
  · intro h
    cases p with
    | nil => simp [version] at h
    | cons a rest =>
      simp only [version] at h
      split at h
      · rename_i ha
        simp only [Option.some.injEq] at h
        subst h
        rw [ha, ← hs]
        exact .text rest
      · rename_i ha
        match rest, h with
        | b :: c :: rest, h =>
          simp only [toU64] at h
          by_cases h1 : a < 2 ^ 64 <;> by_cases h2 : b < 2 ^ 64 <;> by_cases h3 : c < 2 ^ 64 <;>
            simp only [h1, h2, h3, if_true, if_false, reduceCtorEq, Option.some.injEq] at h
          subst h
          exact .numbers a b c rest (by rw [hs]; exact ha) h1 h2 h3
        | [], h => simp at h
        | [_], h => simp at h
  · intro h
    cases h with
    | text rest => simp [version, hs]
    | numbers a b c rest h0 h1 h2 h3 =>
      rw [hs] at h0
      simp only [version, h0, if_false, toU64, h1, h2, h3, if_true]

theorem compilerFor_eq (l : Libfuncs) (max : Nat) (v : Nat × Nat × Nat) (s : Sierra) :
    compilerFor t l max v s =
      if v = (0, 1, 0) then t.alpha6 s
      else if v = (1, 0, 0) then t.rc0 s
      else if v = (1, 1, 0) then t.v111 s
      else t.v2 l max s := by
  unfold compilerFor
  split
  · simp
  · simp
  · simp
  · rename_i h1 h2 h3
    rw [if_neg (by intro e; exact h1 e), if_neg (by intro e; exact h2 e), if_neg (by intro e; exact h3 e)]

theorem compile_ok (l : Libfuncs) (max : Nat) (input casm : Bytes) :
    compileImpl t l max input = .ok casm ↔ CompilesTo t l max input casm := by
  simp only [compileImpl, CompilesTo]
  cases hr : t.read input with
  | none => simp
  | some s =>
    simp only [compileClass]
    cases hv : version s.program with
    | none =>
      simp only [reduceCtorEq, false_iff]
      rintro ⟨c, v, hc, hst, _⟩
      simp only [Option.some.injEq] at hc
      subst hc
      rw [(version_states _ _).mpr hst] at hv
      exact absurd hv (by simp)
    | some v =>
      simp only [← compilerFor_eq]
      have hst := (version_states _ _).mp hv
      constructor
      · intro h
        refine ⟨s, v, rfl, hst, ?_⟩
        cases hc : compilerFor t l max v s <;> simp [hc] at h ⊢
        exact h
      · rintro ⟨c, w, hc, hst', hres⟩
        simp only [Option.some.injEq] at hc
        subst hc
        have : w = v := by
          have := (version_states _ _).mpr hst'
          rw [hv] at this
          simpa using this.symm
        subst this
        rw [hres]

theorem compile_no_panic (l : Libfuncs) (max : Nat) (input m : Bytes) : compileImpl t l max input ≠ .panic m := by
  simp only [compileImpl]
  split
  · simp
  · simp only [compileClass]
    split
    · simp
    · split
      · simp
      · rename_i h; exact h m

theorem childMain_code : (childMain t cs sierra).2.2 = 0 ↔
    compileImpl t cs.libfuncs cs.size sierra = .ok (childMain t cs sierra).1 := by
  simp only [childMain]
  split
  · rename_i h; simp [h]
  · rename_i h; simp [h]
  · rename_i h; simp [h]

/-! ### The invariant -/

/-- What holds while the call goes on: every byte is in one place. -/
def Inv (s : Sys) : Prop :=
  match s.parent with
  | .writing rest =>
    s.stdinOpen = true ∧ s.stdout = [] ∧ s.stderr = [] ∧ s.reaped = false ∧
      match s.child with
      | .reading got => got ++ s.stdin ++ rest = sierra
      | .writing _ _ _ => False
      | .gone st => st = .signal
  | .reading out err =>
    s.stdinOpen = false ∧ s.reaped = false ∧
      match s.child with
      | .reading got => got ++ s.stdin = sierra ∧ out = [] ∧ err = [] ∧ s.stdout = [] ∧ s.stderr = []
      | .writing o e c => c = (childMain t cs sierra).2.2 ∧ out ++ s.stdout ++ o = (childMain t cs sierra).1 ∧
          err ++ s.stderr ++ e = (childMain t cs sierra).2.1
      | .gone (.code c) => c = (childMain t cs sierra).2.2 ∧ out ++ s.stdout = (childMain t cs sierra).1
      | .gone .signal => True
  | .done (.ok casm) => s.reaped = true ∧ casm = (childMain t cs sierra).1 ∧ (childMain t cs sierra).2.2 = 0 ∧ s.child.isGone = true
  | .done .err => s.child = .gone .signal ∨
      (∃ c, s.child = .gone (.code c) ∧ c = (childMain t cs sierra).2.2 ∧ c ≠ 0 ∧ s.reaped = true)

theorem inv_start : Inv t cs sierra (start sierra) := by simp [Inv, start]

theorem inv_step (s s' : Sys) (a : Act) (h : Inv t cs sierra s) (hs : step t cs cap s a = some s') : Inv t cs sierra s' := by
  obtain ⟨parent, child, stdin, op, stdout, stderr, reaped⟩ := s
  cases a with
  | put n =>
    simp only [step] at hs
    cases parent with
    | writing rest =>
      simp only at hs
      split at hs
      · rename_i hc
        simp only [Option.some.injEq] at hs
        subst hs
        simp only [Inv] at h ⊢
        refine ⟨h.1, h.2.1, h.2.2.1, h.2.2.2.1, ?_⟩
        cases child with
        | reading got =>
          have h5 := h.2.2.2.2
          simp only at h5 ⊢
          rw [← h5]
          simp [List.append_assoc]
        | writing o e c => exact h.2.2.2.2
        | gone st => exact h.2.2.2.2
      · simp at hs
    | reading o e => simp at hs
    | done r => simp at hs
  | close =>
    simp only [step] at hs
    cases parent with
    | writing rest =>
      cases rest with
      | nil =>
        simp only [Option.some.injEq] at hs
        subst hs
        simp only [Inv] at h ⊢
        obtain ⟨_, h2, h3, h4, h5⟩ := h
        refine ⟨trivial, h4, ?_⟩
        cases child with
        | reading got =>
          simp only [List.append_nil] at h5 ⊢
          exact ⟨h5, trivial, trivial, h2, h3⟩
        | writing o e c => exact h5.elim
        | gone st =>
          simp only at h5
          subst h5
          trivial
      | cons x xs => simp at hs
    | reading o e => simp at hs
    | done r => simp at hs
  | broken =>
    simp only [step] at hs
    cases parent with
    | writing rest =>
      cases rest with
      | nil => simp at hs
      | cons x xs =>
        simp only at hs
        split at hs
        · rename_i hg
          simp only [Option.some.injEq] at hs
          subst hs
          simp only [Inv] at h ⊢
          cases child with
          | reading got => simp [Child.isGone] at hg
          | writing o e c => simp [Child.isGone] at hg
          | gone st =>
            have := h.2.2.2.2
            simp only at this
            exact Or.inl (by rw [this])
        · simp at hs
    | reading o e => simp at hs
    | done r => simp at hs
  | get n =>
    simp only [step] at hs
    cases child with
    | reading got =>
      simp only at hs
      split at hs
      · simp only [Option.some.injEq] at hs
        subst hs
        cases parent with
        | writing rest =>
          simp only [Inv] at h ⊢
          refine ⟨h.1, h.2.1, h.2.2.1, h.2.2.2.1, ?_⟩
          rw [← h.2.2.2.2, List.append_assoc got, List.take_append_drop]
        | reading o e =>
          simp only [Inv] at h ⊢
          refine ⟨h.1, h.2.1, ?_, h.2.2.2⟩
          rw [← h.2.2.1, List.append_assoc got, List.take_append_drop]
        | done r => cases r <;> simp [Inv, Child.isGone] at h
      · simp at hs
    | writing o e c => simp at hs
    | gone st => simp at hs
  | compile =>
    simp only [step] at hs
    cases child with
    | reading got =>
      simp only at hs
      split at hs
      · rename_i hc
        simp only [Option.some.injEq] at hs
        subst hs
        cases parent with
        | writing rest => simp only [Inv] at h; rw [hc.2] at h; exact absurd h.1 (by simp)
        | reading o e =>
          simp only [Inv] at h ⊢
          obtain ⟨h1, h2, h3, h4, h5, h6, h7⟩ := h
          rw [hc.1, List.append_nil] at h3
          subst h3
          refine ⟨h1, h2, rfl, ?_, ?_⟩
          · rw [h4, h6]; rfl
          · rw [h5, h7]; rfl
        | done r => cases r <;> simp [Inv, Child.isGone] at h
      · simp at hs
    | writing o e c => simp at hs
    | gone st => simp at hs
  | putOut n =>
    simp only [step] at hs
    cases child with
    | writing o e c =>
      simp only at hs
      split at hs
      · simp only [Option.some.injEq] at hs
        subst hs
        cases parent with
        | writing rest => simp [Inv] at h
        | reading out err =>
          simp only [Inv] at h ⊢
          refine ⟨h.1, h.2.1, h.2.2.1, ?_, h.2.2.2.2⟩
          rw [← h.2.2.2.1]
          simp [List.append_assoc]
        | done r => cases r <;> simp [Inv, Child.isGone] at h
      · simp at hs
    | reading got => simp at hs
    | gone st => simp at hs
  | putErr n =>
    simp only [step] at hs
    cases child with
    | writing o e c =>
      simp only at hs
      split at hs
      · simp only [Option.some.injEq] at hs
        subst hs
        cases parent with
        | writing rest => simp [Inv] at h
        | reading out err =>
          simp only [Inv] at h ⊢
          refine ⟨h.1, h.2.1, h.2.2.1, h.2.2.2.1, ?_⟩
          rw [← h.2.2.2.2]
          simp [List.append_assoc]
        | done r => cases r <;> simp [Inv, Child.isGone] at h
      · simp at hs
    | reading got => simp at hs
    | gone st => simp at hs
  | exit =>
    simp only [step] at hs
    cases child with
    | writing o e c =>
      cases o with
      | nil =>
        cases e with
        | nil =>
          simp only [Option.some.injEq] at hs
          subst hs
          cases parent with
          | writing rest => simp [Inv] at h
          | reading out err =>
            simp only [Inv, List.append_nil] at h ⊢
            exact ⟨h.1, h.2.1, h.2.2.1, h.2.2.2.1⟩
          | done r => cases r <;> simp [Inv, Child.isGone] at h
        | cons x xs => simp at hs
      | cons x xs => simp at hs
    | reading got => simp at hs
    | gone st => simp at hs
  | takeOut n =>
    simp only [step] at hs
    cases parent with
    | reading out err =>
      simp only at hs
      split at hs
      · rename_i hc
        simp only [Option.some.injEq] at hs
        subst hs
        simp only [Inv] at h ⊢
        refine ⟨h.1, h.2.1, ?_⟩
        cases child with
        | reading got =>
          obtain ⟨_, _, _, _, _, h6, _⟩ := h
          rw [h6] at hc
          simp at hc
          omega
        | writing o e c =>
          refine ⟨h.2.2.1, ?_, h.2.2.2.2⟩
          rw [← h.2.2.2.1, List.append_assoc out, List.take_append_drop]
        | gone st =>
          cases st with
          | code c =>
            refine ⟨h.2.2.1, ?_⟩
            rw [← h.2.2.2, List.append_assoc out, List.take_append_drop]
          | signal => trivial
      · simp at hs
    | writing rest => simp at hs
    | done r => simp at hs
  | takeErr n =>
    simp only [step] at hs
    cases parent with
    | reading out err =>
      simp only at hs
      split at hs
      · rename_i hc
        simp only [Option.some.injEq] at hs
        subst hs
        simp only [Inv] at h ⊢
        refine ⟨h.1, h.2.1, ?_⟩
        cases child with
        | reading got =>
          obtain ⟨_, _, _, _, _, _, h7⟩ := h
          rw [h7] at hc
          simp at hc
          omega
        | writing o e c =>
          refine ⟨h.2.2.1, h.2.2.2.1, ?_⟩
          rw [← h.2.2.2.2, List.append_assoc err, List.take_append_drop]
        | gone st =>
          cases st with
          | code c => exact h.2.2
          | signal => trivial
      · simp at hs
    | writing rest => simp at hs
    | done r => simp at hs
  | wait =>
    simp only [step] at hs
    cases parent with
    | reading out err =>
      cases child with
      | gone st =>
        simp only at hs
        split at hs
        · rename_i hc
          simp only [Option.some.injEq] at hs
          subst hs
          simp only [Inv] at h
          cases st with
          | signal => simp [Inv]
          | code c =>
            simp only at h
            obtain ⟨_, _, h3, h4⟩ := h
            rw [hc.1, List.append_nil] at h4
            by_cases h0 : c = 0
            · subst h0
              simp only [if_true, Inv]
              exact ⟨trivial, h4, h3.symm, rfl⟩
            · simp only [Status.code.injEq, h0, if_false, Inv]
              exact Or.inr ⟨c, rfl, h3, h0, trivial⟩
        · simp at hs
      | reading got => simp at hs
      | writing o e c => simp at hs
    | writing rest => cases child <;> simp at hs
    | done r => cases child <;> simp at hs
  | kill =>
    simp only [step] at hs
    split at hs
    · simp at hs
    · rename_i hg
      simp only [Option.some.injEq] at hs
      subst hs
      cases parent with
      | writing rest =>
        simp only [Inv] at h ⊢
        exact ⟨h.1, h.2.1, h.2.2.1, h.2.2.2.1, trivial⟩
      | reading out err =>
        simp only [Inv] at h ⊢
        exact ⟨h.1, h.2.1, trivial⟩
      | done r =>
        cases r with
        | ok casm => simp only [Inv] at h; exact absurd h.2.2.2 hg
        | err => exact Or.inl rfl

theorem inv_run (as : List Act) (s s' : Sys) (h : Inv t cs sierra s) (hr : run t cs cap s as = some s') : Inv t cs sierra s' := by
  induction as generalizing s with
  | nil => simp only [run, Option.some.injEq] at hr; subst hr; exact h
  | cons a as ih =>
    simp only [run] at hr
    split at hr
    · rename_i s1 h1
      exact ih s1 (inv_step t cs cap sierra s s1 a h h1) hr
    · simp at hr

/-! ### Progress -/

/-- The call has come to an end. -/
def Ended (s : Sys) : Prop := ∃ r, s.parent = .done r

theorem progress (hcap : 0 < cap) (s : Sys) (h : Inv t cs sierra s) (hd : ¬ Ended s) :
    ∃ a s', a ≠ .kill ∧ step t cs cap s a = some s' := by
  obtain ⟨parent, child, stdin, op, stdout, stderr, reaped⟩ := s
  cases parent with
  | done r => exact absurd ⟨r, rfl⟩ hd
  | writing rest =>
    cases rest with
    | nil => exact ⟨.close, _, by simp, rfl⟩
    | cons x xs =>
      cases child with
      | gone st => exact ⟨.broken, _, by simp, rfl⟩
      | writing o e c => simp [Inv] at h
      | reading got =>
        by_cases hl : stdin.length + 1 ≤ cap
        · have hc : 0 < 1 ∧ 1 ≤ (x :: xs).length ∧ stdin.length + 1 ≤ cap ∧ (Child.reading got).isGone = false :=
            ⟨by omega, by simp, hl, rfl⟩
          exact ⟨.put 1, _, by simp, if_pos hc⟩
        · have hc : 0 < 1 ∧ 1 ≤ stdin.length := ⟨by omega, by omega⟩
          exact ⟨.get 1, _, by simp, if_pos hc⟩
  | reading out err =>
    by_cases h1 : stdout = []
    · by_cases h2 : stderr = []
      · cases child with
        | gone st =>
          have hc : stdout = [] ∧ stderr = [] := ⟨h1, h2⟩
          exact ⟨.wait, _, by simp, if_pos hc⟩
        | reading got =>
          by_cases h3 : stdin = []
          · have hc : stdin = [] ∧ op = false := ⟨h3, by simp only [Inv] at h; exact h.1⟩
            exact ⟨.compile, _, by simp, if_pos hc⟩
          · have hc : 0 < 1 ∧ 1 ≤ stdin.length := ⟨by omega, List.length_pos_iff.mpr h3⟩
            exact ⟨.get 1, _, by simp, if_pos hc⟩
        | writing o e c =>
          cases o with
          | cons x xs =>
            have hc : 0 < 1 ∧ 1 ≤ (x :: xs).length ∧ stdout.length + 1 ≤ cap := ⟨by omega, by simp, by rw [h1]; simp; omega⟩
            exact ⟨.putOut 1, _, by simp, if_pos hc⟩
          | nil =>
            cases e with
            | cons x xs =>
              have hc : 0 < 1 ∧ 1 ≤ (x :: xs).length ∧ stderr.length + 1 ≤ cap := ⟨by omega, by simp, by rw [h2]; simp; omega⟩
              exact ⟨.putErr 1, _, by simp, if_pos hc⟩
            | nil => exact ⟨.exit, _, by simp, rfl⟩
      · have hc : 0 < 1 ∧ 1 ≤ stderr.length := ⟨by omega, List.length_pos_iff.mpr h2⟩
        exact ⟨.takeErr 1, _, by simp, if_pos hc⟩
    · have hc : 0 < 1 ∧ 1 ≤ stdout.length := ⟨by omega, List.length_pos_iff.mpr h1⟩
      exact ⟨.takeOut 1, _, by simp, if_pos hc⟩

/-- What is still to be done. -/
def todo (s : Sys) : Nat :=
  (match s.parent with | .writing rest => 2 * rest.length + 2 | .reading _ _ => 1 | .done _ => 0) +
  (match s.child with
    | .reading _ => 2 * ((childMain t cs sierra).1.length + (childMain t cs sierra).2.1.length) + 2
    | .writing o e _ => 2 * o.length + 2 * e.length + 1
    | .gone _ => 0) +
  (s.stdin.length + s.stdout.length + s.stderr.length)

theorem todo_step (s s' : Sys) (a : Act) (h : Inv t cs sierra s) (hs : step t cs cap s a = some s') :
    todo t cs sierra s' < todo t cs sierra s := by
  obtain ⟨parent, child, stdin, op, stdout, stderr, reaped⟩ := s
  cases a with
  | put n =>
    cases parent <;> simp only [step, reduceCtorEq] at hs
    split at hs <;> simp only [Option.some.injEq, reduceCtorEq] at hs
    subst hs
    simp only [todo, List.length_append, List.length_take, List.length_drop]
    omega
  | close =>
    cases parent with
    | writing rest =>
      cases rest with
      | nil =>
        simp only [step, Option.some.injEq] at hs
        subst hs
        simp only [todo, List.length_nil]
        omega
      | cons x xs => simp [step] at hs
    | reading o e => simp [step] at hs
    | done r => simp [step] at hs
  | broken =>
    cases parent with
    | writing rest =>
      cases rest with
      | nil => simp [step] at hs
      | cons x xs =>
        simp only [step] at hs
        split at hs <;> simp only [Option.some.injEq, reduceCtorEq] at hs
        subst hs
        simp only [todo]
        omega
    | reading o e => simp [step] at hs
    | done r => simp [step] at hs
  | get n =>
    cases child <;> simp only [step, reduceCtorEq] at hs
    split at hs <;> simp only [Option.some.injEq, reduceCtorEq] at hs
    subst hs
    simp only [todo, List.length_drop]
    omega
  | compile =>
    cases child with
    | reading got =>
      simp only [step] at hs
      split at hs <;> simp only [Option.some.injEq, reduceCtorEq] at hs
      rename_i hc
      subst hs
      have hg : got = sierra := by
        cases parent with
        | writing rest => simp only [Inv] at h; rw [hc.2] at h; exact absurd h.1 (by simp)
        | reading o e => simp only [Inv] at h; simpa [hc.1] using h.2.2.1
        | done r => cases r <;> simp [Inv, Child.isGone] at h
      subst hg
      simp only [todo]
      omega
    | writing o e c => simp [step] at hs
    | gone st => simp [step] at hs
  | putOut n =>
    cases child <;> simp only [step, reduceCtorEq] at hs
    split at hs <;> simp only [Option.some.injEq, reduceCtorEq] at hs
    subst hs
    simp only [todo, List.length_append, List.length_take, List.length_drop]
    omega
  | putErr n =>
    cases child <;> simp only [step, reduceCtorEq] at hs
    split at hs <;> simp only [Option.some.injEq, reduceCtorEq] at hs
    subst hs
    simp only [todo, List.length_append, List.length_take, List.length_drop]
    omega
  | exit =>
    cases child with
    | writing o e c =>
      cases o <;> cases e <;> simp only [step, Option.some.injEq, reduceCtorEq] at hs
      subst hs
      simp only [todo, List.length_nil]
      omega
    | reading got => simp [step] at hs
    | gone st => simp [step] at hs
  | takeOut n =>
    cases parent <;> simp only [step, reduceCtorEq] at hs
    split at hs <;> simp only [Option.some.injEq, reduceCtorEq] at hs
    subst hs
    simp only [todo, List.length_drop]
    omega
  | takeErr n =>
    cases parent <;> simp only [step, reduceCtorEq] at hs
    split at hs <;> simp only [Option.some.injEq, reduceCtorEq] at hs
    subst hs
    simp only [todo, List.length_drop]
    omega
  | wait =>
    cases parent <;> cases child <;> simp only [step, reduceCtorEq] at hs
    split at hs <;> simp only [Option.some.injEq, reduceCtorEq] at hs
    subst hs
    simp only [todo]
    omega
  | kill =>
    simp only [step] at hs
    split at hs <;> simp only [Option.some.injEq, reduceCtorEq] at hs
    rename_i hg
    subst hs
    cases child with
    | reading got => simp only [todo]; omega
    | writing o e c => simp only [todo]; omega
    | gone st => exact absurd rfl hg

theorem todo_run (as : List Act) (s s' : Sys) (h : Inv t cs sierra s) (hr : run t cs cap s as = some s') :
    as.length + todo t cs sierra s' ≤ todo t cs sierra s := by
  induction as generalizing s with
  | nil => simp only [run, Option.some.injEq] at hr; subst hr; simp
  | cons a as ih =>
    simp only [run] at hr
    split at hr
    · rename_i s1 h1
      have h2 := todo_step t cs cap sierra s s1 a h h1
      have h3 := ih s1 (inv_step t cs cap sierra s s1 a h h1) hr
      simp only [List.length_cons]
      omega
    · simp at hr

/-- From every state the call can come to an end without anyone killing the child. -/
theorem can_end (hcap : 0 < cap) (n : Nat) (s : Sys) (h : Inv t cs sierra s) (hn : todo t cs sierra s ≤ n) :
    ∃ as s', .kill ∉ as ∧ run t cs cap s as = some s' ∧ Ended s' := by
  induction n generalizing s with
  | zero =>
    by_cases hd : Ended s
    · exact ⟨[], s, by simp, rfl, hd⟩
    · obtain ⟨a, s1, ha, hs⟩ := progress t cs cap sierra hcap s h hd
      have := todo_step t cs cap sierra s s1 a h hs
      omega
  | succ n ih =>
    by_cases hd : Ended s
    · exact ⟨[], s, by simp, rfl, hd⟩
    · obtain ⟨a, s1, ha, hs⟩ := progress t cs cap sierra hcap s h hd
      have h2 := todo_step t cs cap sierra s s1 a h hs
      obtain ⟨as, s', hk, hr, he⟩ := ih s1 (inv_step t cs cap sierra s s1 a h hs) (by omega)
      refine ⟨a :: as, s', ?_, ?_, he⟩
      · simp only [List.mem_cons, not_or]
        exact ⟨fun e => ha e.symm, hk⟩
      · simp only [run, hs]
        exact hr

/-- A child that nobody kills does not end by a signal. -/
theorem not_killed (as : List Act) (s s' : Sys) (h : s.child ≠ .gone .signal) (hk : .kill ∉ as)
    (hr : run t cs cap s as = some s') : s'.child ≠ .gone .signal := by
  induction as generalizing s with
  | nil => simp only [run, Option.some.injEq] at hr; subst hr; exact h
  | cons a as ih =>
    simp only [List.mem_cons, not_or] at hk
    simp only [run] at hr
    split at hr
    · rename_i s1 h1
      refine ih s1 ?_ hk.2 hr
      obtain ⟨parent, child, stdin, op, stdout, stderr, reaped⟩ := s
      cases a with
      | kill => exact absurd rfl hk.1
      | exit =>
        cases child with
        | writing o e c =>
          cases o <;> cases e <;> simp only [step, Option.some.injEq, reduceCtorEq] at h1
          subst h1
          simp
        | reading got => simp [step] at h1
        | gone st => simp [step] at h1
      | close =>
        simp only [step] at h1
        split at h1 <;> simp only [Option.some.injEq, reduceCtorEq] at h1
        subst h1; exact h
      | broken =>
        simp only [step] at h1
        split at h1
        · split at h1 <;> simp only [Option.some.injEq, reduceCtorEq] at h1
          subst h1; exact h
        · simp at h1
      | put n =>
        cases parent <;> simp only [step, reduceCtorEq] at h1
        split at h1 <;> simp only [Option.some.injEq, reduceCtorEq] at h1
        subst h1; exact h
      | takeOut n =>
        cases parent <;> simp only [step, reduceCtorEq] at h1
        split at h1 <;> simp only [Option.some.injEq, reduceCtorEq] at h1
        subst h1; exact h
      | takeErr n =>
        cases parent <;> simp only [step, reduceCtorEq] at h1
        split at h1 <;> simp only [Option.some.injEq, reduceCtorEq] at h1
        subst h1; exact h
      | wait =>
        cases parent <;> cases child <;> simp only [step, reduceCtorEq] at h1
        split at h1 <;> simp only [Option.some.injEq, reduceCtorEq] at h1
        subst h1; exact h
      | get n =>
        cases child <;> simp only [step, reduceCtorEq] at h1
        split at h1 <;> simp only [Option.some.injEq, reduceCtorEq] at h1
        subst h1; simp
      | compile =>
        cases child <;> simp only [step, reduceCtorEq] at h1
        split at h1 <;> simp only [Option.some.injEq, reduceCtorEq] at h1
        subst h1; simp
      | putOut n =>
        cases child <;> simp only [step, reduceCtorEq] at h1
        split at h1 <;> simp only [Option.some.injEq, reduceCtorEq] at h1
        subst h1; simp
      | putErr n =>
        cases child <;> simp only [step, reduceCtorEq] at h1
        split at h1 <;> simp only [Option.some.injEq, reduceCtorEq] at h1
        subst h1; simp
    · simp at hr

end Verif.Comp
