import Verif.Open.Steps

/-
C94: a database opens as it was created, and keeps the blocks that it was asked
to keep.

Statements: see `Verif/Open/Spec.lean`.
-/

namespace Verif.Open

open Verif.Open.Spec

variable {D : Type}

/-- The schema of the examples: two migrations of a number. -/
def exSchema : Schema Nat :=
  { empty := 0, base := fun n => some (n + 1), ms := [fun n => some (n * 10), fun n => some (n + 7)] }

/-! ### Bringing the schema up to date -/

/-- However many attempts to open the database were cut short, and wherever, once
one succeeds the database has the latest revision and every change that it
lacked at first has been applied to it, in order, once. -/
theorem C94_upgraded_once (S : Schema D) (file : Option (Disk D)) (acts : List (Act D))
    (s : Sys D) (m : Mode) (hacts : ∀ a ∈ acts, Attempt a)
    (h : run S ⟨file, none⟩ acts = some s) (hup : s.up = some m) :
    Supported S (found S file).rev ∧ ∃ d, s.file = some d ∧ d.rev = 40 + S.ms.length ∧
      upgraded S (found S file).rev (found S file).data = some d.data := by
  have key : ∀ (acts : List (Act D)) (s₀ : Sys D), (∀ a ∈ acts, Attempt a) →
      (s₀.up = none) → run S s₀ acts = some s → 
      Supported S (found S s₀.file).rev ∧ ∃ d, s.file = some d ∧ d.rev = 40 + S.ms.length ∧
      upgraded S (found S s₀.file).rev (found S s₀.file).data = some d.data := by
    intro acts
    induction acts with
    | nil =>
      intro s₀ _ hu hr
      simp only [run, Option.some.injEq] at hr
      subst hr
      rw [hu] at hup
      cases hup
    | cons a as ih =>
      intro s₀ hall hu hr
      simp only [run] at hr
      rcases e : step S s₀ a with _ | s₁
      · simp [e] at hr
      · simp only [e] at hr
        have hA := hall a List.mem_cons_self
        have hrest : ∀ b ∈ as, Attempt b := fun b hb => hall b (List.mem_cons_of_mem _ hb)
        rcases hu₁ : s₁.up with _ | m₁
        · obtain ⟨i1, i2⟩ := ih s₁ hrest hu₁ hr
          rcases hf : s₀.file with _ | d₀
          · obtain ⟨-, ⟨h1, -⟩ | ⟨cfg, d', h1, w, -⟩⟩ := attempt_new e hA hf
            · rw [h1] at i1 i2
              exact ⟨i1, i2⟩
            · rw [h1] at i2
              refine ⟨Or.inl rfl, ?_⟩
              obtain ⟨d, a1, a2, a3⟩ := i2
              exact ⟨d, a1, a2, w.same.symm.trans a3⟩
          · obtain ⟨-, cfg, d', -, h1, w, -⟩ := attempt_existing e hA hf
            rw [h1] at i2 i1
            obtain ⟨d, a1, a2, a3⟩ := i2
            refine ⟨?_, d, a1, a2, w.same.symm.trans a3⟩
            exact w.supported.mp i1
        · have hnil : as = [] := by
            cases as with
            | nil => rfl
            | cons b bs =>
              simp only [run] at hr
              have hB := hrest b List.mem_cons_self
              rcases e2 : step S s₁ b with _ | s₂
              · simp [e2] at hr
              · cases b <;> simp [step, hu₁] at e2 <;> exact absurd hB id
          subst hnil
          simp only [run, Option.some.injEq] at hr
          subst hr
          rcases hf : s₀.file with _ | d₀
          · obtain ⟨-, ⟨-, h2⟩ | ⟨cfg, d', h1, w, h3⟩⟩ := attempt_new e hA hf
            · rw [hu₁] at h2
              cases h2
            · obtain ⟨tm, -, ho, ha'⟩ := h3 m₁ hu₁
              obtain ⟨x, hx, o⟩ := opened S cfg none m₁ tm ho
              rw [ha'] at hx
              cases hx
              exact ⟨o.supported, d', h1, o.rev, o.content⟩
          · obtain ⟨-, cfg, d', -, h1, w, h3⟩ := attempt_existing e hA hf
            obtain ⟨tm, -, ho, rfl⟩ := h3 m₁ hu₁
            obtain ⟨o, -, -⟩ := opened_existing S cfg d₀ m₁ tm ho
            exact ⟨o.supported, _, h1, o.rev, o.content⟩
  exact key acts ⟨file, none⟩ hacts rfl h

example : ∃ s m, run exSchema ⟨some ⟨40, 5, none, false, [], none⟩, none⟩
      [.crash ⟨none, none⟩ 1, .crash ⟨none, none⟩ 0, .start ⟨none, none⟩] = some s ∧
      s.up = some m := ⟨_, _, rfl, rfl⟩

example : upgraded exSchema 40 5 = some 57 ∧ upgraded exSchema 0 0 = some 17 ∧
    upgraded exSchema 41 50 = some 57 := by decide

/-- A database of a revision that is too old or too new is refused, and nothing is
written to it. -/
theorem C94_unsupported (S : Schema D) (cfg : Cfg) (d : Disk D) (h : ¬ Supported S d.rev) :
    openDb S cfg (some d) = ([], .err) := by
  rw [openDb_some, migrateDb_refused S d h]
  rfl

example : ¬ Supported exSchema 39 ∧ ¬ Supported exSchema 43 := by
  unfold Supported
  decide

/-! ### Which starts succeed, and with which modes -/

/-- An existing database opens exactly when its schema can be brought up to date
and what is asked for is of the kind that it has; then it opens in the modes
asked for, the history that is not asked for being the remembered one. -/
theorem C94_existing_iff (S : Schema D) (cfg : Cfg) (d : Disk D) (h m : Mode) :
    (openDb S cfg (some d)).2 = .ok h m ↔
      Supported S d.rev ∧ upgraded S d.rev d.data ≠ none ∧
      h = cfg.history.getD (remembered d) ∧ prunes h = d.history.isSome ∧
      (∀ k, h = .prune k → k < 2 ^ 63) ∧
      m = cfg.tries.getD (if d.tries then .prune 20 else .archive) ∧ prunes m = d.tries := by
  by_cases hs : Supported S d.rev
  · obtain ⟨-, i2, -⟩ := migrateDb_spec S d hs
    have k₁ : Keeps d (last d (migrateDb S d).1) :=
      last_of_all (Keeps.refl d) (migrateDb_keeps S d)
    have hrem : remembered (last d (migrateDb S d).1) = remembered d := by
      unfold remembered
      rw [k₁.history]
    rw [openDb_some]
    simp only
    rcases hm : (migrateDb S d).2 with _ | _
    · rw [hm] at i2
      have : upgraded S d.rev d.data = none := by
        rcases e : upgraded S d.rev d.data with _ | x
        · rfl
        · rw [e] at i2
          cases i2
      simp [this]
    · have hne : upgraded S d.rev d.data ≠ none := by
        intro e
        rw [hm, e] at i2
        cases i2
      simp only [Bool.not_true, Bool.false_eq_true, if_false]
      have hi := determineHistory_iff cfg.history false (last d (migrateDb S d).1)
      rw [hrem, k₁.history] at hi
      have st := determineHistory_states cfg (last d (migrateDb S d).1)
      rcases hh : (determineHistory cfg.history false (last d (migrateDb S d).1)).2 with _ | hm'
      · simp only [reduceCtorEq, false_iff]
        rintro ⟨-, -, a, b, c, -⟩
        have := (hi h (by simp)).mpr ⟨a, fun _ => b, c⟩
        rw [hh] at this
        cases this
      · have ht' : (last (last d (migrateDb S d).1)
          (determineHistory cfg.history false (last d (migrateDb S d).1)).1).tries = d.tries :=
          last_of_all (P := fun x => x.tries = d.tries) k₁.tries
            (fun x hx => (st x hx).tries.trans k₁.tries)
        generalize last (last d (migrateDb S d).1)
          (determineHistory cfg.history false (last d (migrateDb S d).1)).1 = d₂ at ht' ⊢
        have ti := determineTries_iff cfg.tries false d₂
        rw [ht'] at ti
        simp only [Bool.false_or] at ti
        obtain ⟨a, b, c⟩ := (hi hm' (by simp)).mp hh
        simp only
        rcases ht : (determineTries cfg.tries false d₂).2 with _ | tm
        · simp only [reduceCtorEq, false_iff]
          rintro ⟨-, -, -, -, -, e, f⟩
          have := (ti m (by simp)).mpr ⟨e, fun _ => f⟩
          rw [ht] at this
          cases this
        · obtain ⟨e, f⟩ := (ti tm (by simp)).mp ht
          simp only [Out.ok.injEq]
          constructor
          · rintro ⟨rfl, rfl⟩
            exact ⟨hs, hne, a, b rfl, c, e, f trivial⟩
          · rintro ⟨-, -, a', -, -, e', -⟩
            exact ⟨a.trans a'.symm, e.trans e'.symm⟩
  · rw [C94_unsupported S cfg d hs]
    simp [hs]

example : (openDb exSchema ⟨some (.prune 3), none⟩ (some ⟨42, 5, some 8, true, [1, 2], none⟩)).2 =
    .ok (.prune 3) (.prune 20) := by decide

/-- Where there is no database, one is made in the modes asked for: by default
with the whole history and only the latest tries. -/
theorem C94_new_iff (S : Schema D) (cfg : Cfg) (h m : Mode) :
    (openDb S cfg none).2 = .ok h m ↔
      upgraded S 0 S.empty ≠ none ∧ h = cfg.history.getD .archive ∧
      (∀ k, h = .prune k → k < 2 ^ 63) ∧ m = cfg.tries.getD (.prune 20) := by
  obtain ⟨-, i2, -⟩ := migrateDb_spec S (created S) (Or.inl rfl)
  obtain ⟨w₁, h₁, t₁⟩ := last_migrate_created S
  have hrem : remembered (last (created S) (migrateDb S (created S)).1) = .archive := by
    unfold remembered
    rw [h₁]
  have i2' : (migrateDb S (created S)).2 = (upgraded S 0 S.empty).isSome := i2
  rw [openDb_none]
  simp only
  rcases hm : (migrateDb S (created S)).2 with _ | _
  · rw [hm] at i2'
    have : upgraded S 0 S.empty = none := by
      rcases e : upgraded S 0 S.empty with _ | x
      · rfl
      · rw [e] at i2'
        cases i2'
    simp [this]
  · have hne : upgraded S 0 S.empty ≠ none := by
      intro e
      rw [hm, e] at i2'
      cases i2'
    simp only [Bool.not_true, Bool.false_eq_true, if_false]
    have hi := determineHistory_iff cfg.history true (last (created S) (migrateDb S (created S)).1)
    rw [hrem] at hi
    have st := history_created S cfg.history _ w₁ h₁
    rcases hh : (determineHistory cfg.history true
        (last (created S) (migrateDb S (created S)).1)).2 with _ | hm'
    · simp only [reduceCtorEq, false_iff]
      rintro ⟨-, a, c, -⟩
      have := (hi h (fun _ => h₁)).mpr ⟨a, by simp, c⟩
      rw [hh] at this
      cases this
    · have ht' : (last (last (created S) (migrateDb S (created S)).1) (determineHistory cfg.history
          true (last (created S) (migrateDb S (created S)).1)).1).tries = false :=
        last_of_all (P := fun x => x.tries = false) t₁ (fun x hx => (st x hx).2.1.trans t₁)
      generalize last (last (created S) (migrateDb S (created S)).1) (determineHistory cfg.history
          true (last (created S) (migrateDb S (created S)).1)).1 = d₂ at ht' ⊢
      have ti := determineTries_iff cfg.tries true d₂
      simp only [Bool.true_or, if_true] at ti
      obtain ⟨a, -, c⟩ := (hi hm' (fun _ => h₁)).mp hh
      simp only
      rcases ht : (determineTries cfg.tries true d₂).2 with _ | tm
      · simp only [reduceCtorEq, false_iff]
        rintro ⟨-, -, -, e⟩
        have := (ti m (fun _ => ht')).mpr ⟨e, by simp⟩
        rw [ht] at this
        cases this
      · obtain ⟨e, -⟩ := (ti tm (fun _ => ht')).mp ht
        simp only [Out.ok.injEq]
        constructor
        · rintro ⟨rfl, rfl⟩
          exact ⟨hne, a, c, e⟩
        · rintro ⟨-, a', -, e'⟩
          exact ⟨a.trans a'.symm, e.trans e'.symm⟩

example : (openDb exSchema ⟨none, none⟩ none).2 = .ok .archive (.prune 20) ∧
    (openDb exSchema ⟨some (.prune 9), some .archive⟩ none).2 = .ok (.prune 9) .archive := by
  decide

/-- The modes in which a database was opened are those that it remembers, and
those that a tool sees that opens it only for reading: the history mode as it
is, of the tries whether they are pruned. -/
theorem C94_remembers (S : Schema D) (cfg : Cfg) (file : Option (Disk D)) (h m : Mode)
    (ho : (openDb S cfg file).2 = .ok h m) :
    ∃ d, after S cfg file = some d ∧ remembered d = h ∧ d.tries = prunes m ∧
      (readonly d).1 = h ∧ prunes (readonly d).2 = prunes m := by
  obtain ⟨d, hd, o⟩ := opened S cfg file h m ho
  refine ⟨d, hd, o.history, o.tries.symm, ?_, ?_⟩
  · rw [← o.history]
    unfold readonly remembered
    cases d.history <;> rfl
  · rw [o.tries]
    unfold readonly
    cases d.tries <;> rfl

example : ∃ d, after exSchema ⟨some (.prune 9), none⟩ none = some d ∧
    readonly d = (.prune 9, .prune 20) := ⟨_, rfl, by decide⟩

/-- Whether a database prunes its history and its tries never changes once there
is a file, by any starts, crashes and work of the node. -/
theorem C94_mode_fixed (S : Schema D) (s s' : Sys D) (acts : List (Act D)) (d : Disk D)
    (hd : s.file = some d) (h : run S s acts = some s') :
    ∃ d', s'.file = some d' ∧ prunes (remembered d') = prunes (remembered d) ∧
      d'.tries = d.tries := by
  have kind : ∀ x : Disk D, prunes (remembered x) = x.history.isSome := by
    intro x
    unfold remembered
    cases x.history <;> rfl
  simp only [kind]
  refine run_induct S (fun s => ∃ d', s.file = some d' ∧ d'.history.isSome = d.history.isSome ∧
    d'.tries = d.tries) ?_ s acts s' ⟨d, hd, rfl, rfl⟩ h
  rintro s a s' ⟨x, hx, e1, e2⟩ hs
  by_cases ha : Attempt a
  · obtain ⟨-, cfg, d', -, h1, w, -⟩ := attempt_existing hs ha hx
    obtain ⟨k1, k2⟩ := w.kind
    exact ⟨d', h1, k1.trans e1, k2.trans e2⟩
  · by_cases hst : a = .stop
    · subst hst
      simp only [step, Option.some.injEq] at hs
      subst hs
      exact ⟨x, hx, e1, e2⟩
    · obtain ⟨m, y, d', -, hf, -, hf', -, a1, a2⟩ := work_step hs ha hst
      rw [hx] at hf
      cases hf
      exact ⟨d', hf', by rw [a1]; exact e1, a2.trans e2⟩

example : ∃ s', run exSchema ⟨some ⟨42, 5, some 8, false, [], none⟩, none⟩
    [.start ⟨some (.prune 2), none⟩, .block, .block, .l1 0, .stop, .crash ⟨none, none⟩ 1] =
      some s' := ⟨_, rfl⟩

/-- A start that asks for another kind of history than the database has is refused
and leaves blocks and modes as they are. -/
theorem C94_history_conflict (S : Schema D) (cfg : Cfg) (d : Disk D) (x : Mode)
    (hx : cfg.history = some x) (hc : prunes x ≠ prunes (remembered d)) :
    (openDb S cfg (some d)).2 = .err ∧
      ∀ y ∈ (openDb S cfg (some d)).1, y.history = d.history ∧ y.tries = d.tries ∧
        y.blocks = d.blocks := by
  have kind : prunes (remembered d) = d.history.isSome := by
    unfold remembered
    cases d.history <;> rfl
  rw [kind] at hc
  constructor
  · rcases e : (openDb S cfg (some d)).2 with _ | ⟨h, m⟩
    · rfl
    · obtain ⟨-, -, a, b, -⟩ := (C94_existing_iff S cfg d h m).mp e
      rw [hx] at a
      rw [a] at b
      exact absurd b hc
  · intro y hy
    have w := openDb_way S cfg d y hy
    refine ⟨?_, w.tries, ?_⟩
    · rcases w.history with h | ⟨k, h1, h2, -⟩
      · exact h
      · rw [hx] at h1
        cases h1
        exact absurd h2.symm hc
    · rcases w.blocks with h | ⟨k, i, lo, h1, h2, -⟩
      · exact h
      · rw [hx] at h1
        cases h1
        rw [h2] at hc
        exact absurd rfl hc

example : prunes (.prune 5) ≠ prunes (remembered (⟨42, 5, none, false, [], none⟩ : Disk Nat)) := by
  decide

/-- A start that asks for another kind of tries is refused too.  Missing: that it
leaves the database as it was; see `C94_tries_conflict_violated`. -/
theorem C94_tries_conflict_partial (S : Schema D) (cfg : Cfg) (d : Disk D) (x : Mode)
    (hx : cfg.tries = some x) (hc : prunes x ≠ d.tries) :
    (openDb S cfg (some d)).2 = .err ∧
      ∀ y ∈ (openDb S cfg (some d)).1, y.tries = d.tries := by
  constructor
  · rcases e : (openDb S cfg (some d)).2 with _ | ⟨h, m⟩
    · rfl
    · obtain ⟨-, -, -, -, -, a, b⟩ := (C94_existing_iff S cfg d h m).mp e
      rw [hx] at a
      rw [a] at b
      exact absurd b hc
  · intro y hy
    exact (openDb_way S cfg d y hy).tries

example : prunes .archive ≠ (⟨42, 5, none, true, [], none⟩ : Disk Nat).tries := by decide

/-- The history is cut before the tries are looked at, so a start can be refused
after it has removed blocks for good. -/
theorem C94_tries_conflict_violated :
    ∃ (S : Schema Nat) (s : Sys Nat) (d : Disk Nat) (cfg : Cfg), Reachable S s ∧ s.up = none ∧
      s.file = some d ∧ d.blocks = [0, 1, 2, 3, 4] ∧ (openDb S cfg s.file).2 = .err ∧
      ∃ d', after S cfg s.file = some d' ∧ d'.blocks = [2, 3, 4] ∧ d'.history = some 2 := by
  refine ⟨exSchema, _, _, ⟨some (.prune 2), some (.prune 20)⟩,
    ⟨[.start ⟨some (.prune 4), some .archive⟩, .block, .block, .block, .block, .block, .stop],
      rfl⟩, rfl, rfl, by decide, by decide, _, rfl, by decide, by decide⟩

/-- Whatever happened before, wherever the node crashed, starting it without asking
for modes works: it keeps the modes and all blocks. -/
theorem C94_restart (S : Schema D) (s : Sys D) (d : Disk D) (hr : Reachable S s)
    (hS : upgraded S 0 S.empty ≠ none) (hd : s.file = some d) :
    (openDb S ⟨none, none⟩ (some d)).2 =
      .ok (remembered d) (if d.tries then .prune 20 else .archive) ∧
    ∃ d', after S ⟨none, none⟩ (some d) = some d' ∧ d'.blocks = d.blocks ∧
      remembered d' = remembered d ∧ d'.tries = d.tries := by
  obtain ⟨i1, i2, i3, -⟩ := (inv_reachable S s hr).disk d hd
  have kind : prunes (remembered d) = d.history.isSome := by
    unfold remembered
    cases d.history <;> rfl
  have ok : (openDb S ⟨none, none⟩ (some d)).2 =
      .ok (remembered d) (if d.tries then .prune 20 else .archive) := by
    refine (C94_existing_iff S ⟨none, none⟩ d _ _).mpr ⟨i1, i2 hS, rfl, kind, ?_, rfl, ?_⟩
    · intro k hk
      apply i3
      unfold remembered at hk
      cases e : d.history with
      | none => rw [e] at hk; cases hk
      | some j => rw [e] at hk; cases hk; rfl
    · cases d.tries <;> rfl
  refine ⟨ok, last d (openDb S ⟨none, none⟩ (some d)).1, getLast_or _ _, ?_, ?_, ?_⟩
  · have w := last_of_all (Way.refl S ⟨none, none⟩ d) (openDb_way S ⟨none, none⟩ d)
    rcases w.blocks with h | ⟨k, i, lo, h1, -⟩
    · exact h
    · cases h1
  · exact (opened_existing S _ d _ _ ok).1.history
  · exact (last_of_all (Way.refl S ⟨none, none⟩ d) (openDb_way S ⟨none, none⟩ d)).tries

example : ∃ s d, Reachable exSchema s ∧ upgraded exSchema 0 exSchema.empty ≠ none ∧
    s.file = some d ∧ d.rev = 41 :=
  ⟨_, _, ⟨[.crash ⟨some (.prune 4), none⟩ 3], rfl⟩, by decide, rfl, rfl⟩

/-! ### A crash while the database is made -/

/-- If making the database is cut short before the modes are written, the database
is an archive from then on: whatever happens later, no start that asks for the
history or the tries to be pruned, as the first one did, ever succeeds. -/
theorem C94_crash_at_creation_violated (S : Schema D) (cfg cfg' : Cfg) (n : Nat) (hn : 0 < n)
    (hn' : n ≤ 1 + (migrateDb S (created S)).1.length) (acts : List (Act D)) (s : Sys D)
    (h : run S ⟨none, none⟩ (.crash cfg n :: acts) = some s) (k : Nat)
    (ha : cfg'.tries = some (.prune k) ∨ cfg'.history = some (.prune k)) :
    (openDb S cfg' s.file).2 = .err := by
  have hpre : ∃ rest, (openDb S cfg none).1 = (created S :: (migrateDb S (created S)).1) ++ rest := by
    rw [openDb_none]
    simp only
    split
    · exact ⟨[], by simp⟩
    · split
      · exact ⟨_, by simp only [List.cons_append]; rfl⟩
      · split
        · exact ⟨_, by simp only [List.cons_append, List.append_assoc]; rfl⟩
        · exact ⟨_, by simp only [List.cons_append, List.append_assoc]; rfl⟩
  obtain ⟨rest, hpre⟩ := hpre
  simp only [run, step] at h
  have htake : (openDb S cfg none).1.take n = (created S :: (migrateDb S (created S)).1).take n := by
    rw [hpre, List.take_append_of_le_length]
    simp only [List.length_cons]
    omega
  have hx : ∃ d, ((openDb S cfg none).1.take n).getLast?.or none = some d ∧ d.history = none ∧
      d.tries = false := by
    rw [htake]
    rcases e : ((created S :: (migrateDb S (created S)).1).take n).getLast? with _ | x
    · rw [List.getLast?_eq_none_iff, List.take_eq_nil_iff] at e
      rcases e with e | e
      · omega
      · cases e
    · refine ⟨x, rfl, ?_⟩
      have hm := List.mem_of_mem_take (List.mem_of_getLast? e)
      simp only [List.mem_cons] at hm
      rcases hm with rfl | hm
      · exact ⟨rfl, rfl⟩
      · exact (migrate_created S x hm).2
  obtain ⟨d, e, e1, e2⟩ := hx
  rw [e] at h
  obtain ⟨d', f, f1, f2⟩ := C94_mode_fixed S ⟨some d, none⟩ s acts d rfl h
  have hrem : remembered d = .archive := by
    unfold remembered
    rw [e1]
  rw [hrem] at f1
  rw [f]
  rcases ha with ha | ha
  · exact (C94_tries_conflict_partial S cfg' d' _ ha (by rw [f2, e2]; simp [prunes])).1
  · exact (C94_history_conflict S cfg' d' _ ha (by rw [f1]; simp [prunes])).1

example : ∃ s, run exSchema ⟨none, none⟩
    (.crash ⟨some (.prune 4), some (.prune 20)⟩ 4 :: []) = some s ∧
    4 ≤ 1 + (migrateDb exSchema (created exSchema)).1.length ∧
    (openDb exSchema ⟨some (.prune 4), some (.prune 20)⟩ s.file).2 = .err ∧
    (openDb exSchema ⟨none, none⟩ s.file).2 = .ok .archive .archive ∧
    (openDb exSchema ⟨none, none⟩ none).2 = .ok .archive (.prune 20) :=
  ⟨_, rfl, by decide, by decide, by decide, by decide⟩

/-- The same when it is cut short just before its last write, which is that the
tries are to be pruned. -/
theorem C94_crash_before_tries_violated (S : Schema D) (cfg cfg' : Cfg) (h : Mode) (j k : Nat)
    (ho : (openDb S cfg none).2 = .ok h (.prune j)) (acts : List (Act D)) (s : Sys D)
    (hr : run S ⟨none, none⟩ (.crash cfg ((openDb S cfg none).1.length - 1) :: acts) = some s)
    (ha : cfg'.tries = some (.prune k)) : (openDb S cfg' s.file).2 = .err := by
  obtain ⟨w₁, h₁, t₁⟩ := last_migrate_created S
  have st := history_created S cfg.history _ w₁ h₁
  have key : ∃ d, ((openDb S cfg none).1.take ((openDb S cfg none).1.length - 1)).getLast? = some d ∧
      d.tries = false := by
    rw [openDb_none] at ho ⊢
    simp only at ho ⊢
    rcases hm : (migrateDb S (created S)).2 with _ | _
    · simp [hm] at ho
    · simp only [hm, Bool.not_true, Bool.false_eq_true, if_false] at ho ⊢
      rcases hh : (determineHistory cfg.history true
        (last (created S) (migrateDb S (created S)).1)).2 with _ | hm'
      · simp [hh] at ho
      · simp only [hh] at ho ⊢
        have ht' : (last (last (created S) (migrateDb S (created S)).1) (determineHistory cfg.history
          true (last (created S) (migrateDb S (created S)).1)).1).tries = false :=
          last_of_all (P := fun x => x.tries = false) t₁ (fun x hx => (st x hx).2.1.trans t₁)
        have one : ∀ d₂ : Disk D, (determineTries cfg.tries true d₂).2 = some (.prune j) →
            (determineTries cfg.tries true d₂).1.length = 1 := by
          intro d₂ e
          unfold determineTries at e ⊢
          generalize cfg.tries.getD (if (true || d₂.tries) = true then Mode.prune 20 else
            Mode.archive) = y at e ⊢
          cases y
          · simp only at e
            split at e <;> cases e
          · simp
        rcases ht : (determineTries cfg.tries true (last (last (created S)
          (migrateDb S (created S)).1) (determineHistory cfg.history
          true (last (created S) (migrateDb S (created S)).1)).1)).2 with _ | tm
        · simp [ht] at ho
        · simp only [ht, Out.ok.injEq] at ho ⊢
          obtain ⟨rfl, rfl⟩ := ho
          have l1 := one _ ht
          have e : ∀ (a b : List (Disk D)) (c : Disk D), b.length = 1 →
              (c :: (a ++ b)).take ((c :: (a ++ b)).length - 1) = c :: a := by
            intro a b c hb
            rw [← List.cons_append, List.take_append_of_le_length, List.take_of_length_le]
            · simp [hb]
            · simp [hb]
          rw [e _ _ _ l1]
          refine ⟨last (created S) ((migrateDb S (created S)).1 ++ (determineHistory cfg.history
            true (last (created S) (migrateDb S (created S)).1)).1), ?_, ?_⟩
          · rw [List.getLast?_cons]
            rfl
          · rw [last_append]
            exact ht'
  obtain ⟨d, e, e2⟩ := key
  simp only [run, step, e, Option.some_or] at hr
  obtain ⟨d', f, -, f2⟩ := C94_mode_fixed S ⟨some d, none⟩ s acts d rfl hr
  rw [f]
  exact (C94_tries_conflict_partial S cfg' d' _ ha (by rw [f2, e2]; simp [prunes])).1

example : ∃ s, (openDb exSchema ⟨some (.prune 4), none⟩ none).2 = .ok (.prune 4) (.prune 20) ∧
    run exSchema ⟨none, none⟩ (.crash ⟨some (.prune 4), none⟩
      ((openDb exSchema ⟨some (.prune 4), none⟩ none).1.length - 1) :: []) = some s ∧
    (openDb exSchema ⟨some (.prune 4), none⟩ s.file).2 = .ok (.prune 4) .archive :=
  ⟨_, by decide, rfl, by decide⟩

/-! ### Which blocks are kept -/

theorem max_mem {l : List Nat} {h : Nat} (e : l.max? = some h) : h ∈ l ∧ ∀ b ∈ l, b ≤ h :=
  List.max?_eq_some_iff.mp e

theorem min_mem {l : List Nat} {h : Nat} (e : l.min? = some h) : h ∈ l ∧ ∀ b ∈ l, h ≤ b :=
  List.min?_eq_some_iff.mp e

/-- The block relative to which blocks are removed lies at or below the newest. -/
theorem perform_removes {k : Nat} {e : PruningEvent} {d d' : Disk D} {b : Nat}
    (he : ∀ n, e = .l2 n → n ∈ d.blocks)
    (h : perform (.prune k) e d = some d') (hb : b ∈ d.blocks) (hb' : b ∉ d'.blocks) :
    ∃ h ∈ d'.blocks, b + k < h := by
  unfold perform at h
  simp only at h
  split at h
  · cases h
    exact absurd hb hb'
  · rename_i p hp
    split at h
    · cases h
      exact absurd hb hb'
    · rename_i hk
      split at h
      · cases h
      · rename_i lo hlo
        cases h
        simp only [mem_pruneRange] at hb' ⊢
        have hlt : b < p - k := by
          apply Classical.byContradiction
          intro hge
          exact hb' ⟨hb, fun h => hge h.2⟩
        obtain ⟨head, hh, hph⟩ : ∃ head ∈ d.blocks, p ≤ head := by
          cases e with
          | l1 n =>
            simp only [pruningPoint] at hp
            split at hp
            · cases hp
            · rename_i head hhead
              split at hp
              · cases hp
              · cases hp
                exact ⟨head, (max_mem hhead).1, by omega⟩
          | l2 n =>
            have hn := he n rfl
            simp only [pruningPoint] at hp
            split at hp
            · cases hp
            · split at hp
              · split at hp
                · cases hp
                · cases hp
                  exact ⟨_, hn, Nat.le_refl _⟩
              · cases hp
                exact ⟨_, hn, Nat.le_refl _⟩
        exact ⟨head, ⟨hh, fun _ => by omega⟩, by omega⟩

/-- Whatever a node does, it removes a block only in a reorg, or when the history
that it is asked to keep, counted from a block that it still has, no longer
reaches down to it.  Missing: an attempt to open the database with less history
than before, when it does not yet hold all of the old one; see
`C94_young_history_violated`. -/
theorem C94_kept_partial (S : Schema D) (s s' : Sys D) (a : Act D) (d d' : Disk D) (b : Nat)
    (hr : Reachable S s) (h : step S s a = some s') (hd : s.file = some d)
    (hd' : s'.file = some d') (hc : CompleteWhenReduced d a)
    (hb : b ∈ d.blocks) (hb' : b ∉ d'.blocks) :
    (∃ n, a = .reorg n ∧ n ≤ b) ∨
      ∃ k, remembered d' = .prune k ∧ ∃ newest ∈ d'.blocks, b + k < newest := by
  by_cases ha : Attempt a
  · obtain ⟨-, cfg, x, hcfg, h1, w, -⟩ := attempt_existing h ha hd
    rw [hd'] at h1
    cases h1
    rcases w.blocks with e | ⟨k, i, lo, e1, e2, e3, e4, e5, e6⟩
    · rw [e] at hb'
      exact absurd hb hb'
    · right
      refine ⟨k, by unfold remembered; rw [e5], ?_⟩
      rcases hm : d.blocks.max? with _ | hi
      · rw [List.max?_eq_none_iff] at hm
        rw [hm] at hb
        cases hb
      · have hc' : lo + i ≤ hi := by
          unfold CompleteWhenReduced at hc
          rcases hcfg with rfl | ⟨n, rfl⟩
          · exact hc k i lo hi e1 e2 e3 e4 hm
          · exact hc k i lo hi e1 e2 e3 e4 hm
        rw [e6] at hb' ⊢
        simp only [mem_pruneRange] at hb' ⊢
        have hlt : b < lo + (i - k) := by
          apply Classical.byContradiction
          intro hge
          exact hb' ⟨hb, fun h => hge h.2⟩
        exact ⟨hi, ⟨(max_mem hm).1, fun _ => by omega⟩, by omega⟩
  · by_cases hst : a = .stop
    · subst hst
      simp only [step, Option.some.injEq] at h
      subst h
      rw [hd] at hd'
      cases hd'
      exact absurd hb hb'
    · obtain ⟨m, y, y', hu, hf, -, hf', -, a1, -⟩ := work_step h ha hst
      obtain ⟨-, -, -, i4⟩ := (inv_reachable S s hr).disk d hd
      have hm := (i4 m hu).2
      rw [hd] at hf
      cases hf
      rw [hd'] at hf'
      cases hf'
      have hrem : remembered d' = m := by
        rw [← hm]
        unfold remembered
        rw [a1]
      cases a with
      | start cfg => exact absurd trivial ha
      | crash cfg n => exact absurd trivial ha
      | stop => exact absurd rfl hst
      | block =>
        right
        simp only [step, hu, hd] at h
        split at h
        · cases h
        · rename_i x hx
          cases h
          cases hd'
          cases m with
          | archive =>
            simp only [perform, Option.some.injEq] at hx
            subst hx
            exact absurd (List.mem_append_left _ hb) hb'
          | prune k =>
            refine ⟨k, hrem, perform_removes ?_ hx (List.mem_append_left _ hb) hb'⟩
            intro n hn
            cases hn
            simp
      | l1 n =>
        right
        simp only [step, hu, hd] at h
        split at h
        · cases h
        · rename_i x hx
          cases h
          cases hd'
          cases m with
          | archive =>
            simp only [perform, Option.some.injEq] at hx
            subst hx
            exact absurd hb hb'
          | prune k =>
            exact ⟨k, hrem, perform_removes (by intro n hn; cases hn) hx hb hb'⟩
      | reorg n =>
        left
        simp only [step, hu, hd, Option.some.injEq] at h
        subst h
        cases hd'
        simp only [List.mem_filter, decide_eq_true_eq, not_and] at hb'
        exact ⟨n, rfl, by have := hb' hb; omega⟩
      | write x =>
        simp only [step, hu, hd, Option.some.injEq] at h
        subst h
        cases hd'
        exact absurd hb hb'

example : ∃ s s' d d', Reachable exSchema s ∧ step exSchema s .block = some s' ∧
    s.file = some d ∧ s'.file = some d' ∧ CompleteWhenReduced d (.block : Act Nat) ∧
    (1 ∈ d.blocks ∧ 1 ∉ d'.blocks) ∧ d'.blocks = [2, 3, 4] :=
  ⟨_, _, _, _, ⟨[.start ⟨some (.prune 2), none⟩, .block, .block, .block, .block], rfl⟩, rfl, rfl,
    rfl, trivial, by decide, by decide⟩

example : ∃ s s' d d', Reachable exSchema s ∧
    step exSchema s (.start ⟨some (.prune 1), none⟩) = some s' ∧ s.file = some d ∧
    s'.file = some d' ∧ CompleteWhenReduced d (.start ⟨some (.prune 1), none⟩ : Act Nat) ∧
    (1 ∈ d.blocks ∧ 1 ∉ d'.blocks) ∧ d'.blocks = [2, 3] := by
  refine ⟨_, _, _, _, ⟨[.start ⟨some (.prune 2), none⟩, .block, .block, .block, .block, .stop],
    rfl⟩, rfl, rfl, rfl, ?_, by decide, by decide⟩
  intro k i lo hi h1 h2 h3 h4 h5
  cases h1
  have e2 : some 2 = some i := h2
  have e4 : some 1 = some lo := h4
  have e5 : some 3 = some hi := h5
  cases e2
  cases e4
  cases e5
  decide

/-- The state after a node with history `i` has stored its first `n` blocks. -/
theorem young (S : Schema D) (i : Nat) (hS : upgraded S 0 S.empty ≠ none) (hi : i < 2 ^ 63) (n : Nat)
    (hn : n ≤ i) :
    ∃ d, run S ⟨none, none⟩ (.start ⟨some (.prune i), none⟩ :: List.replicate n .block) =
      some ⟨some d, some (.prune i)⟩ ∧ d.blocks = List.range n ∧ d.history = some i ∧
      d.rev = S.latest ∧ d.l1 = none := by
  induction n with
  | zero =>
    have ho : (openDb S ⟨some (.prune i), none⟩ none).2 = .ok (.prune i) (.prune 20) :=
      (C94_new_iff S _ _ _).mpr ⟨hS, rfl, fun k hk => by cases hk; exact hi, rfl⟩
    obtain ⟨x, hx, o⟩ := opened S _ none _ _ ho
    have hx' := hx
    unfold after at hx'
    have hw : NewWay S x := by
      rcases e : (openDb S ⟨some (.prune i), none⟩ none).1.getLast? with _ | y
      · rw [e] at hx'
        cases hx'
      · rw [e] at hx'
        cases hx'
        exact openDb_new_states S _ _ (List.mem_of_getLast? e)
    refine ⟨x, ?_, hw.blocks, ?_, o.rev, hw.l1⟩
    · simp only [List.replicate_zero, run, step, hx', ho]
    · have := o.history
      unfold remembered at this
      rcases e : x.history with _ | j
      · rw [e] at this
        cases this
      · rw [e] at this
        cases this
        rfl
  | succ n ih =>
    obtain ⟨d, hr, e1, e2, e3, e4⟩ := ih (by omega)
    have hnext : nextBlock d.blocks = n := by
      unfold nextBlock
      rw [e1]
      cases n with
      | zero => rfl
      | succ m =>
        have : (List.range (m + 1)).max? = some m := by
          rw [List.max?_eq_some_iff]
          exact ⟨by simp, fun b hb => by simp at hb; omega⟩
        rw [this]
    have hp : perform (.prune i) (.l2 n) { d with blocks := d.blocks ++ [n] } =
        some { d with blocks := List.range (n + 1) } := by
      unfold perform
      simp only [pruningPoint, e4, e1, ← List.range_succ]
      by_cases h0 : n = 0
      · rw [if_pos h0]
      · rw [if_neg h0]
        have : n < i := by omega
        simp only [if_pos this]
    refine ⟨{ d with blocks := List.range (n + 1) }, ?_, rfl, e2, e3, e4⟩
    have e : (.start ⟨some (.prune i), none⟩ :: List.replicate (n + 1) .block : List (Act D)) =
        (.start ⟨some (.prune i), none⟩ :: List.replicate n .block) ++ [.block] := by
      rw [List.replicate_succ', List.cons_append]
    rw [e, run_append, hr]
    simp only [Option.bind_some, run, step, hnext, hp]

/-- Asking for less history removes as many blocks as the number went down by,
counted from the oldest block, whether or not there are more than enough.  A node
started with history `i` that has stored `n` blocks, few against `i`, and is
started again with history `k`, loses all its blocks, even when they are far fewer
than `k` and although the last `k + 1` were to be kept. -/
theorem C94_young_history_violated (S : Schema D) (i k n : Nat)
    (hS : upgraded S 0 S.empty ≠ none) (hi : i < 2 ^ 63) (hn : n + k ≤ i) (hk : k < i) :
    ∃ s d d', run S ⟨none, none⟩
        (.start ⟨some (.prune i), none⟩ :: List.replicate n .block ++ [.stop]) = some s ∧
      s.file = some d ∧ d.blocks = List.range n ∧
      (openDb S ⟨some (.prune k), none⟩ s.file).2 = .ok (.prune k) (.prune 20) ∧
      after S ⟨some (.prune k), none⟩ s.file = some d' ∧ d'.blocks = [] := by
  obtain ⟨d, hr, e1, e2, e3, e4⟩ := young S i hS hi n (by omega)
  have hrun : run S ⟨none, none⟩
      (.start ⟨some (.prune i), none⟩ :: List.replicate n .block ++ [.stop]) =
      some ⟨some d, none⟩ := by
    rw [run_append, hr]
    rfl
  have ht : d.tries = true := by
    have ho : (openDb S ⟨some (.prune i), none⟩ none).2 = .ok (.prune i) (.prune 20) :=
      (C94_new_iff S _ _ _).mpr ⟨hS, rfl, fun k hk => by cases hk; exact hi, rfl⟩
    obtain ⟨x, hx, -, hxt, -⟩ := C94_remembers S _ none _ _ ho
    simp only [run, step, ho] at hr
    unfold after at hx
    rw [hx] at hr
    obtain ⟨d'', f, -, f2⟩ := C94_mode_fixed S ⟨some x, some (.prune i)⟩ _ _ x rfl hr
    cases f
    rw [f2, hxt]
    rfl
  have hup : upgraded S d.rev d.data ≠ none := by
    rw [e3, upgraded_latest]
    simp
  have hok : (openDb S ⟨some (.prune k), none⟩ (some d)).2 = .ok (.prune k) (.prune 20) := by
    refine (C94_existing_iff S _ d _ _).mpr ⟨by rw [e3]; exact supported_latest S, hup, rfl, ?_,
      fun j hj => by cases hj; omega, ?_, ?_⟩
    · rw [e2]
      rfl
    · rw [ht]
      rfl
    · rw [ht]
      rfl
  refine ⟨_, d, last d (openDb S ⟨some (.prune k), none⟩ (some d)).1, hrun, rfl, e1, hok,
    getLast_or _ _, ?_⟩
  have hmig : migrateDb S d = ([], true) := by
    unfold migrateDb
    rw [if_neg (by rw [e3]; unfold Schema.latest baseRevision; omega)]
    unfold migrateFrom
    rw [if_pos e3]
  have hne : ¬ (2 ^ 63 ≤ k) := by omega
  have hdh : (determineHistory (some (.prune k)) false d).1 =
      match d.blocks.min? with
      | none => [{ d with history := some k }]
      | some oldest => [{ d with history := some k },
          { d with history := some k, blocks := pruneRange oldest (oldest + (i - k)) d.blocks }] := by
    rw [determineHistory_eq, e2]
    unfold validate
    simp only [Option.getD_some, if_neg hne, Bool.false_eq_true, if_false, if_pos hk]
    rcases d.blocks.min? with _ | o <;> rfl
  rcases openDb_some_states S ⟨some (.prune k), none⟩ d with e | ⟨-, e⟩
  · exfalso
    have o := (opened_existing S _ d _ _ hok).1.history
    rw [e, hmig, last_nil] at o
    unfold remembered at o
    rw [e2] at o
    cases o
    omega
  · rw [e, hmig, List.nil_append, last_nil]
    simp only
    rw [hdh]
    rcases hm : d.blocks.min? with _ | lo
    · simp only [last_cons, last_nil]
      exact List.min?_eq_none_iff.mp hm
    · simp only [last_cons, last_nil]
      apply List.eq_nil_iff_forall_not_mem.mpr
      intro b hb
      rw [mem_pruneRange] at hb
      obtain ⟨hb1, hb2⟩ := hb
      apply hb2
      have hlo := (min_mem hm).2 b hb1
      rw [e1, List.mem_range] at hb1
      exact ⟨hlo, by omega⟩

example : upgraded exSchema 0 exSchema.empty ≠ none ∧ 100 < 2 ^ 63 ∧ 5 + 50 ≤ 100 ∧ 50 < 100 := by
  decide

/-- So does a full database whose history was first asked to be longer. -/
example : ∃ s d d', run exSchema ⟨none, none⟩
      ([.start ⟨some (.prune 2), none⟩, .block, .block, .block, .block, .stop,
        .start ⟨some (.prune 9), none⟩, .stop] : List (Act Nat)) = some s ∧ s.file = some d ∧
    d.blocks = [1, 2, 3] ∧ after exSchema ⟨some (.prune 2), none⟩ s.file = some d' ∧
    d'.blocks = [] := ⟨_, _, _, rfl, rfl, by decide, rfl, by decide⟩

/-! ### Which blocks are removed -/

/-- After a block was stored that the L1 has accepted, or while nothing is known
of the L1, only that block and the asked number before it are left. -/
theorem C94_bounded_l2 (S : Schema D) (s s' : Sys D) (d d' : Disk D) (k head : Nat)
    (hup : s.up = some (.prune k)) (hd : s.file = some d) (h : step S s .block = some s')
    (hd' : s'.file = some d') (hhead : d'.blocks.max? = some head)
    (hl1 : ∀ c, d.l1 = some c → head ≤ c) : ∀ b ∈ d'.blocks, head ≤ b + k := by
  simp only [step, hup, hd] at h
  split at h
  · cases h
  · rename_i x hx
    cases h
    cases hd'
    generalize hnext : nextBlock d.blocks = next at hx
    have hge : ∀ b ∈ d.blocks, b < next := by
      intro b hb
      rcases e : d.blocks.max? with _ | m
      · rw [List.max?_eq_none_iff] at e
        rw [e] at hb
        cases hb
      · unfold nextBlock at hnext
        rw [e] at hnext
        have := (max_mem e).2 b hb
        simp only at hnext
        omega
    have hsub : ∀ b ∈ d'.blocks, b ≤ next := by
      intro b hb
      unfold perform at hx
      simp only at hx
      have base : b ∈ d.blocks ++ [next] → b ≤ next := by
        intro hb
        simp only [List.mem_append, List.mem_singleton] at hb
        rcases hb with hb | hb
        · have := hge b hb
          omega
        · omega
      split at hx
      · cases hx
        exact base hb
      · split at hx
        · cases hx
          exact base hb
        · split at hx
          · cases hx
          · cases hx
            exact base (mem_pruneRange.mp hb).1
    have hle : head ≤ next := hsub head (max_mem hhead).1
    intro b hb
    by_cases h0 : next = 0
    · omega
    · have hpoint : pruningPoint (.l2 next) { d with blocks := d.blocks ++ [next] } = some next := by
        unfold pruningPoint
        simp only
        rw [if_neg h0]
        rcases e : d.l1 with _ | c
        · rfl
        · simp only
          rw [if_neg]
          intro hlt
          have hin : next ∈ d'.blocks := by
            unfold perform pruningPoint at hx
            simp only [e, if_neg h0, if_pos hlt] at hx
            cases hx
            simp
          have := (max_mem hhead).2 next hin
          have := hl1 c e
          omega
      unfold perform at hx
      simp only [hpoint] at hx
      split at hx
      · omega
      · split at hx
        · cases hx
        · rename_i lo hlo
          cases hx
          rw [mem_pruneRange] at hb
          obtain ⟨hb1, hb2⟩ := hb
          have := (min_mem hlo).2 b hb1
          omega

example : ∃ s s' d d', s.up = some (.prune 2) ∧ s.file = some d ∧
    step exSchema s .block = some s' ∧ s'.file = some d' ∧ d'.blocks.max? = some 4 ∧
    (∀ c, d.l1 = some c → 4 ≤ c) ∧ d.blocks = [0, 1, 2, 3] :=
  ⟨⟨some ⟨42, 5, some 2, true, [0, 1, 2, 3], some 9⟩, some (.prune 2)⟩, _, _, _, rfl, rfl, rfl, rfl,
    by decide, by simp, rfl⟩

/-- After an update of the L1 that is behind the node, only the block that it
accepted, the asked number before it and the blocks after it are left. -/
theorem C94_bounded_l1 (S : Schema D) (s s' : Sys D) (d d' : Disk D) (k n head : Nat)
    (hup : s.up = some (.prune k)) (hd : s.file = some d) (h : step S s (.l1 n) = some s')
    (hd' : s'.file = some d') (hhead : d.blocks.max? = some head) (hn : n < head) :
    ∀ b ∈ d'.blocks, n ≤ b + k := by
  simp only [step, hup, hd] at h
  split at h
  · cases h
  · rename_i x hx
    cases h
    cases hd'
    unfold perform at hx
    simp only [pruningPoint, hhead] at hx
    rw [if_neg (by omega)] at hx
    simp only at hx
    intro b hb
    split at hx
    · omega
    · split at hx
      · cases hx
      · rename_i lo hlo
        cases hx
        rw [mem_pruneRange] at hb
        obtain ⟨hb1, hb2⟩ := hb
        have := (min_mem hlo).2 b hb1
        omega

example : ∃ s s' d d', s.up = some (.prune 1) ∧ s.file = some d ∧
    step exSchema s (.l1 3) = some s' ∧ s'.file = some d' ∧ d.blocks.max? = some 4 ∧ 3 < 4 ∧
    d'.blocks = [2, 3, 4] :=
  ⟨⟨some ⟨42, 5, some 1, true, [0, 1, 2, 3, 4], some 2⟩, some (.prune 1)⟩, _, _, _, rfl, rfl, rfl,
    rfl, by decide, by decide, by decide⟩

/-- A node that keeps the whole history never removes a block but in a reorg. -/
theorem C94_archive (S : Schema D) (s s' : Sys D) (a : Act D) (d d' : Disk D) (b : Nat)
    (hr : Reachable S s) (h : step S s a = some s') (hd : s.file = some d)
    (hd' : s'.file = some d') (hm : remembered d = .archive)
    (hb : b ∈ d.blocks) (hb' : b ∉ d'.blocks) : ∃ n, a = .reorg n ∧ n ≤ b := by
  have hnone : d.history = none := by
    unfold remembered at hm
    rcases e : d.history with _ | i
    · rfl
    · rw [e] at hm
      cases hm
  have hc : CompleteWhenReduced d a := by
    unfold CompleteWhenReduced
    split
    · intro k i lo hi _ h2
      rw [hnone] at h2
      cases h2
    · intro k i lo hi _ h2
      rw [hnone] at h2
      cases h2
    · trivial
  rcases C94_kept_partial S s s' a d d' b hr h hd hd' hc hb hb' with h1 | ⟨k, h1, -⟩
  · exact h1
  · obtain ⟨x, hx, e, -⟩ := C94_mode_fixed S s s' [a] d hd (by simp only [run, h])
    rw [hd'] at hx
    cases hx
    rw [h1, hm] at e
    cases e

example : ∃ s s' d d', Reachable exSchema s ∧ step exSchema s (.reorg 1) = some s' ∧
    s.file = some d ∧ s'.file = some d' ∧ remembered d = .archive ∧
    (1 ∈ d.blocks ∧ 1 ∉ d'.blocks) :=
  ⟨_, _, _, _, ⟨[.start ⟨none, none⟩, .block, .block, .l1 7], rfl⟩, rfl, rfl, rfl, by decide,
    by decide⟩

/-- Storing a block and an update of the L1 always work for a node that has the
database open: the search for the oldest block never comes up empty. -/
theorem C94_no_panic (S : Schema D) (s : Sys D) (m : Mode) (hr : Reachable S s)
    (hup : s.up = some m) (n : Nat) :
    (∃ s', step S s .block = some s') ∧ (∃ s', step S s (.l1 n) = some s') := by
  rcases hf : s.file with _ | d
  · have := (inv_reachable S s hr).file hf
    rw [hup] at this
    cases this
  · have total : ∀ (e : PruningEvent) (d : Disk D), (∀ n, e = .l2 n → d.blocks ≠ []) →
        ∃ d', perform m e d = some d' := by
      intro e d he
      unfold perform
      cases m with
      | archive => exact ⟨d, rfl⟩
      | prune k =>
        simp only
        split
        · exact ⟨d, rfl⟩
        · rename_i p hp
          split
          · exact ⟨d, rfl⟩
          · split
            · rename_i hm
              rw [List.min?_eq_none_iff] at hm
              cases e with
              | l1 n =>
                simp only [pruningPoint, hm] at hp
                cases hp
              | l2 n => exact absurd hm (he n rfl)
            · exact ⟨_, rfl⟩
    simp only [step, hup, hf]
    constructor
    · obtain ⟨d', h⟩ := total (.l2 (nextBlock d.blocks))
        { d with blocks := d.blocks ++ [nextBlock d.blocks] } (fun n _ => by simp)
      exact ⟨_, by rw [h]⟩
    · obtain ⟨d', h⟩ := total (.l1 n) { d with l1 := some (newL1 d.l1 n) } (fun n hn => by cases hn)
      exact ⟨_, by rw [h]⟩

example : ∃ s, Reachable exSchema s ∧ s.up = some (.prune 2) :=
  ⟨_, ⟨[.start ⟨some (.prune 2), none⟩], rfl⟩, rfl⟩

end Verif.Open
