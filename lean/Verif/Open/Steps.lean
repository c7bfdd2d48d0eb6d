import Verif.Open.Lemmas

/-
Lemmas about opening a new file, and about runs.
-/

namespace Verif.Open

open Verif.Open.Spec

variable {D : Type}

/-! ### Opening where there is no file -/

theorem validate_true_states (m : Mode) (d : Disk D) :
    ∀ x ∈ (validate m none true d).1, ∃ k, m = .prune k ∧ k < 2 ^ 63 ∧
      x = { d with history := some k } := by
  intro x hx
  cases m with
  | archive => simp [validate] at hx
  | prune k =>
    simp only [validate, if_true] at hx
    split at hx
    · simp at hx
    · simp only [List.mem_singleton] at hx
      exact ⟨k, rfl, by omega, hx⟩

theorem determineTries_states (asked : Option Mode) (isNew : Bool) (d : Disk D) :
    ∀ x ∈ (determineTries asked isNew d).1, isNew = true ∧ x = { d with tries := true } := by
  intro x hx
  unfold determineTries at hx
  generalize asked.getD (if (isNew || d.tries) = true then Mode.prune 20 else Mode.archive) = m at hx
  cases m <;> cases ht : d.tries <;> cases isNew <;> simp_all

/-- The pieces of opening where there is no file. -/
theorem openDb_none (S : Schema D) (cfg : Cfg) :
    openDb S cfg none =
      (let m := migrateDb S (created S)
       if !m.2 then (created S :: m.1, .err)
       else
         let d₁ := last (created S) m.1
         let h := determineHistory cfg.history true d₁
         match h.2 with
         | none => (created S :: (m.1 ++ h.1), .err)
         | some hm =>
           let t := determineTries cfg.tries true (last d₁ h.1)
           match t.2 with
           | none => (created S :: (m.1 ++ h.1 ++ t.1), .err)
           | some tm => (created S :: (m.1 ++ h.1 ++ t.1), .ok hm tm)) := by
  unfold openDb
  simp only [Option.isNone_none, if_true, Option.getD_none, List.cons_append]
  rfl

/-- A state on the way from no file. -/
structure NewWay (S : Schema D) (x : Disk D) : Prop where
  supported : Supported S x.rev
  same : upgraded S x.rev x.data = upgraded S 0 S.empty
  blocks : x.blocks = []
  l1 : x.l1 = none
  bound : ∀ k, x.history = some k → k < 2 ^ 63

theorem created_newWay (S : Schema D) : NewWay S (created S) :=
  ⟨Or.inl rfl, rfl, rfl, rfl, by intro k h; cases h⟩

theorem migrate_created (S : Schema D) :
    ∀ x ∈ (migrateDb S (created S)).1, NewWay S x ∧ x.history = none ∧ x.tries = false := by
  intro x hx
  have w := (migrateDb_spec S (created S) (Or.inl rfl)).1 x hx
  refine ⟨⟨w.supported, w.same, w.keeps.blocks, w.keeps.l1, ?_⟩, w.keeps.history, w.keeps.tries⟩
  intro k h
  rw [w.keeps.history] at h
  cases h

theorem last_migrate_created (S : Schema D) :
    NewWay S (last (created S) (migrateDb S (created S)).1) ∧
      (last (created S) (migrateDb S (created S)).1).history = none ∧
      (last (created S) (migrateDb S (created S)).1).tries = false :=
  last_of_all (P := fun x => NewWay S x ∧ x.history = none ∧ x.tries = false)
    ⟨created_newWay S, rfl, rfl⟩ (migrate_created S)

theorem history_created (S : Schema D) (asked : Option Mode) (d : Disk D) (w : NewWay S d)
    (h : d.history = none) :
    ∀ x ∈ (determineHistory asked true d).1, NewWay S x ∧ x.tries = d.tries ∧ x.rev = d.rev := by
  intro x hx
  rw [determineHistory_eq, h] at hx
  obtain ⟨k, -, hk, rfl⟩ := validate_true_states _ d x hx
  refine ⟨⟨w.supported, w.same, w.blocks, w.l1, ?_⟩, rfl, rfl⟩
  intro j hj
  cases hj
  exact hk

theorem openDb_new_states (S : Schema D) (cfg : Cfg) :
    ∀ x ∈ (openDb S cfg none).1, NewWay S x := by
  obtain ⟨w₁, h₁, t₁⟩ := last_migrate_created S
  have w₂ := history_created S cfg.history _ w₁ h₁
  have w₂l : NewWay S (last (last (created S) (migrateDb S (created S)).1)
      (determineHistory cfg.history true (last (created S) (migrateDb S (created S)).1)).1) :=
    last_of_all (P := NewWay S) w₁ (fun x hx => (w₂ x hx).1)
  have all : ∀ x ∈ created S :: ((migrateDb S (created S)).1 ++
      (determineHistory cfg.history true (last (created S) (migrateDb S (created S)).1)).1 ++
      (determineTries cfg.tries true (last (last (created S) (migrateDb S (created S)).1)
        (determineHistory cfg.history true (last (created S) (migrateDb S (created S)).1)).1)).1),
      NewWay S x := by
    intro x hx
    simp only [List.mem_cons, List.mem_append] at hx
    rcases hx with rfl | (hx | hx) | hx
    · exact created_newWay S
    · exact (migrate_created S x hx).1
    · exact (w₂ x hx).1
    · obtain ⟨-, rfl⟩ := determineTries_states _ _ _ x hx
      exact ⟨w₂l.supported, w₂l.same, w₂l.blocks, w₂l.l1, w₂l.bound⟩
  intro x hx
  apply all
  rw [openDb_none] at hx
  simp only [List.mem_cons, List.mem_append]
  simp only at hx
  split at hx
  · simp only [List.mem_cons] at hx
    rcases hx with h | h
    · exact Or.inl h
    · exact Or.inr (Or.inl (Or.inl h))
  · split at hx
    · simp only [List.mem_cons, List.mem_append] at hx
      rcases hx with h | h
      · exact Or.inl h
      · exact Or.inr (Or.inl h)
    · split at hx <;> simpa only [List.mem_cons, List.mem_append] using hx

/-! ### What a successful start gives -/

/-- Facts about a start that succeeded. -/
structure Opened (S : Schema D) (cfg : Cfg) (d : Disk D) (isNew : Bool) (x : Disk D) (h m : Mode) :
    Prop where
  supported : Supported S d.rev
  content : upgraded S d.rev d.data = some x.data
  rev : x.rev = S.latest
  history : remembered x = h
  asked : h = cfg.history.getD (remembered d)
  tries : prunes m = x.tries
  triesAsked : m = cfg.tries.getD (if isNew || d.tries then .prune 20 else .archive)

theorem upgraded_latest (S : Schema D) (x : D) : upgraded S S.latest x = some x := by
  rw [upgraded_of_pos S x (by unfold Schema.latest baseRevision; omega), List.drop_eq_nil_of_le]
  · rfl
  · unfold Schema.latest baseRevision
    omega

theorem opened_existing (S : Schema D) (cfg : Cfg) (d : Disk D) (h m : Mode)
    (ho : (openDb S cfg (some d)).2 = .ok h m) :
    Opened S cfg d false (last d (openDb S cfg (some d)).1) h m ∧
      prunes h = d.history.isSome ∧ prunes m = d.tries := by
  by_cases hs : Supported S d.rev
  · obtain ⟨-, i2, i3⟩ := migrateDb_spec S d hs
    have k₁ : Keeps d (last d (migrateDb S d).1) :=
      last_of_all (Keeps.refl d) (migrateDb_keeps S d)
    have o₁ : OnWay S d (last d (migrateDb S d).1) :=
      last_of_all ⟨Keeps.refl d, hs, rfl⟩ (migrateDb_spec S d hs).1
    rw [openDb_some] at ho ⊢
    simp only at ho ⊢
    rcases hm : (migrateDb S d).2 with _ | _
    · simp [hm] at ho
    · have hrev := i3 hm
      simp only [hm, Bool.not_true, Bool.false_eq_true, if_false] at ho ⊢
      rcases hh : (determineHistory cfg.history false (last d (migrateDb S d).1)).2 with _ | hm'
      · simp [hh] at ho
      · simp only [hh] at ho ⊢
        obtain ⟨a1, a2, a3, -⟩ := determineHistory_ok _ _ _ _ hh
        have st := determineHistory_states cfg (last d (migrateDb S d).1)
        generalize hd₂ : last (last d (migrateDb S d).1)
          (determineHistory cfg.history false (last d (migrateDb S d).1)).1 = d₂ at *
        have e₂ : d₂.rev = (last d (migrateDb S d).1).rev ∧
            d₂.data = (last d (migrateDb S d).1).data ∧
            d₂.tries = (last d (migrateDb S d).1).tries := by
          rw [← hd₂]
          exact last_of_all (P := fun x => x.rev = (last d (migrateDb S d).1).rev ∧
            x.data = (last d (migrateDb S d).1).data ∧
            x.tries = (last d (migrateDb S d).1).tries) ⟨rfl, rfl, rfl⟩
            (fun x hx => ⟨(st x hx).rev, (st x hx).data, (st x hx).tries⟩)
        rcases ht : (determineTries cfg.tries false d₂).2 with _ | tm
        · simp [ht] at ho
        · simp only [ht, Out.ok.injEq] at ho
          obtain ⟨rfl, rfl⟩ := ho
          obtain ⟨b1, b2, b3, b4⟩ := determineTries_ok _ _ _ _ (by simp) ht
          rw [determineTries_existing] at b1 b4
          rw [last_nil] at b1 b4
          have hrem : remembered (last d (migrateDb S d).1) = remembered d := by
            unfold remembered
            rw [k₁.history]
          simp only
          rw [last_append, hd₂]
          refine ⟨⟨hs, ?_, ?_, a1, ?_, b1, ?_⟩, ?_, ?_⟩
          · rw [← o₁.same, hrev, e₂.2.1, upgraded_latest]
          · rw [e₂.1, hrev]
          · rw [a2, hrem]
          · rw [b2, e₂.2.2, k₁.tries]
          · rw [a3 rfl, k₁.history]
          · rw [b3 rfl, e₂.2.2, k₁.tries]
  · rw [openDb_some, migrateDb_refused S d hs] at ho
    simp at ho

theorem opened_new (S : Schema D) (cfg : Cfg) (h m : Mode)
    (ho : (openDb S cfg none).2 = .ok h m) :
    Opened S cfg (created S) true (last (created S) (openDb S cfg none).1) h m := by
  obtain ⟨-, i2, i3⟩ := migrateDb_spec S (created S) (Or.inl rfl)
  obtain ⟨w₁, h₁, t₁⟩ := last_migrate_created S
  rw [openDb_none] at ho ⊢
  simp only at ho ⊢
  rcases hm : (migrateDb S (created S)).2 with _ | _
  · simp [hm] at ho
  · have hrev := i3 hm
    simp only [hm, Bool.not_true, Bool.false_eq_true, if_false] at ho ⊢
    rcases hh : (determineHistory cfg.history true (last (created S) (migrateDb S (created S)).1)).2
      with _ | hm'
    · simp [hh] at ho
    · simp only [hh] at ho ⊢
      obtain ⟨a1, a2, -, -⟩ := determineHistory_ok _ _ _ _ hh
      have st := history_created S cfg.history _ w₁ h₁
      generalize hd₂ : last (last (created S) (migrateDb S (created S)).1)
        (determineHistory cfg.history true (last (created S) (migrateDb S (created S)).1)).1 = d₂ at *
      have e₂ : NewWay S d₂ ∧ d₂.rev = (last (created S) (migrateDb S (created S)).1).rev ∧
          d₂.tries = false := by
        rw [← hd₂]
        exact last_of_all (P := fun x => NewWay S x ∧
          x.rev = (last (created S) (migrateDb S (created S)).1).rev ∧ x.tries = false)
          ⟨w₁, rfl, t₁⟩ (fun x hx => ⟨(st x hx).1, (st x hx).2.2, (st x hx).2.1.trans t₁⟩)
      have ts := determineTries_states cfg.tries true d₂
      rcases ht : (determineTries cfg.tries true d₂).2 with _ | tm
      · simp [ht] at ho
      · simp only [ht, Out.ok.injEq] at ho
        obtain ⟨rfl, rfl⟩ := ho
        obtain ⟨b1, b2, -, b4⟩ := determineTries_ok _ _ _ _ (fun _ => e₂.2.2) ht
        have hrem : remembered (last (created S) (migrateDb S (created S)).1) =
            remembered (created S) := by
          unfold remembered
          rw [h₁]
          rfl
        have e₃ : (last d₂ (determineTries cfg.tries true d₂).1).rev = d₂.rev ∧
            (last d₂ (determineTries cfg.tries true d₂).1).data = d₂.data :=
          last_of_all (P := fun x => x.rev = d₂.rev ∧ x.data = d₂.data) ⟨rfl, rfl⟩
            (fun x hx => by rw [(ts x hx).2]; exact ⟨rfl, rfl⟩)
        simp only
        rw [last_cons, last_append, last_append, hd₂]
        refine ⟨Or.inl rfl, ?_, ?_, ?_, ?_, b1, ?_⟩
        · have := e₂.1.same
          rw [e₂.2.1, hrev, upgraded_latest] at this
          rw [e₃.2]
          exact this.symm
        · rw [e₃.1, e₂.2.1, hrev]
        · rw [b4, a1]
        · rw [a2, hrem]
        · rw [b2]
          rfl

/-- Facts about a start that succeeded, of whatever file. -/
theorem opened (S : Schema D) (cfg : Cfg) (file : Option (Disk D)) (h m : Mode)
    (ho : (openDb S cfg file).2 = .ok h m) :
    ∃ x, after S cfg file = some x ∧ Opened S cfg (found S file) file.isNone x h m := by
  rcases file with _ | d
  · refine ⟨_, ?_, opened_new S cfg h m ho⟩
    unfold after last
    rcases e : (openDb S cfg none).1.getLast? with _ | x
    · exfalso
      have : (openDb S cfg none).1 ≠ [] := by
        rw [openDb_none]
        simp only
        split
        · simp
        · split
          · simp
          · split <;> simp
      rw [List.getLast?_eq_none_iff] at e
      exact this e
    · rfl
  · refine ⟨_, ?_, (opened_existing S cfg d h m ho).1⟩
    unfold after
    exact getLast_or _ _

/-! ### Runs -/

theorem run_append (S : Schema D) (s : Sys D) (as bs : List (Act D)) :
    run S s (as ++ bs) = (run S s as).bind fun s' => run S s' bs := by
  induction as generalizing s with
  | nil => rfl
  | cons a as ih =>
    simp only [List.cons_append, run]
    rcases step S s a with _ | s'
    · rfl
    · exact ih s'

theorem run_induct (S : Schema D) (P : Sys D → Prop)
    (hstep : ∀ s a s', P s → step S s a = some s' → P s') (s : Sys D) (acts : List (Act D))
    (s' : Sys D) (h : P s) (hr : run S s acts = some s') : P s' := by
  induction acts generalizing s with
  | nil =>
    simp only [run, Option.some.injEq] at hr
    subst hr
    exact h
  | cons a as ih =>
    simp only [run] at hr
    rcases e : step S s a with _ | t
    · simp [e] at hr
    · simp only [e] at hr
      exact ih t (hstep s a t h e) hr

theorem perform_fields {m : Mode} {e : PruningEvent} {d d' : Disk D} (h : perform m e d = some d') :
    d'.rev = d.rev ∧ d'.data = d.data ∧ d'.history = d.history ∧ d'.tries = d.tries ∧
      d'.l1 = d.l1 := by
  unfold perform at h
  cases m with
  | archive =>
    simp only [Option.some.injEq] at h
    subst h
    exact ⟨rfl, rfl, rfl, rfl, rfl⟩
  | prune k =>
    simp only at h
    split at h
    · cases h
      exact ⟨rfl, rfl, rfl, rfl, rfl⟩
    · split at h
      · cases h
        exact ⟨rfl, rfl, rfl, rfl, rfl⟩
      · split at h
        · cases h
        · cases h
          exact ⟨rfl, rfl, rfl, rfl, rfl⟩

/-- A step of a running node. -/
theorem work_step {S : Schema D} {s s' : Sys D} {a : Act D} (h : step S s a = some s')
    (ha : ¬ Attempt a) (hs : a ≠ .stop) :
    ∃ m d d', s.up = some m ∧ s.file = some d ∧ s'.up = some m ∧ s'.file = some d' ∧
      d'.rev = d.rev ∧ d'.history = d.history ∧ d'.tries = d.tries := by
  unfold step at h
  cases a with
  | start cfg => exact absurd trivial ha
  | crash cfg n => exact absurd trivial ha
  | stop => exact absurd rfl hs
  | block =>
    simp only at h
    split at h
    · rename_i m d hu hf
      split at h
      · cases h
      · rename_i d' hp
        cases h
        obtain ⟨a1, -, a3, a4, -⟩ := perform_fields hp
        exact ⟨m, d, d', hu, hf, hu, rfl, a1, a3, a4⟩
    · cases h
  | l1 n =>
    simp only at h
    split at h
    · rename_i m d hu hf
      split at h
      · cases h
      · rename_i d' hp
        cases h
        obtain ⟨a1, -, a3, a4, -⟩ := perform_fields hp
        exact ⟨m, d, d', hu, hf, hu, rfl, a1, a3, a4⟩
    · cases h
  | reorg n =>
    simp only at h
    split at h
    · rename_i m d hu hf
      cases h
      exact ⟨m, d, _, hu, hf, hu, rfl, rfl, rfl, rfl⟩
    · cases h
  | write x =>
    simp only at h
    split at h
    · rename_i m d hu hf
      cases h
      exact ⟨m, d, _, hu, hf, hu, rfl, rfl, rfl, rfl⟩
    · cases h

/-- What an attempt to open does to an existing file. -/
theorem attempt_existing {S : Schema D} {s s' : Sys D} {a : Act D} {d : Disk D}
    (h : step S s a = some s') (ha : Attempt a) (hf : s.file = some d) :
    s.up = none ∧ ∃ cfg d', (a = .start cfg ∨ ∃ n, a = .crash cfg n) ∧ s'.file = some d' ∧
      Way S cfg d d' ∧ (∀ m, s'.up = some m → ∃ tm, a = .start cfg ∧
        (openDb S cfg (some d)).2 = .ok m tm ∧ d' = last d (openDb S cfg (some d)).1) := by
  unfold step at h
  cases a with
  | start cfg =>
    simp only at h
    split at h
    · cases h
    · rename_i hu
      cases h
      refine ⟨hu, cfg, last d (openDb S cfg (some d)).1, Or.inl rfl, ?_, ?_, ?_⟩
      · show (openDb S cfg s.file).1.getLast?.or s.file = _
        rw [hf]
        exact getLast_or _ _
      · exact last_of_all (Way.refl S cfg d) (openDb_way S cfg d)
      · intro m hm
        simp only [hf] at hm
        split at hm
        · cases hm
        · rename_i h' m' e
          cases hm
          exact ⟨m', rfl, e, rfl⟩
  | crash cfg n =>
    simp only at h
    split at h
    · cases h
    · rename_i hu
      cases h
      refine ⟨hu, cfg, last d ((openDb S cfg (some d)).1.take n), Or.inr ⟨n, rfl⟩, ?_, ?_, ?_⟩
      · show ((openDb S cfg s.file).1.take n).getLast?.or s.file = _
        rw [hf]
        exact getLast_or _ _
      · exact last_of_all (Way.refl S cfg d)
          (fun x hx => openDb_way S cfg d x (List.mem_of_mem_take hx))
      · intro m hm
        cases hm
  | stop => exact absurd ha id
  | block => exact absurd ha id
  | l1 n => exact absurd ha id
  | reorg n => exact absurd ha id
  | write x => exact absurd ha id

/-- What an attempt to open does where there is no file. -/
theorem attempt_new {S : Schema D} {s s' : Sys D} {a : Act D}
    (h : step S s a = some s') (ha : Attempt a) (hf : s.file = none) :
    s.up = none ∧ ((s'.file = none ∧ s'.up = none) ∨ ∃ cfg d', s'.file = some d' ∧ NewWay S d' ∧
      (∀ m, s'.up = some m → ∃ tm, a = .start cfg ∧ (openDb S cfg none).2 = .ok m tm ∧
        after S cfg none = some d')) := by
  unfold step at h
  cases a with
  | start cfg =>
    simp only at h
    split at h
    · cases h
    · rename_i hu
      cases h
      refine ⟨hu, ?_⟩
      simp only [hf, Option.or_none]
      rcases e : (openDb S cfg none).1.getLast? with _ | x
      · left
        refine ⟨rfl, ?_⟩
        rcases e2 : (openDb S cfg none).2 with _ | ⟨p, q⟩
        · rfl
        · obtain ⟨x, hx, -⟩ := opened S cfg none _ _ e2
          unfold after at hx
          rw [e] at hx
          cases hx
      · right
        refine ⟨cfg, x, rfl, openDb_new_states S cfg x (List.mem_of_getLast? e), ?_⟩
        intro m hm
        split at hm
        · cases hm
        · rename_i h' m' e'
          cases hm
          refine ⟨m', rfl, e', ?_⟩
          unfold after
          rw [e]
          rfl
  | crash cfg n =>
    simp only at h
    split at h
    · cases h
    · rename_i hu
      cases h
      refine ⟨hu, ?_⟩
      simp only [hf, Option.or_none]
      rcases e : ((openDb S cfg none).1.take n).getLast? with _ | x
      · exact Or.inl (by simp)
      · right
        refine ⟨cfg, x, rfl, openDb_new_states S cfg x
          (List.mem_of_mem_take (List.mem_of_getLast? e)), ?_⟩
        intro m hm
        cases hm
  | stop => exact absurd ha id
  | block => exact absurd ha id
  | l1 n => exact absurd ha id
  | reorg n => exact absurd ha id
  | write x => exact absurd ha id

/-! ### What holds of every reachable state -/

/-- The invariant. -/
structure Inv (S : Schema D) (s : Sys D) : Prop where
  file : s.file = none → s.up = none
  disk : ∀ d, s.file = some d → Supported S d.rev ∧
    (upgraded S 0 S.empty ≠ none → upgraded S d.rev d.data ≠ none) ∧
    (∀ k, d.history = some k → k < 2 ^ 63) ∧
    (∀ m, s.up = some m → d.rev = S.latest ∧ remembered d = m)

theorem inv_step (S : Schema D) (s : Sys D) (a : Act D) (s' : Sys D) (i : Inv S s)
    (h : step S s a = some s') : Inv S s' := by
  by_cases ha : Attempt a
  · rcases hf : s.file with _ | d
    · obtain ⟨-, ⟨h1, h2⟩ | ⟨cfg, d', h1, w, h3⟩⟩ := attempt_new h ha hf
      · exact ⟨fun _ => h2, fun d hd => by rw [h1] at hd; cases hd⟩
      · refine ⟨fun hd => (by rw [h1] at hd; cases hd), fun d hd => ?_⟩
        rw [h1] at hd
        cases hd
        refine ⟨w.supported, fun hne => by rw [w.same]; exact hne, w.bound, fun m hm => ?_⟩
        obtain ⟨tm, -, ho, ha'⟩ := h3 m hm
        obtain ⟨x, hx, o⟩ := opened S cfg none m tm ho
        rw [ha'] at hx
        cases hx
        exact ⟨o.rev, o.history⟩
    · obtain ⟨-, cfg, d', -, h1, w, h3⟩ := attempt_existing h ha hf
      obtain ⟨i1, i2, i3, -⟩ := i.disk d hf
      refine ⟨fun hd => (by rw [h1] at hd; cases hd), fun x hx => ?_⟩
      rw [h1] at hx
      cases hx
      refine ⟨w.supported.mpr i1, fun hne => by rw [w.same]; exact i2 hne, fun k hk => ?_,
        fun m hm => ?_⟩
      · rcases w.history with e | ⟨j, -, -, e, hj⟩
        · exact i3 k (e ▸ hk)
        · rw [e] at hk
          cases hk
          exact hj
      · obtain ⟨tm, -, ho, rfl⟩ := h3 m hm
        obtain ⟨o, -, -⟩ := opened_existing S cfg d m tm ho
        exact ⟨o.rev, o.history⟩
  · by_cases hs : a = .stop
    · subst hs
      simp only [step, Option.some.injEq] at h
      subst h
      refine ⟨fun _ => rfl, fun d hd => ?_⟩
      obtain ⟨i1, i2, i3, -⟩ := i.disk d hd
      exact ⟨i1, i2, i3, fun m hm => by cases hm⟩
    · obtain ⟨m, d, d', hu, hf, hu', hf', e1, e2, e3⟩ := work_step h ha hs
      obtain ⟨i1, i2, i3, i4⟩ := i.disk d hf
      obtain ⟨r, hm⟩ := i4 m hu
      refine ⟨fun hd => (by rw [hf'] at hd; cases hd), fun x hx => ?_⟩
      rw [hf'] at hx
      cases hx
      refine ⟨by rw [e1]; exact i1, fun _ => ?_, by rw [e2]; exact i3, fun m' hm' => ?_⟩
      · rw [e1, r, upgraded_latest]
        simp
      · rw [hu'] at hm'
        cases hm'
        refine ⟨e1.trans r, ?_⟩
        rw [← hm]
        unfold remembered
        rw [e2]

theorem inv_reachable (S : Schema D) (s : Sys D) (h : Reachable S s) : Inv S s := by
  obtain ⟨acts, h⟩ := h
  exact run_induct S (Inv S) (inv_step S) _ acts s
    ⟨fun _ => rfl, fun d hd => by cases hd⟩ h

end Verif.Open
