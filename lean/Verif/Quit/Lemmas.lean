import Verif.Quit.Spec

/-! # Invariants of the shutdown (C109) -/

namespace Verif.Quit

/-- Every step that can happen, as a list of cases. -/
theorem step_cases {s s' : Sys} {a : Act} (h : step s a = some s') :
    (∃ n k, a = .spawnMain n k ∧ s.phase = .running ∧
      s' = { s with tasks := ⟨n, k, false⟩ :: s.tasks }) ∨
    (∃ p n k, a = .spawn p n k ∧ p ∈ s.tasks ∧ p.busy = true ∧ s.phase ≠ .dropping ∧
      s' = { s with tasks := ⟨n, k, false⟩ :: s.tasks }) ∨
    (∃ t, a = .enter t ∧ t ∈ s.tasks ∧ t.busy = false ∧ s.phase ≠ .dropping ∧
      s' = { s with tasks := { t with busy := true } :: s.tasks.erase t }) ∨
    (∃ t, a = .await t ∧ t ∈ s.tasks ∧ t.busy = true ∧ t.kind.isBlocking = false ∧
      s' = { s with tasks := { t with busy := false } :: s.tasks.erase t }) ∨
    (∃ t, a = .finish t ∧ t ∈ s.tasks ∧ t.busy = true ∧
      s' = { s with tasks := s.tasks.erase t, done := t :: s.done }) ∨
    (∃ t, a = .cancel t ∧ t ∈ s.tasks ∧ t.kind = .task ∧ t.busy = false ∧ s.phase ≠ .running ∧
      s' = { s with tasks := s.tasks.erase t, cut := t :: s.cut }) ∨
    (a = .tick ∧ s.phase ≠ .exited ∧ ¬ (s.phase = .waiting ∧ s.since + s.grace ≤ s.clock) ∧
      s' = { s with clock := s.clock + 1 }) ∨
    (a = .signal ∧ s.phase = .running ∧ s' = close s true) ∨
    (∃ o, a = .critical o ∧ s.phase = .running ∧ s' = close s (criticalResult o)) ∨
    (a = .waited ∧ s.phase = .waiting ∧ trackerEmpty s = true ∧
      s' = { s with phase := .storing }) ∨
    (a = .expire ∧ s.phase = .waiting ∧ s.since + s.grace ≤ s.clock ∧
      s' = { s with phase := .storing, expired := true }) ∨
    (∃ ok, a = .stored ok ∧ s.phase = .storing ∧
      s' = { s with phase := .dropping, result := s.result && ok }) ∨
    (∃ t, a = .drop t ∧ t ∈ s.tasks ∧ s.phase = .dropping ∧ t.busy = false ∧
      s' = { s with tasks := s.tasks.erase t, cut := t :: s.cut }) ∨
    (a = .exit ∧ s.phase = .dropping ∧ s.tasks = [] ∧ s' = { s with phase := .exited }) := by
  cases a with
  | spawn p n k =>
    simp only [step] at h
    split at h
    · rename_i hc
      simp only [Option.some.injEq] at h
      exact Or.inr (Or.inl ⟨p, n, k, rfl, hc.1, hc.2.1, hc.2.2, h.symm⟩)
    · exact absurd h (by simp)
  | spawnMain n k =>
    simp only [step] at h
    split at h
    · rename_i hc
      simp only [Option.some.injEq] at h
      exact Or.inl ⟨n, k, rfl, hc, h.symm⟩
    · exact absurd h (by simp)
  | _ => simp only [step] at h <;> (repeat' split at h) <;> simp_all

/-- An invariant that every step keeps holds after every run. -/
theorem run_inv {P : Sys → Prop} (hs : ∀ s s' a, P s → step s a = some s' → P s') :
    ∀ (acts : List Act) (s s' : Sys), P s → run s acts = some s' → P s' := by
  intro acts
  induction acts with
  | nil => intro s s' hp h; simp only [run, Option.some.injEq] at h; subst h; exact hp
  | cons a as ih =>
    intro s s' hp h
    simp only [run, Option.bind_eq_some_iff] at h
    obtain ⟨m, hm, h⟩ := h
    exact ih m s' (hs s m a hp hm) h

/-- The same for an invariant that depends on the steps taken. -/
theorem run_inv_acts {P : Sys → Prop} {Q : Act → Prop}
    (hs : ∀ s s' a, Q a → P s → step s a = some s' → P s') :
    ∀ (acts : List Act) (s s' : Sys), (∀ a ∈ acts, Q a) → P s → run s acts = some s' → P s' := by
  intro acts
  induction acts with
  | nil => intro s s' _ hp h; simp only [run, Option.some.injEq] at h; subst h; exact hp
  | cons a as ih =>
    intro s s' hq hp h
    simp only [run, Option.bind_eq_some_iff] at h
    obtain ⟨m, hm, h⟩ := h
    exact ih m s' (fun b hb => hq b (by simp [hb])) (hs s m a (hq a (by simp)) hp hm) h

theorem run_append {s m s' : Sys} {as bs : List Act} (h1 : run s as = some m)
    (h2 : run m bs = some s') : run s (as ++ bs) = some s' := by
  induction as generalizing s with
  | nil => simp only [run, Option.some.injEq] at h1; subst h1; exact h2
  | cons a as ih =>
    simp only [run, Option.bind_eq_some_iff, List.cons_append] at h1 ⊢
    obtain ⟨x, hx, h1⟩ := h1
    exact ⟨x, hx, ih h1⟩

/-- Dropped tasks were waiting. -/
def CutIdle (s : Sys) : Prop := ∀ t ∈ s.cut, t.busy = false

theorem cutIdle_step (s s' : Sys) (a : Act) (hp : CutIdle s) (h : step s a = some s') :
    CutIdle s' := by
  rcases step_cases h with ⟨_, _, _, _, rfl⟩ | ⟨_, _, _, _, _, _, _, rfl⟩ | ⟨_, _, _, _, _, rfl⟩ |
    ⟨_, _, _, _, _, rfl⟩ | ⟨_, _, _, _, rfl⟩ | ⟨t, _, _, _, hb, _, rfl⟩ | ⟨_, _, _, rfl⟩ |
    ⟨_, _, rfl⟩ | ⟨_, _, _, rfl⟩ | ⟨_, _, _, rfl⟩ | ⟨_, _, _, rfl⟩ | ⟨_, _, _, rfl⟩ |
    ⟨t, _, _, _, hb, rfl⟩ | ⟨_, _, _, rfl⟩ <;> try exact hp
  all_goals
    intro x hx
    rcases List.mem_cons.1 hx with rfl | hx
    · exact hb
    · exact hp x hx

/-- Nothing is left at the end, and the wait is bounded. -/
def Times (s : Sys) : Prop :=
  (s.phase = .exited → s.tasks = []) ∧ (s.phase = .waiting → s.clock ≤ s.since + s.grace)

theorem times_step (s s' : Sys) (a : Act) (hp : Times s) (h : step s a = some s') : Times s' := by
  obtain ⟨h1, h2⟩ := hp
  rcases step_cases h with ⟨_, _, _, e, rfl⟩ | ⟨p, _, _, _, hm, _, _, rfl⟩ |
    ⟨t, _, hm, _, _, rfl⟩ | ⟨t, _, hm, _, _, rfl⟩ | ⟨t, _, hm, _, rfl⟩ |
    ⟨t, _, hm, _, hb, _, rfl⟩ | ⟨_, e, hn, rfl⟩ | ⟨_, _, rfl⟩ | ⟨_, _, _, rfl⟩ | ⟨_, _, _, rfl⟩ |
    ⟨_, _, _, rfl⟩ | ⟨_, _, _, rfl⟩ | ⟨t, _, hm, _, hb, rfl⟩ | ⟨_, _, ht, rfl⟩
  · exact ⟨fun x => absurd (e.symm.trans x) (by simp), h2⟩
  · exact ⟨fun x => by rw [h1 x] at hm; simp at hm, h2⟩
  · exact ⟨fun x => by rw [h1 x] at hm; simp at hm, h2⟩
  · exact ⟨fun x => by rw [h1 x] at hm; simp at hm, h2⟩
  · exact ⟨fun x => by rw [h1 x] at hm; simp at hm, h2⟩
  · exact ⟨fun x => by rw [h1 x] at hm; simp at hm, h2⟩
  · refine ⟨fun x => absurd x e, fun x => ?_⟩
    have hx : s.phase = .waiting := x
    have := h2 hx
    have hlt : ¬ s.since + s.grace ≤ s.clock := fun y => hn ⟨hx, y⟩
    simp only
    omega
  · exact ⟨fun x => absurd x (by simp [close]), fun _ => by simp [close]⟩
  · exact ⟨fun x => absurd x (by simp [close]), fun _ => by simp [close]⟩
  · exact ⟨fun x => absurd x (by simp), fun x => absurd x (by simp)⟩
  · exact ⟨fun x => absurd x (by simp), fun x => absurd x (by simp)⟩
  · exact ⟨fun x => absurd x (by simp), fun x => absurd x (by simp)⟩
  · exact ⟨fun x => by rw [h1 x] at hm; simp at hm, h2⟩
  · exact ⟨fun _ => ht, fun x => absurd x (by simp)⟩

theorem raw_iff (k : Kind) : Raw k ↔ k.tracked = false := by
  cases k <;> simp [Raw, Kind.tracked]

/-- Unless the grace period ran out, tracked work is over once the wait returned, and only futures
that may be cancelled were dropped of it. -/
def QuietInv (s : Sys) : Prop :=
  s.expired = false →
    (After s → ∀ t ∈ s.tasks, t.kind.tracked = false) ∧
    (∀ t ∈ s.cut, t.kind.tracked = true → t.kind = .task)

theorem quiet_step (s s' : Sys) (a : Act)
    (hq : ∀ p n k, a = .spawn p n k → p.kind.tracked = false → k.tracked = false)
    (hp : QuietInv s) (h : step s a = some s') : QuietInv s' := by
  rcases step_cases h with ⟨_, _, _, e, rfl⟩ | ⟨p, n, k, ea, hm, _, _, rfl⟩ |
    ⟨t, _, hm, _, _, rfl⟩ | ⟨t, _, hm, _, _, rfl⟩ | ⟨t, _, hm, _, rfl⟩ |
    ⟨t, _, hm, hk, hb, _, rfl⟩ | ⟨_, e, hn, rfl⟩ | ⟨_, _, rfl⟩ | ⟨_, _, _, rfl⟩ |
    ⟨_, _, htr, rfl⟩ | ⟨_, _, _, rfl⟩ | ⟨_, _, e, rfl⟩ | ⟨t, _, hm, hd, hb, rfl⟩ |
    ⟨_, hd, ht, rfl⟩ <;> intro hx
  · refine ⟨fun ha => ?_, (hp hx).2⟩
    rcases ha with ha | ha | ha <;> exact absurd (e.symm.trans ha) (by simp)
  · refine ⟨fun ha x hxm => ?_, (hp hx).2⟩
    have hall := (hp hx).1 ha
    rcases List.mem_cons.1 hxm with rfl | hxm
    · exact hq p n k ea (hall p hm)
    · exact hall x hxm
  · refine ⟨fun ha x hxm => ?_, (hp hx).2⟩
    have hall := (hp hx).1 ha
    rcases List.mem_cons.1 hxm with rfl | hxm
    · exact hall t hm
    · exact hall x (List.mem_of_mem_erase hxm)
  · refine ⟨fun ha x hxm => ?_, (hp hx).2⟩
    have hall := (hp hx).1 ha
    rcases List.mem_cons.1 hxm with rfl | hxm
    · exact hall t hm
    · exact hall x (List.mem_of_mem_erase hxm)
  · exact ⟨fun ha x hxm => (hp hx).1 ha x (List.mem_of_mem_erase hxm), (hp hx).2⟩
  · refine ⟨fun ha x hxm => (hp hx).1 ha x (List.mem_of_mem_erase hxm), fun x hxm ht => ?_⟩
    rcases List.mem_cons.1 hxm with rfl | hxm
    · exact hk
    · exact (hp hx).2 x hxm ht
  · exact hp hx
  · refine ⟨fun ha => ?_, (hp hx).2⟩
    rcases ha with ha | ha | ha <;> exact absurd ha (by simp [close])
  · refine ⟨fun ha => ?_, (hp hx).2⟩
    rcases ha with ha | ha | ha <;> exact absurd ha (by simp [close])
  · refine ⟨fun _ x hxm => ?_, (hp hx).2⟩
    have hany : (s.tasks.any fun t => t.kind.tracked) = false := by
      simp only [trackerEmpty] at htr
      cases hz : (s.tasks.any fun t => t.kind.tracked) with
      | false => rfl
      | true => rw [hz] at htr; exact absurd htr (by simp)
    rw [List.any_eq_false] at hany
    have := hany x hxm
    cases hz : x.kind.tracked with
    | false => rfl
    | true => exact absurd hz this
  · exact absurd hx (by simp)
  · exact ⟨fun _ => (hp hx).1 (Or.inl e), (hp hx).2⟩
  · have hall := (hp hx).1 (Or.inr (Or.inl hd))
    refine ⟨fun _ x hxm => hall x (List.mem_of_mem_erase hxm), fun x hxm ht => ?_⟩
    rcases List.mem_cons.1 hxm with rfl | hxm
    · rw [hall _ hm] at ht; exact absurd ht (by simp)
    · exact (hp hx).2 x hxm ht
  · exact ⟨fun _ => (hp hx).1 (Or.inr (Or.inl hd)), (hp hx).2⟩

/-- Whether a step stands for a failure. -/
def failing : Act → Bool
  | .critical .ok => false
  | .critical _ => true
  | .stored ok => ! ok
  | _ => false

theorem result_step (s s' : Sys) (a : Act) (hr : s.phase = .running → s.result = true)
    (h : step s a = some s') :
    s'.result = (s.result && ! failing a) ∧ (s'.phase = .running → s'.result = true) := by
  rcases step_cases h with ⟨_, _, rfl, e, rfl⟩ | ⟨p, n, k, rfl, hm, _, _, rfl⟩ |
    ⟨t, rfl, hm, _, _, rfl⟩ | ⟨t, rfl, hm, _, _, rfl⟩ | ⟨t, rfl, hm, _, rfl⟩ |
    ⟨t, rfl, hm, hk, hb, _, rfl⟩ | ⟨rfl, e, hn, rfl⟩ | ⟨rfl, e, rfl⟩ | ⟨o, rfl, e, rfl⟩ |
    ⟨rfl, _, htr, rfl⟩ | ⟨rfl, _, _, rfl⟩ | ⟨_, rfl, e, rfl⟩ | ⟨t, rfl, hm, hd, hb, rfl⟩ |
    ⟨rfl, hd, ht, rfl⟩
  all_goals first
    | exact ⟨by simp [failing], hr⟩
    | exact ⟨by simp [failing], fun x => absurd x (by simp)⟩
    | exact ⟨by cases o <;> simp [failing, close, criticalResult, hr e],
        fun x => absurd x (by simp [close])⟩
    | exact ⟨by simp [failing, close, hr e], fun x => absurd x (by simp [close])⟩

theorem result_run : ∀ (acts : List Act) (s s' : Sys), (s.phase = .running → s.result = true) →
    run s acts = some s' → s'.result = (s.result && ! acts.any failing) := by
  intro acts
  induction acts with
  | nil => intro s s' _ h; simp only [run, Option.some.injEq] at h; subst h; simp
  | cons a as ih =>
    intro s s' hr h
    simp only [run, Option.bind_eq_some_iff] at h
    obtain ⟨m, hm, h⟩ := h
    obtain ⟨e1, e2⟩ := result_step s m a hr hm
    rw [ih m s' e2 h, e1, List.any_cons, Bool.not_or, Bool.and_assoc]

theorem failing_iff (acts : List Act) : acts.any failing = true ↔ Failed acts := by
  rw [List.any_eq_true]
  constructor
  · rintro ⟨a, ha, hf⟩
    cases a with
    | critical o =>
      cases o with
      | ok => exact absurd hf (by simp [failing])
      | error => exact Or.inl ha
      | panicked => exact Or.inr (Or.inl ha)
      | cancelled => exact Or.inr (Or.inr (Or.inl ha))
    | stored ok =>
      cases ok with
      | true => exact absurd hf (by simp [failing])
      | false => exact Or.inr (Or.inr (Or.inr ha))
    | _ => exact absurd hf (by simp [failing])
  · rintro (h | h | h | h)
    · exact ⟨_, h, rfl⟩
    · exact ⟨_, h, rfl⟩
    · exact ⟨_, h, rfl⟩
    · exact ⟨_, h, rfl⟩

/-- Blocking work that has begun stays until it is done. -/
def Kept (t : Task) (s : Sys) : Prop := t ∈ s.tasks ∨ t ∈ s.done

theorem kept_step {t : Task} (hb : t.busy = true) (hk : t.kind.isBlocking = true) (s s' : Sys)
    (a : Act) (hp : Kept t s) (h : step s a = some s') : Kept t s' := by
  have er : ∀ x : Task, x ≠ t → t ∈ s.tasks → t ∈ s.tasks.erase x := fun x hx hm =>
    (List.mem_erase_of_ne (fun e => hx e.symm)).2 hm
  rcases step_cases h with ⟨_, _, rfl, e, rfl⟩ | ⟨p, n, k, rfl, hm, _, _, rfl⟩ |
    ⟨x, rfl, hm, hx, _, rfl⟩ | ⟨x, rfl, hm, _, hx, rfl⟩ | ⟨x, rfl, hm, _, rfl⟩ |
    ⟨x, rfl, hm, hx, hb', _, rfl⟩ | ⟨rfl, e, hn, rfl⟩ | ⟨rfl, e, rfl⟩ | ⟨o, rfl, e, rfl⟩ |
    ⟨rfl, _, htr, rfl⟩ | ⟨rfl, _, _, rfl⟩ | ⟨_, rfl, e, rfl⟩ | ⟨x, rfl, hm, hd, hx, rfl⟩ |
    ⟨rfl, hd, ht, rfl⟩
  · exact hp.imp (fun y => List.mem_cons_of_mem _ y) id
  · exact hp.imp (fun y => List.mem_cons_of_mem _ y) id
  · refine hp.imp (fun y => List.mem_cons_of_mem _ (er x ?_ y)) id
    rintro rfl; rw [hx] at hb; exact absurd hb (by simp)
  · refine hp.imp (fun y => List.mem_cons_of_mem _ (er x ?_ y)) id
    rintro rfl; rw [hx] at hk; exact absurd hk (by simp)
  · rcases hp with y | y
    · by_cases he : x = t
      · exact Or.inr (by rw [he]; simp)
      · exact Or.inl (er x he y)
    · exact Or.inr (List.mem_cons_of_mem _ y)
  · refine hp.imp (fun y => er x ?_ y) id
    rintro rfl; rw [hb'] at hb; exact absurd hb (by simp)
  · exact hp
  · exact hp
  · exact hp
  · exact hp
  · exact hp
  · exact hp
  · refine hp.imp (fun y => er x ?_ y) id
    rintro rfl; rw [hx] at hb; exact absurd hb (by simp)
  · exact hp

theorem entered_kept {t : Task} (hk : t.kind.isBlocking = true) :
    ∀ (acts : List Act) (s s' : Sys), Act.enter t ∈ acts → run s acts = some s' →
      Kept { t with busy := true } s' := by
  intro acts
  induction acts with
  | nil => intro s s' h; simp at h
  | cons a as ih =>
    intro s s' hm h
    simp only [run, Option.bind_eq_some_iff] at h
    obtain ⟨m, hs, h⟩ := h
    rcases List.mem_cons.1 hm with rfl | hm
    · refine run_inv (P := Kept { t with busy := true })
        (fun s s' a => kept_step (t := { t with busy := true }) rfl hk s s' a) as m s' ?_ h
      simp only [step] at hs
      split at hs
      · simp only [Option.some.injEq] at hs
        subst hs
        exact Or.inl (by simp)
      · exact absurd hs (by simp)
    · exact ih m s' hm h

/-- All tasks can end. -/
theorem drain : ∀ (n : Nat) (s : Sys), s.tasks.length = n → s.phase ≠ .running →
    ∃ acts s', (∀ a ∈ acts, a.ending) ∧ run s acts = some s' ∧ s'.tasks = [] ∧
      s'.phase = s.phase := by
  intro n
  induction n with
  | zero =>
    intro s hl _
    exact ⟨[], s, by simp, rfl, List.length_eq_zero_iff.1 hl, rfl⟩
  | succ n ih =>
    intro s hl hr
    obtain ⟨t, ts, hts⟩ : ∃ t ts, s.tasks = t :: ts := by
      cases hz : s.tasks with
      | nil => rw [hz] at hl; exact absurd hl (by simp)
      | cons t ts => exact ⟨t, ts, rfl⟩
    have hlen : ts.length = n := by rw [hts] at hl; simpa using hl
    by_cases hb : t.busy = true
    · have hs : step s (.finish t) = some { s with tasks := ts, done := t :: s.done } := by
        simp [step, hts, hb]
      obtain ⟨acts, s', ha, hrun, h1, h2⟩ := ih { s with tasks := ts, done := t :: s.done } hlen hr
      refine ⟨.finish t :: acts, s', ?_, ?_, h1, h2⟩
      · intro a hm
        rcases List.mem_cons.1 hm with rfl | hm
        · trivial
        · exact ha a hm
      · simp only [run, hs, Option.bind_some]; exact hrun
    · have hb' : t.busy = false := by simpa using hb
      by_cases hd : s.phase = .dropping
      · have hs : step s (.drop t) = some { s with tasks := ts, cut := t :: s.cut } := by
          simp [step, hts, hb', hd]
        obtain ⟨acts, s', ha, hrun, h1, h2⟩ := ih { s with tasks := ts, cut := t :: s.cut } hlen hr
        refine ⟨.drop t :: acts, s', ?_, ?_, h1, h2⟩
        · intro a hm
          rcases List.mem_cons.1 hm with rfl | hm
          · trivial
          · exact ha a hm
        · simp only [run, hs, Option.bind_some]; exact hrun
      · have hs : step s (.enter t) = some { s with tasks := { t with busy := true } :: ts } := by
          simp [step, hts, hb', hd]
        have hs2 : step { s with tasks := { t with busy := true } :: ts }
            (.finish { t with busy := true }) =
            some { s with tasks := ts, done := { t with busy := true } :: s.done } := by
          simp [step]
        obtain ⟨acts, s', ha, hrun, h1, h2⟩ :=
          ih { s with tasks := ts, done := { t with busy := true } :: s.done } hlen hr
        refine ⟨.enter t :: .finish { t with busy := true } :: acts, s', ?_, ?_, h1, h2⟩
        · intro a hm
          rcases List.mem_cons.1 hm with rfl | hm
          · trivial
          · rcases List.mem_cons.1 hm with rfl | hm
            · trivial
            · exact ha a hm
        · simp only [run, hs, hs2, Option.bind_some]; exact hrun

theorem run_ticks : ∀ (n : Nat) (s : Sys), s.phase ≠ .exited →
    (s.phase = .waiting → s.clock + n ≤ s.since + s.grace) →
    run s (List.replicate n .tick) = some { s with clock := s.clock + n } := by
  intro n
  induction n with
  | zero => intro s _ _; rfl
  | succ n ih =>
    intro s he hw
    have hs : step s .tick = some { s with clock := s.clock + 1 } := by
      simp only [step, if_neg he]
      rw [if_neg]
      rintro ⟨h1, h2⟩
      have := hw h1
      omega
    simp only [List.replicate_succ, run, hs, Option.bind_some]
    rw [ih { s with clock := s.clock + 1 } he (fun x => by have := hw x; simp only; omega)]
    simp only [Option.some.injEq, Sys.mk.injEq, true_and, and_true]
    omega

end Verif.Quit
