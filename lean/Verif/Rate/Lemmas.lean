import Verif.Rate.Spec

namespace Verif.Rate

open Verif.Rate.Spec

theorem run_induct {qr qw : Quota} (P : Sys → Prop)
    (hs : ∀ s a s', step qr qw s a = some s' → P s → P s') :
    ∀ acts s s', run qr qw s acts = some s' → P s → P s' := by
  intro acts
  induction acts with
  | nil => intro s s' h hp; simp only [run, Option.some.injEq] at h; exact h ▸ hp
  | cons a as ih =>
    intro s s' h hp
    simp only [run] at h
    split at h
    · rename_i s1 h1
      exact ih s1 s' h (hs s a s1 h1 hp)
    · exact absurd h (by simp)

theorem run_append {qr qw : Quota} : ∀ as bs s, run qr qw s (as ++ bs) =
    (match run qr qw s as with | some s' => run qr qw s' bs | none => none) := by
  intro as
  induction as with
  | nil => intro bs s; rfl
  | cons a as ih =>
    intro bs s
    simp only [List.cons_append, run]
    cases step qr qw s a with
    | none => rfl
    | some s1 => exact ih bs s1

/-! ### The limiter -/

theorem check_granted {q : Quota} {tat : Option Nat} {now n t : Nat} (hn : 0 < n)
    (h : check q tat now n = .granted t) :
    now + q.per * n ≤ t ∧ tat.getD 0 + q.per * n ≤ t ∧ t ≤ now + q.per * (q.max + 1) := by
  simp only [check] at h
  split at h
  · exact absurd h (by simp)
  · rename_i hcap
    split at h
    · exact absurd h (by simp)
    · rename_i he
      simp only [Check.granted.injEq] at h
      subst h
      have e1 : q.per * n = q.per * (n - 1) + q.per := by
        obtain ⟨m, rfl⟩ : ∃ m, n = m + 1 := ⟨n - 1, by omega⟩
        simp [Nat.mul_succ]
      have e2 : q.per * (q.max + 1) = q.per * q.max + q.per := Nat.mul_succ ..
      have hm1 := Nat.le_max_left (tat.getD (now + q.per)) now
      have hm2 := Nat.le_max_right (tat.getD (now + q.per)) now
      refine ⟨by omega, ?_, ?_⟩
      · cases tat with
        | none => simp only [Option.getD] at *; omega
        | some v => simp only [Option.getD] at *; omega
      · have hmm : max (tat.getD (now + q.per)) now = tat.getD (now + q.per) ∨
            max (tat.getD (now + q.per)) now = now := by
          by_cases hle : tat.getD (now + q.per) ≤ now
          · exact Or.inr (Nat.max_eq_right hle)
          · exact Or.inl (Nat.max_eq_left (by omega))
        rcases hmm with hmm | hmm <;> rw [hmm] <;> omega

theorem check_not_never {q : Quota} {tat : Option Nat} {now n : Nat} (h : n ≤ q.max) :
    check q tat now n ≠ .never := by
  have : q.per * n ≤ q.per * q.max := Nat.mul_le_mul_left _ h
  simp only [check]
  split
  · omega
  · split <;> simp

/-- Once all permits are paid off, anything that can be granted is. -/
theorem check_rested {q : Quota} {tat : Option Nat} {now n : Nat} (h : n ≤ q.max) (hn : 0 < n)
    (ht : ∀ v, tat = some v → v ≤ now) : ∃ t, check q tat now n = .granted t := by
  have : q.per * n ≤ q.per * q.max := Nat.mul_le_mul_left _ h
  have e1 : q.per * n = q.per * (n - 1) + q.per := by
    obtain ⟨m, rfl⟩ : ∃ m, n = m + 1 := ⟨n - 1, by omega⟩
    simp [Nat.mul_succ]
  simp only [check]
  split
  · omega
  · split
    · rename_i h1 h2
      cases tat with
      | none => simp only [Option.getD] at h2; omega
      | some v => have := ht v rfl; simp only [Option.getD] at h2; omega
    · exact ⟨_, rfl⟩

/-- What `admit` can do. -/
inductive Admit (q : Quota) (now len : Nat) (h : Half) : Except Ret Nat × Half → Prop where
  | empty : min len q.max = 0 → Admit q now len h (.error .panic, h)
  | refused : 0 < min len q.max → (∃ t, check q h.tat now (min len q.max) = .notUntil t) →
      Admit q now len h (.error .pending, { h with timer := none })
  | granted (t) : 0 < min len q.max → check q h.tat now (min len q.max) = .granted t →
      Admit q now len h (.ok (min len q.max), { h with tat := some t, timer := none })

theorem admit_admit (q : Quota) (now len : Nat) (h : Half) :
    Admit q now len h (admit q now len h) := by
  simp only [admit]
  split
  · rename_i h0; exact .empty h0
  · rename_i h0
    have hp : 0 < min len q.max := by omega
    have hnn := check_not_never (q := q) (tat := h.tat) (now := now) (n := min len q.max) (by omega)
    cases hc : check q h.tat now (min len q.max) with
    | never => exact absurd hc hnn
    | notUntil t =>
      simp only [pollUntil, hc, dropFut]
      exact .refused hp ⟨t, hc⟩
    | granted t =>
      simp only [pollUntil, hc, dropFut]
      exact .granted t hp hc

/-! ### One half -/

/-- How a half changes in a step at the time `now`. -/
inductive HStep (q : Quota) (now : Nat) : Half → Half → Prop where
  | same (h h') : h'.tat = h.tat → h'.log = h.log → h'.timer = none → HStep q now h h'
  | used (h h' n t m) : 0 < n → n ≤ q.max → m ≤ n → check q h.tat now n = .granted t → h'.tat = some t →
      (h'.log = h.log ∨ h'.log = h.log ++ [(now, m)]) → h'.timer = none → HStep q now h h'

theorem pollRead_hstep (q : Quota) (len : Nat) (o : Offer) (s : Sys) (ht : s.rd.timer = none) :
    HStep q s.now s.rd (pollRead q len o s).2.rd ∧ (pollRead q len o s).2.wr = s.wr ∧
      (pollRead q len o s).2.now = s.now := by
  have ha := admit_admit q s.now len s.rd
  generalize hx : admit q s.now len s.rd = x at ha
  simp only [pollRead, hx]
  cases ha with
  | empty h0 => exact ⟨.same _ _ rfl rfl ht, rfl, rfl⟩
  | refused hp hr => exact ⟨.same _ _ rfl rfl rfl, rfl, rfl⟩
  | granted t hp hg =>
    cases o with
    | fails => exact ⟨.used _ _ _ t 0 hp (by omega) (by omega) hg rfl (Or.inl rfl) rfl, rfl, rfl⟩
    | upTo k =>
      simp only
      split
      · exact ⟨.used _ _ _ t 0 hp (by omega) (by omega) hg rfl (Or.inl rfl) rfl, rfl, rfl⟩
      · exact ⟨.used _ _ _ t _ hp (by omega) (by omega) hg rfl (Or.inr rfl) rfl, rfl, rfl⟩

theorem pollWrite_hstep (q : Quota) (buf : List UInt8) (o : Offer) (s : Sys) (ht : s.wr.timer = none) :
    HStep q s.now s.wr (pollWrite q buf o s).2.wr ∧ (pollWrite q buf o s).2.rd = s.rd ∧
      (pollWrite q buf o s).2.now = s.now := by
  have ha := admit_admit q s.now buf.length s.wr
  generalize hx : admit q s.now buf.length s.wr = x at ha
  simp only [pollWrite, hx]
  cases ha with
  | empty h0 => exact ⟨.same _ _ rfl rfl ht, rfl, rfl⟩
  | refused hp hr => exact ⟨.same _ _ rfl rfl rfl, rfl, rfl⟩
  | granted t hp hg =>
    cases o with
    | fails => exact ⟨.used _ _ _ t 0 hp (by omega) (by omega) hg rfl (Or.inl rfl) rfl, rfl, rfl⟩
    | upTo k =>
      simp only
      split
      · exact ⟨.used _ _ _ t 0 hp (by omega) (by omega) hg rfl (Or.inl rfl) rfl, rfl, rfl⟩
      · exact ⟨.used _ _ _ t _ hp (by omega) (by omega) hg rfl (Or.inr rfl) rfl, rfl, rfl⟩

/-- No timer of the limiter outlives the call that made it. -/
def NoTimer (s : Sys) : Prop := s.rd.timer = none ∧ s.wr.timer = none

theorem HStep.timer {q now h h'} (x : HStep q now h h') : h'.timer = none := by
  cases x <;> assumption

/-- What a step does to the halves and the clock. -/
theorem step_halves {qr qw : Quota} {s s' : Sys} {a : Act} (h : step qr qw s a = some s')
    (ht : NoTimer s) :
    HStep qr s.now s.rd s'.rd ∧ HStep qw s.now s.wr s'.wr ∧ s.now ≤ s'.now ∧
      ((∃ d, a = .tick d) ∨ s'.now = s.now) := by
  obtain ⟨hr, hw⟩ := ht
  cases a with
  | tick d =>
    simp only [step, Option.some.injEq] at h
    subst h
    exact ⟨.same _ _ rfl rfl hr, .same _ _ rfl rfl hw, Nat.le_add_right .., Or.inl ⟨d, rfl⟩⟩
  | arrive bs =>
    simp only [step, Option.some.injEq] at h
    subst h
    exact ⟨.same _ _ rfl rfl hr, .same _ _ rfl rfl hw, Nat.le_refl _, Or.inr rfl⟩
  | drain k =>
    simp only [step, Option.some.injEq] at h
    subst h
    exact ⟨.same _ _ rfl rfl hr, .same _ _ rfl rfl hw, Nat.le_refl _, Or.inr rfl⟩
  | wake =>
    simp only [step, Option.some.injEq] at h
    subst h
    exact ⟨.same _ _ rfl rfl hr, .same _ _ rfl rfl hw, Nat.le_refl _, Or.inr rfl⟩
  | read len o =>
    simp only [step] at h
    split at h
    · simp only [Option.some.injEq] at h
      obtain ⟨h1, h2, h3⟩ := pollRead_hstep qr len o s hr
      subst h
      refine ⟨h1, ?_, by omega, Or.inr h3⟩
      rw [h2]
      exact .same _ _ rfl rfl hw
    · exact absurd h (by simp)
  | write buf o =>
    simp only [step] at h
    split at h
    · simp only [Option.some.injEq] at h
      obtain ⟨h1, h2, h3⟩ := pollWrite_hstep qw buf o s hw
      subst h
      refine ⟨?_, h1, by omega, Or.inr h3⟩
      rw [h2]
      exact .same _ _ rfl rfl hr
    · exact absurd h (by simp)
  | sleep =>
    simp only [step] at h
    split at h
    · simp only [Option.some.injEq] at h
      subst h
      exact ⟨.same _ _ rfl rfl hr, .same _ _ rfl rfl hw, Nat.le_refl _, Or.inr rfl⟩
    · exact absurd h (by simp)

/-! ### The bound -/

theorem moved_append (l1 l2 : List (Nat × Nat)) (a b : Nat) :
    moved (l1 ++ l2) a b = moved l1 a b + moved l2 a b := by
  simp [moved]

theorem moved_one (t m a b : Nat) : moved [(t, m)] a b = if a ≤ t ∧ t ≤ b then m else 0 := by
  by_cases h : a ≤ t ∧ t ≤ b
  · simp only [moved, List.filter_cons, h, if_true, decide_true, and_self, List.filter_nil,
      List.map_cons, List.map_nil, List.sum_cons, List.sum_nil, Nat.add_zero]
  · simp only [moved, List.filter_cons, h, if_false, decide_false, List.filter_nil,
      List.map_nil, List.sum_nil, Bool.false_eq_true]

/-- The invariant of a half. -/
structure HInv (q : Quota) (now : Nat) (h : Half) : Prop where
  past : ∀ e ∈ h.log, e.1 ≤ now
  paid : ∀ a b, 0 < moved h.log a b → a + q.per * moved h.log a b ≤ h.tat.getD 0
  tat : h.tat.getD 0 ≤ now + q.per * (q.max + 1)
  bound : ∀ a b, a ≤ b → q.per * moved h.log a b ≤ (b - a) + q.per * (q.max + 1)

theorem HInv.init (q : Quota) : HInv q 0 {} :=
  ⟨by simp, by simp [moved], by simp, by simp [moved]⟩

theorem HInv.mono {q now now' h} (x : HInv q now h) (hn : now ≤ now') : HInv q now' h :=
  ⟨fun e he => Nat.le_trans (x.past e he) hn, x.paid, by have := x.tat; omega, x.bound⟩

theorem HInv.step {q now h h'} (x : HInv q now h) (st : HStep q now h h') : HInv q now h' := by
  cases st with
  | same ht hl _ =>
    exact ⟨by rw [hl]; exact x.past, by rw [hl, ht]; exact x.paid, by rw [ht]; exact x.tat,
      by rw [hl]; exact x.bound⟩
  | used n t m hn hmax hm hg ht hl _ =>
    obtain ⟨g1, g2, g3⟩ := check_granted hn hg
    have hmul : q.per * m ≤ q.per * n := Nat.mul_le_mul_left _ hm
    rcases hl with hl | hl
    · refine ⟨by rw [hl]; exact x.past, ?_, by rw [ht]; simp only [Option.getD]; omega,
        by rw [hl]; exact x.bound⟩
      intro a b hp
      rw [hl] at hp ⊢
      have := x.paid a b hp
      rw [ht]
      simp only [Option.getD]
      omega
    · refine ⟨?_, ?_, by rw [ht]; simp only [Option.getD]; omega, ?_⟩
      · intro e he
        rw [hl, List.mem_append, List.mem_singleton] at he
        rcases he with he | he
        · exact x.past e he
        · subst he; exact Nat.le_refl _
      · intro a b hp
        rw [hl, moved_append, moved_one] at hp ⊢
        rw [ht]
        simp only [Option.getD]
        split at hp
        · rename_i hw
          rw [if_pos hw, Nat.mul_add]
          by_cases h0 : moved h.log a b = 0
          · rw [h0, Nat.mul_zero]; omega
          · have := x.paid a b (by omega); omega
        · rename_i hw
          rw [if_neg hw]
          have := x.paid a b (by omega)
          simp only [Nat.add_zero]
          omega
      · intro a b hab
        rw [hl, moved_append, moved_one]
        split
        · rename_i hw
          rw [Nat.mul_add]
          by_cases h0 : moved h.log a b = 0
          · rw [h0, Nat.mul_zero]
            omega
          · have := x.paid a b (by omega)
            omega
        · simp only [Nat.add_zero]
          exact x.bound a b hab

structure Inv (qr qw : Quota) (s : Sys) : Prop where
  timer : NoTimer s
  rd : HInv qr s.now s.rd
  wr : HInv qw s.now s.wr

theorem inv_step {qr qw : Quota} (s : Sys) (a : Act) (s' : Sys) (h : step qr qw s a = some s')
    (x : Inv qr qw s) : Inv qr qw s' := by
  obtain ⟨h1, h2, h3, _⟩ := step_halves h x.timer
  exact ⟨⟨h1.timer, h2.timer⟩, (x.rd.step h1).mono h3, (x.wr.step h2).mono h3⟩

theorem inv_run {qr qw : Quota} {acts : List Act} {s : Sys} (h : run qr qw init acts = some s) :
    Inv qr qw s :=
  run_induct (Inv qr qw) inv_step acts init s h ⟨⟨rfl, rfl⟩, HInv.init qr, HInv.init qw⟩

end Verif.Rate
