import Verif.Rate.Lemmas

namespace Verif.Rate

open Verif.Rate.Spec

/-! ### What is read and written -/

/-- The outcome of a read. -/
theorem pollRead_cases (q : Quota) (len : Nat) (o : Offer) (s : Sys) :
    (∃ m, (pollRead q len o s).1 = .done m ∧ 1 ≤ m ∧ m ≤ len ∧ m ≤ q.max ∧ m ≤ s.inbox.length ∧
        (pollRead q len o s).2.got = s.got ++ s.inbox.take m ∧
        (pollRead q len o s).2.inbox = s.inbox.drop m) ∨
    ((∀ m, (pollRead q len o s).1 ≠ .done m) ∧ (pollRead q len o s).2.got = s.got ∧
        (pollRead q len o s).2.inbox = s.inbox) := by
  have ha := admit_admit q s.now len s.rd
  generalize hx : admit q s.now len s.rd = x at ha
  simp only [pollRead, hx]
  cases ha with
  | empty h0 => exact Or.inr ⟨by simp, rfl, rfl⟩
  | refused hp hr => exact Or.inr ⟨by simp, rfl, rfl⟩
  | granted t hp hg =>
    cases o with
    | fails => exact Or.inr ⟨by simp, rfl, rfl⟩
    | upTo k =>
      simp only
      split
      · exact Or.inr ⟨by simp, rfl, rfl⟩
      · exact Or.inl ⟨_, rfl, by omega, by omega, by omega, by omega, rfl, rfl⟩

/-- The outcome of a write. -/
theorem pollWrite_cases (q : Quota) (buf : List UInt8) (o : Offer) (s : Sys) :
    (∃ m, (pollWrite q buf o s).1 = .done m ∧ 1 ≤ m ∧ m ≤ buf.length ∧ m ≤ q.max ∧
        (pollWrite q buf o s).2.sent = s.sent ++ buf.take m) ∨
    ((∀ m, (pollWrite q buf o s).1 ≠ .done m) ∧ (pollWrite q buf o s).2.sent = s.sent) := by
  have ha := admit_admit q s.now buf.length s.wr
  generalize hx : admit q s.now buf.length s.wr = x at ha
  simp only [pollWrite, hx]
  cases ha with
  | empty h0 => exact Or.inr ⟨by simp, rfl⟩
  | refused hp hr => exact Or.inr ⟨by simp, rfl⟩
  | granted t hp hg =>
    cases o with
    | fails => exact Or.inr ⟨by simp, rfl⟩
    | upTo k =>
      simp only
      split
      · exact Or.inr ⟨by simp, rfl⟩
      · exact Or.inl ⟨_, rfl, by omega, by omega, by omega, rfl⟩

theorem pollWrite_read (q : Quota) (buf : List UInt8) (o : Offer) (s : Sys) :
    (pollWrite q buf o s).2.got = s.got ∧ (pollWrite q buf o s).2.inbox = s.inbox ∧
      (pollWrite q buf o s).2.rd = s.rd := by
  simp only [pollWrite]
  rcases admit q s.now buf.length s.wr with ⟨_ | n, h⟩
  · exact ⟨rfl, rfl, rfl⟩
  · cases o with
    | fails => exact ⟨rfl, rfl, rfl⟩
    | upTo k => simp only; split <;> exact ⟨rfl, rfl, rfl⟩

theorem pollRead_write (q : Quota) (len : Nat) (o : Offer) (s : Sys) :
    (pollRead q len o s).2.sent = s.sent ∧ (pollRead q len o s).2.wr = s.wr := by
  simp only [pollRead]
  rcases admit q s.now len s.rd with ⟨_ | n, h⟩
  · exact ⟨rfl, rfl⟩
  · cases o with
    | fails => exact ⟨rfl, rfl⟩
    | upTo k => simp only; split <;> exact ⟨rfl, rfl⟩

theorem bytes_step {qr qw : Quota} {s s' : Sys} {a : Act} (h : step qr qw s a = some s') :
    s'.got ++ s'.inbox = s.got ++ s.inbox ++ arrived [a] := by
  cases a with
  | tick d => simp only [step, Option.some.injEq] at h; subst h; simp [arrived]
  | arrive bs => simp only [step, Option.some.injEq] at h; subst h; simp [arrived]
  | drain k => simp only [step, Option.some.injEq] at h; subst h; simp [arrived]
  | wake => simp only [step, Option.some.injEq] at h; subst h; simp [arrived]
  | read len o =>
    simp only [step] at h
    split at h
    · simp only [Option.some.injEq] at h
      subst h
      rcases pollRead_cases qr len o s with ⟨m, _, _, _, _, _, h1, h2⟩ | ⟨_, h1, h2⟩
      · rw [h1, h2]; simp [arrived]
      · rw [h1, h2]; simp [arrived]
    · exact absurd h (by simp)
  | write buf o =>
    simp only [step] at h
    split at h
    · simp only [Option.some.injEq] at h
      subst h
      obtain ⟨h1, h2, _⟩ := pollWrite_read qw buf o s
      rw [h1, h2]; simp [arrived]
    · exact absurd h (by simp)
  | sleep =>
    simp only [step] at h
    split at h
    · simp only [Option.some.injEq] at h; subst h; simp [arrived]
    · exact absurd h (by simp)

theorem arrived_cons (a : Act) (as : List Act) : arrived (a :: as) = arrived [a] ++ arrived as := by
  cases a <;> simp [arrived]

theorem bytes_run {qr qw : Quota} : ∀ acts s s', run qr qw s acts = some s' →
    s'.got ++ s'.inbox = s.got ++ s.inbox ++ arrived acts := by
  intro acts
  induction acts with
  | nil => intro s s' h; simp only [run, Option.some.injEq] at h; subst h; simp [arrived]
  | cons a as ih =>
    intro s s' h
    simp only [run] at h
    split at h
    · rename_i s1 h1
      rw [ih s1 s' h, bytes_step h1, arrived_cons a as]
      simp
    · exact absurd h (by simp)

/-! ### A task that nothing will wake -/

structure Dead (g : List UInt8) (s : Sys) : Prop where
  asleep : s.awake = false
  rw : s.rd.waker = false
  ww : s.wr.waker = false
  rt : s.rd.timer = none
  wt : s.wr.timer = none
  got : s.got = g

theorem dead_step {qr qw : Quota} {g s s' a} (h : step qr qw s a = some s') (ha : a ≠ .wake)
    (x : Dead g s) : Dead g s' := by
  obtain ⟨x1, x2, x3, x4, x5, x6⟩ := x
  cases a with
  | tick d =>
    simp only [step, Option.some.injEq] at h; subst h
    exact ⟨by simp [x1, due, x4, x5], x2, x3, x4, x5, x6⟩
  | arrive bs =>
    simp only [step, Option.some.injEq] at h; subst h
    exact ⟨by simp [x1, x2], rfl, x3, x4, x5, x6⟩
  | drain k =>
    simp only [step, Option.some.injEq] at h; subst h
    exact ⟨by simp [x1, x3], x2, rfl, x4, x5, x6⟩
  | wake => exact absurd rfl ha
  | read len o => simp [step, x1] at h
  | write buf o => simp [step, x1] at h
  | sleep => simp [step, x1] at h

theorem dead_run {qr qw : Quota} {g} : ∀ acts s s', run qr qw s acts = some s' →
    NoOtherWake acts → Dead g s → Dead g s' := by
  intro acts
  induction acts with
  | nil => intro s s' h _ x; simp only [run, Option.some.injEq] at h; exact h ▸ x
  | cons a as ih =>
    intro s s' h hw x
    simp only [NoOtherWake, List.mem_cons, not_or] at hw
    simp only [run] at h
    split at h
    · rename_i s1 h1
      exact ih s1 s' h hw.2 (dead_step h1 (fun e => hw.1 e.symm) x)
    · exact absurd h (by simp)

/-! ### Using the limiter to the full -/

/-- Pass one interval and read one byte, again and again. -/
def drip (per : Nat) : Nat → List Act
  | 0 => []
  | k + 1 => .tick per :: .read 1 (.upTo 0) :: drip per k

/-- The state while this goes on: `i` bytes were read after the first `max`. -/
structure Full (q : Quota) (i left : Nat) (s : Sys) : Prop where
  awake : s.awake = true
  now : s.now = i * q.per
  tat : s.rd.tat = some ((i + 1) * q.per + q.max * q.per)
  inbox : s.inbox.length = left
  log : ∀ b, i * q.per ≤ b → moved s.rd.log 0 b = q.max + i

theorem full_step {q qw : Quota} {i left : Nat} {s : Sys} (hm : 0 < q.max)
    (x : Full q i (left + 1) s) :
    ∃ s', run q qw s [.tick q.per, .read 1 (.upTo 0)] = some s' ∧ Full q (i + 1) left s' := by
  obtain ⟨x1, x2, x3, x4, x5⟩ := x
  have hmin : min 1 q.max = 1 := by omega
  have e : (i + 1) * q.per = i * q.per + q.per := Nat.succ_mul ..
  have hcap : ¬ q.per * q.max < q.per * 1 := by
    have : q.per * 1 ≤ q.per * q.max := Nat.mul_le_mul_left _ hm
    omega
  have hcm : q.per * q.max = q.max * q.per := Nat.mul_comm ..
  have hc : check q s.rd.tat (s.now + q.per) 1 =
      .granted ((i + 2) * q.per + q.max * q.per) := by
    simp only [check, hcap, if_false, x3, Option.getD, x2]
    rw [if_neg (by simp only [Nat.sub_self, Nat.mul_zero]; omega)]
    congr 1
    have e2 : (i + 2) * q.per = i * q.per + q.per + q.per := by
      rw [show i + 2 = (i + 1) + 1 from rfl, Nat.succ_mul, e]
    rw [Nat.max_eq_left (by omega)]
    omega
  have hne : ¬ min 1 (min (0 + 1) s.inbox.length) = 0 := by omega
  have hmin1 : min 1 (min (0 + 1) s.inbox.length) = 1 := by omega
  refine ⟨_, by simp [run, step, x1]; rfl, ?_⟩
  simp only [pollRead, admit, pollUntil, dropFut, hmin, hc, Nat.one_ne_zero, if_false, hmin1]
  refine ⟨by simp, by simp only [x2]; omega, rfl, by simp [x4], ?_⟩
  intro b hb
  simp only [moved_append, moved_one, x2]
  rw [if_pos ⟨Nat.zero_le _, by omega⟩, x5 b (by omega)]
  omega

theorem full_run {q qw : Quota} (hm : 0 < q.max) : ∀ k i s, Full q i k s →
    ∃ s', run q qw s (drip q.per k) = some s' ∧ Full q (i + k) 0 s' := by
  intro k
  induction k with
  | zero => intro i s x; exact ⟨s, rfl, x⟩
  | succ k ih =>
    intro i s x
    obtain ⟨s1, h1, x1⟩ := full_step (qw := qw) hm x
    obtain ⟨s2, h2, x2⟩ := ih (i + 1) s1 x1
    refine ⟨s2, ?_, by rw [show i + (k + 1) = i + 1 + k by omega]; exact x2⟩
    have : drip q.per (k + 1) = [.tick q.per, .read 1 (.upTo 0)] ++ drip q.per k := rfl
    rw [this, run_append, h1]
    exact h2

/-- The whole of it: `max` bytes at once, then `k` more, one each interval. -/
def flood (q : Quota) (k : Nat) : List Act :=
  .arrive (List.replicate (q.max + k) 0) :: .read q.max (.upTo q.max) :: drip q.per k

theorem flood_run {q qw : Quota} (hm : 0 < q.max) (k : Nat) :
    ∃ s, run q qw init (flood q k) = some s ∧ Full q k 0 s := by
  have hcap : ¬ q.per * q.max < q.per * q.max := Nat.lt_irrefl _
  have e1 : q.per * q.max = q.per * (q.max - 1) + q.per := by
    obtain ⟨m, hm'⟩ : ∃ m, q.max = m + 1 := ⟨q.max - 1, by omega⟩
    rw [hm']; simp [Nat.mul_succ]
  have hcm : q.per * q.max = q.max * q.per := Nat.mul_comm ..
  have hc : check q none 0 q.max = .granted (q.per + q.per * q.max) := by
    simp only [check, hcap, if_false, Option.getD]
    rw [if_neg (by omega), Nat.max_eq_left (by omega)]
    congr 1
    omega
  have hmin : min q.max q.max = q.max := Nat.min_self _
  have hne : ¬ q.max = 0 := by omega
  have hm2 : min q.max (min (q.max + 1) (q.max + k)) = q.max := by omega
  have hfull : ∃ s, run q qw init [.arrive (List.replicate (q.max + k) 0), .read q.max (.upTo q.max)] = some s ∧
      Full q 0 k s := by
    refine ⟨_, by simp [run, step, init]; rfl, ?_⟩
    simp only [pollRead, admit, pollUntil, dropFut, hmin, hc, hne, if_false, List.length_replicate,
      hm2, init, List.nil_append]
    refine ⟨rfl, by simp, by simp only; congr 1; omega, by simp, ?_⟩
    intro b hb
    simp only [List.nil_append, moved_one]
    rw [if_pos ⟨Nat.zero_le _, by omega⟩]
    omega
  obtain ⟨s, hs, hx⟩ := hfull
  obtain ⟨s', hs', hx'⟩ := full_run (qw := qw) hm k 0 s hx
  refine ⟨s', ?_, by simpa using hx'⟩
  have : flood q k = [.arrive (List.replicate (q.max + k) 0), .read q.max (.upTo q.max)] ++ drip q.per k := rfl
  rw [this, run_append, hs]
  exact hs'

end Verif.Rate
