import Verif.Rate.Base

/-
C96. The bandwidth limit on connections with peers.

A run starts with a new connection (`init`) with the quota `qr` for reading and `qw` for
writing; `perSecond m` is the quota for a limit of `m` bytes per second.
-/

namespace Verif.Rate

open Verif.Rate.Spec

/-- In every stretch of time, in each direction, at most `max + 1` bytes go through and
one more for each interval between permits. -/
theorem C96_rate (qr qw : Quota) (acts : List Act) (s : Sys) (h : run qr qw init acts = some s)
    (a b : Nat) (hab : a ≤ b) :
    qr.per * moved s.rd.log a b ≤ (b - a) + qr.per * (qr.max + 1) ∧
    qw.per * moved s.wr.log a b ≤ (b - a) + qw.per * (qw.max + 1) :=
  ⟨(inv_run h).rd.bound a b hab, (inv_run h).wr.bound a b hab⟩

/-- Ten bytes arrive under a limit of 4 (in intervals of 250 ms); 4 are read, then one
a quarter of a second later. -/
def exRate : List Act :=
  [.arrive [1, 2, 3, 4, 5, 6, 7, 8, 9, 10], .read 8 (.upTo 100), .read 8 (.upTo 100),
   .tick 250000000, .read 1 (.upTo 0)]

example : ∃ s, run (perSecond 4) (perSecond 4) init exRate = some s ∧
    s.rd.log = [(0, 4), (250000000, 1)] ∧ s.got = [1, 2, 3, 4, 5] :=
  ⟨_, rfl, by decide, by decide⟩

/-- A limit that divides a second into whole nanoseconds is kept.  Missing: other limits,
for which this is false (`C96_limit_violated`). -/
theorem C96_limit_partial (mr mw : Nat) (hr : mr ∣ 1000000000) (hw : mw ∣ 1000000000)
    (acts : List Act) (s : Sys) (h : run (perSecond mr) (perSecond mw) init acts = some s) :
    WithinLimit mr s.rd.log ∧ WithinLimit mw s.wr.log := by
  have key : ∀ m, m ∣ 1000000000 → ∀ x t, (perSecond m).per * x ≤ t + (perSecond m).per * ((perSecond m).max + 1) →
      x * 1000000000 ≤ m * t + 1000000000 * (m + 1) := by
    intro m hm x t hx
    have e : m * (1000000000 / m) = 1000000000 := Nat.mul_div_cancel' hm
    simp only [perSecond] at hx
    have h2 := Nat.mul_le_mul_left m hx
    rw [Nat.mul_add, ← Nat.mul_assoc, ← Nat.mul_assoc, e] at h2
    omega
  constructor
  · intro a b hab
    exact key mr hr _ _ (C96_rate _ _ acts s h a b hab).1
  · intro a b hab
    exact key mw hw _ _ (C96_rate _ _ acts s h a b hab).2

example : ∃ s, run (perSecond 20000000) (perSecond 12500000) init
      [.drain 3, .write [1, 2, 3, 4] (.upTo 9)] = some s ∧ s.sent = [1, 2, 3] ∧
    20000000 ∣ 1000000000 ∧ 12500000 ∣ 1000000000 := by
  refine ⟨_, rfl, by decide, by decide, by decide⟩

/-- F73.  Any other limit is exceeded, among them the least one that is accepted: the
interval between permits is rounded down. -/
theorem C96_limit_violated (m : Nat) (hm : 0 < m) (hd : ¬ m ∣ 1000000000) (qw : Quota) :
    ∃ acts s, run (perSecond m) qw init acts = some s ∧ ¬ WithinLimit m s.rd.log := by
  obtain ⟨s, hs, x⟩ := flood_run (q := perSecond m) (qw := qw) hm 1000000001
  refine ⟨_, s, hs, ?_⟩
  intro hw
  have hlog := x.log (1000000001 * (perSecond m).per) (Nat.le_refl _)
  have := hw 0 (1000000001 * (perSecond m).per) (Nat.zero_le _)
  rw [hlog] at this
  simp only [perSecond, Nat.sub_zero] at this
  have hlt : m * (1000000000 / m) + 1 ≤ 1000000000 := by
    have h1 : m * (1000000000 / m) ≤ 1000000000 := Nat.mul_div_le ..
    have h2 : m * (1000000000 / m) ≠ 1000000000 := fun e => hd ⟨_, e.symm⟩
    omega
  rw [Nat.mul_left_comm] at this
  omega

example : ¬ minBytesPerSec ∣ 1000000000 := by decide

/-- F73.  A limit above 10⁹ is none: any number of bytes goes through at once. -/
theorem C96_unlimited_violated (m : Nat) (hm : 1000000000 < m) (qw : Quota) (n : Nat) :
    ∃ acts s, run (perSecond m) qw init acts = some s ∧ n ≤ moved s.rd.log 0 0 := by
  obtain ⟨s, hs, x⟩ := flood_run (q := perSecond m) (qw := qw) (by simp only [perSecond]; omega) n
  have hp : (perSecond m).per = 0 := Nat.div_eq_of_lt hm
  refine ⟨_, s, hs, ?_⟩
  have := x.log 0 (by rw [hp]; simp)
  omega

example : configure (some 2000000000) (some 2000000000) =
    .limited ⟨2000000000, 0⟩ ⟨2000000000, 0⟩ := by decide

/-- What is read is what arrived, in order, without gaps; the rest is still there. -/
theorem C96_read_bytes (qr qw : Quota) (acts : List Act) (s : Sys)
    (h : run qr qw init acts = some s) : s.got ++ s.inbox = arrived acts := by
  simpa [init] using bytes_run acts init s h

example : ∃ s, run (perSecond 4) (perSecond 4) init exRate = some s ∧ s.inbox = [6, 7, 8, 9, 10] :=
  ⟨_, rfl, by decide⟩

/-- A write that reports `m` bytes has passed on the first `m` bytes of the buffer, at
least one; any other has passed on none; and a write has no effect on reading. -/
theorem C96_write_call (q : Quota) (buf : List UInt8) (o : Offer) (s : Sys) :
    ((∃ m, (pollWrite q buf o s).1 = .done m ∧ 1 ≤ m ∧ m ≤ buf.length ∧
        (pollWrite q buf o s).2.sent = s.sent ++ buf.take m) ∨
     ((∀ m, (pollWrite q buf o s).1 ≠ .done m) ∧ (pollWrite q buf o s).2.sent = s.sent)) ∧
    (pollWrite q buf o s).2.got = s.got ∧ (pollWrite q buf o s).2.inbox = s.inbox ∧
    (pollWrite q buf o s).2.rd = s.rd := by
  refine ⟨?_, pollWrite_read q buf o s⟩
  rcases pollWrite_cases q buf o s with ⟨m, h1, h2, h3, _, h4⟩ | h
  · exact Or.inl ⟨m, h1, h2, h3, h4⟩
  · exact Or.inr h

/-- A read that reports `m` bytes has taken the next `m` bytes that arrived, at least one
and no more than the buffer holds; any other has taken none; and a read has no effect on
writing. -/
theorem C96_read_call (q : Quota) (len : Nat) (o : Offer) (s : Sys) :
    ((∃ m, (pollRead q len o s).1 = .done m ∧ 1 ≤ m ∧ m ≤ len ∧
        (pollRead q len o s).2.got = s.got ++ s.inbox.take m ∧
        (pollRead q len o s).2.inbox = s.inbox.drop m) ∨
     ((∀ m, (pollRead q len o s).1 ≠ .done m) ∧ (pollRead q len o s).2.got = s.got ∧
        (pollRead q len o s).2.inbox = s.inbox)) ∧
    (pollRead q len o s).2.sent = s.sent ∧ (pollRead q len o s).2.wr = s.wr := by
  refine ⟨?_, pollRead_write q len o s⟩
  rcases pollRead_cases q len o s with ⟨m, h1, h2, h3, _, _, h4, h5⟩ | h
  · exact Or.inl ⟨m, h1, h2, h3, h4, h5⟩
  · exact Or.inr h

example : (pollRead (perSecond 4) 8 (.upTo 1) { inbox := [1, 2, 3] }).1 = .done 2 ∧
    (pollWrite (perSecond 4) [1, 2, 3, 4, 5, 6] (.upTo 9) { room := 5 }).1 = .done 4 := by decide

/-- After a connection was left alone for as long as it takes to get all permits back,
the limiter does not hold up a read or a write: it gets through, or fails, or waits for
the socket, as the socket decides, and in the last case the socket will wake the task. -/
theorem C96_rested (qr qw : Quota) (hr : 0 < qr.max) (hw : 0 < qw.max) (acts : List Act) (s : Sys)
    (h : run qr qw init acts = some s) (d : Nat)
    (hdr : qr.per * (qr.max + 1) ≤ d) (hdw : qw.per * (qw.max + 1) ≤ d) :
    (∀ len k, 0 < len → s.inbox ≠ [] →
        ∃ m, (pollRead qr len (.upTo k) { s with now := s.now + d }).1 = .done m) ∧
    (∀ len k, 0 < len → s.inbox = [] →
        (pollRead qr len (.upTo k) { s with now := s.now + d }).1 = .pending ∧
        (pollRead qr len (.upTo k) { s with now := s.now + d }).2.rd.waker = true) ∧
    (∀ buf k, buf ≠ [] → 0 < s.room →
        ∃ m, (pollWrite qw buf (.upTo k) { s with now := s.now + d }).1 = .done m) ∧
    (∀ buf k, buf ≠ [] → s.room = 0 →
        (pollWrite qw buf (.upTo k) { s with now := s.now + d }).1 = .pending ∧
        (pollWrite qw buf (.upTo k) { s with now := s.now + d }).2.wr.waker = true) := by
  have hi := inv_run h
  have tr : ∀ v, s.rd.tat = some v → v ≤ s.now + d := by
    intro v hv
    have := hi.rd.tat
    rw [hv] at this
    simp only [Option.getD] at this
    omega
  have tw : ∀ v, s.wr.tat = some v → v ≤ s.now + d := by
    intro v hv
    have := hi.wr.tat
    rw [hv] at this
    simp only [Option.getD] at this
    omega
  have rd : ∀ len, 0 < len → ∃ t, admit qr (s.now + d) len s.rd =
      (.ok (min len qr.max), { s.rd with tat := some t, timer := none }) := by
    intro len hl
    obtain ⟨t, ht⟩ := check_rested (q := qr) (n := min len qr.max) (by omega) (by omega) tr
    refine ⟨t, ?_⟩
    have : ¬ min len qr.max = 0 := by omega
    simp only [admit, this, if_false, pollUntil, ht, dropFut]
  have wr : ∀ len, 0 < len → ∃ t, admit qw (s.now + d) len s.wr =
      (.ok (min len qw.max), { s.wr with tat := some t, timer := none }) := by
    intro len hl
    obtain ⟨t, ht⟩ := check_rested (q := qw) (n := min len qw.max) (by omega) (by omega) tw
    refine ⟨t, ?_⟩
    have : ¬ min len qw.max = 0 := by omega
    simp only [admit, this, if_false, pollUntil, ht, dropFut]
  refine ⟨?_, ?_, ?_, ?_⟩
  · intro len k hl hin
    obtain ⟨t, ht⟩ := rd len hl
    have hlen : 0 < s.inbox.length := List.length_pos_iff.mpr hin
    simp only [pollRead, ht]
    rw [if_neg (by omega)]
    exact ⟨_, rfl⟩
  · intro len k hl hin
    obtain ⟨t, ht⟩ := rd len hl
    simp only [pollRead, ht, hin, List.length_nil]
    rw [if_pos (by omega)]
    exact ⟨rfl, rfl⟩
  · intro buf k hl hin
    obtain ⟨t, ht⟩ := wr buf.length (List.length_pos_iff.mpr hl)
    have hlen : 0 < buf.length := List.length_pos_iff.mpr hl
    simp only [pollWrite, ht]
    rw [if_neg (by omega)]
    exact ⟨_, rfl⟩
  · intro buf k hl hin
    obtain ⟨t, ht⟩ := wr buf.length (List.length_pos_iff.mpr hl)
    simp only [pollWrite, ht, hin]
    rw [if_pos (by omega)]
    exact ⟨rfl, rfl⟩

example : (perSecond 4).per * ((perSecond 4).max + 1) ≤ 1250000000 := by decide

/-- A task that sleeps while the socket has its waker runs again once bytes arrive, or
once there is room, and not because of the limiter. -/
theorem C96_socket_wakes (qr qw : Quota) (s : Sys) (bs : List UInt8) (k : Nat) :
    (s.rd.waker = true → ∃ s', step qr qw s (.arrive bs) = some s' ∧ s'.awake = true) ∧
    (s.wr.waker = true → ∃ s', step qr qw s (.drain k) = some s' ∧ s'.awake = true) := by
  constructor
  · intro h; exact ⟨_, rfl, by simp [h]⟩
  · intro h; exact ⟨_, rfl, by simp [h]⟩

example : ∃ s, run (perSecond 4) (perSecond 4) init [.read 4 (.upTo 9), .sleep] = some s ∧
    s.rd.waker = true ∧ s.awake = false := ⟨_, rfl, by decide, by decide⟩

/-- The run of the following theorems: a read of a whole quota finds nothing, a byte
arrives, and the read is tried again. -/
def starved (q : Quota) : List Act :=
  [.read q.max (.upTo q.max), .arrive [7], .read q.max (.upTo q.max), .sleep]

theorem starved_run (q qw : Quota) (hm : 0 < q.max) (hp : 0 < q.per) :
    run q qw init (starved q) = some
      { rd := { tat := some (q.per + q.per * q.max) }, inbox := [7], awake := false } := by
  have e1 : q.per * q.max = q.per * (q.max - 1) + q.per := by
    obtain ⟨m, hm'⟩ : ∃ m, q.max = m + 1 := ⟨q.max - 1, by omega⟩
    rw [hm']; simp [Nat.mul_succ]
  have hc : check q none 0 q.max = .granted (q.per + q.per * q.max) := by
    simp only [check, Nat.lt_irrefl, if_false, Option.getD]
    rw [if_neg (by omega), Nat.max_eq_left (by omega)]
    congr 1
    omega
  have hpm : 0 < q.per * q.max := Nat.mul_pos hp hm
  have hc2 : check q (some (q.per + q.per * q.max)) 0 q.max = .notUntil (q.per * q.max) := by
    simp only [check, Nat.lt_irrefl, if_false, Option.getD]
    rw [if_pos (by omega)]
    congr 1
    omega
  have hne : ¬ q.max = 0 := by omega
  simp only [starved, run, step, init, pollRead, admit, Nat.min_self, hne, if_false, pollUntil, hc, dropFut,
    List.length_nil, Nat.min_zero, if_true, List.nil_append, Bool.or_true, hc2, Bool.true_or]

/-- F74.  A read that has to wait for permits is not taken up again when they are there:
the timer that would wake the task is dropped when the call returns.  Here a byte has
arrived, the task sleeps, and unless something else wakes it, it sleeps whatever time
passes and whatever more arrives. -/
theorem C96_stall_violated (q qw : Quota) (hm : 0 < q.max) (hp : 0 < q.per) :
    ∃ acts s, run q qw init acts = some s ∧ s.inbox = [7] ∧
      ∀ more s', NoOtherWake more → run q qw s more = some s' → s'.awake = false ∧ s'.got = [] := by
  refine ⟨_, _, starved_run q qw hm hp, rfl, ?_⟩
  intro more s' hn hr
  have := dead_run (g := []) more _ s' hr hn ⟨rfl, rfl, rfl, rfl, rfl, rfl⟩
  exact ⟨this.asleep, this.got⟩

example : ∃ s', run (perSecond 4) (perSecond 4)
      { rd := { tat := some 1250000000 }, inbox := [7], awake := false }
      [.tick 5000000000, .arrive [8], .tick 5000000000, .drain 4] = some s' ∧ s'.inbox = [7, 8] :=
  ⟨_, rfl, by decide⟩

/-- F75.  Permits are taken for the whole buffer before the socket is asked, and are not
given back: a connection on which no byte ever went through, with a byte to be read,
refuses to read one byte. -/
theorem C96_waste_violated (q qw : Quota) (hm : 0 < q.max) (hp : 0 < q.per) :
    ∃ acts s, run q qw init acts = some s ∧ s.rd.log = [] ∧ s.wr.log = [] ∧ s.inbox ≠ [] ∧
      ∀ k, (pollRead q 1 (.upTo k) s).1 = .pending ∧ (pollRead q 1 (.upTo k) s).2.got = [] := by
  refine ⟨_, _, starved_run q qw hm hp, rfl, rfl, by simp, ?_⟩
  intro k
  have hmin : min 1 q.max = 1 := by omega
  have hcap : ¬ q.per * q.max < q.per * 1 := by
    have : q.per * 1 ≤ q.per * q.max := Nat.mul_le_mul_left _ hm
    omega
  have hc : ∃ t, check q (some (q.per + q.per * q.max)) 0 1 = .notUntil t := by
    simp only [check, hcap, if_false, Option.getD]
    rw [if_pos (by simp only [Nat.sub_self, Nat.mul_zero]; omega)]
    exact ⟨_, rfl⟩
  obtain ⟨t, ht⟩ := hc
  simp only [pollRead, admit, hmin, Nat.one_ne_zero, if_false, pollUntil, ht, dropFut]
  exact ⟨trivial, trivial⟩

example : 0 < (perSecond minBytesPerSec).max ∧ 0 < (perSecond minBytesPerSec).per := by decide

/-- F76.  A read into an empty buffer, or a write of nothing, panics. -/
theorem C96_empty_violated (q : Quota) (o : Offer) (s : Sys) :
    (pollRead q 0 o s).1 = .panic ∧ (pollWrite q [] o s).1 = .panic := by
  simp [pollRead, pollWrite, admit]

/-- Any other call does not panic.  Missing: empty buffers (`C96_empty_violated`). -/
theorem C96_no_panic_partial (q : Quota) (hm : 0 < q.max) (o : Offer) (s : Sys) :
    (∀ len, 0 < len → (pollRead q len o s).1 ≠ .panic) ∧
    (∀ buf, buf ≠ [] → (pollWrite q buf o s).1 ≠ .panic) := by
  constructor
  · intro len hl
    have ha := admit_admit q s.now len s.rd
    generalize hx : admit q s.now len s.rd = x at ha
    simp only [pollRead, hx]
    cases ha with
    | empty h0 => omega
    | refused hp hr => simp
    | granted t hp hg =>
      cases o with
      | fails => simp
      | upTo k => simp only; split <;> simp
  · intro buf hb
    have hl : 0 < buf.length := List.length_pos_iff.mpr hb
    have ha := admit_admit q s.now buf.length s.wr
    generalize hx : admit q s.now buf.length s.wr = x at ha
    simp only [pollWrite, hx]
    cases ha with
    | empty h0 => omega
    | refused hp hr => simp
    | granted t hp hg =>
      cases o with
      | fails => simp
      | upTo k => simp only; split <;> simp

/-- The two options together: without them there is no limit; with both, each at least
10 MiB and within 32 bits, each connection gets those; anything else is refused. -/
theorem C96_options (rd wr : Option Nat) :
    configure rd wr ≠ .panic ∧
    (configure rd wr = .unlimited ↔ rd = none ∧ wr = none) ∧
    (∀ qr qw, configure rd wr = .limited qr qw ↔
      ∃ r w, rd = some r ∧ wr = some w ∧ 10485760 ≤ r ∧ r < 2 ^ 32 ∧ 10485760 ≤ w ∧ w < 2 ^ 32 ∧
        qr = perSecond r ∧ qw = perSecond w) := by
  have hmin : minBytesPerSec = 10485760 := rfl
  cases rd with
  | none =>
    cases wr with
    | none => simp [configure]
    | some w => simp [configure]
  | some r =>
    cases wr with
    | none => simp [configure]
    | some w =>
      simp only [configure, Option.isSome_some, bne_self_eq_false, Bool.false_eq_true, if_false,
        Option.any_some, Bool.or_eq_true, decide_eq_true_eq, hmin]
      split
      · rename_i h1
        refine ⟨by simp, by simp, ?_⟩
        intro qr qw
        constructor
        · intro h; simp at h
        · rintro ⟨r', w', e1, e2, _⟩
          simp only [Option.some.injEq] at e1 e2
          omega
      · split
        · refine ⟨by simp, by simp, ?_⟩
          intro qr qw
          constructor
          · intro h; simp at h
          · rintro ⟨r', w', e1, e2, _⟩
            simp only [Option.some.injEq] at e1 e2
            omega
        · refine ⟨by simp, by simp, ?_⟩
          intro qr qw
          constructor
          · intro h
            simp only [Limits.limited.injEq] at h
            exact ⟨r, w, rfl, rfl, by omega, by omega, by omega, by omega, h.1.symm, h.2.symm⟩
          · rintro ⟨r', w', e1, e2, _, _, _, _, e3, e4⟩
            simp only [Option.some.injEq] at e1 e2
            subst e1 e2 e3 e4
            rfl

example : configure (some 10485760) (some 20000000) = .limited ⟨10485760, 95⟩ ⟨20000000, 50⟩ ∧
    configure (some 10485759) (some 20000000) = .refused ∧
    configure (some 10485760) none = .refused := by decide

end Verif.Rate
