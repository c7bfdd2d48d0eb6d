import Verif.Regroup.Spec
import Verif.Body.Props
/-!
# The invariant of the pool
-/
namespace Verif.Regroup
open Verif.Block (F Tx Receipt Event)
open Verif.Body (DB Row Hdr)

variable {E : Type}

/-- The job of a block. -/
def job (w : World E) (n : Nat) : Job E := ⟨n, (w.rowsOf n).map (·.body)⟩

/-- The rows of hashes of a block. -/
def index (w : World E) (n : Nat) : List (F × Nat × Nat) := (w.rowsOf n).map fun r => (r.hash, n, r.idx)

theorem insertIndex_some {n : Nat} : ∀ {l : List (OldRow E)} {t t' : List (F × Nat × Nat)}, insertIndex n l t = some t' →
    t' = t ++ l.map fun r => (r.hash, n, r.idx)
  | [], t, t', e => by
    cases e
    simp
  | x :: l, t, t', e => by
    rw [insertIndex] at e
    split at e
    · cases e
    · rw [insertIndex_some e]
      simp

theorem insertIndex_ok {n : Nat} : ∀ {l : List (OldRow E)} {t : List (F × Nat × Nat)}, (l.map (·.hash)).Nodup → (∀ x ∈ l, ∀ r ∈ t, r.1 ≠ x.hash) →
    insertIndex n l t ≠ none
  | [], _, _, _ => by simp [insertIndex]
  | x :: l, t, hd, hn => by
    rw [insertIndex, if_neg (by
      rw [List.any_eq_true]
      rintro ⟨r, hr, e⟩
      exact hn x (by simp) r hr (by simpa using e))]
    rw [List.map_cons, List.nodup_cons] at hd
    refine insertIndex_ok hd.2 ?_
    intro y hy r hr
    rcases List.mem_append.1 hr with hr | hr
    · exact hn y (by simp [hy]) r hr
    · simp only [List.mem_singleton] at hr
      subst hr
      intro e
      exact hd.1 (List.mem_map.2 ⟨y, hy, e.symm⟩)

theorem insertRow_some {db db' : DB} {r : Row} (e : insertRow db r = some db') : db' = { db with rows := db.rows ++ [r] } := by
  unfold insertRow at e
  split at e
  · cases e
  · cases e; rfl

theorem perm_eraseIdx {A : Type} : ∀ {l : List A} {i : Nat} {a : A}, l[i]? = some a → l.Perm (a :: l.eraseIdx i)
  | x :: l, 0, a, e => by
    simp only [List.getElem?_cons_zero, Option.some.injEq] at e
    subst e
    simp
  | x :: l, i + 1, a, e => by
    rw [List.getElem?_cons_succ] at e
    rw [List.eraseIdx_cons_succ]
    exact ((perm_eraseIdx e).cons x).trans (List.Perm.swap a x _)

/-- What holds of the jobs whichever way the threads take turns: those handed out are queued, being worked on, finished or lost. -/
structure Jobs (w : World E) (s : Sys E) (out : List Nat) (ended gone : List (Job E)) : Prop where
  sent : w.numbers = out ++ s.todo
  perm : (out.map (job w)).Perm (s.queue ++ (s.busy ++ (ended ++ gone)))
  fin : ended.map (regroup w) = (s.db.rows ++ s.results).map some
  lost : ∀ j ∈ gone, regroup w j = none
  dead : gone.length = s.dead
  hashes : s.db.hashes = out.flatMap (index w)

structure Inv (w : World E) (s : Sys E) : Prop where
  jobs : ∃ sent fin lost, Jobs w s sent fin lost
  feed : ∀ k, s.phase = .feed k → s.queue.length + s.busy.length + s.results.length + s.dead = k ∧ (k < w.batch ∨ k = 0)
  drain : ∀ k, s.phase = .drain k → s.queue.length + s.busy.length + s.results.length + s.dead = k ∧ 0 < k
  workers : s.idle + s.busy.length + s.dead + s.left = w.workers
  left : s.left ≠ 0 → s.queue = [] ∧ (s.phase = .final ∨ s.phase = .done ∨ s.phase = .failed)
  final : s.phase = .final ∨ s.phase = .done → s.todo = []
  headers : s.db.headers = w.headers
  inserted : s.inserted = (s.db.rows.map (·.transactions.length)).sum
  done : s.phase = .done → s.results = [] ∧ s.busy = [] ∧ s.idle = 0 ∧ s.inserted = w.old.length ∧ s.dead = 0

theorem inv_start (w : World E) : Inv w (start w) := by
  refine ⟨⟨[], [], [], ⟨rfl, by simp [start], by simp [start], by simp, rfl, rfl⟩⟩, ?_, ?_, by simp [start], by simp [start], ?_, rfl, rfl, ?_⟩
  · intro k hk
    simp only [start, Phase.feed.injEq] at hk
    subst hk
    simp [start]
  · intro k hk
    simp [start] at hk
  · simp [start]
  · simp [start]

theorem inv_failed {w : World E} {s : Sys E} (hi : Inv w s) : Inv w { s with phase := .failed } := by
  obtain ⟨⟨a, b, c, hj⟩, -, -, h4, h5, -, h7, h8, -⟩ := hi
  refine ⟨⟨a, b, c, ⟨hj.sent, hj.perm, hj.fin, hj.lost, hj.dead, hj.hashes⟩⟩, by simp, by simp, h4, ?_, by simp, h7, h8, by simp⟩
  intro k
  exact ⟨(h5 k).1, .inr (.inr rfl)⟩

theorem inv_send {w : World E} {s s' : Sys E} (hi : Inv w s) (e : step w s .send = some s') : Inv w s' := by
  unfold step at e
  rcases hp : s.phase with k | k | _ | _ | _ <;> simp only [hp] at e
  case feed =>
    rcases ht : s.todo with _ | ⟨n, rest⟩ <;> simp only [ht] at e
    · cases e
    · rcases hx : insertIndex n (w.rowsOf n) s.db.hashes with _ | t <;> simp only [hx] at e
      · cases e; simpa only [ht] using inv_failed hi
      · by_cases ha : s.alive = 0
        · rw [if_pos ha] at e; cases e; simpa only [ht] using inv_failed hi
        · rw [if_neg ha] at e
          cases e
          obtain ⟨⟨a, b, c, hj⟩, h2, -, h4, h5, -, h7, h8, -⟩ := hi
          obtain ⟨h2a, h2b⟩ := h2 k hp
          have hl : s.left = 0 := by
            rcases Nat.eq_zero_or_pos s.left with h | h
            · exact h
            · have := (h5 (by omega)).2
              rw [hp] at this
              simp at this
          refine ⟨⟨a ++ [n], b, c, ⟨?_, ?_, hj.fin, hj.lost, hj.dead, ?_⟩⟩, ?_, ?_, h4, ?_, ?_, h7, h8, ?_⟩
          · rw [hj.sent, ht]; simp
          · rw [List.map_append, List.map_singleton]
            refine (List.perm_append_singleton _ _).trans ?_
            refine ((hj.perm.cons (job w n))).trans ?_
            simp only [List.append_assoc]
            exact (List.perm_middle (a := job w n) (l₁ := s.queue)).symm
          · show t = _
            rw [insertIndex_some hx, hj.hashes, List.flatMap_append]
            simp [index]
          · intro k' hk'
            simp only at hk'
            split at hk'
            · cases hk'
            · cases hk'
              simp only [List.length_append, List.length_singleton]
              omega
          · intro k' hk'
            simp only at hk'
            split at hk'
            · cases hk'
              simp only [List.length_append, List.length_singleton]
              omega
            · cases hk'
          · intro k'
            exact absurd hl k'
          · simp only
            split <;> simp
          · simp only
            split <;> simp
  all_goals cases e

theorem inv_close {w : World E} {s s' : Sys E} (hi : Inv w s) (e : step w s .close = some s') : Inv w s' := by
  unfold step at e
  rcases hp : s.phase with k | k | _ | _ | _ <;> simp only [hp] at e
  case feed =>
    rcases ht : s.todo with _ | ⟨n, rest⟩ <;> simp only [ht] at e
    · cases e
      obtain ⟨⟨a, b, c, hj⟩, -, -, h4, h5, -, h7, h8, -⟩ := hi
      refine ⟨⟨a, b, c, ⟨by rw [hj.sent, ht], hj.perm, hj.fin, hj.lost, hj.dead, hj.hashes⟩⟩, by simp, by simp, h4, ?_, fun _ => rfl, h7, h8, by simp⟩
      intro k
      exact ⟨(h5 k).1, .inl rfl⟩
    · cases e
  all_goals cases e

theorem inv_store {w : World E} {s : Sys E} (hi : Inv w s) {r : Row} {rs : List Row} (hr : s.results = r :: rs) {p : Phase}
    (hp : (s.phase = .final ∧ p = .final) ∨ ∃ l, s.phase = .drain (l + 1) ∧ p = if l = 0 then .feed 0 else .drain l) : Inv w (store s r rs p) := by
  unfold store
  rcases hx : insertRow s.db r with _ | db
  · exact inv_failed hi
  · have := insertRow_some hx
    subst this
    obtain ⟨⟨a, b, c, hj⟩, h2, h3, h4, h5, h6, h7, h8, h9⟩ := hi
    refine ⟨⟨a, b, c, ⟨hj.sent, hj.perm, ?_, hj.lost, hj.dead, hj.hashes⟩⟩, ?_, ?_, h4, ?_, ?_, h7, ?_, ?_⟩
    · rw [hj.fin, hr]; simp
    · intro k hk
      simp only at hk
      rcases hp with ⟨hp, rfl⟩ | ⟨l, hp, rfl⟩
      · cases hk
      · have := (h3 _ hp).1
        rw [hr, List.length_cons] at this
        split at hk
        · next h0 =>
          cases hk
          refine ⟨?_, .inr rfl⟩
          show s.queue.length + s.busy.length + rs.length + s.dead = 0
          omega
        · cases hk
    · intro k hk
      simp only at hk
      rcases hp with ⟨hp, rfl⟩ | ⟨l, hp, rfl⟩
      · cases hk
      · have := (h3 _ hp).1
        rw [hr, List.length_cons] at this
        split at hk
        · cases hk
        · cases hk
          simp only
          omega
    · intro k
      obtain ⟨g1, g2⟩ := h5 k
      refine ⟨g1, ?_⟩
      rcases hp with ⟨hp, rfl⟩ | ⟨l, hp, rfl⟩
      · exact .inl rfl
      · rw [hp] at g2
        simp at g2
    · intro k
      rcases hp with ⟨hp, rfl⟩ | ⟨l, hp, rfl⟩
      · exact h6 (.inl hp)
      · simp only at k
        split at k <;> simp at k
    · simp [h8]
    · intro k
      rcases hp with ⟨hp, rfl⟩ | ⟨l, hp, rfl⟩
      · cases k
      · simp only at k
        split at k <;> simp at k

theorem inv_recv {w : World E} {s s' : Sys E} (hi : Inv w s) (e : step w s .recv = some s') : Inv w s' := by
  unfold step at e
  rcases hp : s.phase with k | k | _ | _ | _ <;> simp only [hp] at e
  case drain =>
    rcases k with _ | l
    · cases e
    · rcases hr : s.results with _ | ⟨r, rs⟩ <;> simp only [hr] at e
      · split at e
        · cases e; simpa only [hr] using inv_failed hi
        · cases e
      · cases e
        exact inv_store hi hr (.inr ⟨l, hp, rfl⟩)
  case final =>
    rcases hr : s.results with _ | ⟨r, rs⟩ <;> simp only [hr] at e
    · split at e
      · next ha =>
        by_cases hc : s.inserted = w.old.length ∧ s.dead = 0
        · rw [if_pos hc] at e
          cases e
          obtain ⟨⟨a, b, c, hj⟩, h2, h3, h4, h5, h6, h7, h8, h9⟩ := hi
          refine ⟨⟨a, b, c, ⟨hj.sent, hj.perm, by rw [hj.fin, hr], hj.lost, hj.dead, hj.hashes⟩⟩, by simp, by simp, h4, ?_, fun _ => h6 (.inl hp), h7, h8, ?_⟩
          · intro k
            exact ⟨(h5 k).1, .inr (.inl rfl)⟩
          · intro _
            unfold Sys.alive at ha
            exact ⟨rfl, List.length_eq_zero_iff.1 (by show s.busy.length = 0; omega), by show s.idle = 0; omega, hc.1, hc.2⟩
        · rw [if_neg hc] at e
          cases e; simpa only [hr] using inv_failed hi
      · cases e
    · cases e
      exact inv_store hi hr (.inl ⟨hp, rfl⟩)
  all_goals cases e

theorem inv_take {w : World E} {s s' : Sys E} (hi : Inv w s) (e : step w s .take = some s') : Inv w s' := by
  unfold step at e
  rcases hq : s.queue with _ | ⟨j, q⟩ <;> simp only [hq] at e
  · cases e
  · rcases hd : s.idle with _ | i <;> simp only [hd] at e
    · cases e
    · cases e
      obtain ⟨⟨a, b, c, hj⟩, h2, h3, h4, h5, h6, h7, h8, h9⟩ := hi
      refine ⟨⟨a, b, c, ⟨hj.sent, ?_, hj.fin, hj.lost, hj.dead, hj.hashes⟩⟩, ?_, ?_, ?_, ?_, h6, h7, h8, ?_⟩
      · refine hj.perm.trans ?_
        rw [hq]
        simp only [List.append_assoc, List.cons_append, List.nil_append]
        have := (List.perm_middle (a := j) (l₁ := q ++ s.busy) (l₂ := b ++ c)).symm
        simpa using this
      · intro k hk
        have := h2 k hk
        rw [hq] at this
        simp only [List.length_append, List.length_cons, List.length_nil] at *
        omega
      · intro k hk
        have := h3 k hk
        rw [hq] at this
        simp only [List.length_append, List.length_cons, List.length_nil] at *
        omega
      · simp only [List.length_append, List.length_cons, List.length_nil]
        omega
      · intro k
        have := (h5 k).1
        rw [hq] at this
        cases this
      · intro k
        have := h9 k
        rw [hd] at this
        exact absurd this.2.2.1 (by omega)

theorem inv_work {w : World E} {s s' : Sys E} {i : Nat} (hi : Inv w s) (e : step w s (.work i) = some s') : Inv w s' := by
  unfold step at e
  simp only at e
  rcases hb : s.busy[i]? with _ | j <;> simp only [hb] at e
  · cases e
  · obtain ⟨hlt, hget⟩ := List.getElem?_eq_some_iff.1 hb
    have hlen : (s.busy.eraseIdx i).length + 1 = s.busy.length := by
      rw [List.length_eraseIdx_of_lt hlt]
      omega
    have hperm : s.busy.Perm (j :: s.busy.eraseIdx i) := perm_eraseIdx hb
    obtain ⟨⟨a, b, c, hj⟩, h2, h3, h4, h5, h6, h7, h8, h9⟩ := hi
    have hnd : s.phase ≠ .done := by
      intro k
      have := (h9 k).2.1
      rw [this] at hlt
      simp at hlt
    rcases hx : regroup w j with _ | r <;> simp only [hx] at e
    · cases e
      refine ⟨⟨a, b, c ++ [j], ⟨hj.sent, ?_, hj.fin, ?_, ?_, hj.hashes⟩⟩, ?_, ?_, ?_, h5, h6, h7, h8, fun k => absurd k hnd⟩
      · refine hj.perm.trans (List.Perm.append_left _ ?_)
        refine (hperm.append_right _).trans ?_
        have := (List.perm_append_singleton j (s.busy.eraseIdx i ++ (b ++ c))).symm
        simpa using this
      · intro x hx'
        rcases List.mem_append.1 hx' with g | g
        · exact hj.lost x g
        · simp only [List.mem_singleton] at g
          rw [g]; exact hx
      · simp [hj.dead]
      · intro k hk
        have := h2 k hk
        simp only
        omega
      · intro k hk
        have := h3 k hk
        simp only
        omega
      · simp only
        omega
    · cases e
      refine ⟨⟨a, b ++ [j], c, ⟨hj.sent, ?_, ?_, hj.lost, hj.dead, hj.hashes⟩⟩, ?_, ?_, ?_, h5, h6, h7, h8, fun k => absurd k hnd⟩
      · refine hj.perm.trans (List.Perm.append_left _ ?_)
        refine (hperm.append_right _).trans ?_
        have := (List.perm_middle (a := j) (l₁ := s.busy.eraseIdx i ++ b) (l₂ := c)).symm
        simpa using this
      · rw [List.map_append, hj.fin]
        simp [hx]
      · intro k hk
        have := h2 k hk
        simp only [List.length_append, List.length_singleton]
        omega
      · intro k hk
        have := h3 k hk
        simp only [List.length_append, List.length_singleton]
        omega
      · simp only
        omega

theorem inv_leave {w : World E} {s s' : Sys E} (hi : Inv w s) (e : step w s .leave = some s') : Inv w s' := by
  unfold step at e
  simp only at e
  split at e
  · next hc =>
    obtain ⟨hp, hq, hd⟩ := hc
    cases e
    obtain ⟨⟨a, b, c, hj⟩, h2, h3, h4, h5, h6, h7, h8, h9⟩ := hi
    refine ⟨⟨a, b, c, ⟨hj.sent, hj.perm, hj.fin, hj.lost, hj.dead, hj.hashes⟩⟩, h2, h3, ?_, fun _ => ⟨hq, .inl hp⟩, h6, h7, h8, ?_⟩
    · simp only
      omega
    · intro k
      simp only at k
      rw [hp] at k
      cases k
  · cases e

theorem inv_step {w : World E} {s s' : Sys E} {a : Act} (hi : Inv w s) (e : step w s a = some s') : Inv w s' := by
  cases a
  · exact inv_send hi e
  · exact inv_close hi e
  · exact inv_recv hi e
  · exact inv_take hi e
  · exact inv_work hi e
  · exact inv_leave hi e

theorem inv_run {w : World E} : ∀ {acts : List Act} {s s' : Sys E}, Inv w s → run w s acts = some s' → Inv w s'
  | [], s, s', hi, e => by cases e; exact hi
  | a :: l, s, s', hi, e => by
    rw [run] at e
    obtain ⟨t, h1, h2⟩ := Option.bind_eq_some_iff.1 e
    exact inv_run (inv_step hi h1) h2

end Verif.Regroup
