import Verif.Reqs.Base

/-
Lemmas about the framing of responses, and about requests that nobody remembers.
-/

namespace Verif.Reqs

open Verif.Reqs.Spec

theorem pow_bound (i : Nat) (h : 128 ^ (i + 1) < 2 ^ 64) : i < 9 := by
  apply Classical.byContradiction
  intro hn
  have h1 : 128 ^ 10 ≤ 128 ^ (i + 1) := Nat.pow_le_pow_right (by omega) (by omega)
  have h2 : (2 : Nat) ^ 64 < 128 ^ 10 := by decide
  omega

theorem readVarint_enc (n : Nat) : ∀ (i acc : Nat) (rest : List Nat), acc + n * 128 ^ i < 2 ^ 64 →
    (i = 0 ∨ 0 < n) → readVarint i acc (encVarint n ++ rest) = .ok (acc + n * 128 ^ i) rest := by
  induction n using encVarint.induct with
  | case1 n hlt =>
    intro i acc rest hb hz
    rw [encVarint, if_pos hlt]
    simp only [List.cons_append, List.nil_append, readVarint]
    rw [if_pos hlt, if_neg (by omega), if_neg (by omega)]
  | case2 n hge ih =>
    intro i acc rest hb hz
    rw [encVarint, if_neg hge]
    simp only [List.cons_append, readVarint]
    have hsplit : n = n % 128 + n / 128 * 128 := by omega
    have hpow : 128 ^ (i + 1) = 128 * 128 ^ i := by rw [Nat.pow_succ, Nat.mul_comm]
    have h1 : n * 128 ^ i = n % 128 * 128 ^ i + n / 128 * 128 ^ (i + 1) := by
      rw [hpow, ← Nat.mul_assoc, ← Nat.add_mul]
      congr 1
    have hi : i < 9 := by
      apply pow_bound
      have h2 : 128 * 128 ^ i ≤ n * 128 ^ i := Nat.mul_le_mul_right _ (by omega)
      rw [hpow]
      omega
    rw [if_neg (by omega), if_neg (by omega)]
    rw [show n % 128 + 128 - 128 = n % 128 by omega]
    rw [ih (i + 1) _ rest (by omega) (Or.inr (by omega))]
    congr 1
    omega

theorem readVarint_cut (n : Nat) : ∀ (i acc : Nat) (a b : List Nat), acc + n * 128 ^ i < 2 ^ 64 →
    encVarint n = a ++ b → b ≠ [] → readVarint i acc a = .eof := by
  induction n using encVarint.induct with
  | case1 n hlt =>
    intro i acc a b hb he hne
    rw [encVarint, if_pos hlt] at he
    cases a with
    | nil => rfl
    | cons x a =>
      simp only [List.cons_append, List.cons.injEq] at he
      have := List.append_eq_nil_iff.mp he.2.symm
      exact absurd this.2 hne
  | case2 n hge ih =>
    intro i acc a b hb he hne
    rw [encVarint, if_neg hge] at he
    cases a with
    | nil => rfl
    | cons x a =>
      simp only [List.cons_append, List.cons.injEq] at he
      obtain ⟨hx, he⟩ := he
      subst hx
      have hpow : 128 ^ (i + 1) = 128 * 128 ^ i := by rw [Nat.pow_succ, Nat.mul_comm]
      have h1 : n * 128 ^ i = n % 128 * 128 ^ i + n / 128 * 128 ^ (i + 1) := by
        rw [hpow, ← Nat.mul_assoc, ← Nat.add_mul]
        congr 1
        omega
      have hi : i < 9 := by
        apply pow_bound
        have h2 : 128 * 128 ^ i ≤ n * 128 ^ i := Nat.mul_le_mul_right _ (by omega)
        rw [hpow]
        omega
      simp only [readVarint]
      rw [if_neg (by omega), if_neg (by omega)]
      rw [show n % 128 + 128 - 128 = n % 128 by omega]
      exact ih (i + 1) _ a b (by omega) he hne

theorem readResponse_write {M : Type} (limit : Nat) (hl : limit < 2 ^ 64) (dec : List Nat → Option M)
    (enc : M → List Nat) (m : M) (hd : dec (enc m) = some m) (hm : (enc m).length ≤ limit)
    (rest : List Nat) : readResponse limit dec (writeResponse enc m ++ rest) = .ok m rest := by
  unfold readResponse writeResponse
  rw [List.append_assoc, readVarint_enc _ 0 0 _ (by omega) (Or.inl rfl)]
  simp only [Nat.pow_zero, Nat.mul_one, Nat.zero_add]
  rw [if_neg (by omega), if_neg (by simp), List.take_append_of_le_length (Nat.le_refl _),
    List.take_length, hd]
  simp

/-- A message that did not arrive in full. -/
theorem readResponse_cut {M : Type} (limit : Nat) (hl : limit < 2 ^ 64) (dec : List Nat → Option M)
    (enc : M → List Nat) (m : M) (hm : (enc m).length ≤ limit)
    (a b : List Nat) (he : writeResponse enc m = a ++ b) (hne : b ≠ []) :
    readResponse limit dec a = .eof := by
  unfold writeResponse at he
  unfold readResponse
  rcases List.append_eq_append_iff.mp he with ⟨l, h1, h2⟩ | ⟨l, h1, h2⟩
  · -- the length arrived
    rw [h1, readVarint_enc _ 0 0 _ (by omega) (Or.inl rfl)]
    simp only [Nat.pow_zero, Nat.mul_one, Nat.zero_add]
    have : (enc m).length = l.length + b.length := by rw [h2, List.length_append]
    have hb : 0 < b.length := List.length_pos_iff.mpr hne
    rw [if_neg (by omega), if_pos (by omega)]
  · cases l with
    | nil =>
      simp only [List.append_nil] at h1
      simp only [List.nil_append] at h2
      have := readVarint_enc (enc m).length 0 0 [] (by omega) (Or.inl rfl)
      rw [List.append_nil] at this
      rw [← h1, this]
      simp only [Nat.pow_zero, Nat.mul_one, Nat.zero_add]
      have hb : 0 < b.length := List.length_pos_iff.mpr hne
      rw [h2] at hb
      rw [if_neg (by omega), if_pos (by simpa using hb)]
    | cons x l =>
      rw [readVarint_cut _ 0 0 a (x :: l) (by omega) h1 (by simp)]

theorem encVarint_ne (n : Nat) : encVarint n ≠ [] := by
  rw [encVarint]
  split <;> simp

/-- The bytes of a stream of responses. -/
def stream {M : Type} (enc : M → List Nat) (ms : List M) : List Nat := ms.flatMap (writeResponse enc)

theorem receive_stream {M : Type} (limit : Nat) (hl : limit < 2 ^ 64) (dec : List Nat → Option M)
    (enc : M → List Nat) (hd : ∀ m, dec (enc m) = some m) (ms : List M) :
    (∀ m ∈ ms, (enc m).length ≤ limit) → ∀ n, ms.length < n →
      receive limit dec n (stream enc ms) = ms.map some := by
  induction ms with
  | nil =>
    intro _ n hn
    cases n with
    | zero => rfl
    | succ n => rfl
  | cons m ms ih =>
    intro hm n hn
    cases n with
    | zero => simp at hn
    | succ n =>
      simp only [stream, List.flatMap_cons, receive]
      rw [readResponse_write limit hl dec enc m (hd m) (hm m (by simp))]
      simp only [List.map_cons, List.cons.injEq, true_and]
      exact ih (fun x hx => hm x (List.mem_cons_of_mem _ hx)) n (by simpa using hn)

/-- Responses, and then something else. -/
theorem receive_append {M : Type} (limit : Nat) (hl : limit < 2 ^ 64) (dec : List Nat → Option M)
    (enc : M → List Nat) (hd : ∀ m, dec (enc m) = some m) (bad : List Nat) (ms : List M) :
    (∀ m ∈ ms, (enc m).length ≤ limit) → ∀ n,
      receive limit dec (ms.length + n) (stream enc ms ++ bad) =
        ms.map some ++ receive limit dec n bad := by
  induction ms with
  | nil =>
    intro _ n
    simp [stream]
  | cons m ms ih =>
    intro hm n
    rw [List.length_cons, show ms.length + 1 + n = ms.length + n + 1 by omega]
    simp only [stream, List.flatMap_cons, receive, List.append_assoc]
    rw [readResponse_write limit hl dec enc m (hd m) (hm m (by simp))]
    simp only [List.map_cons, List.cons_append, List.cons.injEq, true_and]
    exact ih (fun x hx => hm x (List.mem_cons_of_mem _ hx)) n

/-- A message that is too long, or that makes no sense. -/
theorem readResponse_bad {M : Type} (limit : Nat) (dec : List Nat → Option M) (len : Nat)
    (body : List Nat) (hlen : len < 2 ^ 64)
    (h : limit < len ∨ (len ≤ body.length ∧ dec (body.take len) = none)) :
    readResponse limit dec (encVarint len ++ body) = .err := by
  unfold readResponse
  rw [readVarint_enc _ 0 0 _ (by omega) (Or.inl rfl)]
  simp only [Nat.pow_zero, Nat.mul_one, Nat.zero_add]
  by_cases e : limit < len
  · rw [if_pos e]
  · rcases h with h | ⟨h1, h2⟩
    · exact absurd h e
    · rw [if_neg e, if_neg (by omega), h2]

theorem receive_cut {M : Type} (limit : Nat) (hl : limit < 2 ^ 64) (dec : List Nat → Option M)
    (enc : M → List Nat) (hd : ∀ m, dec (enc m) = some m) (ms : List M) :
    (∀ m ∈ ms, (enc m).length ≤ limit) → ∀ n, ∀ a b, stream enc ms = a ++ b → b ≠ [] →
      ∃ k, k < ms.length ∧ receive limit dec n a = (ms.take k).map some := by
  induction ms with
  | nil =>
    intro _ n a b he hne
    simp only [stream, List.flatMap_nil] at he
    exact absurd (List.append_eq_nil_iff.mp he.symm).2 hne
  | cons m ms ih =>
    intro hm n a b he hne
    cases n with
    | zero => exact ⟨0, by simp, rfl⟩
    | succ n =>
      simp only [stream, List.flatMap_cons] at he
      have part : ∀ l, l ≠ [] → writeResponse enc m = a ++ l →
          ∃ k, k < (m :: ms).length ∧ receive limit dec (n + 1) a = ((m :: ms).take k).map some := by
        intro l hl' e
        refine ⟨0, by simp, ?_⟩
        simp only [receive]
        rw [readResponse_cut limit hl dec enc m (hm m (by simp)) a l e hl']
        rfl
      have whole : ∀ l, a = writeResponse enc m ++ l → stream enc ms = l ++ b →
          ∃ k, k < (m :: ms).length ∧ receive limit dec (n + 1) a = ((m :: ms).take k).map some := by
        intro l e1 e2
        obtain ⟨k, hk, h⟩ := ih (fun x hx => hm x (List.mem_cons_of_mem _ hx)) n l b e2 hne
        refine ⟨k + 1, by simpa using hk, ?_⟩
        rw [e1]
        simp only [receive]
        rw [readResponse_write limit hl dec enc m (hd m) (hm m (by simp))]
        simp [h]
      rcases List.append_eq_append_iff.mp he with ⟨l, h1, h2⟩ | ⟨l, h1, h2⟩
      · exact whole l h1 h2
      · rcases l with _ | ⟨x, l⟩
        · exact whole [] (by simpa using h1.symm) (by simpa [stream] using h2.symm)
        · exact part (x :: l) (by simp) h1

/-! ### Requests that nobody remembers -/

/-- The request is not answered, and nobody will do anything about it. -/
structure Stuck (lost : Bool) (id : Nat) (s : Sys) : Prop where
  lt : id < s.next
  pending : id ∉ s.answers.map Prod.fst
  wait : id ∉ s.waiting.map Prod.snd
  queue : ∀ e ∈ s.queue, e ≠ .awaiting id ∧ (lost = false → e ≠ .failure id) ∧
    ∀ cid, e ≠ .notify cid id
  conns : ∀ c ∈ s.conns, id ∉ c.outq ∧ id ∉ c.req ∧ (∀ e ∈ c.hev, (toEvent e).2 ≠ id) ∧
    id ∉ c.workers.map Prod.fst ∧ id ∉ c.chan

theorem Stuck.upd {lost : Bool} {id : Nat} {s : Sys} (h : Stuck lost id s) (cid : Nat)
    (f : Conn → Conn) (q : List QEv)
    (hq : ∀ e ∈ q, e ≠ .awaiting id ∧ (lost = false → e ≠ .failure id) ∧ ∀ cid, e ≠ .notify cid id)
    (hf : ∀ c ∈ s.conns, c.cid = cid → id ∉ (f c).outq ∧ id ∉ (f c).req ∧
      (∀ e ∈ (f c).hev, (toEvent e).2 ≠ id) ∧ id ∉ (f c).workers.map Prod.fst ∧ id ∉ (f c).chan) :
    Stuck lost id { s with conns := Verif.Reqs.upd cid f s.conns, queue := q } :=
  ⟨h.lt, h.pending, h.wait, hq, upd_all (fun c hc _ => h.conns c hc) hf⟩

theorem map_setPhase' (id : Nat) (p : Phase) (ws : List (Nat × Phase)) :
    (setPhase id p ws).map Prod.fst = ws.map Prod.fst := by
  unfold setPhase
  rw [List.map_map]
  apply List.map_congr_left
  intro w _
  simp only [Function.comp_apply]
  split
  · rename_i h; exact h.symm
  · rfl

theorem stuck_step {lost : Bool} {cap id : Nat} {s s' : Sys} {a : Act} (hi : Inv s)
    (h : Stuck lost id s) (ha : lost = false → ∀ cid, a ≠ .close cid)
    (hs : Step lost cap s a s') : Stuck lost id s' := by
  have hlt := h.lt
  cases hs with
  | sendTo p c hc hp =>
    refine ⟨by simp only; omega, h.pending, h.wait, ?_,
      upd_all (fun c hc _ => h.conns c hc) (fun c hc _ => h.conns c hc)⟩
    intro e he
    simp only [List.mem_append, List.mem_singleton] at he
    rcases he with he | rfl
    · exact h.queue e he
    · refine ⟨by simp, by simp, ?_⟩
      intro cid e
      simp only [QEv.notify.injEq] at e
      omega
  | sendWait p =>
    refine ⟨by simp only; omega, h.pending, ?_, ?_, h.conns⟩
    · simp only [List.map_append, List.mem_append, List.map_cons, List.map_nil, List.mem_singleton,
        not_or]
      exact ⟨h.wait, by omega⟩
    · intro e he
      simp only [List.mem_append, List.mem_singleton] at he
      rcases he with he | rfl
      · exact h.queue e he
      · simp
  | poll e q hq =>
    have hq' : ∀ e ∈ q, e ≠ .awaiting id ∧ (lost = false → e ≠ .failure id) ∧
        ∀ cid, e ≠ .notify cid id := fun e he => h.queue e (by rw [hq]; exact List.mem_cons_of_mem _ he)
    have he := h.queue e (by rw [hq]; simp)
    have h0 : Stuck lost id { s with queue := q } := ⟨h.lt, h.pending, h.wait, hq', h.conns⟩
    cases e with
    | notify cid i =>
      refine h0.upd cid _ q hq' ?_
      intro c hc e
      obtain ⟨a1, a2⟩ := h.conns c hc
      refine ⟨?_, a2⟩
      simp only [List.mem_append, List.mem_singleton, not_or]
      refine ⟨a1, ?_⟩
      rintro rfl
      exact he.2.2 cid rfl
    | dial p => exact h0
    | closed i => exact h0
    | awaiting i =>
      have ne : id ≠ i := by rintro rfl; exact he.1 rfl
      simp only [deliver]
      split
      · refine ⟨h.lt, ?_, h.wait, hq', h.conns⟩
        simp only [List.map_cons, List.mem_cons, not_or]
        exact ⟨ne, h.pending⟩
      · exact ⟨h.lt, h.pending, h.wait, hq', h.conns⟩
    | failure i =>
      simp only [deliver]
      split
      · exact h0
      · rename_i hl
        have ne : id ≠ i := by rintro rfl; exact he.2.1 (by simpa using hl) rfl
        split
        · refine ⟨h.lt, ?_, h.wait, hq', h.conns⟩
          simp only [List.map_cons, List.mem_cons, not_or]
          exact ⟨ne, h.pending⟩
        · exact h0
  | connect p =>
    have hw : ∀ (f : Nat × Nat → Bool), id ∉ (s.waiting.filter f).map Prod.snd := by
      intro f hm
      obtain ⟨w, hw, e⟩ := List.mem_map.mp hm
      exact h.wait (List.mem_map.mpr ⟨w, (List.mem_filter.mp hw).1, e⟩)
    refine ⟨h.lt, h.pending, hw _, h.queue, ?_⟩
    intro c hc
    simp only [connect, List.mem_append, List.mem_singleton] at hc
    rcases hc with hc | rfl
    · exact h.conns c hc
    · exact ⟨hw _, by simp, by simp, by simp, by simp⟩
  | close c hc =>
    refine ⟨h.lt, h.pending, h.wait, ?_, fun x hx => h.conns x (List.mem_filter.mp hx).1⟩
    intro e he
    simp only [List.mem_append, List.mem_map] at he
    rcases he with he | ⟨i, hi', rfl⟩
    · exact h.queue e he
    · exact ⟨by simp, fun hl => absurd rfl (ha hl c.cid), by simp⟩
  | dialFailure p =>
    refine ⟨h.lt, h.pending, ?_, ?_, h.conns⟩
    · intro hm
      obtain ⟨w, hw, e⟩ := List.mem_map.mp hm
      exact h.wait (List.mem_map.mpr ⟨w, (List.mem_filter.mp hw).1, e⟩)
    · intro e he
      simp only [dialFailure, List.mem_append, List.mem_map] at he
      rcases he with he | ⟨w, hw, rfl⟩
      · exact h.queue e he
      · refine ⟨by simp, ?_, by simp⟩
        intro _ e
        simp only [QEv.failure.injEq] at e
        exact h.wait (List.mem_map.mpr ⟨w, (List.mem_filter.mp hw).1, e⟩)
  | ask c hc i q ho =>
    refine h.upd c.cid _ s.queue h.queue ?_
    intro x hx e
    have := unique_cid hi.cids hx hc e
    subst this
    obtain ⟨a1, a2, a3⟩ := h.conns x hx
    rw [ho] at a1
    simp only [List.mem_cons, not_or] at a1
    refine ⟨a1.2, ?_, a3⟩
    simp only [List.mem_append, List.mem_singleton, not_or]
    exact ⟨a2, a1.1⟩
  | noReq c hc hs hr a ha => exact ⟨h.lt, h.pending, h.wait, h.queue, h.conns⟩
  | negotiated c hc hs i q hr hn =>
    refine h.upd c.cid _ s.queue h.queue ?_
    intro x hx e
    have := unique_cid hi.cids hx hc e
    subst this
    obtain ⟨a1, a2, a3, a4, a5⟩ := h.conns x hx
    rw [hr] at a2
    simp only [List.mem_cons, not_or] at a2
    refine ⟨a1, a2.2, a3, ?_, a5⟩
    simp only
    split
    · simp only [List.map_append, List.mem_append, List.map_cons, List.map_nil, List.mem_singleton,
        not_or]
      exact ⟨a4, a2.1⟩
    · exact a4
  | upgradeEvent c hc hs i q hr e ev he =>
    refine h.upd c.cid _ s.queue h.queue ?_
    intro x hx e
    have := unique_cid hi.cids hx hc e
    subst this
    obtain ⟨a1, a2, a3, a4, a5⟩ := h.conns x hx
    rw [hr] at a2
    simp only [List.mem_cons, not_or] at a2
    refine ⟨a1, a2.2, ?_, a4, a5⟩
    intro e' he'
    simp only [List.mem_append, List.mem_singleton] at he'
    rcases he' with he' | rfl
    · exact a3 e' he'
    · rcases he with ⟨_, rfl⟩ | ⟨_, rfl⟩ <;> exact fun e => a2.1 e.symm
  | upgradeIo c hc hs i q hr =>
    refine h.upd c.cid _ s.queue h.queue ?_
    intro x hx e
    have := unique_cid hi.cids hx hc e
    subst this
    obtain ⟨a1, a2, a3, a4, a5⟩ := h.conns x hx
    rw [hr] at a2
    simp only [List.mem_cons, not_or] at a2
    refine ⟨a1, ?_, a3, a4, a5⟩
    simp only [List.mem_append, List.mem_singleton, not_or]
    exact ⟨a2.2, a2.1⟩
  | event c hc e q hh =>
    refine h.upd c.cid _ _ ?_ ?_
    · intro e' he'
      simp only [List.mem_append, List.mem_singleton] at he'
      rcases he' with he' | rfl
      · exact h.queue e' he'
      · obtain ⟨i, _, e2⟩ := hi.hev c hc e (by rw [hh]; simp)
        have ne := (h.conns c hc).2.2.1 e (by rw [hh]; simp)
        rw [e2] at ne ⊢
        refine ⟨by simp, ?_, by simp⟩
        intro _ e3
        simp only [QEv.failure.injEq] at e3
        exact ne e3
    · intro x hx ex
      have := unique_cid hi.cids hx hc ex
      subst this
      obtain ⟨a1, a2, a3, a4, a5⟩ := h.conns x hx
      exact ⟨a1, a2, fun e he => a3 e (by rw [hh]; exact List.mem_cons_of_mem _ he), a4, a5⟩
  | take c hc i q hh =>
    refine h.upd c.cid _ _ ?_ ?_
    · intro e' he'
      simp only [List.mem_append, List.mem_singleton] at he'
      rcases he' with he' | rfl
      · exact h.queue e' he'
      · have ne := (h.conns c hc).2.2.2.2
        rw [hh] at ne
        simp only [List.mem_cons, not_or] at ne
        refine ⟨?_, by simp [toEvent], by simp [toEvent]⟩
        intro e3
        simp only [toEvent, QEv.awaiting.injEq] at e3
        exact ne.1 e3.symm
    · intro x hx ex
      have := unique_cid hi.cids hx hc ex
      subst this
      obtain ⟨a1, a2, a3, a4, a5⟩ := h.conns x hx
      rw [hh] at a5
      simp only [List.mem_cons, not_or] at a5
      exact ⟨a1, a2, a3, by rw [map_setPhase']; exact a4, a5.2⟩
  | written c hc i hw =>
    refine h.upd c.cid _ s.queue h.queue ?_
    intro x hx e
    have := unique_cid hi.cids hx hc e
    subst this
    obtain ⟨a1, a2, a3, a4, a5⟩ := h.conns x hx
    refine ⟨a1, a2, a3, by rw [map_setPhase']; exact a4, ?_⟩
    simp only [List.mem_append, List.mem_singleton, not_or]
    refine ⟨a5, ?_⟩
    rintro rfl
    exact a4 (List.mem_map.mpr ⟨_, hw, rfl⟩)
  | gone c hc hn i p hw w e he =>
    have ne : i ≠ id := by
      rintro rfl
      exact (h.conns c hc).2.2.2.1 (List.mem_map.mpr ⟨_, hw, rfl⟩)
    refine h.upd c.cid _ _ ?_ ?_
    · intro e' he'
      simp only [List.mem_append, List.mem_singleton] at he'
      rcases he' with he' | rfl
      · exact h.queue e' he'
      · rcases he with ⟨_, _, rfl⟩ | ⟨_, _, rfl | rfl⟩ | ⟨_, rfl⟩ <;> simp [toEvent, ne]
    · intro x hx ex
      obtain ⟨a1, a2, a3, a4, a5⟩ := h.conns x hx
      refine ⟨a1, a2, a3, ?_, a5⟩
      intro hm
      obtain ⟨y, hy, ey⟩ := List.mem_map.mp hm
      exact a4 (List.mem_map.mpr ⟨y, (mem_dropWorker.mp hy).1, ey⟩)

theorem stuck_run {lost : Bool} {cap id : Nat} {acts : List Act} {s t : Sys} (hi : Inv s)
    (h : Stuck lost id s) (ha : lost = false → ∀ cid, .close cid ∉ acts)
    (hr : run lost cap s acts = some t) : Stuck lost id t := by
  induction acts generalizing s with
  | nil =>
    simp only [run, Option.some.injEq] at hr
    subst hr
    exact h
  | cons a as ih =>
    simp only [run] at hr
    rcases e : step lost cap s a with _ | u
    · simp [e] at hr
    · simp only [e] at hr
      have st := step_step e
      refine ih (inv_step hi st) (stuck_step hi h ?_ st) ?_ hr
      · intro hl cid e
        exact ha hl cid (by rw [e]; simp)
      · intro hl cid hm
        exact ha hl cid (List.mem_cons_of_mem _ hm)

end Verif.Reqs
