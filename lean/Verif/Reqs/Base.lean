import Verif.Reqs.Lemmas

/-
What always holds of requests to peers.
-/

namespace Verif.Reqs

open Verif.Reqs.Spec

/-- The request an event of the behaviour is about, if it is an outcome. -/
def outcome : QEv → Option Nat
  | .awaiting id => some id
  | .failure id => some id
  | _ => none

/-- What always holds. -/
structure Inv (s : Sys) : Prop where
  cids : (s.conns.map Conn.cid).Nodup
  cidlt : ∀ c ∈ s.conns, c.cid < s.nextCid
  range : ∀ id, (1 ≤ id ∧ id < s.next) ↔ (id ∈ s.pending ∨ id ∈ s.answers.map Prod.fst)
  disj : ∀ id ∈ s.pending, id ∉ s.answers.map Prod.fst
  nodup : (s.answers.map Prod.fst).Nodup
  pos : 1 ≤ s.next
  pendlt : ∀ c ∈ s.conns, ∀ id ∈ c.pend, id < s.next
  workerlt : ∀ c ∈ s.conns, ∀ w ∈ c.workers, w.1 < s.next
  reqlt : ∀ c ∈ s.conns, ∀ id ∈ c.outq ++ c.req, id < s.next
  notifylt : ∀ cid id, QEv.notify cid id ∈ s.queue → id < s.next
  waitlt : ∀ w ∈ s.waiting, w.2 < s.next
  stream : ∀ c ∈ s.conns, ∀ id, (id, Phase.streaming) ∈ c.workers → id ∉ c.pend
  subs : ∀ c ∈ s.conns, c.subs ≤ c.req.length
  hev : ∀ c ∈ s.conns, ∀ e ∈ c.hev, ∃ id, id < s.next ∧ toEvent e = (.failure id, id)

/-- Where the requests not answered are, if failures are reported. -/
def Acc (s : Sys) : Prop :=
  ∀ id ∈ s.pending, WaitsForPeer s id ∨ (∃ c ∈ s.conns, id ∈ c.pend) ∨
    ∃ e ∈ s.queue, outcome e = some id

theorem inv_init : Inv init := by
  constructor <;> simp [init]
  omega

theorem mem_setPhase {id : Nat} {p : Phase} {ws : List (Nat × Phase)} {w : Nat × Phase} :
    w ∈ setPhase id p ws ↔ (w ∈ ws ∧ w.1 ≠ id) ∨ (w = (id, p) ∧ id ∈ ws.map Prod.fst) := by
  unfold setPhase
  simp only [List.mem_map]
  constructor
  · rintro ⟨x, hx, rfl⟩
    by_cases e : x.1 = id
    · rw [if_pos e]; exact Or.inr ⟨rfl, x, hx, e⟩
    · rw [if_neg e]; exact Or.inl ⟨hx, e⟩
  · rintro (⟨h, e⟩ | ⟨rfl, x, hx, e⟩)
    · exact ⟨w, h, by rw [if_neg e]⟩
    · exact ⟨x, hx, by rw [if_pos e]⟩

theorem mem_dropWorker {id : Nat} {ws : List (Nat × Phase)} {w : Nat × Phase} :
    w ∈ dropWorker id ws ↔ w ∈ ws ∧ w.1 ≠ id := by
  unfold dropWorker
  simp

/-- What holds of one connection. -/
structure ConnOk (next : Nat) (c : Conn) : Prop where
  pendlt : ∀ id ∈ c.pend, id < next
  workerlt : ∀ w ∈ c.workers, w.1 < next
  reqlt : ∀ id ∈ c.outq ++ c.req, id < next
  stream : ∀ id, (id, Phase.streaming) ∈ c.workers → id ∉ c.pend
  subs : c.subs ≤ c.req.length
  hev : ∀ e ∈ c.hev, ∃ id, id < next ∧ toEvent e = (.failure id, id)

theorem Inv.ok {s : Sys} (h : Inv s) {c : Conn} (hc : c ∈ s.conns) : ConnOk s.next c :=
  ⟨h.pendlt c hc, h.workerlt c hc, h.reqlt c hc, h.stream c hc, h.subs c hc, h.hev c hc⟩

/-- Only one connection changes, and the queue gets no requests. -/
theorem Inv.upd {s : Sys} (h : Inv s) (cid : Nat) (f : Conn → Conn) (q : List QEv)
    (hq : ∀ cid id, QEv.notify cid id ∈ q → id < s.next)
    (hcid : ∀ c, (f c).cid = c.cid)
    (hf : ∀ c ∈ s.conns, c.cid = cid → ConnOk s.next (f c)) :
    Inv { s with conns := upd cid f s.conns, queue := q } := by
  have key : ∀ c ∈ Verif.Reqs.upd cid f s.conns, ConnOk s.next c :=
    upd_all (fun c hc _ => h.ok hc) hf
  constructor
  · show ((Verif.Reqs.upd cid f s.conns).map Conn.cid).Nodup
    rw [cids_upd _ _ _ hcid]; exact h.cids
  · apply upd_all
    · intro c hc _; exact h.cidlt c hc
    · intro c hc _; rw [hcid]; exact h.cidlt c hc
  · exact h.range
  · exact h.disj
  · exact h.nodup
  · exact h.pos
  · exact fun c hc => (key c hc).pendlt
  · exact fun c hc => (key c hc).workerlt
  · exact fun c hc => (key c hc).reqlt
  · exact hq
  · exact h.waitlt
  · exact fun c hc => (key c hc).stream
  · exact fun c hc => (key c hc).subs
  · exact fun c hc => (key c hc).hev

/-- An outcome reaches the caller. -/
theorem Inv.answer {s : Sys} (h : Inv s) (id : Nat) (b : Bool) (hid : id ∈ s.pending) :
    Inv { s with pending := del id s.pending, answers := (id, b) :: s.answers } := by
  constructor
  · exact h.cids
  · exact h.cidlt
  · intro x
    rw [h.range x]
    simp only [mem_del, List.map_cons, List.mem_cons]
    by_cases e : x = id
    · subst e; simp [hid]
    · simp [e]
  · intro x hx
    rw [mem_del] at hx
    simp only [List.map_cons, List.mem_cons, not_or]
    exact ⟨hx.2, h.disj x hx.1⟩
  · simp only [List.map_cons, List.nodup_cons]
    exact ⟨h.disj id hid, h.nodup⟩
  · exact h.pos
  · exact h.pendlt
  · exact h.workerlt
  · exact h.reqlt
  · exact h.notifylt
  · exact h.waitlt
  · exact h.stream
  · exact h.subs
  · exact h.hev

theorem Inv.congr {s t : Sys} (h : Inv s) (h1 : t.conns = s.conns) (h2 : t.nextCid = s.nextCid)
    (h3 : t.pending = s.pending) (h4 : t.answers = s.answers) (h5 : t.next = s.next)
    (h6 : ∀ cid id, QEv.notify cid id ∈ t.queue → id < s.next) (h7 : ∀ w ∈ t.waiting, w.2 < s.next) :
    Inv t := by
  obtain ⟨a1, a2, a3, a4, a5, a6, a7, a8, a9, a10, a11, a12, a13, a14⟩ := h
  constructor <;> simp only [h1, h2, h3, h4, h5] <;> assumption

theorem inv_step {lost : Bool} {cap : Nat} {s s' : Sys} {a : Act} (h : Inv s)
    (hs : Step lost cap s a s') : Inv s' := by
  cases hs with
  | sendTo p c hc hp =>
    have h1 : Inv { s with
        conns := Verif.Reqs.upd c.cid (fun c => { c with pend := c.pend }) s.conns } :=
      h.upd c.cid _ s.queue h.notifylt (fun _ => rfl) (fun x hx _ => h.ok hx)
    have key : ∀ x ∈ Verif.Reqs.upd c.cid (fun c => { c with pend := s.next :: c.pend }) s.conns,
        ConnOk (s.next + 1) x := by
      apply upd_all
      · intro x hx _
        have := h.ok hx
        exact ⟨fun i hi => Nat.lt_succ_of_lt (this.pendlt i hi),
          fun i hi => Nat.lt_succ_of_lt (this.workerlt i hi),
          fun i hi => Nat.lt_succ_of_lt (this.reqlt i hi), this.stream, this.subs,
          fun e he => (this.hev e he).imp fun _ h => ⟨Nat.lt_succ_of_lt h.1, h.2⟩⟩
      · intro x hx _
        have ok := h.ok hx
        refine ⟨?_, fun i hi => Nat.lt_succ_of_lt (ok.workerlt i hi),
          fun i hi => Nat.lt_succ_of_lt (ok.reqlt i hi), ?_, ok.subs,
          fun e he => (ok.hev e he).imp fun _ h => ⟨Nat.lt_succ_of_lt h.1, h.2⟩⟩
        · intro i hi
          simp only [List.mem_cons] at hi
          rcases hi with rfl | hi
          · omega
          · exact Nat.lt_succ_of_lt (ok.pendlt i hi)
        · intro i hi
          simp only [List.mem_cons, not_or]
          exact ⟨Nat.ne_of_lt (ok.workerlt _ hi), ok.stream i hi⟩
    constructor
    · show ((Verif.Reqs.upd _ _ s.conns).map Conn.cid).Nodup
      rw [cids_upd]
      · exact h.cids
      · intro _; rfl
    · apply upd_all
      · intro x hx _; exact h.cidlt x hx
      · intro x hx _; exact h.cidlt x hx
    · intro x
      have := h.range x
      have := h.pos
      simp only [List.mem_cons]
      by_cases e : x = s.next
      · simp [e]; omega
      · simp only [e, false_or]
        rw [← h.range x]; omega
    · intro x hx
      simp only [List.mem_cons] at hx
      rcases hx with rfl | hx
      · intro hm
        have := (h.range s.next).mpr (Or.inr hm)
        omega
      · exact h.disj x hx
    · exact h.nodup
    · exact Nat.le_succ_of_le h.pos
    · exact fun c hc => (key c hc).pendlt
    · exact fun c hc => (key c hc).workerlt
    · exact fun c hc => (key c hc).reqlt
    · intro cid id hm
      simp only [List.mem_append, List.mem_singleton, QEv.notify.injEq] at hm
      show id < s.next + 1
      rcases hm with hm | hm
      · exact Nat.lt_succ_of_lt (h.notifylt cid id hm)
      · omega
    · exact fun w hw => Nat.lt_succ_of_lt (h.waitlt w hw)
    · exact fun c hc => (key c hc).stream
    · exact fun c hc => (key c hc).subs
    · exact fun c hc => (key c hc).hev
  | sendWait p =>
    constructor
    · exact h.cids
    · exact h.cidlt
    · intro x
      have := h.pos
      simp only [List.mem_cons]
      by_cases e : x = s.next
      · simp [e]; omega
      · simp only [e, false_or]
        rw [← h.range x]; omega
    · intro x hx
      simp only [List.mem_cons] at hx
      rcases hx with rfl | hx
      · intro hm
        have := (h.range s.next).mpr (Or.inr hm)
        omega
      · exact h.disj x hx
    · exact h.nodup
    · exact Nat.le_succ_of_le h.pos
    · exact fun c hc i hi => Nat.lt_succ_of_lt (h.pendlt c hc i hi)
    · exact fun c hc i hi => Nat.lt_succ_of_lt (h.workerlt c hc i hi)
    · exact fun c hc i hi => Nat.lt_succ_of_lt (h.reqlt c hc i hi)
    · intro cid id hm
      simp only [List.mem_append, List.mem_singleton, reduceCtorEq, or_false] at hm
      exact Nat.lt_succ_of_lt (h.notifylt cid id hm)
    · intro w hw
      simp only [List.mem_append, List.mem_singleton] at hw
      show w.2 < s.next + 1
      rcases hw with hw | rfl
      · exact Nat.lt_succ_of_lt (h.waitlt w hw)
      · simp
    · exact h.stream
    · exact h.subs
    · exact fun c hc e he => (h.hev c hc e he).imp fun _ h => ⟨Nat.lt_succ_of_lt h.1, h.2⟩
  | poll e q hq =>
    have hn : ∀ cid id, QEv.notify cid id ∈ q → id < s.next := fun cid id hm =>
      h.notifylt cid id (by rw [hq]; exact List.mem_cons_of_mem _ hm)
    have h0 : Inv { s with queue := q } := h.congr rfl rfl rfl rfl rfl hn h.waitlt
    cases e with
    | notify cid id =>
      refine h0.upd cid _ q hn (fun _ => rfl) ?_
      intro c hc e
      have ok := h0.ok hc
      refine ⟨ok.pendlt, ok.workerlt, ?_, ok.stream, ok.subs, ok.hev⟩
      intro i hi
      simp only [List.mem_append, List.mem_singleton] at hi
      rcases hi with (hi | rfl) | hi
      · exact ok.reqlt i (by simp [hi])
      · exact h.notifylt cid i (by rw [hq]; simp)
      · exact ok.reqlt i (by simp [hi])
    | dial p => exact h0
    | closed id => exact h0
    | awaiting id =>
      simp only [deliver]
      split
      · rename_i hm
        exact h0.answer id true hm
      · exact h0.congr rfl rfl rfl rfl rfl hn h.waitlt
    | failure id =>
      simp only [deliver]
      split
      · exact h0
      · split
        · rename_i hm
          exact h0.answer id false hm
        · exact h0
  | connect p =>
    have mine : ∀ i ∈ (s.waiting.filter fun w => w.1 == p).map Prod.snd, i < s.next := by
      intro i hi
      simp only [List.mem_map, List.mem_filter] at hi
      obtain ⟨w, ⟨hw, _⟩, rfl⟩ := hi
      exact h.waitlt w hw
    have key : ∀ x ∈ (connect p s).conns, ConnOk s.next x := by
      intro x hx
      simp only [connect, List.mem_append, List.mem_singleton] at hx
      rcases hx with hx | rfl
      · exact h.ok hx
      · exact ⟨mine, by simp, by simpa using mine, by simp, by simp, by simp⟩
    constructor
    · simp only [connect, List.map_append, List.map_cons, List.map_nil]
      rw [List.nodup_append]
      refine ⟨h.cids, by simp, ?_⟩
      intro x hx y hy
      simp only [List.mem_singleton] at hy
      simp only [List.mem_map] at hx
      obtain ⟨c, hc, rfl⟩ := hx
      have := h.cidlt c hc
      omega
    · intro c hc
      simp only [connect, List.mem_append, List.mem_singleton] at hc ⊢
      rcases hc with hc | rfl
      · have := h.cidlt c hc; omega
      · show s.nextCid < s.nextCid + 1
        omega
    · exact h.range
    · exact h.disj
    · exact h.nodup
    · exact h.pos
    · exact fun c hc => (key c hc).pendlt
    · exact fun c hc => (key c hc).workerlt
    · exact fun c hc => (key c hc).reqlt
    · exact h.notifylt
    · intro w hw
      exact h.waitlt w (List.mem_filter.mp hw).1
    · exact fun c hc => (key c hc).stream
    · exact fun c hc => (key c hc).subs
    · exact fun c hc => (key c hc).hev
  | close c hc =>
    have sub : ∀ x, x ∈ s.conns.filter (fun x => x.cid != c.cid) → x ∈ s.conns :=
      fun x hx => (List.mem_filter.mp hx).1
    constructor
    · exact List.Nodup.sublist (List.Sublist.map _ List.filter_sublist) h.cids
    · exact fun x hx => h.cidlt x (sub x hx)
    · exact h.range
    · exact h.disj
    · exact h.nodup
    · exact h.pos
    · exact fun x hx => h.pendlt x (sub x hx)
    · exact fun x hx => h.workerlt x (sub x hx)
    · exact fun x hx => h.reqlt x (sub x hx)
    · intro cid id hm
      simp only [List.mem_append, List.mem_map, reduceCtorEq, and_false, exists_false, or_false] at hm
      exact h.notifylt cid id hm
    · exact h.waitlt
    · exact fun x hx => h.stream x (sub x hx)
    · exact fun x hx => h.subs x (sub x hx)
    · exact fun x hx => h.hev x (sub x hx)
  | dialFailure p =>
    refine h.congr rfl rfl rfl rfl rfl ?_ ?_
    · intro cid id hm
      simp only [dialFailure, List.mem_append, List.mem_map, reduceCtorEq, and_false, exists_false,
        or_false] at hm
      exact h.notifylt cid id hm
    · intro w hw
      exact h.waitlt w (List.mem_filter.mp hw).1
  | ask c hc id q ho =>
    refine h.upd c.cid _ s.queue h.notifylt (fun _ => rfl) ?_
    intro x hx e
    have : x = c := unique_cid h.cids hx hc e
    subst this
    have ok := h.ok hx
    refine ⟨ok.pendlt, ok.workerlt, ?_, ok.stream, ?_, ok.hev⟩
    · intro i hi
      apply ok.reqlt i
      rw [ho]
      simp only [List.mem_append, List.mem_cons] at hi ⊢
      grind
    · have := ok.subs
      simp only [List.length_append, List.length_singleton]
      omega
  | noReq c hc hs hr a ha => exact h.congr rfl rfl rfl rfl rfl h.notifylt h.waitlt
  | negotiated c hc hs id q hr hn =>
    refine h.upd c.cid _ s.queue h.notifylt (fun _ => rfl) ?_
    intro x hx e
    have : x = c := unique_cid h.cids hx hc e
    subst this
    have ok := h.ok hx
    refine ⟨ok.pendlt, ?_, ?_, ?_, ?_, ok.hev⟩
    · intro w hw
      simp only at hw
      split at hw
      · simp only [List.mem_append, List.mem_singleton] at hw
        rcases hw with hw | rfl
        · exact ok.workerlt w hw
        · exact ok.reqlt id (by rw [hr]; simp)
      · exact ok.workerlt w hw
    · intro i hi
      apply ok.reqlt i
      rw [hr]
      simp only [List.mem_append, List.mem_cons] at hi ⊢
      grind
    · intro i hi
      apply ok.stream i
      simp only at hi
      split at hi
      · simpa using hi
      · exact hi
    · have := ok.subs
      rw [hr] at this
      simp only [List.length_cons] at this ⊢
      omega
  | upgradeEvent c hc hs id q hr e ev he =>
    refine h.upd c.cid _ s.queue h.notifylt (fun _ => rfl) ?_
    intro x hx e
    have : x = c := unique_cid h.cids hx hc e
    subst this
    have ok := h.ok hx
    refine ⟨ok.pendlt, ok.workerlt, ?_, ok.stream, ?_, ?_⟩
    · intro i hi
      apply ok.reqlt i
      rw [hr]
      simp only [List.mem_append, List.mem_cons] at hi ⊢
      grind
    · have := ok.subs
      rw [hr] at this
      simp only [List.length_cons] at this ⊢
      omega
    · intro e' he'
      simp only [List.mem_append, List.mem_singleton] at he'
      rcases he' with he' | rfl
      · exact ok.hev e' he'
      · refine ⟨id, ok.reqlt id (by rw [hr]; simp), ?_⟩
        rcases he with ⟨_, rfl⟩ | ⟨_, rfl⟩ <;> rfl
  | upgradeIo c hc hs id q hr =>
    refine h.upd c.cid _ s.queue h.notifylt (fun _ => rfl) ?_
    intro x hx e
    have : x = c := unique_cid h.cids hx hc e
    subst this
    have ok := h.ok hx
    refine ⟨ok.pendlt, ok.workerlt, ?_, ok.stream, ?_, ok.hev⟩
    · intro i hi
      apply ok.reqlt i
      rw [hr]
      simp only [List.mem_append, List.mem_cons] at hi ⊢
      grind
    · have := ok.subs
      rw [hr] at this
      simp only [List.length_cons, List.length_append, List.length_nil] at this ⊢
      omega
  | event c hc e q hh =>
    refine h.upd c.cid _ _ ?_ (fun _ => rfl) ?_
    · intro cid id hm
      simp only [List.mem_append, List.mem_singleton] at hm
      rcases hm with hm | hm
      · exact h.notifylt cid id hm
      · cases e <;> simp [toEvent] at hm
    · intro x hx ex
      have : x = c := unique_cid h.cids hx hc ex
      subst this
      have ok := h.ok hx
      exact ⟨fun i hi => ok.pendlt i (mem_del.mp hi).1, ok.workerlt, ok.reqlt,
        fun i hi hm => ok.stream i hi (mem_del.mp hm).1, ok.subs,
        fun e he => ok.hev e (by rw [hh]; exact List.mem_cons_of_mem _ he)⟩
  | take c hc id q hh =>
    refine h.upd c.cid _ _ ?_ (fun _ => rfl) ?_
    · intro cid id hm
      simp only [List.mem_append, List.mem_singleton, toEvent, reduceCtorEq, or_false] at hm
      exact h.notifylt cid id hm
    · intro x hx _
      have ok := h.ok hx
      refine ⟨fun i hi => ok.pendlt i (mem_del.mp hi).1, ?_, ok.reqlt, ?_, ok.subs, ok.hev⟩
      · intro w hw
        rcases mem_setPhase.mp hw with ⟨hw, _⟩ | ⟨rfl, hw'⟩
        · exact ok.workerlt w hw
        · obtain ⟨y, hy, e⟩ := List.mem_map.mp hw'
          have := ok.workerlt y hy
          exact e ▸ this
      · intro i hi hm
        rcases mem_setPhase.mp hi with ⟨hw, _⟩ | ⟨hw, _⟩
        · exact ok.stream i hw (mem_del.mp hm).1
        · simp only [Prod.mk.injEq, and_true] at hw
          exact (mem_del.mp hm).2 hw
  | written c hc id hw =>
    refine h.upd c.cid _ s.queue h.notifylt (fun _ => rfl) ?_
    intro x hx e
    have ok := h.ok hx
    refine ⟨ok.pendlt, ?_, ok.reqlt, ?_, ok.subs, ok.hev⟩
    · intro w hw
      rcases mem_setPhase.mp hw with ⟨hw, _⟩ | ⟨rfl, hw'⟩
      · exact ok.workerlt w hw
      · obtain ⟨y, hy, e⟩ := List.mem_map.mp hw'
        have := ok.workerlt y hy
        exact e ▸ this
    · intro i hi
      rcases mem_setPhase.mp hi with ⟨hw, _⟩ | ⟨hw, _⟩
      · exact ok.stream i hw
      · simp at hw
  | gone c hc hn id p hw w e he =>
    refine h.upd c.cid _ _ ?_ (fun _ => rfl) ?_
    · intro cid id hm
      simp only [List.mem_append, List.mem_singleton] at hm
      rcases hm with hm | hm
      · exact h.notifylt cid id hm
      · cases e <;> simp [toEvent] at hm
    · intro x hx _
      have ok := h.ok hx
      exact ⟨fun i hi => ok.pendlt i (mem_del.mp hi).1,
        fun w hw => ok.workerlt w (mem_dropWorker.mp hw).1, ok.reqlt,
        fun i hi hm => ok.stream i (mem_dropWorker.mp hi).1 (mem_del.mp hm).1, ok.subs, ok.hev⟩

theorem inv_run {lost : Bool} {cap : Nat} {acts : List Act} {s : Sys}
    (h : run lost cap init acts = some s) : Inv s :=
  run_induct Inv (fun _ _ _ h hs => inv_step h (step_step hs)) init acts s inv_init h

theorem next_step {lost : Bool} {cap : Nat} {s t : Sys} {a : Act} (h : Step lost cap s a t) :
    t.next = s.next + (if isSend a then 1 else 0) := by
  cases h with
  | poll e q hq =>
    cases e <;> simp only [deliver, isSend, Bool.false_eq_true, if_false, Nat.add_zero] <;>
      (repeat' split) <;> rfl
  | noReq c hc hs hr a ha =>
    rcases ha with rfl | ⟨e, rfl⟩ <;> rfl
  | _ => rfl

theorem next_run {lost : Bool} {cap : Nat} {acts : List Act} {s s' : Sys}
    (h : run lost cap s acts = some s') : s'.next = s.next + asked acts := by
  induction acts generalizing s with
  | nil =>
    simp only [run, Option.some.injEq] at h
    subst h
    rfl
  | cons a as ih =>
    simp only [run] at h
    rcases e : step lost cap s a with _ | t
    · simp [e] at h
    · simp only [e] at h
      have h1 := ih h
      have h2 := next_step (step_step e)
      unfold asked at h1 ⊢
      rw [List.countP_cons, h1, h2]
      omega

/-- The outcomes of a step with a connection. -/
theorem acc_upd {s : Sys} (h : Acc s) (cid : Nat) (f : Conn → Conn) (q : List QEv)
    (hq : ∀ e ∈ s.queue, e ∈ q)
    (hf : ∀ c ∈ s.conns, c.cid = cid → ∀ id ∈ c.pend, id ∈ s.pending → id ∈ (f c).pend ∨
      ∃ e ∈ q, outcome e = some id) :
    Acc { s with conns := Verif.Reqs.upd cid f s.conns, queue := q } := by
  intro id hid
  rcases h id hid with h1 | ⟨c, hc, h1⟩ | ⟨e, he, h1⟩
  · exact Or.inl h1
  · by_cases e : c.cid = cid
    · rcases hf c hc e id h1 hid with h2 | h2
      · exact Or.inr (Or.inl ⟨f c, mem_upd.mpr ⟨c, hc, Or.inl ⟨e, rfl⟩⟩, h2⟩)
      · exact Or.inr (Or.inr h2)
    · exact Or.inr (Or.inl ⟨c, mem_upd.mpr ⟨c, hc, Or.inr ⟨e, rfl⟩⟩, h1⟩)
  · exact Or.inr (Or.inr ⟨e, hq e he, h1⟩)

theorem acc_step {cap : Nat} {s s' : Sys} {a : Act} (hi : Inv s) (h : Acc s)
    (hs : Step false cap s a s') : Acc s' := by
  cases hs with
  | sendTo p c hc hp =>
    intro id hid
    simp only [List.mem_cons] at hid
    rcases hid with rfl | hid
    · exact Or.inr (Or.inl ⟨_, mem_upd.mpr ⟨c, hc, Or.inl ⟨rfl, rfl⟩⟩, by simp⟩)
    · refine (acc_upd h c.cid (fun c => { c with pend := s.next :: c.pend })
        (s.queue ++ [.notify c.cid s.next]) (by simp +contextual) ?_) id hid
      intro x hx _ i hi _
      exact Or.inl (List.mem_cons_of_mem _ hi)
  | sendWait p =>
    intro id hid
    simp only [List.mem_cons] at hid
    rcases hid with rfl | hid
    · exact Or.inl ⟨p, by simp⟩
    · rcases h id hid with ⟨p', h1⟩ | h1 | ⟨e, he, h1⟩
      · exact Or.inl ⟨p', by simp [h1]⟩
      · exact Or.inr (Or.inl h1)
      · exact Or.inr (Or.inr ⟨e, by simp [he], h1⟩)
  | poll e q hq =>
    have h0 : ∀ id ∈ s.pending, outcome e ≠ some id → WaitsForPeer s id ∨
        (∃ c ∈ s.conns, id ∈ c.pend) ∨ ∃ e ∈ q, outcome e = some id := by
      intro id hid hne
      rcases h id hid with h1 | h1 | ⟨e', he, h1⟩
      · exact Or.inl h1
      · exact Or.inr (Or.inl h1)
      · rw [hq] at he
        rcases List.mem_cons.mp he with rfl | he
        · exact absurd h1 hne
        · exact Or.inr (Or.inr ⟨e', he, h1⟩)
    cases e with
    | notify cid id =>
      have : Acc { s with queue := q } := fun i hi => h0 i hi (by simp [outcome])
      exact acc_upd this cid _ q (fun _ h => h) (fun c _ _ i hi _ => Or.inl hi)
    | dial p => exact fun i hi => h0 i hi (by simp [outcome])
    | closed id => exact fun i hi => h0 i hi (by simp [outcome])
    | awaiting id =>
      simp only [deliver]
      split
      · intro i hi
        have := mem_del.mp hi
        exact h0 i this.1 (by simp only [outcome, ne_eq, Option.some.injEq]; exact fun e => this.2 e.symm)
      · rename_i hm
        intro i hi
        exact h0 i hi (by
          simp only [outcome, ne_eq, Option.some.injEq]
          rintro rfl
          exact hm hi)
    | failure id =>
      simp only [deliver, Bool.false_eq_true, if_false]
      split
      · intro i hi
        have := mem_del.mp hi
        exact h0 i this.1 (by simp only [outcome, ne_eq, Option.some.injEq]; exact fun e => this.2 e.symm)
      · rename_i hm
        intro i hi
        exact h0 i hi (by
          simp only [outcome, ne_eq, Option.some.injEq]
          rintro rfl
          exact hm hi)
  | connect p =>
    intro id hid
    rcases h id hid with ⟨p', h1⟩ | ⟨c, hc, h1⟩ | h1
    · by_cases e : p' = p
      · subst e
        refine Or.inr (Or.inl ⟨⟨s.nextCid, p', (s.waiting.filter fun w => w.1 == p').map Prod.snd,
          (s.waiting.filter fun w => w.1 == p').map Prod.snd, [], 0, [], [], []⟩,
          by simp [connect], ?_⟩)
        simp only [List.mem_map, List.mem_filter, beq_iff_eq]
        exact ⟨(p', id), ⟨h1, rfl⟩, rfl⟩
      · exact Or.inl ⟨p', by simp [connect, h1, e]⟩
    · exact Or.inr (Or.inl ⟨c, by simp [connect, hc], h1⟩)
    · exact Or.inr (Or.inr h1)
  | close c hc =>
    intro id hid
    rcases h id hid with h1 | ⟨x, hx, h1⟩ | ⟨e, he, h1⟩
    · exact Or.inl h1
    · by_cases e : x.cid = c.cid
      · have := unique_cid hi.cids hx hc e
        subst this
        exact Or.inr (Or.inr ⟨.failure id, by simp [h1], rfl⟩)
      · exact Or.inr (Or.inl ⟨x, by simp [hx, e], h1⟩)
    · exact Or.inr (Or.inr ⟨e, by simp [he], h1⟩)
  | dialFailure p =>
    intro id hid
    rcases h id hid with ⟨p', h1⟩ | h1 | ⟨e, he, h1⟩
    · by_cases e : p' = p
      · subst e
        refine Or.inr (Or.inr ⟨.failure id, ?_, rfl⟩)
        simp only [dialFailure, List.mem_append, List.mem_map, List.mem_filter, beq_iff_eq]
        exact Or.inr ⟨(p', id), ⟨h1, rfl⟩, rfl⟩
      · exact Or.inl ⟨p', by simp [dialFailure, h1, e]⟩
    · exact Or.inr (Or.inl h1)
    · exact Or.inr (Or.inr ⟨e, by simp [dialFailure, he], h1⟩)
  | ask c hc id q ho => exact acc_upd h c.cid _ s.queue (fun _ h => h) (fun x _ _ i hi _ => Or.inl hi)
  | noReq c hc hs hr a ha => exact h
  | negotiated c hc hs id q hr hn =>
    exact acc_upd h c.cid _ s.queue (fun _ h => h) (fun x _ _ i hi _ => Or.inl hi)
  | upgradeEvent c hc hs id q hr e ev he =>
    exact acc_upd h c.cid _ s.queue (fun _ h => h) (fun x _ _ i hi _ => Or.inl hi)
  | upgradeIo c hc hs id q hr =>
    exact acc_upd h c.cid _ s.queue (fun _ h => h) (fun x _ _ i hi _ => Or.inl hi)
  | written c hc id hw =>
    exact acc_upd h c.cid _ s.queue (fun _ h => h) (fun x _ _ i hi _ => Or.inl hi)
  | event c hc e q hh =>
    obtain ⟨id, _, he⟩ := hi.hev c hc e (by rw [hh]; simp)
    refine acc_upd h c.cid _ _ (by simp +contextual) ?_
    intro x hx _ i hi' _
    by_cases ei : i = id
    · subst ei
      exact Or.inr ⟨.failure i, by simp [he], rfl⟩
    · exact Or.inl (mem_del.mpr ⟨hi', by simpa [he] using ei⟩)
  | take c hc id q hh =>
    refine acc_upd h c.cid _ _ (by simp +contextual) ?_
    intro x hx _ i hi _
    by_cases e : i = id
    · subst e
      exact Or.inr ⟨.awaiting i, by simp [toEvent], rfl⟩
    · exact Or.inl (mem_del.mpr ⟨hi, by simpa [toEvent] using e⟩)
  | gone c hc hn id p hw w e he =>
    refine acc_upd h c.cid _ _ (by simp +contextual) ?_
    intro x hx ex i hi' _
    have : x = c := unique_cid hi.cids hx hc ex
    subst this
    by_cases ei : i = id
    · subst ei
      rcases he with ⟨rfl, rfl, rfl⟩ | ⟨_, _, rfl | rfl⟩ | ⟨_, rfl⟩
      · exact absurd hi' (hi.stream x hx i hw)
      all_goals exact Or.inr ⟨.failure i, by simp [toEvent], rfl⟩
    · refine Or.inl (mem_del.mpr ⟨hi', ?_⟩)
      rcases he with ⟨rfl, rfl, rfl⟩ | ⟨_, _, rfl | rfl⟩ | ⟨_, rfl⟩ <;> simpa [toEvent] using ei

end Verif.Reqs
