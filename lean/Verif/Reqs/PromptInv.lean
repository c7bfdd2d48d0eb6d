import Verif.Reqs.Base

/-
What holds of requests to peers as long as no stream times out while its handler has
not yet noticed that the request was written.
-/

namespace Verif.Reqs

open Verif.Reqs.Spec

/-- The requests on their way to a handler. -/
def notes (cid : Nat) (q : List QEv) : List Nat :=
  q.filterMap fun e =>
    match e with
    | .notify c id => if c = cid then some id else none
    | _ => none

/-- All places where a handler may have a request. -/
def toks (q : List QEv) (c : Conn) : List Nat :=
  notes c.cid q ++ (c.outq ++ (c.req ++ (c.hev.map (fun e => (toEvent e).2) ++
    c.workers.map Prod.fst)))

/-- What holds of a connection. -/
structure Local (q : List QEv) (c : Conn) : Prop where
  nodup : ∀ a, (toks q c).count a ≤ 1
  sub : ∀ id ∈ toks q c, (id, Phase.streaming) ∉ c.workers → id ∈ c.pend
  chan : ∀ id ∈ c.chan, (id, Phase.parked) ∈ c.workers
  chann : c.chan.Nodup

/-- What holds of all of them together. -/
structure Glob (s : Sys) : Prop where
  notecid : ∀ cid id, QEv.notify cid id ∈ s.queue → cid < s.nextCid
  outlt : ∀ e ∈ s.queue, ∀ id, outcome e = some id → id < s.next
  waitn : (s.waiting.map Prod.snd).Nodup
  pend1 : ∀ c ∈ s.conns, ∀ id ∈ c.pend, id ∈ s.pending ∧ (∀ e ∈ s.queue, outcome e ≠ some id) ∧
    id ∉ s.waiting.map Prod.snd
  uniq : ∀ c ∈ s.conns, ∀ x ∈ s.conns, ∀ id, id ∈ c.pend → id ∈ x.pend → c.cid = x.cid
  wait1 : ∀ id ∈ s.waiting.map Prod.snd, id ∈ s.pending ∧ ∀ e ∈ s.queue, outcome e ≠ some id
  str : ∀ c ∈ s.conns, ∀ x ∈ s.conns, ∀ id, (id, Phase.streaming) ∈ c.workers →
    id ∉ x.pend ∧ id ∉ s.waiting.map Prod.snd
  ok : ∀ q1 id q2, s.queue = q1 ++ .awaiting id :: q2 →
    id ∈ s.pending ∧ ∀ e ∈ q1, outcome e ≠ some id

structure PInv (s : Sys) : Prop where
  loc : ∀ c ∈ s.conns, Local s.queue c
  glob : Glob s

theorem pinv_init : PInv init := by
  refine ⟨by simp [init], ?_⟩
  constructor <;> simp [init]

theorem notes_append (cid : Nat) (q q' : List QEv) :
    notes cid (q ++ q') = notes cid q ++ notes cid q' := by
  unfold notes
  rw [List.filterMap_append]

theorem mem_notes {cid id : Nat} {q : List QEv} : id ∈ notes cid q ↔ .notify cid id ∈ q := by
  unfold notes
  rw [List.mem_filterMap]
  constructor
  · rintro ⟨e, he, h⟩
    cases e with
    | notify c i =>
      simp only [Option.ite_none_right_eq_some, Option.some.injEq] at h
      obtain ⟨rfl, rfl⟩ := h
      exact he
    | _ => simp at h
  · intro h
    exact ⟨_, h, by simp⟩

theorem notes_none {cid : Nat} {q : List QEv} (h : ∀ id, .notify cid id ∉ q) : notes cid q = [] := by
  apply List.eq_nil_iff_forall_not_mem.mpr
  intro id hid
  exact h id (mem_notes.mp hid)

theorem map_setPhase (id : Nat) (p : Phase) (ws : List (Nat × Phase)) :
    (setPhase id p ws).map Prod.fst = ws.map Prod.fst := by
  unfold setPhase
  rw [List.map_map]
  apply List.map_congr_left
  intro w _
  simp only [Function.comp_apply]
  split
  · rename_i h; exact h.symm
  · rfl

theorem count_dropWorker (a id : Nat) (ws : List (Nat × Phase)) :
    ((dropWorker id ws).map Prod.fst).count a ≤ (ws.map Prod.fst).count a :=
  List.Sublist.count_le _ (List.Sublist.map _ List.filter_sublist)

theorem Local.queue {q q' : List QEv} {c : Conn} (h : Local q c)
    (hq : notes c.cid q' = notes c.cid q) : Local q' c := by
  have e : toks q' c = toks q c := by unfold toks; rw [hq]
  exact ⟨by rw [e]; exact h.nodup, by rw [e]; exact h.sub, h.chan, h.chann⟩

/-- One connection changes, and at most one event is added. -/
theorem Glob.upd {s : Sys} (h : Glob s) (hi : Inv s) (c : Conn) (hc : c ∈ s.conns)
    (f : Conn → Conn) (hcid : ∀ c, (f c).cid = c.cid) (ev : Option QEv)
    (hpend : ∀ id ∈ (f c).pend, id ∈ c.pend)
    (hstr : ∀ id, (id, Phase.streaming) ∈ (f c).workers →
      (id, Phase.streaming) ∈ c.workers ∨ (id ∈ c.pend ∧ id ∉ (f c).pend))
    (hev : ∀ e ∈ ev, ∀ id, outcome e = some id →
      id ∉ (f c).pend ∧ (id ∈ c.pend ∨ (id, Phase.streaming) ∈ c.workers))
    (haw : ∀ id, ev = some (.awaiting id) → id ∈ c.pend)
    (hno : ∀ cid id, ev ≠ some (.notify cid id)) :
    Glob { s with conns := Verif.Reqs.upd c.cid f s.conns, queue := s.queue ++ ev.toList } := by
  have fc : ∀ x ∈ s.conns, x.cid = c.cid → x = c := fun x hx e => unique_cid hi.cids hx hc e
  have pendof : ∀ y ∈ Verif.Reqs.upd c.cid f s.conns, ∃ x ∈ s.conns, y.cid = x.cid ∧
      ∀ id ∈ y.pend, id ∈ x.pend := by
    apply upd_all
    · intro x hx _; exact ⟨x, hx, rfl, fun _ h => h⟩
    · intro x hx e
      have := fc x hx e
      subst this
      exact ⟨x, hx, hcid x, hpend⟩
  have noev : ∀ y ∈ Verif.Reqs.upd c.cid f s.conns, ∀ id ∈ y.pend, ∀ e ∈ ev,
      outcome e ≠ some id := by
    intro y hy id hid e he ho
    obtain ⟨h1, h2⟩ := hev e he id ho
    obtain ⟨x, hx, ⟨e1, rfl⟩ | ⟨e1, rfl⟩⟩ := mem_upd.mp hy
    · have := fc x hx e1
      subst this
      exact h1 hid
    · rcases h2 with h2 | h2
      · exact e1 (h.uniq y hx c hc id hid h2)
      · exact (h.str c hc y hx id h2).1 hid
  have memq : ∀ e, e ∈ s.queue ++ ev.toList ↔ e ∈ s.queue ∨ e ∈ ev := by
    intro e
    simp
  constructor
  · intro cid id hm
    rcases (memq _).mp hm with hm | hm
    · exact h.notecid cid id hm
    · exact absurd hm (hno cid id)
  · intro e he id ho
    rcases (memq _).mp he with he | he
    · exact h.outlt e he id ho
    · rcases (hev e he id ho).2 with h2 | h2
      · exact hi.pendlt c hc id h2
      · exact hi.workerlt c hc _ h2
  · exact h.waitn
  · intro y hy id hid
    obtain ⟨x, hx, _, hsub⟩ := pendof y hy
    obtain ⟨h1, h2, h3⟩ := h.pend1 x hx id (hsub id hid)
    refine ⟨h1, ?_, h3⟩
    intro e he
    rcases (memq _).mp he with he | he
    · exact h2 e he
    · exact noev y hy id hid e he
  · intro y hy z hz id h1 h2
    obtain ⟨x, hx, e1, s1⟩ := pendof y hy
    obtain ⟨w, hw, e2, s2⟩ := pendof z hz
    rw [e1, e2]
    exact h.uniq x hx w hw id (s1 id h1) (s2 id h2)
  · intro id hid
    refine ⟨(h.wait1 id hid).1, ?_⟩
    intro e he
    rcases (memq _).mp he with he | he
    · exact (h.wait1 id hid).2 e he
    · intro ho
      rcases (hev e he id ho).2 with h2 | h2
      · exact (h.pend1 c hc id h2).2.2 hid
      · exact (h.str c hc c hc id h2).2 hid
  · intro y hy z hz id hw
    have old : ∀ x ∈ s.conns, (id, Phase.streaming) ∈ x.workers →
        id ∉ z.pend ∧ id ∉ s.waiting.map Prod.snd := by
      intro x hx hw
      obtain ⟨w, hw', _, s2⟩ := pendof z hz
      have := h.str x hx w hw' id hw
      exact ⟨fun hm => this.1 (s2 id hm), this.2⟩
    obtain ⟨x, hx, ⟨e1, rfl⟩ | ⟨e1, rfl⟩⟩ := mem_upd.mp hy
    · have := fc x hx e1
      subst this
      rcases hstr id hw with hw | ⟨h1, h2⟩
      · exact old x hx hw
      · refine ⟨?_, (h.pend1 x hx id h1).2.2⟩
        intro hm
        obtain ⟨w, hw', ⟨e2, rfl⟩ | ⟨e2, rfl⟩⟩ := mem_upd.mp hz
        · have := fc w hw' e2
          subst this
          exact h2 hm
        · exact e2 (h.uniq z hw' x hx id hm h1)
    · exact old y hx hw
  · intro q1 id q2 he
    cases ev with
    | none =>
      simp only [Option.toList_none, List.append_nil] at he
      exact h.ok q1 id q2 he
    | some e =>
      simp only [Option.toList_some] at he
      rcases List.append_eq_append_iff.mp he with ⟨l, hl, hr⟩ | ⟨l, hl, hr⟩
      · rcases l with _ | ⟨x, l⟩
        · simp only [List.nil_append, List.cons.injEq] at hr
          simp only [List.append_nil] at hl
          have hp := haw id (by rw [hr.1])
          rw [hl]
          exact ⟨(h.pend1 c hc id hp).1, (h.pend1 c hc id hp).2.1⟩
        · have := congrArg List.length hr
          simp at this
      · rcases l with _ | ⟨x, l⟩
        · simp only [List.nil_append, List.cons.injEq] at hr
          simp only [List.append_nil] at hl
          have hp := haw id (by rw [hr.1])
          rw [← hl]
          exact ⟨(h.pend1 c hc id hp).1, (h.pend1 c hc id hp).2.1⟩
        · simp only [List.cons_append, List.cons.injEq] at hr
          exact h.ok q1 id l (by rw [hl, hr.1])

/-- The first event is taken. -/
theorem Glob.pop {s : Sys} (h : Glob s) {e : QEv} {q : List QEv} (hq : s.queue = e :: q) :
    Glob { s with queue := q } := by
  have sub : ∀ x ∈ q, x ∈ s.queue := fun x hx => by rw [hq]; exact List.mem_cons_of_mem _ hx
  constructor
  · exact fun cid id hm => h.notecid cid id (sub _ hm)
  · exact fun e he => h.outlt e (sub _ he)
  · exact h.waitn
  · exact fun c hc id hid => ⟨(h.pend1 c hc id hid).1, fun e he => (h.pend1 c hc id hid).2.1 e (sub _ he),
      (h.pend1 c hc id hid).2.2⟩
  · exact h.uniq
  · exact fun id hid => ⟨(h.wait1 id hid).1, fun e he => (h.wait1 id hid).2 e (sub _ he)⟩
  · exact h.str
  · intro q1 id q2 he
    have := h.ok (e :: q1) id q2 (by rw [hq, List.cons_append]; exact congrArg _ he)
    exact ⟨this.1, fun x hx => this.2 x (List.mem_cons_of_mem _ hx)⟩

/-- Its outcome was the first for this request. -/
theorem Glob.answer {s : Sys} (h : Glob s) {e : QEv} {q : List QEv} (hq : s.queue = e :: q)
    (id : Nat) (ho : outcome e = some id) (b : Bool) :
    Glob { s with queue := q, pending := del id s.pending, answers := (id, b) :: s.answers } := by
  have g := h.pop hq
  have he : e ∈ s.queue := by rw [hq]; simp
  constructor
  · exact g.notecid
  · exact g.outlt
  · exact g.waitn
  · intro c hc i hid
    have := g.pend1 c hc i hid
    refine ⟨mem_del.mpr ⟨this.1, ?_⟩, this.2⟩
    rintro rfl
    exact (h.pend1 c hc i hid).2.1 e he ho
  · exact g.uniq
  · intro i hid
    have := g.wait1 i hid
    refine ⟨mem_del.mpr ⟨this.1, ?_⟩, this.2⟩
    rintro rfl
    exact (h.wait1 i hid).2 e he ho
  · exact g.str
  · intro q1 i q2 hs
    have := h.ok (e :: q1) i q2 (by rw [hq, List.cons_append]; exact congrArg _ hs)
    refine ⟨mem_del.mpr ⟨this.1, ?_⟩, fun x hx => this.2 x (List.mem_cons_of_mem _ hx)⟩
    rintro rfl
    exact this.2 e (by simp) ho

/-- The condition on one step. -/
def promptAct (s : Sys) (a : Act) : Prop :=
  match a with
  | .work cid id .streamTimeout => ∀ c, s.conn cid = some c → (id, .parked) ∉ c.workers
  | _ => True

theorem count_toks (a : Nat) (q : List QEv) (c : Conn) : (toks q c).count a =
    (notes c.cid q).count a + (c.outq.count a + (c.req.count a +
      ((c.hev.map fun e => (toEvent e).2).count a + (c.workers.map Prod.fst).count a))) := by
  unfold toks
  simp only [List.count_append]

theorem mem_toks {a : Nat} {q : List QEv} {c : Conn} : a ∈ toks q c ↔
    .notify c.cid a ∈ q ∨ a ∈ c.outq ∨ a ∈ c.req ∨ (a ∈ c.hev.map fun e => (toEvent e).2) ∨
      a ∈ c.workers.map Prod.fst := by
  unfold toks
  simp only [List.mem_append, mem_notes]

theorem no_streaming {q : List QEv} {c : Conn} (h : Local q c) {id : Nat}
    (hm : .notify c.cid id ∈ q ∨ id ∈ c.outq ∨ id ∈ c.req ∨ (id ∈ c.hev.map fun e => (toEvent e).2)) :
    id ∉ c.workers.map Prod.fst := by
  intro hw
  have h1 := h.nodup id
  rw [count_toks] at h1
  have h2 := List.count_pos_iff.mpr hw
  rcases hm with hm | hm | hm | hm
  · have := List.count_pos_iff.mpr (mem_notes.mpr hm); omega
  all_goals (have := List.count_pos_iff.mpr hm; omega)

theorem pend_of {q : List QEv} {c : Conn} (h : Local q c) {id : Nat}
    (hm : .notify c.cid id ∈ q ∨ id ∈ c.outq ∨ id ∈ c.req ∨ (id ∈ c.hev.map fun e => (toEvent e).2)) :
    id ∈ c.pend := by
  apply h.sub id
  · rw [mem_toks]
    rcases hm with hm | hm | hm | hm <;> simp [hm]
  · intro hw
    exact no_streaming h hm (List.mem_map.mpr ⟨_, hw, rfl⟩)

/-- A worker is in one stage only. -/
theorem phase_eq {q : List QEv} {c : Conn} (h : Local q c) {id : Nat} {p p' : Phase}
    (h1 : (id, p) ∈ c.workers) (h2 : (id, p') ∈ c.workers) : p = p' := by
  have hn : (c.workers.map Prod.fst).Nodup := by
    rw [List.nodup_iff_count]
    intro a
    have := h.nodup a
    rw [count_toks] at this
    omega
  have : ∀ ws : List (Nat × Phase), (ws.map Prod.fst).Nodup → (id, p) ∈ ws → (id, p') ∈ ws → p = p' := by
    intro ws
    induction ws with
    | nil => intro _ h; cases h
    | cons w ws ih =>
      intro hn h1 h2
      simp only [List.map_cons, List.nodup_cons, List.mem_map, not_exists, not_and] at hn
      rcases List.mem_cons.mp h1 with e1 | g1 <;> rcases List.mem_cons.mp h2 with e2 | g2
      · rw [← e2] at e1
        simpa using e1
      · exact (hn.1 _ g2 (by rw [← e1])).elim
      · exact (hn.1 _ g1 (by rw [← e2])).elim
      · exact ih hn.2 g1 g2
  exact this _ hn h1 h2

/-- One connection changes, and at most one event is added. -/
theorem PInv.upd {s : Sys} (h : PInv s) (hi : Inv s) (c : Conn) (hc : c ∈ s.conns)
    (f : Conn → Conn) (hcid : ∀ c, (f c).cid = c.cid) (ev : Option QEv)
    (hpend : ∀ id ∈ (f c).pend, id ∈ c.pend)
    (hstr : ∀ id, (id, Phase.streaming) ∈ (f c).workers →
      (id, Phase.streaming) ∈ c.workers ∨ (id ∈ c.pend ∧ id ∉ (f c).pend))
    (hev : ∀ e ∈ ev, ∀ id, outcome e = some id →
      id ∉ (f c).pend ∧ (id ∈ c.pend ∨ (id, Phase.streaming) ∈ c.workers))
    (haw : ∀ id, ev = some (.awaiting id) → id ∈ c.pend)
    (hno : ∀ cid id, ev ≠ some (.notify cid id))
    (hloc : Local s.queue (f c)) :
    PInv { s with conns := Verif.Reqs.upd c.cid f s.conns, queue := s.queue ++ ev.toList } := by
  refine ⟨?_, h.glob.upd hi c hc f hcid ev hpend hstr hev haw hno⟩
  have hn : ∀ cid, notes cid (s.queue ++ ev.toList) = notes cid s.queue := by
    intro cid
    rw [notes_append, notes_none (q := ev.toList), List.append_nil]
    intro id hm
    exact hno cid id (by simpa using hm)
  apply upd_all
  · intro x hx _
    exact (h.loc x hx).queue (hn _)
  · intro x hx e
    have := unique_cid hi.cids hx hc e
    subst this
    exact hloc.queue (hn _)

theorem PInv.upd0 {s : Sys} (h : PInv s) (hi : Inv s) (c : Conn) (hc : c ∈ s.conns)
    (f : Conn → Conn) (hcid : ∀ c, (f c).cid = c.cid)
    (hpend : (f c).pend = c.pend)
    (hstr : ∀ id, (id, Phase.streaming) ∈ (f c).workers → (id, Phase.streaming) ∈ c.workers)
    (hloc : Local s.queue (f c)) :
    PInv { s with conns := Verif.Reqs.upd c.cid f s.conns } := by
  have := h.upd hi c hc f hcid none (by rw [hpend]; exact fun _ h => h)
    (fun id hid => Or.inl (hstr id hid)) (by simp) (by simp) (by simp) hloc
  simpa using this

theorem snd_inj {ws : List (Nat × Nat)} (h : (ws.map Prod.snd).Nodup) {a b : Nat × Nat}
    (ha : a ∈ ws) (hb : b ∈ ws) (e : a.2 = b.2) : a = b := by
  induction ws with
  | nil => cases ha
  | cons x xs ih =>
    simp only [List.map_cons, List.nodup_cons, List.mem_map, not_exists, not_and] at h
    simp only [List.mem_cons] at ha hb
    rcases ha with rfl | ha <;> rcases hb with rfl | hb
    · rfl
    · exact absurd e.symm (h.1 b hb)
    · exact absurd e (h.1 a ha)
    · exact ih h.2 ha hb

/-- An event is not among those added. -/
theorem split_append {q evs q1 q2 : List QEv} {e : QEv} (h : q ++ evs = q1 ++ e :: q2)
    (hne : e ∉ evs) : ∃ l, q = q1 ++ e :: l := by
  rcases List.append_eq_append_iff.mp h with ⟨l, hl, hr⟩ | ⟨l, hl, hr⟩
  · exact absurd (by rw [hr]; simp) hne
  · rcases l with _ | ⟨x, l⟩
    · simp only [List.nil_append] at hr
      exact absurd (by rw [← hr]; simp) hne
    · simp only [List.cons_append, List.cons.injEq] at hr
      exact ⟨l, by rw [hl, hr.1]⟩

theorem pinv_step {lost : Bool} {cap : Nat} {s s' : Sys} {a : Act} (hi : Inv s) (h : PInv s)
    (ha : promptAct s a) (hs : Step lost cap s a s') : PInv s' := by
  cases hs with
  | sendTo p c hc hp =>
    have g := h.glob
    have memq : ∀ e, e ∈ s.queue ++ [QEv.notify c.cid s.next] → ∀ id, outcome e = some id →
        e ∈ s.queue := by
      intro e he id ho
      simp only [List.mem_append, List.mem_singleton] at he
      rcases he with he | rfl
      · exact he
      · simp [outcome] at ho
    have wlt : ∀ id ∈ s.waiting.map Prod.snd, id < s.next := by
      intro id hid
      obtain ⟨w, hw, rfl⟩ := List.mem_map.mp hid
      exact hi.waitlt w hw
    have pendof : ∀ y ∈ Verif.Reqs.upd c.cid (fun c => { c with pend := s.next :: c.pend }) s.conns,
        ∃ x ∈ s.conns, y.cid = x.cid ∧ y.workers = x.workers ∧
          ∀ id ∈ y.pend, id ∈ x.pend ∨ (id = s.next ∧ x.cid = c.cid) := by
      apply upd_all
      · intro x hx _
        exact ⟨x, hx, rfl, rfl, fun _ h => Or.inl h⟩
      · intro x hx e
        refine ⟨x, hx, rfl, rfl, ?_⟩
        intro id hid
        rcases List.mem_cons.mp hid with rfl | hid
        · exact Or.inr ⟨rfl, e⟩
        · exact Or.inl hid
    refine ⟨?_, ?_⟩
    · apply upd_all
      · intro x hx ne
        refine (h.loc x hx).queue ?_
        rw [notes_append]
        simp [notes, Ne.symm ne]
      · intro x hx e
        have := unique_cid hi.cids hx hc e
        subst this
        have l := h.loc x hx
        have hnote : notes x.cid (s.queue ++ [QEv.notify x.cid s.next])
            = notes x.cid s.queue ++ [s.next] := by
          rw [notes_append]
          simp [notes]
        refine ⟨?_, ?_, l.chan, l.chann⟩
        · intro a
          have h1 := l.nodup a
          rw [count_toks] at h1 ⊢
          simp only [hnote, List.count_append, List.count_cons, List.count_nil]
          by_cases ea : s.next = a
          · subst ea
            have : (toks s.queue x).count s.next = 0 := by
              apply List.count_eq_zero.mpr
              intro hm
              rcases mem_toks.mp hm with hm | hm | hm | hm | hm
              · have := hi.notifylt _ _ hm; omega
              · have := hi.reqlt x hx s.next (by simp [hm]); omega
              · have := hi.reqlt x hx s.next (by simp [hm]); omega
              · obtain ⟨e, he, e2⟩ := List.mem_map.mp hm
                obtain ⟨i, hlt, e3⟩ := hi.hev x hx e he
                rw [e3] at e2
                simp only at e2
                omega
              · obtain ⟨w, hw, e2⟩ := List.mem_map.mp hm
                have := hi.workerlt x hx w hw
                omega
            rw [count_toks] at this
            simp
            omega
          · simp [ea]
            omega
        · intro i hm hns
          rw [mem_toks] at hm
          simp only [List.mem_append, List.mem_singleton, QEv.notify.injEq, true_and] at hm
          by_cases ei : i = s.next
          · subst ei; simp
          · refine List.mem_cons_of_mem _ (l.sub i ?_ hns)
            rw [mem_toks]
            grind
    · constructor
      · intro cid id hm
        simp only [List.mem_append, List.mem_singleton, QEv.notify.injEq] at hm
        rcases hm with hm | ⟨rfl, _⟩
        · exact g.notecid cid id hm
        · exact hi.cidlt c hc
      · exact fun e he id ho => Nat.lt_succ_of_lt (g.outlt e (memq e he id ho) id ho)
      · exact g.waitn
      · intro y hy id hid
        obtain ⟨x, hx, _, _, hsub⟩ := pendof y hy
        rcases hsub id hid with h1 | ⟨rfl, _⟩
        · obtain ⟨a1, a2, a3⟩ := g.pend1 x hx id h1
          exact ⟨List.mem_cons_of_mem _ a1, fun e he ho => a2 e (memq e he id ho) ho, a3⟩
        · refine ⟨by simp, ?_, ?_⟩
          · intro e he ho
            have := g.outlt e (memq e he _ ho) _ ho
            omega
          · intro hm
            have := wlt _ hm
            omega
      · intro y hy z hz id h1 h2
        obtain ⟨x, hx, e1, _, s1⟩ := pendof y hy
        obtain ⟨w, hw, e2, _, s2⟩ := pendof z hz
        rw [e1, e2]
        rcases s1 id h1 with h1 | ⟨e', c1⟩ <;> rcases s2 id h2 with h2 | ⟨e, c2⟩
        · exact g.uniq x hx w hw id h1 h2
        · have := hi.pendlt x hx id h1; omega
        · have := hi.pendlt w hw id h2; omega
        · rw [c1, c2]
      · intro id hid
        exact ⟨List.mem_cons_of_mem _ (g.wait1 id hid).1,
          fun e he ho => (g.wait1 id hid).2 e (memq e he id ho) ho⟩
      · intro y hy z hz id hw
        obtain ⟨x, hx, _, e1, _⟩ := pendof y hy
        obtain ⟨w, hw', _, _, s2⟩ := pendof z hz
        rw [e1] at hw
        obtain ⟨a1, a2⟩ := g.str x hx w hw' id hw
        refine ⟨?_, a2⟩
        intro hm
        rcases s2 id hm with h1 | ⟨rfl, _⟩
        · exact a1 h1
        · have := hi.workerlt x hx _ hw
          simp only at this
          omega
      · intro q1 id q2 he
        obtain ⟨l, hl⟩ := split_append he (by simp)
        obtain ⟨a1, a2⟩ := g.ok q1 id l hl
        exact ⟨List.mem_cons_of_mem _ a1, a2⟩
  | sendWait p =>
    have g := h.glob
    have memq : ∀ e, e ∈ s.queue ++ [QEv.dial p] → ∀ id, outcome e = some id →
        e ∈ s.queue := by
      intro e he id ho
      simp only [List.mem_append, List.mem_singleton] at he
      rcases he with he | rfl
      · exact he
      · simp [outcome] at ho
    have wlt : ∀ id ∈ s.waiting.map Prod.snd, id < s.next := by
      intro id hid
      obtain ⟨w, hw, rfl⟩ := List.mem_map.mp hid
      exact hi.waitlt w hw
    have memw : ∀ id, id ∈ (s.waiting ++ [(p, s.next)]).map Prod.snd ↔
        id ∈ s.waiting.map Prod.snd ∨ id = s.next := by
      intro id
      simp only [List.map_append, List.mem_append, List.map_cons, List.map_nil, List.mem_singleton]
    refine ⟨?_, ?_⟩
    · intro x hx
      refine (h.loc x hx).queue ?_
      rw [notes_append]
      simp [notes]
    · constructor
      · intro cid id hm
        simp only [List.mem_append, List.mem_singleton, reduceCtorEq, or_false] at hm
        exact g.notecid cid id hm
      · exact fun e he id ho => Nat.lt_succ_of_lt (g.outlt e (memq e he id ho) id ho)
      · simp only [List.map_append, List.map_cons, List.map_nil]
        rw [List.nodup_append]
        refine ⟨g.waitn, by simp, ?_⟩
        intro a ha b hb e
        simp only [List.mem_singleton] at hb
        have := wlt a ha
        omega
      · intro y hy id hid
        obtain ⟨a1, a2, a3⟩ := g.pend1 y hy id hid
        refine ⟨List.mem_cons_of_mem _ a1, fun e he ho => a2 e (memq e he id ho) ho, ?_⟩
        intro hm
        rcases (memw id).mp hm with hm | rfl
        · exact a3 hm
        · have := hi.pendlt y hy _ hid; omega
      · exact g.uniq
      · intro id hid
        rcases (memw id).mp hid with hid | rfl
        · exact ⟨List.mem_cons_of_mem _ (g.wait1 id hid).1,
            fun e he ho => (g.wait1 id hid).2 e (memq e he id ho) ho⟩
        · refine ⟨by simp, ?_⟩
          intro e he ho
          have := g.outlt e (memq e he _ ho) _ ho
          omega
      · intro y hy z hz id hw
        obtain ⟨a1, a2⟩ := g.str y hy z hz id hw
        refine ⟨a1, ?_⟩
        intro hm
        rcases (memw id).mp hm with hm | rfl
        · exact a2 hm
        · have := hi.workerlt y hy _ hw
          simp only at this
          omega
      · intro q1 id q2 he
        obtain ⟨l, hl⟩ := split_append he (by simp)
        obtain ⟨a1, a2⟩ := g.ok q1 id l hl
        exact ⟨List.mem_cons_of_mem _ a1, a2⟩
  | poll e q hq =>
    have g := h.glob
    have other : (∀ cid id, e ≠ .notify cid id) → ∀ x ∈ s.conns, Local q x := by
      intro hne x hx
      refine (h.loc x hx).queue ?_
      rw [hq]
      unfold notes
      rw [List.filterMap_cons]
      cases e with
      | notify cid id => exact absurd rfl (hne cid id)
      | _ => rfl
    cases e with
    | notify cid id =>
      have key : ∀ x ∈ s.conns, x.cid ≠ cid → Local q x := by
        intro x hx ne
        refine (h.loc x hx).queue ?_
        rw [hq]
        simp [notes, Ne.symm ne]
      have hloc : ∀ x ∈ s.conns, x.cid = cid → Local q { x with outq := x.outq ++ [id] } := by
        intro x hx e
        have l := h.loc x hx
        have hnote : notes x.cid s.queue = id :: notes x.cid q := by
          rw [hq]
          simp [notes, e]
        refine ⟨?_, ?_, l.chan, l.chann⟩
        · intro a
          have h1 := l.nodup a
          rw [count_toks] at h1 ⊢
          simp only [hnote, List.count_append, List.count_cons, List.count_nil] at h1 ⊢
          omega
        · intro i hm hns
          apply l.sub i ?_ hns
          rw [mem_toks] at hm ⊢
          rw [hq]
          simp only [List.mem_append, List.mem_cons, QEv.notify.injEq] at hm ⊢
          grind
      have gp := g.pop hq
      have pendof : ∀ y ∈ Verif.Reqs.upd cid (fun c => { c with outq := c.outq ++ [id] }) s.conns,
          ∃ x ∈ s.conns, y.cid = x.cid ∧ y.workers = x.workers ∧ y.pend = x.pend := by
        apply upd_all
        · intro x hx _; exact ⟨x, hx, rfl, rfl, rfl⟩
        · intro x hx _; exact ⟨x, hx, rfl, rfl, rfl⟩
      refine ⟨upd_all key hloc, gp.notecid, gp.outlt, gp.waitn, ?_, ?_, gp.wait1, ?_, gp.ok⟩
      · intro y hy i hid
        obtain ⟨x, hx, _, _, e⟩ := pendof y hy
        rw [e] at hid
        exact gp.pend1 x hx i hid
      · intro y hy z hz i h1 h2
        obtain ⟨x, hx, e1, _, e2⟩ := pendof y hy
        obtain ⟨w, hw, e3, _, e4⟩ := pendof z hz
        rw [e1, e3]
        exact gp.uniq x hx w hw i (e2 ▸ h1) (e4 ▸ h2)
      · intro y hy z hz i hw
        obtain ⟨x, hx, _, e2, _⟩ := pendof y hy
        obtain ⟨w, hw', _, _, e4⟩ := pendof z hz
        rw [e4]
        exact gp.str x hx w hw' i (e2 ▸ hw)
    | dial p => exact ⟨other (by simp), g.pop hq⟩
    | closed id => exact ⟨other (by simp), g.pop hq⟩
    | awaiting id =>
      have hm : id ∈ s.pending := (g.ok [] id q hq).1
      simp only [deliver]
      rw [if_pos hm]
      exact ⟨other (by simp), g.answer hq id rfl true⟩
    | failure id =>
      simp only [deliver]
      split
      · exact ⟨other (by simp), g.pop hq⟩
      · split
        · exact ⟨other (by simp), g.answer hq id rfl false⟩
        · exact ⟨other (by simp), g.pop hq⟩
  | connect p =>
    have g := h.glob
    have minein : ∀ id, id ∈ (s.waiting.filter fun w => w.1 == p).map Prod.snd →
        id ∈ s.waiting.map Prod.snd := by
      intro id hid
      obtain ⟨w, hw, rfl⟩ := List.mem_map.mp hid
      exact List.mem_map.mpr ⟨w, (List.mem_filter.mp hw).1, rfl⟩
    have restin : ∀ id, id ∈ (s.waiting.filter fun w => w.1 != p).map Prod.snd →
        id ∈ s.waiting.map Prod.snd := by
      intro id hid
      obtain ⟨w, hw, rfl⟩ := List.mem_map.mp hid
      exact List.mem_map.mpr ⟨w, (List.mem_filter.mp hw).1, rfl⟩
    have minen : ((s.waiting.filter fun w => w.1 == p).map Prod.snd).Nodup :=
      List.Nodup.sublist (List.Sublist.map _ List.filter_sublist) g.waitn
    have restn : ((s.waiting.filter fun w => w.1 != p).map Prod.snd).Nodup :=
      List.Nodup.sublist (List.Sublist.map _ List.filter_sublist) g.waitn
    have apart : ∀ id, id ∈ (s.waiting.filter fun w => w.1 == p).map Prod.snd →
        id ∉ (s.waiting.filter fun w => w.1 != p).map Prod.snd := by
      intro id h1 h2
      obtain ⟨a, ha, e1⟩ := List.mem_map.mp h1
      obtain ⟨b, hb, e2⟩ := List.mem_map.mp h2
      rw [List.mem_filter] at ha hb
      have := snd_inj g.waitn ha.1 hb.1 (e1.trans e2.symm)
      subst this
      have h3 := ha.2
      have h4 := hb.2
      simp at h3 h4
      exact h4 h3
    have memc : ∀ y ∈ (connect p s).conns, y ∈ s.conns ∨
        y = ⟨s.nextCid, p, (s.waiting.filter fun w => w.1 == p).map Prod.snd,
          (s.waiting.filter fun w => w.1 == p).map Prod.snd, [], 0, [], [], []⟩ := by
      intro y hy
      simpa [connect] using hy
    refine ⟨?_, ?_⟩
    · intro y hy
      rcases memc y hy with hy | rfl
      · exact h.loc y hy
      · have hn : notes s.nextCid s.queue = [] := by
          apply notes_none
          intro id hm
          have := g.notecid _ _ hm
          omega
        refine ⟨?_, ?_, by simp, by simp⟩
        · intro a
          rw [count_toks]
          have := List.nodup_iff_count.mp minen a
          simp only [connect, hn, List.count_nil, List.map_nil]
          omega
        · intro id hm _
          rw [mem_toks] at hm
          rcases hm with hm | hm | hm | hm | hm
          · have := g.notecid _ _ hm
            simp only at this
            omega
          · exact hm
          all_goals simp at hm
    · constructor
      · intro cid id hm
        have := g.notecid cid id hm
        simp only [connect]
        omega
      · exact g.outlt
      · exact restn
      · intro y hy id hid
        rcases memc y hy with hy | rfl
        · obtain ⟨a1, a2, a3⟩ := g.pend1 y hy id hid
          exact ⟨a1, a2, fun hm => a3 (restin id hm)⟩
        · obtain ⟨a1, a2⟩ := g.wait1 id (minein id hid)
          exact ⟨a1, a2, apart id hid⟩
      · intro y hy z hz id h1 h2
        rcases memc y hy with hy | rfl <;> rcases memc z hz with hz | rfl
        · exact g.uniq y hy z hz id h1 h2
        · exact absurd (minein id h2) (g.pend1 y hy id h1).2.2
        · exact absurd (minein id h1) (g.pend1 z hz id h2).2.2
        · rfl
      · exact fun id hid => g.wait1 id (restin id hid)
      · intro y hy z hz id hw
        rcases memc y hy with hy | rfl
        · have hw2 := (g.str y hy y hy id hw).2
          refine ⟨?_, fun hm => hw2 (restin id hm)⟩
          rcases memc z hz with hz | rfl
          · exact (g.str y hy z hz id hw).1
          · exact fun hm => hw2 (minein id hm)
        · simp at hw
      · exact g.ok
  | close c hc =>
    have g := h.glob
    have sub : ∀ x, x ∈ s.conns.filter (fun x => x.cid != c.cid) → x ∈ s.conns ∧ x.cid ≠ c.cid := by
      intro x hx
      simpa using hx
    have memq : ∀ e, e ∈ s.queue ++ c.pend.map QEv.failure → ∀ id, outcome e = some id →
        e ∈ s.queue ∨ id ∈ c.pend := by
      intro e he id ho
      simp only [List.mem_append, List.mem_map] at he
      rcases he with he | ⟨i, hm, rfl⟩
      · exact Or.inl he
      · simp only [outcome, Option.some.injEq] at ho
        exact Or.inr (ho ▸ hm)
    refine ⟨?_, ?_⟩
    · intro x hx
      refine (h.loc x (sub x hx).1).queue ?_
      rw [notes_append, notes_none (q := c.pend.map QEv.failure), List.append_nil]
      simp
    · constructor
      · intro cid id hm
        simp only [List.mem_append, List.mem_map, reduceCtorEq, and_false, exists_false,
          or_false] at hm
        exact g.notecid cid id hm
      · intro e he id ho
        rcases memq e he id ho with h1 | h1
        · exact g.outlt e h1 id ho
        · exact hi.pendlt c hc id h1
      · exact g.waitn
      · intro y hy id hid
        obtain ⟨a1, a2, a3⟩ := g.pend1 y (sub y hy).1 id hid
        refine ⟨a1, ?_, a3⟩
        intro e he ho
        rcases memq e he id ho with h1 | h1
        · exact a2 e h1 ho
        · exact (sub y hy).2 (g.uniq y (sub y hy).1 c hc id hid h1)
      · exact fun y hy z hz => g.uniq y (sub y hy).1 z (sub z hz).1
      · intro id hid
        refine ⟨(g.wait1 id hid).1, ?_⟩
        intro e he ho
        rcases memq e he id ho with h1 | h1
        · exact (g.wait1 id hid).2 e h1 ho
        · exact (g.pend1 c hc id h1).2.2 hid
      · exact fun y hy z hz => g.str y (sub y hy).1 z (sub z hz).1
      · intro q1 id q2 he
        obtain ⟨l, hl⟩ := split_append he (by simp)
        exact g.ok q1 id l hl
  | dialFailure p =>
    have g := h.glob
    have restin : ∀ id, id ∈ (s.waiting.filter fun w => w.1 != p).map Prod.snd →
        id ∈ s.waiting.map Prod.snd := by
      intro id hid
      obtain ⟨w, hw, rfl⟩ := List.mem_map.mp hid
      exact List.mem_map.mpr ⟨w, (List.mem_filter.mp hw).1, rfl⟩
    have memq : ∀ e, e ∈ (dialFailure p s).queue → ∀ id, outcome e = some id →
        e ∈ s.queue ∨ (p, id) ∈ s.waiting := by
      intro e he id ho
      simp only [dialFailure, List.mem_append, List.mem_map, List.mem_filter, beq_iff_eq] at he
      rcases he with he | ⟨⟨p', i⟩, ⟨hm, rfl⟩, rfl⟩
      · exact Or.inl he
      · simp only [outcome, Option.some.injEq] at ho
        exact Or.inr (ho ▸ hm)
    have inw : ∀ id, (p, id) ∈ s.waiting → id ∈ s.waiting.map Prod.snd :=
      fun id hm => List.mem_map.mpr ⟨_, hm, rfl⟩
    refine ⟨?_, ?_⟩
    · intro x hx
      refine (h.loc x hx).queue ?_
      simp only [dialFailure]
      rw [notes_append, notes_none (q := List.map _ _), List.append_nil]
      simp
    · constructor
      · intro cid id hm
        simp only [dialFailure, List.mem_append, List.mem_map, reduceCtorEq, and_false, exists_false,
          or_false] at hm
        exact g.notecid cid id hm
      · intro e he id ho
        rcases memq e he id ho with h1 | h1
        · exact g.outlt e h1 id ho
        · exact hi.waitlt _ h1
      · exact List.Nodup.sublist (List.Sublist.map _ List.filter_sublist) g.waitn
      · intro y hy id hid
        obtain ⟨a1, a2, a3⟩ := g.pend1 y hy id hid
        refine ⟨a1, ?_, fun hm => a3 (restin id hm)⟩
        intro e he ho
        rcases memq e he id ho with h1 | h1
        · exact a2 e h1 ho
        · exact a3 (inw id h1)
      · exact g.uniq
      · intro id hid
        refine ⟨(g.wait1 id (restin id hid)).1, ?_⟩
        intro e he ho
        rcases memq e he id ho with h1 | h1
        · exact (g.wait1 id (restin id hid)).2 e h1 ho
        · obtain ⟨b, hb, e2⟩ := List.mem_map.mp hid
          have hb := List.mem_filter.mp hb
          have := snd_inj g.waitn h1 hb.1 e2.symm
          subst this
          have h4 := hb.2
          simp at h4
      · intro y hy z hz id hw
        obtain ⟨a1, a2⟩ := g.str y hy z hz id hw
        exact ⟨a1, fun hm => a2 (restin id hm)⟩
      · intro q1 id q2 he
        obtain ⟨l, hl⟩ := split_append he (by simp)
        exact g.ok q1 id l hl
  | ask c hc id q ho =>
    have l := h.loc c hc
    refine h.upd0 hi c hc _ (fun _ => rfl) rfl (fun _ h => h) ⟨?_, ?_, l.chan, l.chann⟩
    · intro a
      have := l.nodup a
      rw [count_toks] at this ⊢
      simp only [ho, List.count_cons, List.count_append, List.count_nil] at this ⊢
      omega
    · intro i hm
      apply l.sub i
      rw [mem_toks] at hm ⊢
      simp only [ho, List.mem_append, List.mem_cons] at hm ⊢
      grind
  | noReq c hc hs hr a ha =>
    exact ⟨h.loc, h.glob.notecid, h.glob.outlt, h.glob.waitn, h.glob.pend1, h.glob.uniq,
      h.glob.wait1, h.glob.str, h.glob.ok⟩
  | negotiated c hc hs id q hr hn =>
    have l := h.loc c hc
    have nw := no_streaming l (id := id) (by rw [hr]; simp)
    refine h.upd0 hi c hc _ (fun _ => rfl) rfl ?_ ⟨?_, ?_, ?_, l.chann⟩
    · intro i hm
      simp only at hm
      split at hm
      · simpa using hm
      · exact hm
    · intro a
      have := l.nodup a
      rw [count_toks] at this ⊢
      simp only [hr, List.count_cons] at this ⊢
      split
      · simp only [List.map_append, List.count_append, List.map_cons, List.map_nil, List.count_cons,
          List.count_nil]
        omega
      · omega
    · intro i hm hns
      have hm' : i ∈ toks s.queue c := by
        rw [mem_toks] at hm ⊢
        simp only [hr, List.mem_cons] at hm ⊢
        split at hm
        · simp only [List.map_append, List.mem_append, List.map_cons, List.map_nil,
            List.mem_singleton] at hm
          grind
        · grind
      apply l.sub i hm'
      intro hst
      apply hns
      simp only
      split
      · simp [hst]
      · exact hst
    · intro i hm
      have := l.chan i hm
      simp only
      split
      · simp [this]
      · exact this
  | upgradeEvent c hc hs id q hr e ev he =>
    have l := h.loc c hc
    have e2 : (toEvent ev).2 = id := by rcases he with ⟨_, rfl⟩ | ⟨_, rfl⟩ <;> rfl
    refine h.upd0 hi c hc _ (fun _ => rfl) rfl (fun _ h => h) ⟨?_, ?_, l.chan, l.chann⟩
    · intro a
      have := l.nodup a
      rw [count_toks] at this ⊢
      simp only [hr, List.count_cons, List.map_append, List.count_append, List.map_cons,
        List.map_nil, List.count_nil, e2] at this ⊢
      omega
    · intro i hm
      apply l.sub i
      rw [mem_toks] at hm ⊢
      simp only [hr, List.map_append, List.mem_append, List.mem_cons, List.map_cons, List.map_nil,
        e2] at hm ⊢
      grind
  | upgradeIo c hc hs id q hr =>
    have l := h.loc c hc
    refine h.upd0 hi c hc _ (fun _ => rfl) rfl (fun _ h => h) ⟨?_, ?_, l.chan, l.chann⟩
    · intro a
      have := l.nodup a
      rw [count_toks] at this ⊢
      simp only [hr, List.count_cons, List.count_append, List.count_nil] at this ⊢
      omega
    · intro i hm
      apply l.sub i
      rw [mem_toks] at hm ⊢
      simp only [hr, List.mem_append, List.mem_cons] at hm ⊢
      grind
  | event c hc e q hh =>
    have l := h.loc c hc
    obtain ⟨id, _, he⟩ := hi.hev c hc e (by rw [hh]; simp)
    have hp : id ∈ c.pend := pend_of l (Or.inr (Or.inr (Or.inr (by rw [hh]; simp [he]))))
    refine h.upd hi c hc (fun c => { c with hev := q, pend := del (toEvent e).2 c.pend })
      (fun _ => rfl) (some (toEvent e).1) ?_ (fun _ h => Or.inl h) ?_ ?_ ?_ ⟨?_, ?_, l.chan, l.chann⟩
    · exact fun i hm => (mem_del.mp hm).1
    · intro e' he' i ho
      simp only [Option.mem_def, Option.some.injEq] at he'
      subst he'
      rw [he] at ho
      simp only [outcome, Option.some.injEq] at ho
      subst ho
      exact ⟨fun hm => (mem_del.mp hm).2 (by rw [he]), Or.inl hp⟩
    · intro i h'
      rw [he] at h'
      simp at h'
    · intro _ _ h'
      rw [he] at h'
      simp at h'
    · intro a
      have := l.nodup a
      rw [count_toks] at this ⊢
      simp only [hh, List.map_cons, List.count_cons] at this ⊢
      omega
    · intro i hm hns
      have hm' : i ∈ toks s.queue c := by
        rw [mem_toks] at hm ⊢
        simp only [hh, List.map_cons, List.mem_cons] at hm ⊢
        grind
      refine mem_del.mpr ⟨l.sub i hm' hns, ?_⟩
      rw [he]
      rintro rfl
      have h1 := l.nodup i
      have h2 := List.count_pos_iff.mpr hm
      rw [count_toks] at h1 h2
      simp only [hh, List.map_cons, List.count_cons, he, beq_self_eq_true, if_true] at h1 h2
      omega
  | take c hc id q hh =>
    have l := h.loc c hc
    have hw := l.chan id (by rw [hh]; simp)
    have hp : id ∈ c.pend := by
      apply l.sub id
      · rw [mem_toks]
        exact Or.inr (Or.inr (Or.inr (Or.inr (List.mem_map.mpr ⟨_, hw, rfl⟩))))
      · intro h2
        have := phase_eq l hw h2
        cases this
    have cn := l.chann
    rw [hh, List.nodup_cons] at cn
    refine h.upd hi c hc (fun c => { c with
        chan := q, workers := setPhase id .streaming c.workers, pend := del id c.pend })
      (fun _ => rfl) (some (.awaiting id)) ?_ ?_ ?_ ?_ (by simp) ⟨?_, ?_, ?_, cn.2⟩
    · exact fun i hm => (mem_del.mp hm).1
    · intro i hm
      rcases mem_setPhase.mp hm with ⟨h1, _⟩ | ⟨h1, _⟩
      · exact Or.inl h1
      · simp only [Prod.mk.injEq, and_true] at h1
        subst h1
        exact Or.inr ⟨hp, fun hm => (mem_del.mp hm).2 rfl⟩
    · intro e' he' i ho
      simp only [Option.mem_def, Option.some.injEq] at he'
      subst he'
      simp only [outcome, Option.some.injEq] at ho
      subst ho
      exact ⟨fun hm => (mem_del.mp hm).2 rfl, Or.inl hp⟩
    · intro i e
      simp only [Option.some.injEq, QEv.awaiting.injEq] at e
      subst e
      exact hp
    · intro a
      have := l.nodup a
      rw [count_toks] at this ⊢
      simp only [map_setPhase]
      exact this
    · intro i hm hns
      have hm' : i ∈ toks s.queue c := by
        rw [mem_toks] at hm ⊢
        simpa only [map_setPhase] using hm
      have ne : i ≠ id := by
        rintro rfl
        exact hns (mem_setPhase.mpr (Or.inr ⟨rfl, List.mem_map.mpr ⟨_, hw, rfl⟩⟩))
      refine mem_del.mpr ⟨l.sub i hm' (fun h2 => hns (mem_setPhase.mpr (Or.inl ⟨h2, ne⟩))), ne⟩
    · intro i hm
      have ne : i ≠ id := by rintro rfl; exact cn.1 hm
      exact mem_setPhase.mpr (Or.inl ⟨l.chan i (by rw [hh]; exact List.mem_cons_of_mem _ hm), ne⟩)
  | written c hc id hw =>
    have l := h.loc c hc
    refine h.upd0 hi c hc _ (fun _ => rfl) rfl ?_ ⟨?_, ?_, ?_, ?_⟩
    · intro i hm
      rcases mem_setPhase.mp hm with ⟨h1, _⟩ | ⟨h1, _⟩
      · exact h1
      · simp at h1
    · intro a
      have := l.nodup a
      rw [count_toks] at this ⊢
      simp only [map_setPhase]
      exact this
    · intro i hm hns
      have hm' : i ∈ toks s.queue c := by
        rw [mem_toks] at hm ⊢
        simpa only [map_setPhase] using hm
      apply l.sub i hm'
      intro h2
      apply hns
      refine mem_setPhase.mpr (Or.inl ⟨h2, ?_⟩)
      rintro rfl
      have := phase_eq l hw h2
      cases this
    · intro i hm
      simp only [List.mem_append, List.mem_singleton] at hm
      by_cases e : i = id
      · subst e
        exact mem_setPhase.mpr (Or.inr ⟨rfl, List.mem_map.mpr ⟨_, hw, rfl⟩⟩)
      · rcases hm with hm | hm
        · exact mem_setPhase.mpr (Or.inl ⟨l.chan i hm, e⟩)
        · exact absurd hm e
    · simp only
      rw [List.nodup_append]
      refine ⟨l.chann, by simp, ?_⟩
      intro x hx y hy e
      simp only [List.mem_singleton] at hy
      subst hy
      subst e
      have := phase_eq l hw (l.chan x hx)
      cases this
  | gone c hc hn id p hw w e he =>
    have l := h.loc c hc
    have np : p ≠ .parked := by
      rintro rfl
      rcases he with ⟨h1, _⟩ | ⟨h1, _⟩ | ⟨rfl, _⟩
      · cases h1
      · exact h1 rfl
      · exact ha c hn hw
    have e2 : (toEvent e).2 = id := by
      rcases he with ⟨_, _, rfl⟩ | ⟨_, _, rfl | rfl⟩ | ⟨_, rfl⟩ <;> rfl
    have out : ∀ i, outcome (toEvent e).1 = some i → i = id := by
      rcases he with ⟨_, _, rfl⟩ | ⟨_, _, rfl | rfl⟩ | ⟨_, rfl⟩ <;>
        simp [toEvent, outcome] <;> exact fun _ h => h.symm
    have hp : id ∈ c.pend ∨ (id, Phase.streaming) ∈ c.workers := by
      by_cases hst : (id, Phase.streaming) ∈ c.workers
      · exact Or.inr hst
      · exact Or.inl (l.sub id (mem_toks.mpr
          (Or.inr (Or.inr (Or.inr (Or.inr (List.mem_map.mpr ⟨_, hw, rfl⟩)))))) hst)
    refine h.upd hi c hc (fun c => { c with
        workers := dropWorker id c.workers, pend := del (toEvent e).2 c.pend })
      (fun _ => rfl) (some (toEvent e).1) ?_ ?_ ?_ ?_ ?_ ⟨?_, ?_, ?_, l.chann⟩
    · exact fun i hm => (mem_del.mp hm).1
    · exact fun i hm => Or.inl (mem_dropWorker.mp hm).1
    · intro e' he' i ho
      simp only [Option.mem_def, Option.some.injEq] at he'
      subst he'
      have := out i ho
      subst this
      exact ⟨fun hm => (mem_del.mp hm).2 e2.symm, hp⟩
    · intro i h'
      rcases he with ⟨_, _, rfl⟩ | ⟨_, _, rfl | rfl⟩ | ⟨_, rfl⟩ <;> simp [toEvent] at h'
    · intro _ _ h'
      rcases he with ⟨_, _, rfl⟩ | ⟨_, _, rfl | rfl⟩ | ⟨_, rfl⟩ <;> simp [toEvent] at h'
    · intro a
      have := l.nodup a
      have := count_dropWorker a id c.workers
      rw [count_toks] at *
      simp only
      omega
    · intro i hm hns
      have ne : i ≠ id := by
        rintro rfl
        have h1 := l.nodup i
        have h2 := List.count_pos_iff.mpr hm
        have h3 : ((dropWorker i c.workers).map Prod.fst).count i = 0 := by
          apply List.count_eq_zero.mpr
          intro hx
          obtain ⟨y, hy, ey⟩ := List.mem_map.mp hx
          exact (mem_dropWorker.mp hy).2 ey
        have h4 := List.count_pos_iff.mpr (List.mem_map.mpr ⟨_, hw, rfl⟩ : i ∈ c.workers.map Prod.fst)
        rw [count_toks] at h1 h2
        simp only at h2
        omega
      have hm' : i ∈ toks s.queue c := by
        rw [mem_toks] at hm ⊢
        simp only [List.mem_map] at hm ⊢
        rcases hm with hm | hm | hm | hm | ⟨y, hy, ey⟩
        · exact Or.inl hm
        · exact Or.inr (Or.inl hm)
        · exact Or.inr (Or.inr (Or.inl hm))
        · exact Or.inr (Or.inr (Or.inr (Or.inl hm)))
        · exact Or.inr (Or.inr (Or.inr (Or.inr ⟨y, (mem_dropWorker.mp hy).1, ey⟩)))
      refine mem_del.mpr ⟨l.sub i hm' (fun h2 => hns (mem_dropWorker.mpr ⟨h2, ne⟩)), ?_⟩
      rw [e2]
      exact ne
    · intro i hm
      have := l.chan i hm
      refine mem_dropWorker.mpr ⟨this, ?_⟩
      rintro rfl
      exact np (phase_eq l hw this)

/-- Nothing panics in such a step. -/
theorem prompt_panic {lost : Bool} {cap : Nat} {s s' : Sys} {a : Act} (hi : Inv s) (h : PInv s)
    (hp : s.panicked = false) (hs : Step lost cap s a s') : s'.panicked = false := by
  cases hs with
  | noReq c hc hs hr a ha =>
    have := hi.subs c hc
    rw [hr] at this
    simp only [List.length_nil] at this
    omega
  | poll e q hq =>
    cases e with
    | awaiting id =>
      simp only [deliver]
      rw [if_pos (h.glob.ok [] id q hq).1]
      exact hp
    | failure id =>
      simp only [deliver]
      (repeat' split) <;> exact hp
    | _ => exact hp
  | _ => exact hp

theorem prompt_run {lost : Bool} {cap : Nat} {acts : List Act} {s t : Sys} (hi : Inv s)
    (h : PInv s) (hp : s.panicked = false) (hc : Prompt lost cap s acts)
    (hr : run lost cap s acts = some t) : PInv t ∧ t.panicked = false := by
  induction acts generalizing s with
  | nil =>
    simp only [run, Option.some.injEq] at hr
    subst hr
    exact ⟨h, hp⟩
  | cons a as ih =>
    simp only [run] at hr
    simp only [Prompt] at hc
    rcases e : step lost cap s a with _ | u
    · simp [e] at hr
    · simp only [e] at hr hc
      have st := step_step e
      exact ih (inv_step hi st) (pinv_step hi h hc.1 st) (prompt_panic hi h hp st) hc.2 hr

end Verif.Reqs
