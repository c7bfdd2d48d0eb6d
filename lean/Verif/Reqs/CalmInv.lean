import Verif.Reqs.Base

/-
What holds of requests to peers as long as no stream is lost.
-/

namespace Verif.Reqs

open Verif.Reqs.Spec

/-- What becomes of a request that a connection has. -/
def Under (q : List QEv) (c : Conn) (id : Nat) : Prop :=
  .notify c.cid id ∈ q ∨ id ∈ c.outq ∨ id ∈ c.req ∨ (∃ e ∈ c.hev, (toEvent e).2 = id) ∨
    (id, .writing) ∈ c.workers ∨ (id, .parked) ∈ c.workers

/-- What holds of a connection. -/
structure CalmOk (q : List QEv) (c : Conn) : Prop where
  under : ∀ id ∈ c.pend, Under q c id
  subs : c.req.length = c.subs
  chan : ∀ id, (id, Phase.parked) ∈ c.workers → id ∈ c.chan

def CalmInv (s : Sys) : Prop := ∀ c ∈ s.conns, CalmOk s.queue c

theorem CalmOk.mono {q q' : List QEv} {c : Conn} (h : CalmOk q c)
    (hq : ∀ e ∈ q, e ∈ q') : CalmOk q' c :=
  ⟨fun id hid => (h.under id hid).imp (hq _) (fun h => h), h.subs, h.chan⟩

/-- The condition on one step. -/
def calmAct (cap : Nat) (s : Sys) (a : Act) : Prop :=
  match a with
  | .upgradeError _ e => e ≠ .io
  | .negotiated cid => ∀ c, s.conn cid = some c → c.workers.length < cap
  | _ => True

theorem calm_step {lost : Bool} {cap : Nat} {s s' : Sys} {a : Act} (hi : Inv s) (h : CalmInv s)
    (ha : calmAct cap s a) (hs : Step lost cap s a s') : CalmInv s' := by
  cases hs with
  | sendTo p c hc hp =>
    have mono : ∀ x ∈ s.conns, CalmOk (s.queue ++ [.notify c.cid s.next]) x :=
      fun x hx => (h x hx).mono (by simp +contextual)
    apply upd_all
    · intro x hx _
      exact mono x hx
    · intro x hx e
      refine ⟨?_, (h x hx).subs, (h x hx).chan⟩
      intro id hid
      simp only [List.mem_cons] at hid
      rcases hid with rfl | hid
      · exact Or.inl (by simp [e])
      · exact (mono x hx).under id hid
  | sendWait p => exact fun x hx => (h x hx).mono (by simp +contextual)
  | poll e q hq =>
    have other : (∀ cid id, e ≠ .notify cid id) → ∀ x ∈ s.conns, CalmOk q x := by
      intro hne x hx
      refine ⟨fun id hid => ?_, (h x hx).subs, (h x hx).chan⟩
      rcases (h x hx).under id hid with h1 | h1
      · rw [hq] at h1
        rcases List.mem_cons.mp h1 with h1 | h1
        · exact absurd h1.symm (hne _ _)
        · exact Or.inl h1
      · exact Or.inr h1
    cases e with
    | notify cid id =>
      apply upd_all
      · intro x hx ne
        refine ⟨fun i hid => ?_, (h x hx).subs, (h x hx).chan⟩
        rcases (h x hx).under i hid with h1 | h1
        · rw [hq] at h1
          rcases List.mem_cons.mp h1 with h1 | h1
          · simp only [QEv.notify.injEq] at h1
            exact absurd h1.1 ne
          · exact Or.inl h1
        · exact Or.inr h1
      · intro x hx ex
        refine ⟨fun i hid => ?_, (h x hx).subs, (h x hx).chan⟩
        rcases (h x hx).under i hid with h1 | h1 | h1
        · rw [hq] at h1
          rcases List.mem_cons.mp h1 with h1 | h1
          · simp only [QEv.notify.injEq] at h1
            exact Or.inr (Or.inl (by simp [h1.2]))
          · exact Or.inl h1
        · exact Or.inr (Or.inl (by simp [h1]))
        · exact Or.inr (Or.inr h1)
    | dial p => exact other (by simp)
    | closed id => exact other (by simp)
    | awaiting id =>
      simp only [deliver]
      split
      · exact other (by simp)
      · exact other (by simp)
    | failure id =>
      simp only [deliver]
      (repeat' split) <;> exact other (by simp)
  | connect p =>
    intro x hx
    simp only [connect, List.mem_append, List.mem_singleton] at hx
    rcases hx with hx | rfl
    · exact h x hx
    · exact ⟨fun id hid => Or.inr (Or.inl hid), rfl, by simp⟩
  | close c hc =>
    intro x hx
    exact (h x (List.mem_filter.mp hx).1).mono (by simp +contextual)
  | dialFailure p => exact fun x hx => (h x hx).mono (by simp +contextual [dialFailure])
  | ask c hc id q ho =>
    apply upd_all (fun x hx _ => h x hx)
    intro x hx e
    have : x = c := unique_cid hi.cids hx hc e
    subst this
    have ok := h x hx
    refine ⟨fun i hid => ?_, ?_, ok.chan⟩
    · rcases ok.under i hid with h1 | h1 | h1 | h1
      · exact Or.inl h1
      · rw [ho] at h1
        rcases List.mem_cons.mp h1 with rfl | h1
        · exact Or.inr (Or.inr (Or.inl (by simp)))
        · exact Or.inr (Or.inl h1)
      · exact Or.inr (Or.inr (Or.inl (by simp [h1])))
      · exact Or.inr (Or.inr (Or.inr h1))
    · have := ok.subs
      simp only [List.length_append, List.length_singleton]
      omega
  | noReq c hc hs hr a ha => exact h
  | negotiated c hc hs id q hr hn =>
    have room := ha c hn
    apply upd_all (fun x hx _ => h x hx)
    intro x hx e
    have : x = c := unique_cid hi.cids hx hc e
    subst this
    have ok := h x hx
    refine ⟨fun i hid => ?_, ?_, ?_⟩
    · simp only [Under, if_pos room]
      rcases ok.under i hid with h1 | h1 | h1 | h1 | h1 | h1
      · exact Or.inl h1
      · exact Or.inr (Or.inl h1)
      · rw [hr] at h1
        rcases List.mem_cons.mp h1 with rfl | h1
        · exact Or.inr (Or.inr (Or.inr (Or.inr (Or.inl (by simp)))))
        · exact Or.inr (Or.inr (Or.inl h1))
      · exact Or.inr (Or.inr (Or.inr (Or.inl h1)))
      · exact Or.inr (Or.inr (Or.inr (Or.inr (Or.inl (by simp [h1])))))
      · exact Or.inr (Or.inr (Or.inr (Or.inr (Or.inr (by simp [h1])))))
    · have := ok.subs
      rw [hr] at this
      simp only [List.length_cons] at this ⊢
      omega
    · intro i hi
      simp only [if_pos room, List.mem_append, List.mem_singleton, Prod.mk.injEq, reduceCtorEq,
        and_false, or_false] at hi
      exact ok.chan i hi
  | upgradeEvent c hc hs id q hr e ev he =>
    apply upd_all (fun x hx _ => h x hx)
    intro x hx e
    have : x = c := unique_cid hi.cids hx hc e
    subst this
    have ok := h x hx
    refine ⟨fun i hid => ?_, ?_, ok.chan⟩
    · rcases ok.under i hid with h1 | h1 | h1 | ⟨e, h1, h2⟩ | h1
      · exact Or.inl h1
      · exact Or.inr (Or.inl h1)
      · rw [hr] at h1
        rcases List.mem_cons.mp h1 with rfl | h1
        · refine Or.inr (Or.inr (Or.inr (Or.inl ⟨ev, by simp, ?_⟩)))
          rcases he with ⟨_, rfl⟩ | ⟨_, rfl⟩ <;> rfl
        · exact Or.inr (Or.inr (Or.inl h1))
      · exact Or.inr (Or.inr (Or.inr (Or.inl ⟨e, by simp [h1], h2⟩)))
      · exact Or.inr (Or.inr (Or.inr (Or.inr h1)))
    · have := ok.subs
      rw [hr] at this
      simp only [List.length_cons] at this ⊢
      omega
  | upgradeIo c hc hs id q hr => exact absurd rfl ha
  | event c hc e q hh =>
    apply upd_all (fun x hx _ => (h x hx).mono (fun _ he => List.mem_append_left _ he))
    intro x hx ex
    have : x = c := unique_cid hi.cids hx hc ex
    subst this
    have ok := (h x hx).mono (q' := s.queue ++ [(toEvent e).1]) (by simp +contextual)
    refine ⟨fun i hid => ?_, ok.subs, ok.chan⟩
    obtain ⟨h0, hne⟩ := mem_del.mp hid
    rcases ok.under i h0 with h1 | h1 | h1 | ⟨e', h1, h2⟩ | h1
    · exact Or.inl h1
    · exact Or.inr (Or.inl h1)
    · exact Or.inr (Or.inr (Or.inl h1))
    · rw [hh] at h1
      rcases List.mem_cons.mp h1 with rfl | h1
      · exact absurd h2.symm hne
      · exact Or.inr (Or.inr (Or.inr (Or.inl ⟨e', h1, h2⟩)))
    · exact Or.inr (Or.inr (Or.inr (Or.inr h1)))
  | take c hc id q hh =>
    apply upd_all (fun x hx _ => (h x hx).mono (fun _ he => List.mem_append_left _ he))
    intro x hx ex
    have : x = c := unique_cid hi.cids hx hc ex
    subst this
    have ok := (h x hx).mono (q' := s.queue ++ [(toEvent (.awaiting id)).1]) (by simp +contextual)
    refine ⟨fun i hid => ?_, ok.subs, ?_⟩
    · obtain ⟨h0, hne⟩ := mem_del.mp hid
      rcases ok.under i h0 with h1 | h1 | h1 | h1 | h1 | h1
      · exact Or.inl h1
      · exact Or.inr (Or.inl h1)
      · exact Or.inr (Or.inr (Or.inl h1))
      · exact Or.inr (Or.inr (Or.inr (Or.inl h1)))
      · exact Or.inr (Or.inr (Or.inr (Or.inr (Or.inl (mem_setPhase.mpr (Or.inl ⟨h1, hne⟩))))))
      · exact Or.inr (Or.inr (Or.inr (Or.inr (Or.inr (mem_setPhase.mpr (Or.inl ⟨h1, hne⟩))))))
    · intro i hi
      rcases mem_setPhase.mp hi with ⟨h1, hne⟩ | ⟨h1, _⟩
      · have := ok.chan i h1
        rw [hh] at this
        rcases List.mem_cons.mp this with h2 | h2
        · exact absurd h2 hne
        · exact h2
      · simp at h1
  | written c hc id hw =>
    apply upd_all (fun x hx _ => h x hx)
    intro x hx e
    have : x = c := unique_cid hi.cids hx hc e
    subst this
    have ok := h x hx
    refine ⟨fun i hid => ?_, ok.subs, ?_⟩
    · by_cases ei : i = id
      · subst ei
        exact Or.inr (Or.inr (Or.inr (Or.inr (Or.inr (mem_setPhase.mpr
          (Or.inr ⟨rfl, List.mem_map.mpr ⟨_, hw, rfl⟩⟩))))))
      · rcases ok.under i hid with h1 | h1 | h1 | h1 | h1 | h1
        · exact Or.inl h1
        · exact Or.inr (Or.inl h1)
        · exact Or.inr (Or.inr (Or.inl h1))
        · exact Or.inr (Or.inr (Or.inr (Or.inl h1)))
        · exact Or.inr (Or.inr (Or.inr (Or.inr (Or.inl (mem_setPhase.mpr (Or.inl ⟨h1, ei⟩))))))
        · exact Or.inr (Or.inr (Or.inr (Or.inr (Or.inr (mem_setPhase.mpr (Or.inl ⟨h1, ei⟩))))))
    · intro i hi
      rcases mem_setPhase.mp hi with ⟨h1, hne⟩ | ⟨h1, _⟩
      · simp [ok.chan i h1]
      · simp only [Prod.mk.injEq, and_true] at h1
        simp [h1]
  | gone c hc hn id p hw w e he =>
    apply upd_all (fun x hx _ => (h x hx).mono (fun _ he => List.mem_append_left _ he))
    intro x hx ex
    have : x = c := unique_cid hi.cids hx hc ex
    subst this
    have ok := (h x hx).mono (q' := s.queue ++ [(toEvent e).1]) (by simp +contextual)
    have hid2 : (toEvent e).2 = id := by
      rcases he with ⟨_, _, rfl⟩ | ⟨_, _, rfl | rfl⟩ | ⟨_, rfl⟩ <;> rfl
    refine ⟨fun i hid => ?_, ok.subs, ?_⟩
    · obtain ⟨h0, hne⟩ := mem_del.mp hid
      rw [hid2] at hne
      rcases ok.under i h0 with h1 | h1 | h1 | h1 | h1 | h1
      · exact Or.inl h1
      · exact Or.inr (Or.inl h1)
      · exact Or.inr (Or.inr (Or.inl h1))
      · exact Or.inr (Or.inr (Or.inr (Or.inl h1)))
      · exact Or.inr (Or.inr (Or.inr (Or.inr (Or.inl (mem_dropWorker.mpr ⟨h1, hne⟩)))))
      · exact Or.inr (Or.inr (Or.inr (Or.inr (Or.inr (mem_dropWorker.mpr ⟨h1, hne⟩)))))
    · intro i hi
      exact ok.chan i (mem_dropWorker.mp hi).1

theorem calm_run {lost : Bool} {cap : Nat} {acts : List Act} {s t : Sys} (hi : Inv s)
    (h : CalmInv s) (hc : Calm lost cap s acts) (hr : run lost cap s acts = some t) :
    CalmInv t := by
  induction acts generalizing s with
  | nil =>
    simp only [run, Option.some.injEq] at hr
    subst hr
    exact h
  | cons a as ih =>
    simp only [run] at hr
    simp only [Calm] at hc
    rcases e : step lost cap s a with _ | u
    · simp [e] at hr
    · simp only [e] at hr hc
      have st := step_step e
      refine ih (inv_step hi st) (calm_step hi h ?_ st) hc.2 hr
      exact hc.1

/-- Nothing left to do: nothing in any of the queues. -/
theorem idle_conns {lost : Bool} {cap : Nat} {s : Sys} (hi : Inv s) (h : Idle lost cap s) :
    s.queue = [] ∧ ∀ c ∈ s.conns, c.outq = [] ∧ c.subs = 0 ∧ c.hev = [] ∧ c.chan = [] ∧
      ∀ id, (id, .writing) ∈ c.workers → (id, .streaming) ∈ c.workers ∨
        (id, .parked) ∈ c.workers := by
  obtain ⟨hp, h1, h2⟩ := h
  have pf : (s.panicked = true) = False := by simp [hp]
  refine ⟨?_, ?_⟩
  · simp only [step, pf, if_false, poll] at h1
    split at h1
    · assumption
    · cases h1
  · intro c hc
    obtain ⟨a1, a2, a3, a4, a5⟩ := h2 c.cid
    have hf : s.conn c.cid = some c := by
      unfold Sys.conn
      rcases e : s.conns.find? fun x => x.cid == c.cid with _ | y
      · have := List.find?_eq_none.mp e c hc
        simp at this
      · have hy := List.mem_of_find?_eq_some e
        have ey := List.find?_some e
        simp only [beq_iff_eq] at ey
        rw [e, unique_cid hi.cids hy hc ey]
    simp only [step, pf, if_false, ask, negotiated, event, take, work, hf] at a1 a2 a3 a4 a5
    refine ⟨?_, ?_, ?_, ?_, ?_⟩
    · split at a1
      · assumption
      · cases a1
    · split at a2
      · assumption
      · split at a2 <;> cases a2
    · split at a3
      · assumption
      · cases a3
    · split at a4
      · assumption
      · cases a4
    · intro id hw
      have := a5 id
      rcases e : c.workers.find? (fun x => x.1 == id) with _ | ⟨i, p⟩
      · have := List.find?_eq_none.mp e _ hw
        simp at this
      · have hm := List.mem_of_find?_eq_some e
        have ei := List.find?_some e
        simp only [beq_iff_eq] at ei
        subst ei
        rw [e] at this
        cases p with
        | writing => simp at this
        | parked => exact Or.inr hm
        | streaming => exact Or.inl hm

/-- Nothing left to do: all that is not answered waits for its peer. -/
theorem idle_pend {lost : Bool} {cap : Nat} {s : Sys} (hi : Inv s) (hc : CalmInv s)
    (h : Idle lost cap s) : ∀ c ∈ s.conns, c.pend = [] := by
  intro c hm
  obtain ⟨hq, hconn⟩ := idle_conns hi h
  obtain ⟨h1, h2, h3, h4, h5⟩ := hconn c hm
  have ok := hc c hm
  have hr : c.req = [] := List.length_eq_zero_iff.mp (by rw [ok.subs, h2])
  have park : ∀ id, (id, Phase.parked) ∉ c.workers := by
    intro id hp
    have := ok.chan id hp
    rw [h4] at this
    cases this
  apply List.eq_nil_iff_forall_not_mem.mpr
  intro id hid
  rcases ok.under id hid with h | h | h | ⟨e, h, _⟩ | h | h
  · rw [hq] at h; cases h
  · rw [h1] at h; cases h
  · rw [hr] at h; cases h
  · rw [h3] at h; cases h
  · rcases h5 id h with h' | h'
    · exact hi.stream c hm id h' hid
    · exact park id h'
  · exact park id h

end Verif.Reqs
