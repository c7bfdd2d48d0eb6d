import Verif.Rpc.SubsSpec
/-!
# Invariants of subscriptions
-/
namespace Verif.Rpc.Subs

def Ans.sub : Ans → Option Nat
  | .subscribed k => some k
  | _ => none

def Ans.fin : Ans → Option Nat
  | .unsubscribed k => some k
  | _ => none

def Slot.alloc : Slot → Option Nat
  | .allocated k _ => some k
  | _ => none

def Sys.slots (s : Sys) : List Slot := s.round.getD []

/-- The answers sent, and those of the round. -/
def Sys.ans (s : Sys) : List Ans := answers s.wire ++ s.slots.filterMap Slot.answer

theorem set_perm {β : Type} (f : Slot → Option β) {l : List Slot} {i : Nat} {y : Slot} (h : l[i]? = some y) (x : Slot) :
    ((f y).toList ++ (l.set i x).filterMap f).Perm ((f x).toList ++ l.filterMap f) := by
  induction l generalizing i with
  | nil => simp at h
  | cons a l ih =>
    cases i with
    | zero =>
      simp only [List.getElem?_cons_zero, Option.some.injEq] at h
      subst h
      simp only [List.set_cons_zero, List.filterMap_cons]
      cases hx : f x <;> cases ha : f a <;> simp [List.Perm.refl, List.Perm.swap]
    | succ i =>
      simp only [List.getElem?_cons_succ] at h
      have := ih h
      simp only [List.set_cons_succ, List.filterMap_cons]
      cases ha : f a with
      | none => simpa using this
      | some b =>
        simp only
        refine (List.perm_middle).trans ?_
        exact (List.Perm.cons _ this).trans (List.perm_middle).symm

theorem sub_mem {l : List Ans} {k : Nat} : k ∈ l.filterMap Ans.sub ↔ .subscribed k ∈ l := by
  rw [List.mem_filterMap]
  constructor
  · rintro ⟨a, ha, h⟩
    cases a <;> simp [Ans.sub] at h
    subst h; exact ha
  · intro h; exact ⟨_, h, rfl⟩

theorem fin_mem {l : List Ans} {k : Nat} : k ∈ l.filterMap Ans.fin ↔ .unsubscribed k ∈ l := by
  rw [List.mem_filterMap]
  constructor
  · rintro ⟨a, ha, h⟩
    cases a <;> simp [Ans.fin] at h
    subst h; exact ha
  · intro h; exact ⟨_, h, rfl⟩

/-- The registry, the ids and the answers. -/
structure Inv1 (s : Sys) : Prop where
  reg : ∀ k, k ∈ s.registry ↔ ∃ t, s.tasks k = some t ∧ t.gone = false ∧ t.aborted = false
  allocNodup : (s.slots.filterMap Slot.alloc).Nodup
  alloc : ∀ k ∈ s.slots.filterMap Slot.alloc, k < s.next ∧ s.tasks k = none
  bound : ∀ k, s.tasks k ≠ none → k < s.next
  subNodup : (s.ans.filterMap Ans.sub).Nodup
  sub : ∀ k, .subscribed k ∈ s.ans ↔ s.tasks k ≠ none
  finNodup : (s.ans.filterMap Ans.fin).Nodup
  fin : ∀ k, .unsubscribed k ∈ s.ans ↔ ∃ t, s.tasks k = some t ∧ t.aborted = true

theorem inv1_init : Inv1 {} := by
  constructor <;> simp [Sys.slots, Sys.ans, answers]

theorem setTask_ne (s : Sys) (k : Nat) (t : Task) {j : Nat} (h : j ≠ k) : (s.setTask k t).tasks j = s.tasks j := by simp [Sys.setTask, h]
theorem setTask_eq (s : Sys) (k : Nat) (t : Task) : (s.setTask k t).tasks k = some t := by simp [Sys.setTask]

/-- A task that changes neither `gone` nor `aborted`. -/
theorem Inv1.setTask {s : Sys} {k : Nat} {t t' : Task} (h : Inv1 s) (ht : s.tasks k = some t) (hg : t'.gone = t.gone) (ha : t'.aborted = t.aborted) :
    Inv1 (s.setTask k t') := by
  have key : ∀ (P : Bool → Bool → Prop) j, (∃ u, (s.setTask k t').tasks j = some u ∧ P u.gone u.aborted) ↔ ∃ u, s.tasks j = some u ∧ P u.gone u.aborted := by
    intro P j
    by_cases e : j = k
    · subst e; simp [setTask_eq, ht, hg, ha]
    · rw [setTask_ne _ _ _ e]
  have nn : ∀ j, (s.setTask k t').tasks j = none ↔ s.tasks j = none := by
    intro j
    by_cases e : j = k
    · subst e; simp [setTask_eq, ht]
    · rw [setTask_ne _ _ _ e]
  refine ⟨?_, h.allocNodup, ?_, ?_, h.subNodup, ?_, h.finNodup, ?_⟩
  · intro j; rw [key (fun g a => g = false ∧ a = false)]; exact h.reg j
  · intro j hj; rw [nn]; exact h.alloc j hj
  · intro j hj; exact h.bound j (fun e => hj ((nn j).2 e))
  · intro j; rw [Ne, nn]; exact h.sub j
  · intro j; rw [key (fun _ a => a = true)]; exact h.fin j

theorem answers_append (p q : List Msg) : answers (p ++ q) = answers p ++ answers q := by simp [answers]

theorem Inv1.note {s : Sys} (h : Inv1 s) (k : Nat) (n : Note) : Inv1 { s with wire := s.wire ++ [.note k n] } := by
  have e : ({ s with wire := s.wire ++ [.note k n] } : Sys).ans = s.ans := by
    simp [Sys.ans, Sys.slots, answers, Msg.answers]
  exact ⟨h.reg, h.allocNodup, h.alloc, h.bound, by rw [e]; exact h.subNodup, by intro j; rw [e]; exact h.sub j, by rw [e]; exact h.finNodup,
    by intro j; rw [e]; exact h.fin j⟩

/-- A task ends. -/
theorem Inv1.gone {s : Sys} {k : Nat} {t t' : Task} (h : Inv1 s) (ht : s.tasks k = some t) (hg : t'.gone = true) (ha : t'.aborted = t.aborted) :
    Inv1 ((s.remove k).setTask k t') := by
  have nn : ∀ j, ((s.remove k).setTask k t').tasks j = none ↔ s.tasks j = none := by
    intro j
    by_cases e : j = k
    · subst e; simp [setTask_eq, ht]
    · rw [setTask_ne _ _ _ e]; rfl
  refine ⟨?_, h.allocNodup, ?_, ?_, h.subNodup, ?_, h.finNodup, ?_⟩
  · intro j
    have : j ∈ ((s.remove k).setTask k t').registry ↔ j ∈ s.registry ∧ j ≠ k := by simp [Sys.setTask, Sys.remove]
    rw [this]
    by_cases e : j = k
    · subst e; simp [setTask_eq, hg]
    · rw [setTask_ne _ _ _ e]
      simp only [e, ne_eq, not_false_eq_true, and_true]
      exact h.reg j
  · intro j hj; rw [nn]; exact h.alloc j hj
  · intro j hj; exact h.bound j (fun e => hj ((nn j).2 e))
  · intro j; rw [Ne, nn]; exact h.sub j
  · intro j
    by_cases e : j = k
    · subst e
      rw [setTask_eq]
      have := h.fin j
      simp only [ht, Option.some.injEq, exists_eq_left'] at this
      simp only [Option.some.injEq, exists_eq_left', ha]
      exact this
    · rw [setTask_ne _ _ _ e]; exact h.fin j

/-- A round that sets one slot. -/
theorem ans_set {s : Sys} {slots : List Slot} {i : Nat} {x y : Slot} (hr : s.round = some slots) (hy : slots[i]? = some y) (f : Ans → Option Nat)
    (hn : y.answer = none) :
    ((s.setSlot slots i x).ans.filterMap f).Perm ((x.answer.bind f).toList ++ s.ans.filterMap f) := by
  have hp := set_perm Slot.answer hy x
  rw [hn] at hp
  have hp := hp.filterMap f
  simp only [Sys.ans, Sys.slots, Sys.setSlot, hr, Option.getD_some, List.filterMap_append] at *
  refine (List.Perm.append_left _ (by simpa using hp)).trans ?_
  cases x.answer with
  | none => simp
  | some a =>
    simp only [Option.toList, List.filterMap_cons, List.filterMap_nil, Option.bind_some]
    cases f a with
    | none => simp
    | some b => simp [List.perm_middle]

theorem mem_set {s : Sys} {slots : List Slot} {i : Nat} {x y : Slot} (hr : s.round = some slots) (hy : slots[i]? = some y) (hn : y.answer = none)
    (a : Ans) : a ∈ (s.setSlot slots i x).ans ↔ x.answer = some a ∨ a ∈ s.ans := by
  have hp := (set_perm Slot.answer hy x).mem_iff (a := a)
  rw [hn] at hp
  simp only [Option.toList, List.nil_append, List.mem_append] at hp
  simp only [Sys.ans, Sys.slots, Sys.setSlot, hr, Option.getD_some, List.mem_append, hp]
  cases x.answer with
  | none => simp
  | some b =>
    simp only [List.mem_singleton, Option.some.injEq]
    constructor
    · rintro (h | h | h)
      · exact .inr (.inl h)
      · exact .inl h.symm
      · exact .inr (.inr h)
    · rintro (h | h | h)
      · exact .inr (.inl h.symm)
      · exact .inl h
      · exact .inr (.inr h)

theorem alloc_set {s : Sys} {slots : List Slot} {i : Nat} {x y : Slot} (hr : s.round = some slots) (hy : slots[i]? = some y) :
    (y.alloc.toList ++ (s.setSlot slots i x).slots.filterMap Slot.alloc).Perm (x.alloc.toList ++ s.slots.filterMap Slot.alloc) := by
  have hp := set_perm Slot.alloc hy x
  simpa [Sys.slots, Sys.setSlot, hr] using hp

/-- An answer that gives and ends nothing. -/
theorem Inv1.plain {s : Sys} {slots : List Slot} {i : Nat} {y : Slot} {a : Ans} (h : Inv1 s) (hr : s.round = some slots) (hy : slots[i]? = some y)
    (hn : y.answer = none) (h1 : ∀ k, a ≠ .subscribed k) (h2 : ∀ k, a ≠ .unsubscribed k) : Inv1 (s.setSlot slots i (.answered a)) := by
  have hal := alloc_set (x := .answered a) hr hy
  simp only [Slot.alloc, Option.toList, List.nil_append] at hal
  have hnd : ((s.setSlot slots i (.answered a)).slots.filterMap Slot.alloc).Nodup := by
    have := hal.nodup_iff.2 h.allocNodup
    exact (List.nodup_append.1 this).2.1
  refine ⟨h.reg, hnd, ?_, h.bound, ?_, ?_, ?_, ?_⟩
  · intro k hk
    exact h.alloc k (hal.mem_iff.1 (List.mem_append_right _ hk))
  · rw [(ans_set hr hy Ans.sub hn).nodup_iff]
    have : (Slot.answer (.answered a)).bind Ans.sub = none := by cases a <;> first | rfl | exact absurd rfl (h1 _)
    rw [this]; exact h.subNodup
  · intro k
    rw [mem_set hr hy hn]
    have : Slot.answer (.answered a) ≠ some (.subscribed k) := by simp [Slot.answer, h1 k]
    simp only [this, false_or]
    exact h.sub k
  · rw [(ans_set hr hy Ans.fin hn).nodup_iff]
    have : (Slot.answer (.answered a)).bind Ans.fin = none := by cases a <;> first | rfl | exact absurd rfl (h2 _)
    rw [this]; exact h.finNodup
  · intro k
    rw [mem_set hr hy hn]
    have : Slot.answer (.answered a) ≠ some (.unsubscribed k) := by simp [Slot.answer, h2 k]
    simp only [this, false_or]
    exact h.fin k

theorem Inv1.alloc' {s : Sys} {slots : List Slot} {i : Nat} {ok : Bool} {r : Rq} (h : Inv1 s) (hr : s.round = some slots) (hy : slots[i]? = some (.todo r)) :
    Inv1 { s.setSlot slots i (.allocated s.next ok) with next := s.next + 1 } := by
  have hal := alloc_set (x := .allocated s.next ok) hr hy
  simp only [Slot.alloc, Option.toList, List.nil_append, List.singleton_append] at hal
  have hnone : s.tasks s.next = none := by
    cases e : s.tasks s.next with
    | none => rfl
    | some t => exact absurd (h.bound s.next (by simp [e])) (Nat.lt_irrefl _)
  refine ⟨h.reg, ?_, ?_, fun k hk => Nat.lt_succ_of_lt (h.bound k hk), ?_, ?_, ?_, ?_⟩
  · refine hal.nodup_iff.2 (List.nodup_cons.2 ⟨?_, h.allocNodup⟩)
    intro hm
    exact absurd (h.alloc _ hm).1 (Nat.lt_irrefl _)
  · intro k hk
    rcases List.mem_cons.1 (hal.mem_iff.1 hk) with rfl | hk
    · exact ⟨Nat.lt_succ_self _, hnone⟩
    · exact ⟨Nat.lt_succ_of_lt (h.alloc k hk).1, (h.alloc k hk).2⟩
  · exact (ans_set (x := .allocated s.next ok) hr hy Ans.sub rfl).nodup_iff.2 h.subNodup
  · intro k
    refine (mem_set (x := .allocated s.next ok) hr hy rfl _).trans ?_
    simp only [Slot.answer, reduceCtorEq, false_or]
    exact h.sub k
  · exact (ans_set (x := .allocated s.next ok) hr hy Ans.fin rfl).nodup_iff.2 h.finNodup
  · intro k
    refine (mem_set (x := .allocated s.next ok) hr hy rfl _).trans ?_
    simp only [Slot.answer, reduceCtorEq, false_or]
    exact h.fin k

theorem Inv1.start {s : Sys} {slots : List Slot} {i k : Nat} {ok : Bool} (h : Inv1 s) (hr : s.round = some slots) (hy : slots[i]? = some (.allocated k ok)) :
    Inv1 { (s.setTask k {}).setSlot slots i (.answered (.subscribed k)) with registry := k :: s.registry } := by
  have hal := alloc_set (x := .answered (.subscribed k)) hr hy
  simp only [Slot.alloc, Option.toList, List.nil_append, List.singleton_append] at hal
  have hkm : k ∈ s.slots.filterMap Slot.alloc := hal.mem_iff.1 List.mem_cons_self
  obtain ⟨hkn, hkt⟩ := h.alloc k hkm
  have hnd := hal.nodup_iff.2 h.allocNodup
  obtain ⟨hn1, hn2⟩ := List.nodup_cons.1 hnd
  have tk : ∀ j, ({ (s.setTask k {}).setSlot slots i (.answered (.subscribed k)) with registry := k :: s.registry } : Sys).tasks j =
      if j = k then some {} else s.tasks j := fun j => rfl
  refine ⟨?_, hn2, ?_, ?_, ?_, ?_, ?_, ?_⟩
  · intro j
    rw [tk]
    show j ∈ k :: s.registry ↔ _
    by_cases e : j = k
    · subst e; simp
    · simp only [List.mem_cons, e, false_or, if_false]; exact h.reg j
  · intro j hj
    rw [tk]
    have hne : j ≠ k := fun e => hn1 (e ▸ hj)
    rw [if_neg hne]
    exact h.alloc j (hal.mem_iff.1 (List.mem_cons_of_mem _ hj))
  · intro j hj
    rw [tk] at hj
    by_cases e : j = k
    · subst e; exact hkn
    · rw [if_neg e] at hj; exact h.bound j hj
  · refine (ans_set (x := .answered (.subscribed k)) hr hy Ans.sub rfl).nodup_iff.2 (List.nodup_cons.2 ⟨?_, h.subNodup⟩)
    show k ∉ s.ans.filterMap Ans.sub
    rw [sub_mem, h.sub, hkt]
    simp
  · intro j
    refine (mem_set (x := .answered (.subscribed k)) hr hy rfl _).trans ?_
    rw [tk]
    simp only [Slot.answer, Option.some.injEq, Ans.subscribed.injEq]
    by_cases e : j = k
    · subst e; simp
    · rw [if_neg e]
      simp only [Ne.symm e, false_or]
      exact h.sub j
  · exact (ans_set (x := .answered (.subscribed k)) hr hy Ans.fin rfl).nodup_iff.2 h.finNodup
  · intro j
    refine (mem_set (x := .answered (.subscribed k)) hr hy rfl _).trans ?_
    rw [tk]
    simp only [Slot.answer, Option.some.injEq, reduceCtorEq, false_or]
    by_cases e : j = k
    · subst e
      rw [h.fin, hkt]
      simp
    · rw [if_neg e]; exact h.fin j

theorem Inv1.unsub {s : Sys} {slots : List Slot} {i k : Nat} {r : Rq} {t : Task} (h : Inv1 s) (hr : s.round = some slots) (hy : slots[i]? = some (.todo r))
    (hk : k ∈ s.registry) (ht : s.tasks k = some t) :
    Inv1 (((s.remove k).setTask k { t with aborted := true }).setSlot slots i (.answered (.unsubscribed k))) := by
  have hal := alloc_set (x := .answered (.unsubscribed k)) hr hy
  simp only [Slot.alloc, Option.toList, List.nil_append] at hal
  obtain ⟨t', ht', hg, hab⟩ := (h.reg k).1 hk
  rw [ht] at ht'
  cases ht'
  have tk : ∀ j, (((s.remove k).setTask k { t with aborted := true }).setSlot slots i (.answered (.unsubscribed k))).tasks j =
      if j = k then some { t with aborted := true } else s.tasks j := fun j => rfl
  refine ⟨?_, hal.nodup_iff.2 h.allocNodup, ?_, ?_, ?_, ?_, ?_, ?_⟩
  · intro j
    rw [tk]
    show j ∈ s.registry.filter (· ≠ k) ↔ _
    rw [List.mem_filter, decide_eq_true_eq]
    by_cases e : j = k
    · subst e; simp
    · simp only [e, ne_eq, not_false_eq_true, and_true, if_false]; exact h.reg j
  · intro j hj
    rw [tk]
    have := h.alloc j (hal.mem_iff.1 hj)
    have hne : j ≠ k := by rintro rfl; rw [ht] at this; cases this.2
    rw [if_neg hne]; exact this
  · intro j hj
    rw [tk] at hj
    by_cases e : j = k
    · subst e; exact h.bound j (by simp [ht])
    · rw [if_neg e] at hj; exact h.bound j hj
  · exact (ans_set (x := .answered (.unsubscribed k)) hr hy Ans.sub rfl).nodup_iff.2 h.subNodup
  · intro j
    refine (mem_set (x := .answered (.unsubscribed k)) hr hy rfl _).trans ?_
    rw [tk]
    simp only [Slot.answer, Option.some.injEq, reduceCtorEq, false_or]
    by_cases e : j = k
    · subst e; rw [h.sub, ht]; simp
    · rw [if_neg e]; exact h.sub j
  · refine (ans_set (x := .answered (.unsubscribed k)) hr hy Ans.fin rfl).nodup_iff.2 (List.nodup_cons.2 ⟨?_, h.finNodup⟩)
    show k ∉ s.ans.filterMap Ans.fin
    rw [fin_mem, h.fin, ht]
    simp [hab]
  · intro j
    refine (mem_set (x := .answered (.unsubscribed k)) hr hy rfl _).trans ?_
    rw [tk]
    simp only [Slot.answer, Option.some.injEq, Ans.unsubscribed.injEq]
    by_cases e : j = k
    · subst e; simp
    · rw [if_neg e]
      simp only [Ne.symm e, false_or]
      exact h.fin j

theorem answersOf_some {slots : List Slot} {as : List Ans} (h : answersOf slots = some as) :
    slots.filterMap Slot.answer = as ∧ slots.filterMap Slot.alloc = [] := by
  unfold answersOf at h
  split at h
  · rename_i ha
    simp only [Option.some.injEq] at h
    refine ⟨h, ?_⟩
    rw [List.filterMap_eq_nil_iff]
    intro x hx
    have := List.all_eq_true.1 ha x hx
    cases x <;> simp_all [Slot.answer, Slot.alloc]
  · cases h

theorem Inv1.reply {s : Sys} {slots : List Slot} {as : List Ans} (h : Inv1 s) (hr : s.round = some slots) (ha : answersOf slots = some as) :
    Inv1 { s with round := none, wire := s.wire ++ [.reply as], tasks := fun k => (s.tasks k).map fun t => { t with locked := false } } := by
  obtain ⟨ha, _⟩ := answersOf_some ha
  have e : ({ s with round := none, wire := s.wire ++ [.reply as], tasks := fun k => (s.tasks k).map fun t => { t with locked := false } } : Sys).ans = s.ans := by
    simp [Sys.ans, Sys.slots, answers, Msg.answers, hr, ha]
  refine ⟨?_, List.nodup_nil, by simp [Sys.slots], ?_, by rw [e]; exact h.subNodup, ?_, by rw [e]; exact h.finNodup, ?_⟩
  · intro k
    rw [h.reg k]
    cases hh : s.tasks k <;> simp [hh]
  · intro k hk
    exact h.bound k (by cases hh : s.tasks k <;> simp_all)
  · intro k
    rw [e, h.sub k]
    cases hh : s.tasks k <;> simp [hh]
  · intro k
    rw [e, h.fin k]
    cases hh : s.tasks k <;> simp [hh]

theorem inv1_step {s s' : Sys} {a : Act} (h : Inv1 s) (e : step s a = some s') : Inv1 s' := by
  cases a with
  | recv rqs =>
    simp only [step] at e
    split at e
    · rename_i hr
      cases e
      have hs : s.slots = [] := by simp [Sys.slots, hr]
      have ha : (rqs.map Slot.todo).filterMap Slot.answer = [] := by
        rw [List.filterMap_map, List.filterMap_eq_nil_iff]; intro x _; rfl
      have hb : (rqs.map Slot.todo).filterMap Slot.alloc = [] := by
        rw [List.filterMap_map, List.filterMap_eq_nil_iff]; intro x _; rfl
      have e' : ({ s with round := some (rqs.map .todo) } : Sys).ans = s.ans := by
        show answers s.wire ++ (rqs.map Slot.todo).filterMap Slot.answer = _
        rw [ha]; simp [Sys.ans, hs]
      refine ⟨h.reg, ?_, ?_, h.bound, by rw [e']; exact h.subNodup, by rw [e']; exact h.sub, by rw [e']; exact h.finNodup, by rw [e']; exact h.fin⟩
      · show ((rqs.map Slot.todo).filterMap Slot.alloc).Nodup
        rw [hb]; exact List.nodup_nil
      · intro k hk
        change k ∈ (rqs.map Slot.todo).filterMap Slot.alloc at hk
        rw [hb] at hk; cases hk
    · cases e
  | alloc i =>
    simp only [step, Option.bind_eq_some_iff] at e
    obtain ⟨slots, hr, e⟩ := e
    split at e
    · rename_i ok hy
      split at e
      · cases e; exact h.alloc' hr hy
      · cases e
    · cases e
  | start i =>
    simp only [step, Option.bind_eq_some_iff] at e
    obtain ⟨slots, hr, e⟩ := e
    split at e
    · rename_i k hy
      cases e; exact h.start hr hy
    · rename_i k hy
      cases e; exact h.plain hr hy rfl (by simp) (by simp)
    · cases e
  | unsub i =>
    simp only [step, Option.bind_eq_some_iff] at e
    obtain ⟨slots, hr, e⟩ := e
    split at e
    · rename_i k hy
      split at e
      · rename_i hk
        simp only [Option.bind_eq_some_iff] at e
        obtain ⟨t, ht, e⟩ := e
        cases e
        exact h.unsub hr hy (by simpa using hk) ht
      · cases e; exact h.plain hr hy rfl (by simp) (by simp)
    · cases e
  | other i =>
    simp only [step, Option.bind_eq_some_iff] at e
    obtain ⟨slots, hr, e⟩ := e
    split at e
    · rename_i hy
      cases e; exact h.plain hr hy rfl (by simp) (by simp)
    · cases e
  | reply =>
    simp only [step, Option.bind_eq_some_iff] at e
    obtain ⟨slots, hr, as, ha, e⟩ := e
    cases e
    exact h.reply hr ha
  | check k n =>
    simp only [step, Option.bind_eq_some_iff] at e
    obtain ⟨t, ht, e⟩ := e
    split at e
    · cases e; exact h.setTask ht rfl rfl
    · cases e
  | fail k =>
    simp only [step, Option.bind_eq_some_iff] at e
    obtain ⟨t, ht, e⟩ := e
    split at e
    · cases e; exact h.setTask ht rfl rfl
    · cases e
  | push k =>
    simp only [step, Option.bind_eq_some_iff] at e
    obtain ⟨t, ht, n, hn, e⟩ := e
    cases e
    exact (h.setTask (t' := { t with pend := none }) ht rfl rfl).note k n
  | spawn k =>
    simp only [step, Option.bind_eq_some_iff] at e
    obtain ⟨t, ht, e⟩ := e
    split at e
    · cases e; exact h.setTask ht rfl rfl
    · cases e
  | innerEnd k f =>
    simp only [step, Option.bind_eq_some_iff] at e
    obtain ⟨t, ht, e⟩ := e
    split at e
    · cases e; exact h.setTask ht rfl rfl
    · cases e
  | innerCheck k =>
    simp only [step, Option.bind_eq_some_iff] at e
    obtain ⟨t, ht, e⟩ := e
    split at e
    · cases e; exact h.setTask ht rfl rfl
    · cases e
  | innerPush k =>
    simp only [step, Option.bind_eq_some_iff] at e
    obtain ⟨t, ht, e⟩ := e
    split at e
    · cases e; exact (h.setTask (t' := { t with inner := .ended }) ht rfl rfl).note k .err
    · cases e
  | exit k =>
    simp only [step, Option.bind_eq_some_iff] at e
    obtain ⟨t, ht, e⟩ := e
    split at e
    · cases e; exact h.gone ht rfl rfl
    · cases e
  | die k =>
    simp only [step, Option.bind_eq_some_iff] at e
    obtain ⟨t, ht, e⟩ := e
    split at e
    · cases e; exact h.gone ht rfl rfl
    · cases e

/-! ## What is on the wire -/

theorem snoc_eq {α : Type} {w p q : List α} {m x : α} (h : w ++ [m] = p ++ x :: q) :
    (q = [] ∧ w = p ∧ m = x) ∨ ∃ q', q = q' ++ [m] ∧ w = p ++ x :: q' := by
  rcases List.eq_nil_or_concat q with rfl | ⟨q', b, rfl⟩
  · obtain ⟨h1, h2⟩ := List.append_inj' h rfl
    cases h2
    exact .inl ⟨rfl, h1, rfl⟩
  · right
    rw [List.concat_eq_append] at h
    have h' : w ++ [m] = (p ++ x :: q') ++ [b] := by rw [h]; simp
    obtain ⟨h1, h2⟩ := List.append_inj' h' rfl
    cases h2
    exact ⟨q', by simp, h1⟩

theorem dataOf_append (k : Nat) (p q : List Msg) : dataOf k (p ++ q) = dataOf k p ++ dataOf k q := by simp [dataOf]
theorem notesOf_append (k : Nat) (p q : List Msg) : notesOf k (p ++ q) = notesOf k p + notesOf k q := by simp [notesOf]

def Note.datas : Note → List Nat
  | .data n => [n]
  | .err => []

/-- The data of the message that waits. -/
def Task.pd (t : Task) : List Nat := match t.pend with
  | some n => n.datas
  | none => []

/-- The messages that wait. -/
def Task.pc (t : Task) : Nat := t.pend.toList.length + if t.inner = .sending then 1 else 0

theorem dataOf_note (k j : Nat) (n : Note) : dataOf k [.note j n] = if j = k then n.datas else [] := by
  cases n <;> by_cases h : j = k <;> simp [dataOf, h, Note.datas]

theorem notesOf_note (k j : Nat) (n : Note) : notesOf k [.note j n] = if j = k then 1 else 0 := by
  by_cases h : j = k <;> simp [notesOf, h]

structure Inv2 (s : Sys) : Prop where
  unlocked : ∀ k t, s.tasks k = some t → t.locked = false → .subscribed k ∈ answers s.wire
  locked : ∀ k t, s.tasks k = some t → t.locked = true → t.pend = none ∧ t.inner = .idle
  first : AnswerFirst s.wire
  known : EndsKnown s.wire
  soon : ∀ p as q k t, s.wire = p ++ .reply as :: q → .unsubscribed k ∈ as → s.tasks k = some t →
    (dataOf k q).length + t.pd.length ≤ 1 ∧ notesOf k q + t.pc ≤ 2
  data : ∀ k t, s.tasks k = some t → dataOf k s.wire ++ t.pd <+: t.offered ∧ (t.aborted = false → dataOf k s.wire ++ t.pd = t.offered)
  nodata : ∀ k, s.tasks k = none → dataOf k s.wire = []
  told : ∀ k t, s.tasks k = some t → t.closing = true → t.aborted = false → t.pend = some .err ∨ .note k .err ∈ s.wire

theorem inv2_init : Inv2 {} := by
  constructor <;> simp [AnswerFirst, EndsKnown, answers, dataOf]

theorem reply_answers {w p q : List Msg} {as : List Ans} {a : Ans} (h : w = p ++ .reply as :: q) (ha : a ∈ as) : a ∈ answers w := by
  subst h
  rw [answers_append]
  exact List.mem_append_right _ (List.mem_append_left _ ha)

/-- One task changes, nothing is sent. -/
theorem Inv2.upd {s s' : Sys} {k : Nat} {t t' : Task} (h : Inv2 s) (ht : s.tasks k = some t) (hw : s'.wire = s.wire)
    (hs : ∀ j, s'.tasks j = if j = k then some t' else s.tasks j)
    (hl : t'.locked = t.locked) (hp : t.locked = true → t'.pend = none ∧ t'.inner = .idle)
    (hc : .unsubscribed k ∈ answers s.wire → t'.pd.length ≤ t.pd.length ∧ t'.pc ≤ t.pc)
    (hd : dataOf k s.wire ++ t'.pd <+: t'.offered ∧ (t'.aborted = false → dataOf k s.wire ++ t'.pd = t'.offered))
    (hto : t'.closing = true → t'.aborted = false → t'.pend = some .err ∨ .note k .err ∈ s.wire) : Inv2 s' := by
  have cases' : ∀ j u, s'.tasks j = some u → (j = k ∧ u = t') ∨ (j ≠ k ∧ s.tasks j = some u) := by
    intro j u hu
    rw [hs] at hu
    split at hu
    · rename_i e; cases hu; exact .inl ⟨e, rfl⟩
    · rename_i e; exact .inr ⟨e, hu⟩
  constructor
  · intro j u hu hul
    rw [hw]
    rcases cases' j u hu with ⟨rfl, rfl⟩ | ⟨_, hj⟩
    · exact h.unlocked j t ht (by rw [← hl]; exact hul)
    · exact h.unlocked j u hj hul
  · intro j u hu hul
    rcases cases' j u hu with ⟨rfl, rfl⟩ | ⟨_, hj⟩
    · exact hp (by rw [← hl]; exact hul)
    · exact h.locked j u hj hul
  · rw [hw]; exact h.first
  · rw [hw]; exact h.known
  · intro p as q j u e ha hu
    rw [hw] at e
    rcases cases' j u hu with ⟨rfl, rfl⟩ | ⟨_, hj⟩
    · have := h.soon p as q j t e ha ht
      have := hc (reply_answers e ha)
      omega
    · exact h.soon p as q j u e ha hj
  · intro j u hu
    rw [hw]
    rcases cases' j u hu with ⟨rfl, rfl⟩ | ⟨_, hj⟩
    · exact hd
    · exact h.data j u hj
  · intro j hj
    rw [hw]
    rw [hs] at hj
    split at hj
    · cases hj
    · exact h.nodata j hj
  · intro j u hu
    rw [hw]
    rcases cases' j u hu with ⟨rfl, rfl⟩ | ⟨_, hj⟩
    · exact hto
    · exact h.told j u hj

/-- A notification is sent. -/
theorem Inv2.note {s s' : Sys} {k : Nat} {t t' : Task} {n : Note} (h : Inv2 s) (ht : s.tasks k = some t) (hw : s'.wire = s.wire ++ [.note k n])
    (hs : ∀ j, s'.tasks j = if j = k then some t' else s.tasks j) (hl : t.locked = false) (hl' : t'.locked = false)
    (hc1 : n.datas.length + t'.pd.length ≤ t.pd.length) (hc2 : 1 + t'.pc ≤ t.pc)
    (hd : n.datas ++ t'.pd = t.pd) (ho : t'.offered = t.offered) (ha : t'.aborted = t.aborted) (hcl : t'.closing = t.closing)
    (hto : t.pend = some .err → n = .err ∨ t'.pend = some .err) : Inv2 s' := by
  have cases' : ∀ j u, s'.tasks j = some u → (j = k ∧ u = t') ∨ (j ≠ k ∧ s.tasks j = some u) := by
    intro j u hu
    rw [hs] at hu
    split at hu
    · rename_i e; cases hu; exact .inl ⟨e, rfl⟩
    · rename_i e; exact .inr ⟨e, hu⟩
  have hans : answers s'.wire = answers s.wire := by rw [hw, answers_append]; simp [answers, Msg.answers]
  constructor
  · intro j u hu hul
    rw [hans]
    rcases cases' j u hu with ⟨rfl, rfl⟩ | ⟨_, hj⟩
    · exact h.unlocked j t ht hl
    · exact h.unlocked j u hj hul
  · intro j u hu hul
    rcases cases' j u hu with ⟨rfl, rfl⟩ | ⟨_, hj⟩
    · rw [hl'] at hul; cases hul
    · exact h.locked j u hj hul
  · intro p j m q e
    rw [hw] at e
    rcases snoc_eq e with ⟨_, rfl, hm⟩ | ⟨q', rfl, e2⟩
    · cases hm; exact h.unlocked k t ht hl
    · exact h.first p j m q' e2
  · intro p as q j e
    rw [hw] at e
    rcases snoc_eq e with ⟨_, _, hm⟩ | ⟨q', rfl, e2⟩
    · cases hm
    · exact h.known p as q' j e2
  · intro p as q j u e has hu
    rw [hw] at e
    rcases snoc_eq e with ⟨_, _, hm⟩ | ⟨q', rfl, e2⟩
    · cases hm
    · rw [dataOf_append, notesOf_append, dataOf_note, notesOf_note, List.length_append]
      rcases cases' j u hu with ⟨rfl, rfl⟩ | ⟨hne, hj⟩
      · have := h.soon p as q' j t e2 has ht
        simp only [if_true]
        omega
      · have := h.soon p as q' j u e2 has hj
        simp only [if_neg (Ne.symm hne), List.length_nil]
        omega
  · intro j u hu
    rw [hw, dataOf_append, dataOf_note]
    rcases cases' j u hu with ⟨rfl, rfl⟩ | ⟨hne, hj⟩
    · have := h.data j t ht
      rw [if_pos rfl, List.append_assoc, hd, ho, ha]
      exact this
    · rw [if_neg (Ne.symm hne), List.append_nil]
      exact h.data j u hj
  · intro j hj
    rw [hs] at hj
    split at hj
    · cases hj
    · rename_i hne
      rw [hw, dataOf_append, dataOf_note, if_neg (Ne.symm hne), h.nodata j hj]
      rfl
  · intro j u hu h1 h2
    rw [hw]
    rcases cases' j u hu with ⟨rfl, rfl⟩ | ⟨hne, hj⟩
    · rcases h.told j t ht (by rw [← hcl]; exact h1) (by rw [← ha]; exact h2) with hp | hp
      · rcases hto hp with rfl | hp
        · exact .inr (by simp)
        · exact .inl hp
      · exact .inr (List.mem_append_left _ hp)
    · rcases h.told j u hj h1 h2 with hp | hp
      · exact .inl hp
      · exact .inr (List.mem_append_left _ hp)

/-- Neither the tasks nor the wire change. -/
theorem Inv2.same {s s' : Sys} (h : Inv2 s) (hw : s'.wire = s.wire) (hs : s'.tasks = s.tasks) : Inv2 s' := by
  constructor
  · rw [hw, hs]; exact h.unlocked
  · rw [hs]; exact h.locked
  · rw [hw]; exact h.first
  · rw [hw]; exact h.known
  · rw [hw, hs]; exact h.soon
  · rw [hw, hs]; exact h.data
  · rw [hw, hs]; exact h.nodata
  · rw [hw, hs]; exact h.told

theorem Inv2.start {s s' : Sys} {k : Nat} (h1 : Inv1 s) (h : Inv2 s) (ht : s.tasks k = none) (hw : s'.wire = s.wire)
    (hs : ∀ j, s'.tasks j = if j = k then some {} else s.tasks j) : Inv2 s' := by
  have cases' : ∀ j u, s'.tasks j = some u → (j = k ∧ u = {}) ∨ (j ≠ k ∧ s.tasks j = some u) := by
    intro j u hu
    rw [hs] at hu
    split at hu
    · rename_i e; cases hu; exact .inl ⟨e, rfl⟩
    · rename_i e; exact .inr ⟨e, hu⟩
  constructor
  · intro j u hu hul
    rw [hw]
    rcases cases' j u hu with ⟨rfl, rfl⟩ | ⟨_, hj⟩
    · cases hul
    · exact h.unlocked j u hj hul
  · intro j u hu hul
    rcases cases' j u hu with ⟨rfl, rfl⟩ | ⟨_, hj⟩
    · exact ⟨rfl, rfl⟩
    · exact h.locked j u hj hul
  · rw [hw]; exact h.first
  · rw [hw]; exact h.known
  · intro p as q j u e ha hu
    rw [hw] at e
    rcases cases' j u hu with ⟨rfl, rfl⟩ | ⟨_, hj⟩
    · have := (h1.fin j).1 (List.mem_append_left _ (reply_answers e ha))
      rw [ht] at this
      obtain ⟨_, h, _⟩ := this
      cases h
    · exact h.soon p as q j u e ha hj
  · intro j u hu
    rw [hw]
    rcases cases' j u hu with ⟨rfl, rfl⟩ | ⟨_, hj⟩
    · rw [h.nodata j ht]; exact ⟨List.prefix_refl _, fun _ => rfl⟩
    · exact h.data j u hj
  · intro j hj
    rw [hw]
    rw [hs] at hj
    split at hj
    · cases hj
    · exact h.nodata j hj
  · intro j u hu
    rw [hw]
    rcases cases' j u hu with ⟨rfl, rfl⟩ | ⟨_, hj⟩
    · intro hc; cases hc
    · exact h.told j u hj

theorem pd_le_pc (t : Task) : t.pd.length ≤ 1 ∧ t.pc ≤ 2 := by
  constructor
  · unfold Task.pd
    split
    · rename_i n _; cases n <;> simp [Note.datas]
    · simp
  · unfold Task.pc
    cases t.pend <;> simp <;> split <;> omega

theorem Inv2.reply {s s' : Sys} {slots : List Slot} {as : List Ans} (h1 : Inv1 s) (h : Inv2 s) (hr : s.round = some slots) (ha : answersOf slots = some as)
    (hw : s'.wire = s.wire ++ [.reply as]) (hs : ∀ k, s'.tasks k = (s.tasks k).map fun t => { t with locked := false }) : Inv2 s' := by
  obtain ⟨ha, _⟩ := answersOf_some ha
  have hans : answers s'.wire = s.ans := by
    rw [hw, answers_append]
    simp [Sys.ans, Sys.slots, hr, ha, answers, Msg.answers]
  have cases' : ∀ j u, s'.tasks j = some u → ∃ t, s.tasks j = some t ∧ u = { t with locked := false } := by
    intro j u hu
    rw [hs, Option.map_eq_some_iff] at hu
    obtain ⟨t, ht, rfl⟩ := hu
    exact ⟨t, ht, rfl⟩
  have hd : ∀ k, dataOf k s'.wire = dataOf k s.wire := by intro k; rw [hw, dataOf_append]; simp [dataOf]
  constructor
  · intro j u hu _
    obtain ⟨t, ht, _⟩ := cases' j u hu
    rw [hans, h1.sub, ht]
    simp
  · intro j u hu hul
    obtain ⟨t, ht, rfl⟩ := cases' j u hu
    cases hul
  · intro p j m q e
    rw [hw] at e
    rcases snoc_eq e with ⟨_, _, hm⟩ | ⟨q', rfl, e2⟩
    · cases hm
    · exact h.first p j m q' e2
  · intro p as' q j e hj
    rw [hw] at e
    rcases snoc_eq e with ⟨_, rfl, hm⟩ | ⟨q', rfl, e2⟩
    · cases hm
      have hj' : .unsubscribed j ∈ answers s'.wire := by
        rw [hw, answers_append]
        exact List.mem_append_right _ (by simpa [answers, Msg.answers] using hj)
      rw [hans, h1.fin] at hj'
      obtain ⟨t, ht, _⟩ := hj'
      have : .subscribed j ∈ s.ans := by rw [h1.sub, ht]; simp
      rw [← hans, hw, answers_append] at this
      simpa [answers, Msg.answers] using this
    · exact h.known p as' q' j e2 hj
  · intro p as' q j u e hj hu
    obtain ⟨t, ht, rfl⟩ := cases' j u hu
    rw [hw] at e
    have hb := pd_le_pc t
    rcases snoc_eq e with ⟨rfl, _, _⟩ | ⟨q', rfl, e2⟩
    · simp only [dataOf, notesOf, List.filterMap_nil, List.countP_nil, List.length_nil, Nat.zero_add]
      exact hb
    · have := h.soon p as' q' j t e2 hj ht
      rw [dataOf_append, notesOf_append]
      have e1 : dataOf j [.reply as] = [] := rfl
      have e2 : notesOf j [.reply as] = 0 := rfl
      rw [e1, e2, List.append_nil, Nat.add_zero]
      exact this
  · intro j u hu
    obtain ⟨t, ht, rfl⟩ := cases' j u hu
    rw [hd]
    exact h.data j t ht
  · intro j hj
    rw [hd]
    rw [hs, Option.map_eq_none_iff] at hj
    exact h.nodata j hj
  · intro j u hu hc hab
    obtain ⟨t, ht, rfl⟩ := cases' j u hu
    rcases h.told j t ht hc hab with hp | hp
    · exact .inl hp
    · exact .inr (by rw [hw]; exact List.mem_append_left _ hp)

theorem setTask_tasks (s : Sys) (k : Nat) (t : Task) (j : Nat) : (s.setTask k t).tasks j = if j = k then some t else s.tasks j := rfl

theorem ready_iff {t : Task} (h : t.ready = true) : t.locked = false ∧ t.gone = false ∧ t.pend = none ∧ t.closing = false := by
  simp only [Task.ready, Bool.and_eq_true, Bool.not_eq_true', Option.isNone_iff_eq_none] at h
  exact ⟨h.1.1.1, h.1.1.2, h.1.2, h.2⟩

theorem inv2_step {s s' : Sys} {a : Act} (h1 : Inv1 s) (h : Inv2 s) (e : step s a = some s') : Inv2 s' := by
  have notIn : ∀ k t, s.tasks k = some t → .unsubscribed k ∈ answers s.wire → s.registry.contains k = false := by
    intro k t ht hk
    obtain ⟨t', ht', hab⟩ := (h1.fin k).1 (List.mem_append_left _ hk)
    have hnk : k ∉ s.registry := by
      intro hr
      obtain ⟨t'', ht'', _, hab'⟩ := (h1.reg k).1 hr
      rw [ht'] at ht''; cases ht''
      rw [hab] at hab'; cases hab'
    simpa using hnk
  have isIn : ∀ k t, s.tasks k = some t → t.gone = false → t.aborted = false → s.registry.contains k = true := by
    intro k t ht hg hab
    have := (h1.reg k).2 ⟨t, ht, hg, hab⟩
    simpa using this
  have out : ∀ k t, s.tasks k = some t → t.pend ≠ none ∨ t.inner ≠ .idle → t.locked = false := by
    intro k t ht hp
    cases hl : t.locked with
    | false => rfl
    | true =>
      have := h.locked k t ht hl
      rcases hp with hp | hp
      · exact absurd this.1 hp
      · exact absurd this.2 hp
  cases a with
  | recv rqs =>
    simp only [step] at e
    split at e
    · cases e; exact h.same rfl rfl
    · cases e
  | alloc i =>
    simp only [step, Option.bind_eq_some_iff] at e
    obtain ⟨slots, hr, e⟩ := e
    split at e
    · split at e
      · cases e; exact h.same rfl rfl
      · cases e
    · cases e
  | start i =>
    simp only [step, Option.bind_eq_some_iff] at e
    obtain ⟨slots, hr, e⟩ := e
    split at e
    · rename_i k hy
      cases e
      have hk : k ∈ s.slots.filterMap Slot.alloc := by
        rw [List.mem_filterMap]
        refine ⟨.allocated k true, ?_, rfl⟩
        simp only [Sys.slots, hr, Option.getD_some]
        exact List.mem_of_getElem? hy
      exact h.start h1 (h1.alloc k hk).2 rfl (fun _ => rfl)
    · cases e; exact h.same rfl rfl
    · cases e
  | unsub i =>
    simp only [step, Option.bind_eq_some_iff] at e
    obtain ⟨slots, hr, e⟩ := e
    split at e
    · rename_i k hy
      split at e
      · rename_i hk
        simp only [Option.bind_eq_some_iff] at e
        obtain ⟨t, ht, e⟩ := e
        cases e
        refine h.upd (t' := { t with aborted := true }) ht rfl (fun _ => rfl) rfl (h.locked k t ht) (fun _ => ⟨Nat.le_refl _, Nat.le_refl _⟩) ?_ ?_
        · exact ⟨(h.data k t ht).1, fun hc => by cases hc⟩
        · intro _ hc; cases hc
      · cases e; exact h.same rfl rfl
    · cases e
  | other i =>
    simp only [step, Option.bind_eq_some_iff] at e
    obtain ⟨slots, hr, e⟩ := e
    split at e
    · cases e; exact h.same rfl rfl
    · cases e
  | reply =>
    simp only [step, Option.bind_eq_some_iff] at e
    obtain ⟨slots, hr, as, ha, e⟩ := e
    cases e
    exact h.reply h1 hr ha rfl (fun _ => rfl)
  | check k n =>
    simp only [step, Option.bind_eq_some_iff] at e
    obtain ⟨t, ht, e⟩ := e
    split at e
    · rename_i hready
      obtain ⟨hl, hg, hpn, hcl⟩ := ready_iff hready
      cases e
      have hpd : t.pd = [] := by simp [Task.pd, hpn]
      refine h.upd ht rfl (setTask_tasks _ _ _) rfl (fun hl' => by rw [hl] at hl'; cases hl') ?_ ?_ ?_
      · intro hk
        rw [notIn k t ht hk]
        simp [Task.pd, Task.pc]
      · have hd := h.data k t ht
        rw [hpd, List.append_nil] at hd
        refine ⟨?_, ?_⟩
        · cases hk : s.registry.contains k with
          | false =>
            simp only [Task.pd, Bool.false_eq_true, if_false, List.append_nil]
            exact hd.1.trans (List.prefix_append _ _)
          | true =>
            simp only [Task.pd, if_true, Note.datas]
            have hab : t.aborted = false := by
              obtain ⟨t', ht', _, hab⟩ := (h1.reg k).1 (by simpa using hk)
              rw [ht] at ht'; cases ht'; exact hab
            rw [hd.2 hab]
            exact List.prefix_refl _
        · intro hab
          rw [isIn k t ht hg hab]
          simp only [Task.pd, if_true, Note.datas]
          rw [hd.2 hab]
      · intro hc; simp only at hc; rw [hcl] at hc; cases hc
    · cases e
  | fail k =>
    simp only [step, Option.bind_eq_some_iff] at e
    obtain ⟨t, ht, e⟩ := e
    split at e
    · rename_i hready
      obtain ⟨hl, hg, hpn, hcl⟩ := ready_iff hready
      cases e
      have hpd : t.pd = [] := by simp [Task.pd, hpn]
      refine h.upd ht rfl (setTask_tasks _ _ _) rfl (fun hl' => by rw [hl] at hl'; cases hl') ?_ ?_ ?_
      · intro hk
        rw [notIn k t ht hk]
        simp [Task.pd, Task.pc]
      · have hd := h.data k t ht
        rw [hpd] at hd
        have : ({ t with closing := true, pend := if s.registry.contains k then some Note.err else none } : Task).pd = [] := by
          cases s.registry.contains k <;> rfl
        rw [this]
        exact hd
      · intro _ hab
        left
        simp only [isIn k t ht hg hab, if_true]
    · cases e
  | push k =>
    simp only [step, Option.bind_eq_some_iff] at e
    obtain ⟨t, ht, n, hn, e⟩ := e
    cases e
    have hl := out k t ht (.inl (by simp [hn]))
    refine h.note (t' := { t with pend := none }) ht rfl (setTask_tasks _ _ _) hl hl ?_ ?_ ?_ rfl rfl rfl ?_
    · simp [Task.pd, hn]
    · simp [Task.pc, hn]
    · simp [Task.pd, hn]
    · intro he; rw [hn] at he; cases he; exact .inl rfl
  | spawn k =>
    simp only [step, Option.bind_eq_some_iff] at e
    obtain ⟨t, ht, e⟩ := e
    split at e
    · rename_i hready
      simp only [Bool.and_eq_true, beq_iff_eq] at hready
      obtain ⟨hl, hg, hpn, hcl⟩ := ready_iff hready.1
      cases e
      refine h.upd (t' := { t with inner := .running }) ht rfl (setTask_tasks _ _ _) rfl (fun hl' => by rw [hl] at hl'; cases hl') ?_ (h.data k t ht) ?_
      · intro _; exact ⟨Nat.le_refl _, by simp [Task.pc]⟩
      · exact h.told k t ht
    · cases e
  | innerEnd k f =>
    simp only [step, Option.bind_eq_some_iff] at e
    obtain ⟨t, ht, e⟩ := e
    split at e
    · rename_i hi
      have hl := out k t ht (.inr (by simp [hi]))
      cases e
      refine h.upd ht rfl (setTask_tasks _ _ _) rfl (fun hl' => by rw [hl] at hl'; cases hl') ?_ (h.data k t ht) (h.told k t ht)
      intro _; refine ⟨Nat.le_refl _, ?_⟩
      cases f <;> simp [Task.pc]
    · cases e
  | innerCheck k =>
    simp only [step, Option.bind_eq_some_iff] at e
    obtain ⟨t, ht, e⟩ := e
    split at e
    · rename_i hi
      have hl := out k t ht (.inr (by simp [hi]))
      cases e
      refine h.upd ht rfl (setTask_tasks _ _ _) rfl (fun hl' => by rw [hl] at hl'; cases hl') ?_ (h.data k t ht) (h.told k t ht)
      intro hk
      rw [notIn k t ht hk]
      exact ⟨Nat.le_refl _, by simp [Task.pc]⟩
    · cases e
  | innerPush k =>
    simp only [step, Option.bind_eq_some_iff] at e
    obtain ⟨t, ht, e⟩ := e
    split at e
    · rename_i hi
      have hl := out k t ht (.inr (by simp [hi]))
      cases e
      refine h.note (t' := { t with inner := .ended }) ht rfl (setTask_tasks _ _ _) hl hl ?_ ?_ ?_ rfl rfl rfl (fun _ => .inl rfl)
      · simp [Task.pd, Note.datas]
      · simp [Task.pc, hi]; omega
      · simp [Task.pd, Note.datas]
    · cases e
  | exit k =>
    simp only [step, Option.bind_eq_some_iff] at e
    obtain ⟨t, ht, e⟩ := e
    split at e
    · cases e
      exact h.upd (t' := { t with gone := true }) ht rfl (fun _ => rfl) rfl (h.locked k t ht) (fun _ => ⟨Nat.le_refl _, Nat.le_refl _⟩) (h.data k t ht) (h.told k t ht)
    · cases e
  | die k =>
    simp only [step, Option.bind_eq_some_iff] at e
    obtain ⟨t, ht, e⟩ := e
    split at e
    · rename_i hd
      simp only [Bool.and_eq_true] at hd
      cases e
      refine h.upd (t' := { t with gone := true, pend := none }) ht rfl (fun _ => rfl) rfl (fun hl => ⟨rfl, (h.locked k t ht hl).2⟩) ?_ ?_ ?_
      · intro _; simp [Task.pd, Task.pc]
      · refine ⟨?_, fun hc => ?_⟩
        · have := (h.data k t ht).1
          simp only [Task.pd, List.append_nil]
          exact (List.prefix_append _ _).trans this
        · rw [hd.1] at hc; cases hc
      · intro _ hc; simp only at hc; rw [hd.1] at hc; cases hc
    · cases e

theorem inv_runs {s s' : Sys} {as : List Act} (h1 : Inv1 s) (h : Inv2 s) (e : runs s as = some s') : Inv1 s' ∧ Inv2 s' := by
  induction as generalizing s with
  | nil => cases e; exact ⟨h1, h⟩
  | cons a as ih =>
    simp only [runs, Option.bind_eq_some_iff] at e
    obtain ⟨m, hm, e⟩ := e
    exact ih (inv1_step h1 hm) (inv2_step h1 h hm) e

end Verif.Rpc.Subs
