import Verif.Trace.Model

/-! Invariants of the trace cache. -/

namespace Verif.Trace

variable {V E : Type}

/-- What is known of the run that a call `o` does or did for `k`. -/
inductive Own (produces : Key → Result V E → Prop) (s : State V E) (k : Key) (o : Nat) : Prop where
  | going (c : s.calls o = some (k, .computing)) (h : s.chans o = ⟨none, false⟩)
  | failing (c : s.calls o = some (k, .failing)) (h : s.chans o = ⟨none, false⟩)
  | published (r : Result V E) (c : s.calls o = some (k, .answered (.result r))) (h : s.chans o = ⟨some r, true⟩) (p : produces k r)
  | dropped (c : s.calls o = some (k, .answered .failed)) (h : s.chans o = ⟨none, true⟩)

/-- The invariant. -/
structure Inv (produces : Key → Result V E → Prop) (s : State V E) : Prop where
  cached : ∀ k r, s.cache k = some (.cached r) → produces k r
  inflight : ∀ k o, s.cache k = some (.inflight o) →
    (s.calls o = some (k, .computing) ∧ s.chans o = ⟨none, false⟩) ∨ (s.calls o = some (k, .answered .failed) ∧ s.chans o = ⟨none, true⟩)
  computing : ∀ k o, s.calls o = some (k, .computing) ∨ s.calls o = some (k, .failing) → s.chans o = ⟨none, false⟩
  waiting : ∀ i k o m, s.calls i = some (k, .waiting o m) → m = false ∧ Own produces s k o
  result : ∀ i k r, s.calls i = some (k, .answered (.result r)) → produces k r
  lost : ∀ i k, s.calls i = some (k, .answered .lost) → ∃ o, s.calls o = some (k, .answered .failed)

theorem Inv.init (produces : Key → Result V E → Prop) : Inv produces (State.init : State V E) := by
  constructor <;> intros <;> simp_all [State.init]

theorem update_self {A B : Type} [DecidableEq A] (f : A → B) (a : A) (b : B) : update f a b a = b := by simp [update]

theorem update_ne {A B : Type} [DecidableEq A] (f : A → B) {a x : A} (b : B) (h : x ≠ a) : update f a b x = f x := by simp [update, h]

variable {produces : Key → Result V E → Prop}

/-- A run is not touched by what happens to another call. -/
theorem Own.frame {s t : State V E} {k : Key} {o : Nat} (h : Own produces s k o) (hc : t.calls o = s.calls o) (hh : t.chans o = s.chans o) :
    Own produces t k o := by
  cases h with
  | going c h => exact .going (hc.trans c) (hh.trans h)
  | failing c h => exact .failing (hc.trans c) (hh.trans h)
  | published r c h p => exact .published r (hc.trans c) (hh.trans h) p
  | dropped c h => exact .dropped (hc.trans c) (hh.trans h)

theorem Own.some' {s : State V E} {k : Key} {o : Nat} (h : Own produces s k o) : s.calls o ≠ none := by
  cases h <;> rename_i c _ <;> try simp_all
  all_goals (intro hn; simp_all)

theorem Inv.enter {s : State V E} (h : Inv produces s) {i : Nat} (k : Key) (fresh : s.calls i = none) : Inv produces (s.enter i k) := by
  unfold State.enter
  split
  · next r hc =>
    refine ⟨h.cached, ?_, ?_, ?_, ?_, ?_⟩
    · intro k' o ho
      have hne : o ≠ i := by rintro rfl; rcases h.inflight k' o ho with ⟨e, _⟩ | ⟨e, _⟩ <;> rw [fresh] at e <;> cases e
      simp only [update_ne _ _ hne]; exact h.inflight k' o ho
    · intro k' o ho
      by_cases e : o = i
      · subst e; simp [update_self] at ho
      · simp only [update_ne _ _ e] at ho; exact h.computing k' o ho
    · intro j k' o m hj
      by_cases e : j = i
      · subst e; simp [update_self] at hj
      · simp only [update_ne _ _ e] at hj
        obtain ⟨h1, h2⟩ := h.waiting j k' o m hj
        have hne : o ≠ i := by rintro rfl; exact h2.some' fresh
        exact ⟨h1, h2.frame (by simp only [update_ne _ _ hne]) rfl⟩
    · intro j k' r' hj
      by_cases e : j = i
      · subst e; simp [update_self] at hj; obtain ⟨rfl, rfl⟩ := hj; exact h.cached _ _ hc
      · simp only [update_ne _ _ e] at hj; exact h.result j k' r' hj
    · intro j k' hj
      by_cases e : j = i
      · subst e; simp [update_self] at hj
      · simp only [update_ne _ _ e] at hj
        obtain ⟨o, ho⟩ := h.lost j k' hj
        exact ⟨o, (update_ne _ _ (by rintro rfl; rw [fresh] at ho; cases ho)).trans ho⟩
  · next o' hc =>
    have ho' := h.inflight k o' hc
    have hne' : o' ≠ i := by rintro rfl; rcases ho' with ⟨e, _⟩ | ⟨e, _⟩ <;> rw [fresh] at e <;> cases e
    refine ⟨h.cached, ?_, ?_, ?_, ?_, ?_⟩
    · intro k' o ho
      have hne : o ≠ i := by rintro rfl; rcases h.inflight k' o ho with ⟨e, _⟩ | ⟨e, _⟩ <;> rw [fresh] at e <;> cases e
      simp only [update_ne _ _ hne]; exact h.inflight k' o ho
    · intro k' o ho
      by_cases e : o = i
      · subst e; simp [update_self] at ho
      · simp only [update_ne _ _ e] at ho; exact h.computing k' o ho
    · intro j k' o m hj
      by_cases e : j = i
      · subst e
        simp only [update_self, Option.some.injEq, Prod.mk.injEq, Call.waiting.injEq] at hj
        obtain ⟨rfl, rfl, rfl⟩ := hj
        rcases ho' with ⟨e1, e2⟩ | ⟨e1, e2⟩
        · exact ⟨by rw [e2]; rfl, .going (by simp only [update_ne _ _ hne']; exact e1) e2⟩
        · exact ⟨by rw [e2]; rfl, .dropped (by simp only [update_ne _ _ hne']; exact e1) e2⟩
      · simp only [update_ne _ _ e] at hj
        obtain ⟨h1, h2⟩ := h.waiting j k' o m hj
        have hne : o ≠ i := by rintro rfl; exact h2.some' fresh
        exact ⟨h1, h2.frame (by simp only [update_ne _ _ hne]) rfl⟩
    · intro j k' r' hj
      by_cases e : j = i
      · subst e; simp [update_self] at hj
      · simp only [update_ne _ _ e] at hj; exact h.result j k' r' hj
    · intro j k' hj
      by_cases e : j = i
      · subst e; simp [update_self] at hj
      · simp only [update_ne _ _ e] at hj
        obtain ⟨o, ho⟩ := h.lost j k' hj
        exact ⟨o, (update_ne _ _ (by rintro rfl; rw [fresh] at ho; cases ho)).trans ho⟩
  · next hc =>
    refine ⟨?_, ?_, ?_, ?_, ?_, ?_⟩
    · intro k' r hr
      by_cases e : k' = k
      · subst e; simp [update_self] at hr
      · simp only [update_ne _ _ e] at hr; exact h.cached k' r hr
    · intro k' o ho
      by_cases e : k' = k
      · subst e
        simp only [update_self, Option.some.injEq, Item.inflight.injEq] at ho
        subst ho
        exact .inl ⟨by simp [update_self], by simp [update_self]⟩
      · simp only [update_ne _ _ e] at ho
        have hne : o ≠ i := by rintro rfl; rcases h.inflight k' o ho with ⟨e, _⟩ | ⟨e, _⟩ <;> rw [fresh] at e <;> cases e
        simp only [update_ne _ _ hne]; exact h.inflight k' o ho
    · intro k' o ho
      by_cases e : o = i
      · subst e; simp [update_self]
      · simp only [update_ne _ _ e] at ho ⊢; exact h.computing k' o ho
    · intro j k' o m hj
      by_cases e : j = i
      · subst e; simp [update_self] at hj
      · simp only [update_ne _ _ e] at hj
        obtain ⟨h1, h2⟩ := h.waiting j k' o m hj
        have hne : o ≠ i := by rintro rfl; exact h2.some' fresh
        exact ⟨h1, h2.frame (by simp only [update_ne _ _ hne]) (by simp only [update_ne _ _ hne])⟩
    · intro j k' r' hj
      by_cases e : j = i
      · subst e; simp [update_self] at hj
      · simp only [update_ne _ _ e] at hj; exact h.result j k' r' hj
    · intro j k' hj
      by_cases e : j = i
      · subst e; simp [update_self] at hj
      · simp only [update_ne _ _ e] at hj
        obtain ⟨o, ho⟩ := h.lost j k' hj
        exact ⟨o, (update_ne _ _ (by rintro rfl; rw [fresh] at ho; cases ho)).trans ho⟩

theorem Inv.publish {s : State V E} (h : Inv produces s) {i : Nat} {k : Key} {r : Result V E}
    (hi : s.calls i = some (k, .computing)) (p : produces k r) : Inv produces (s.publish i k r) := by
  unfold State.publish
  refine ⟨?_, ?_, ?_, ?_, ?_, ?_⟩
  · intro k' r' hr
    by_cases e : k' = k
    · subst e; simp [update_self] at hr; subst hr; exact p
    · simp only [update_ne _ _ e] at hr; exact h.cached k' r' hr
  · intro k' o ho
    by_cases e : k' = k
    · subst e; simp [update_self] at ho
    · simp only [update_ne _ _ e] at ho
      have hne : o ≠ i := by
        rintro rfl
        rcases h.inflight k' o ho with ⟨e', _⟩ | ⟨e', _⟩ <;> rw [hi] at e' <;> simp at e'
        exact e e'.symm
      simp only [update_ne _ _ hne]; exact h.inflight k' o ho
  · intro k' o ho
    by_cases e : o = i
    · subst e; simp [update_self] at ho
    · simp only [update_ne _ _ e] at ho ⊢; exact h.computing k' o ho
  · intro j k' o m hj
    by_cases e : j = i
    · subst e; simp [update_self] at hj
    · simp only [update_ne _ _ e] at hj
      obtain ⟨h1, h2⟩ := h.waiting j k' o m hj
      refine ⟨h1, ?_⟩
      by_cases e' : o = i
      · subst e'
        have hk : k = k' := by
          cases h2 <;> rename_i c _ <;> simp_all
        subst hk
        exact .published r (by simp [update_self]) (by simp [update_self]) p
      · exact h2.frame (by simp only [update_ne _ _ e']) (by simp only [update_ne _ _ e'])
  · intro j k' r' hj
    by_cases e : j = i
    · subst e; simp [update_self] at hj; obtain ⟨rfl, rfl⟩ := hj; exact p
    · simp only [update_ne _ _ e] at hj; exact h.result j k' r' hj
  · intro j k' hj
    by_cases e : j = i
    · subst e; simp [update_self] at hj
    · simp only [update_ne _ _ e] at hj
      obtain ⟨o, ho⟩ := h.lost j k' hj
      exact ⟨o, (update_ne _ _ (by rintro rfl; rw [hi] at ho; simp at ho)).trans ho⟩

theorem Inv.giveUp {s : State V E} (h : Inv produces s) {i : Nat} {k : Key}
    (hi : s.calls i = some (k, .computing)) : Inv produces (s.giveUp i k) := by
  unfold State.giveUp
  refine ⟨?_, ?_, ?_, ?_, ?_, ?_⟩
  · intro k' r' hr
    by_cases e : k' = k
    · subst e; simp [update_self] at hr
    · simp only [update_ne _ _ e] at hr; exact h.cached k' r' hr
  · intro k' o ho
    by_cases e : k' = k
    · subst e; simp [update_self] at ho
    · simp only [update_ne _ _ e] at ho
      have hne : o ≠ i := by
        rintro rfl
        rcases h.inflight k' o ho with ⟨e', _⟩ | ⟨e', _⟩ <;> rw [hi] at e' <;> simp at e'
        exact e e'.symm
      simp only [update_ne _ _ hne]; exact h.inflight k' o ho
  · intro k' o ho
    by_cases e : o = i
    · subst e; exact h.computing k o (.inl hi)
    · simp only [update_ne _ _ e] at ho; exact h.computing k' o ho
  · intro j k' o m hj
    by_cases e : j = i
    · subst e; simp [update_self] at hj
    · simp only [update_ne _ _ e] at hj
      obtain ⟨h1, h2⟩ := h.waiting j k' o m hj
      refine ⟨h1, ?_⟩
      by_cases e' : o = i
      · subst e'
        have hk : k = k' := by
          cases h2 <;> rename_i c _ <;> simp_all
        subst hk
        exact .failing (by simp [update_self]) (h.computing k o (.inl hi))
      · exact h2.frame (by simp only [update_ne _ _ e']) rfl
  · intro j k' r' hj
    by_cases e : j = i
    · subst e; simp [update_self] at hj
    · simp only [update_ne _ _ e] at hj; exact h.result j k' r' hj
  · intro j k' hj
    by_cases e : j = i
    · subst e; simp [update_self] at hj
    · simp only [update_ne _ _ e] at hj
      obtain ⟨o, ho⟩ := h.lost j k' hj
      exact ⟨o, (update_ne _ _ (by rintro rfl; rw [hi] at ho; simp at ho)).trans ho⟩

theorem Inv.drop {s : State V E} (h : Inv produces s) {i : Nat} {k : Key}
    (hi : s.calls i = some (k, .computing) ∨ s.calls i = some (k, .failing)) : Inv produces (s.drop i k) := by
  have hch := h.computing k i hi
  unfold State.drop
  refine ⟨h.cached, ?_, ?_, ?_, ?_, ?_⟩
  · intro k' o ho
    by_cases e : o = i
    · subst e
      have hk : k = k' := by
        rcases h.inflight k' o ho with ⟨e', _⟩ | ⟨e', _⟩ <;> rcases hi with hi | hi <;> rw [hi] at e' <;> simp at e'
        exact e'
      subst hk
      exact .inr ⟨by simp [update_self], by simp [update_self, hch]⟩
    · simp only [update_ne _ _ e]; exact h.inflight k' o ho
  · intro k' o ho
    by_cases e : o = i
    · subst e; simp [update_self] at ho
    · simp only [update_ne _ _ e] at ho ⊢; exact h.computing k' o ho
  · intro j k' o m hj
    by_cases e : j = i
    · subst e; simp [update_self] at hj
    · simp only [update_ne _ _ e] at hj
      obtain ⟨h1, h2⟩ := h.waiting j k' o m hj
      refine ⟨h1, ?_⟩
      by_cases e' : o = i
      · subst e'
        have hk : k = k' := by
          rcases hi with hi | hi <;> cases h2 <;> rename_i c _ <;> simp_all
        subst hk
        exact .dropped (by simp [update_self]) (by simp [update_self, hch])
      · exact h2.frame (by simp only [update_ne _ _ e']) (by simp only [update_ne _ _ e'])
  · intro j k' r' hj
    by_cases e : j = i
    · subst e; simp [update_self] at hj
    · simp only [update_ne _ _ e] at hj; exact h.result j k' r' hj
  · intro j k' hj
    by_cases e : j = i
    · subst e; simp [update_self] at hj
    · simp only [update_ne _ _ e] at hj
      obtain ⟨o, ho⟩ := h.lost j k' hj
      refine ⟨o, ?_⟩
      exact (update_ne _ _ (by rintro rfl; rcases hi with hi | hi <;> rw [hi] at ho <;> simp at ho)).trans ho

theorem Inv.receive {s : State V E} (h : Inv produces s) {i : Nat} {k : Key} {o : Nat} {m : Bool} {a : Answer V E}
    (hi : s.calls i = some (k, .waiting o m)) (got : (s.chans o).receive m = some a) :
    Inv produces { s with calls := update s.calls i (some (k, .answered a)) } := by
  obtain ⟨rfl, own⟩ := h.waiting i k o m hi
  refine ⟨h.cached, ?_, ?_, ?_, ?_, ?_⟩
  · intro k' o' ho
    have hne : o' ≠ i := by rintro rfl; rcases h.inflight k' o' ho with ⟨e, _⟩ | ⟨e, _⟩ <;> rw [hi] at e <;> simp at e
    simp only [update_ne _ _ hne]; exact h.inflight k' o' ho
  · intro k' o' ho
    by_cases e : o' = i
    · subst e; simp [update_self] at ho
    · simp only [update_ne _ _ e] at ho; exact h.computing k' o' ho
  · intro j k' o' m' hj
    by_cases e : j = i
    · subst e; simp [update_self] at hj
    · simp only [update_ne _ _ e] at hj
      obtain ⟨h1, h2⟩ := h.waiting j k' o' m' hj
      have hne : o' ≠ i := by rintro rfl; cases h2 <;> rename_i c _ <;> simp_all
      exact ⟨h1, h2.frame (by simp only [update_ne _ _ hne]) rfl⟩
  · intro j k' r' hj
    by_cases e : j = i
    · subst e
      simp only [update_self, Option.some.injEq, Prod.mk.injEq, Call.answered.injEq] at hj
      obtain ⟨rfl, rfl⟩ := hj
      cases own with
      | going c hh => rw [hh] at got; simp [Chan.receive] at got
      | failing c hh => rw [hh] at got; simp [Chan.receive] at got
      | published r c hh p => rw [hh] at got; simp [Chan.receive] at got; subst got; exact p
      | dropped c hh => rw [hh] at got; simp [Chan.receive] at got
    · simp only [update_ne _ _ e] at hj; exact h.result j k' r' hj
  · intro j k' hj
    by_cases e : j = i
    · subst e
      simp only [update_self, Option.some.injEq, Prod.mk.injEq, Call.answered.injEq] at hj
      obtain ⟨rfl, rfl⟩ := hj
      cases own with
      | going c hh => rw [hh] at got; simp [Chan.receive] at got
      | failing c hh => rw [hh] at got; simp [Chan.receive] at got
      | published r c hh p => rw [hh] at got; simp [Chan.receive] at got
      | dropped c hh =>
        exact ⟨o, (update_ne _ _ (by rintro rfl; rw [hi] at c; simp at c)).trans c⟩
    · simp only [update_ne _ _ e] at hj
      obtain ⟨o', ho⟩ := h.lost j k' hj
      exact ⟨o', (update_ne _ _ (by rintro rfl; rw [hi] at ho; simp at ho)).trans ho⟩

theorem Inv.step {s t : State V E} (h : Inv produces s) (st : Step produces s t) : Inv produces t := by
  cases st with
  | enter i k fresh => exact h.enter k fresh
  | publish i k r hi p => exact h.publish hi p
  | giveUp i k hi => exact h.giveUp hi
  | drop i k hi => exact h.drop hi
  | receive i k o m a hi got => exact h.receive hi got

theorem Inv.any {s t : State V E} (h : Inv produces s) (st : Any produces s t) : Inv produces t := by
  cases st with
  | step st => exact h.step st
  | evict k =>
    refine ⟨?_, ?_, h.computing, ?_, h.result, h.lost⟩
    · intro k' r hr
      by_cases e : k' = k
      · subst e; simp [update_self] at hr
      · simp only [update_ne _ _ e] at hr; exact h.cached k' r hr
    · intro k' o ho
      by_cases e : k' = k
      · subst e; simp [update_self] at ho
      · simp only [update_ne _ _ e] at ho; exact h.inflight k' o ho
    · intro j k' o m hj
      obtain ⟨h1, h2⟩ := h.waiting j k' o m hj
      exact ⟨h1, h2.frame rfl rfl⟩

theorem Inv.reach {s t : State V E} (h : Inv produces s) (r : Reach (Any produces) s t) : Inv produces t := by
  induction r with
  | refl => exact h
  | tail _ st ih => exact ih.any st

end Verif.Trace
