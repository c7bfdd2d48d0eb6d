import Verif.Trace.Lemmas

/-!
C81: answers of traces are those of running the block that was asked for, whatever calls overlap.
-/

namespace Verif.Trace

variable {V E : Type} {produces : Key → Result V E → Prop}

/-- A block that runs to 7, and one whose run always ends with an error. -/
def caseProduces (k : Key) (r : Result Nat String) : Prop := r = if k.block = 0 then .ok 7 else .error "bad"

/-- A call runs the block, another one waits for it and gets the result, a third one finds it. -/
theorem case_reach : ∃ s : State Nat String, Reach (Any caseProduces) .init s ∧
    s.calls 0 = some (⟨0, false⟩, .answered (.result (.ok 7))) ∧ s.calls 1 = some (⟨0, false⟩, .answered (.result (.ok 7))) ∧
    s.calls 2 = some (⟨0, false⟩, .answered (.result (.ok 7))) ∧ s.calls 3 = some (⟨0, true⟩, .computing) ∧
    s.calls 4 = some (⟨0, true⟩, .waiting 3 false) := by
  have r0 : Reach (Any caseProduces) (State.init : State Nat String) .init := .refl _
  have r1 := r0.tail (.step (.enter 0 ⟨0, false⟩ rfl))
  have r2 := r1.tail (.step (.enter 1 ⟨0, false⟩ rfl))
  have r3 := r2.tail (.step (.publish 0 ⟨0, false⟩ (.ok 7) rfl rfl))
  have r4 := r3.tail (.step (.receive 1 ⟨0, false⟩ 0 false (.result (.ok 7)) rfl rfl))
  have r5 := r4.tail (.step (.enter 2 ⟨0, false⟩ rfl))
  have r6 := r5.tail (.step (.enter 3 ⟨0, true⟩ rfl))
  have r7 := r6.tail (.step (.enter 4 ⟨0, true⟩ rfl))
  exact ⟨_, r7, rfl, rfl, rfl, rfl, rfl⟩

/-- C81. Every result answered for a block, with or without initial reads, is one that running that block with
that flag ends with; whatever calls overlap and whatever the cache loses. -/
theorem C81_answer (s : State V E) (r : Reach (Any produces) .init s) (i : Nat) (k : Key) (x : Result V E)
    (h : s.calls i = some (k, .answered (.result x))) : produces k x :=
  ((Inv.init produces).reach r).result i k x h

/-- C81. So if running a block always ends the same, all answers for it are the same. -/
theorem C81_same (s : State V E) (r : Reach (Any produces) .init s) (det : ∀ k x y, produces k x → produces k y → x = y)
    (i j : Nat) (k : Key) (x y : Result V E) (hi : s.calls i = some (k, .answered (.result x)))
    (hj : s.calls j = some (k, .answered (.result y))) : x = y :=
  det k x y (C81_answer s r i k x hi) (C81_answer s r j k y hj)

example : ∀ k x y, caseProduces k x → caseProduces k y → x = y := fun _ _ _ h h' => h.trans h'.symm

/-- C81. No call waits in vain: the run it waits for is going on, for the same block and flag, or its answer is
there; and then it is the result of that run, if that ended with one. -/
theorem C81_no_lost_call (s : State V E) (r : Reach (Any produces) .init s) (i : Nat) (k : Key) (o : Nat) (m : Bool)
    (h : s.calls i = some (k, .waiting o m)) :
    (s.calls o = some (k, .computing) ∨ s.calls o = some (k, .failing)) ∨
    ∃ a t, Step produces s t ∧ t.calls i = some (k, .answered a) ∧
      ((∃ x, a = .result x ∧ s.calls o = some (k, .answered (.result x))) ∨ (a = .lost ∧ s.calls o = some (k, .answered .failed))) := by
  obtain ⟨rfl, own⟩ := ((Inv.init produces).reach r).waiting i k o m h
  cases own with
  | going c _ => exact .inl (.inl c)
  | failing c _ => exact .inl (.inr c)
  | published x c hh p =>
    exact .inr ⟨.result x, _, .receive i k o false (.result x) h (by rw [hh]; rfl), by simp [update_self], .inl ⟨x, rfl, c⟩⟩
  | dropped c hh =>
    exact .inr ⟨.lost, _, .receive i k o false .lost h (by rw [hh]; rfl), by simp [update_self], .inr ⟨rfl, c⟩⟩

/-- C81. The answer "Trace error" is given only if a run for that block and flag failed. -/
theorem C81_lost (s : State V E) (r : Reach (Any produces) .init s) (i : Nat) (k : Key)
    (h : s.calls i = some (k, .answered .lost)) : ∃ o, s.calls o = some (k, .answered .failed) :=
  ((Inv.init produces).reach r).lost i k h

example : ∃ s : State Nat String, Reach (Any caseProduces) .init s ∧ s.calls 1 = some (⟨0, false⟩, .answered .lost) := by
  have r0 : Reach (Any caseProduces) (State.init : State Nat String) .init := .refl _
  have r1 := r0.tail (.step (.enter 0 ⟨0, false⟩ rfl))
  have r2 := r1.tail (.step (.enter 1 ⟨0, false⟩ rfl))
  have r3 := r2.tail (.step (.giveUp 0 ⟨0, false⟩ rfl))
  have r4 := r3.tail (.step (.drop 0 ⟨0, false⟩ (.inr rfl)))
  have r5 := r4.tail (.step (.receive 1 ⟨0, false⟩ 0 false .lost rfl rfl))
  exact ⟨_, r5, rfl⟩

/-! ### One run at a time -/

/-- While the cache loses nothing, a block is run by one call at a time. -/
theorem once_inv (s : State V E) (r : Reach (Step produces) .init s) :
    Inv produces s ∧ ∀ i k, s.calls i = some (k, .computing) → s.cache k = some (.inflight i) := by
  induction r with
  | refl => exact ⟨.init produces, fun i k h => (by simp [State.init] at h)⟩
  | @tail t u _ st ih =>
    obtain ⟨inv, ih⟩ := ih
    refine ⟨inv.step st, ?_⟩
    intro j k' hj
    cases st with
    | enter i k fresh =>
      unfold State.enter at hj ⊢
      split at hj
      · by_cases e : j = i
        · subst e; simp [update_self] at hj
        · simp only [update_ne _ _ e] at hj; exact ih j k' hj
      · by_cases e : j = i
        · subst e; simp [update_self] at hj
        · simp only [update_ne _ _ e] at hj; exact ih j k' hj
      · next hc =>
        by_cases e : j = i
        · subst e; simp [update_self] at hj; subst hj; simp [update_self]
        · simp only [update_ne _ _ e] at hj
          have hk := ih j k' hj
          have : k' ≠ k := by rintro rfl; rw [hc] at hk; cases hk
          simp only [update_ne _ _ this]; exact hk
    | publish i k x hi p =>
      unfold State.publish at hj ⊢
      by_cases e : j = i
      · subst e; simp [update_self] at hj
      · simp only [update_ne _ _ e] at hj
        have hk := ih j k' hj
        have : k' ≠ k := by
          rintro rfl
          have := ih i k' hi
          rw [hk] at this
          simp at this
          exact e this
        simp only [update_ne _ _ this]; exact hk
    | giveUp i k hi =>
      unfold State.giveUp at hj ⊢
      by_cases e : j = i
      · subst e; simp [update_self] at hj
      · simp only [update_ne _ _ e] at hj
        have hk := ih j k' hj
        have : k' ≠ k := by
          rintro rfl
          have := ih i k' hi
          rw [hk] at this
          simp at this
          exact e this
        simp only [update_ne _ _ this]; exact hk
    | drop i k hi =>
      unfold State.drop at hj ⊢
      by_cases e : j = i
      · subst e; simp [update_self] at hj
      · simp only [update_ne _ _ e] at hj; exact ih j k' hj
    | receive i k o m a hi got =>
      by_cases e : j = i
      · subst e; simp [update_self] at hj
      · simp only [update_ne _ _ e] at hj; exact ih j k' hj

/-- C81. While the cache loses no entry, a block is run by one call at a time. -/
theorem C81_once (s : State V E) (r : Reach (Step produces) .init s) (i j : Nat) (k : Key)
    (hi : s.calls i = some (k, .computing)) (hj : s.calls j = some (k, .computing)) : i = j := by
  have h1 := (once_inv s r).2 i k hi
  have h2 := (once_inv s r).2 j k hj
  rw [h1] at h2
  simpa using h2

/-- Without that, it may be run twice. -/
example : ∃ s : State Nat String, Reach (Any caseProduces) .init s ∧ s.calls 0 = some (⟨0, false⟩, .computing) ∧
    s.calls 1 = some (⟨0, false⟩, .computing) := by
  have r0 : Reach (Any caseProduces) (State.init : State Nat String) .init := .refl _
  have r1 := r0.tail (.step (.enter 0 ⟨0, false⟩ rfl))
  have r2 := r1.tail (.evict ⟨0, false⟩)
  have r3 := r2.tail (.step (.enter 1 ⟨0, false⟩ rfl))
  exact ⟨_, r3, rfl, rfl⟩

/-! ### Failures that last -/

/-- No run is going on for `k`, and the entry of `k` is one that no call removes. -/
def Stuck (k : Key) (s : State V E) : Prop :=
  (∃ o, s.cache k = some (.inflight o) ∧ s.chans o = ⟨none, true⟩ ∧ s.calls o = some (k, .answered .failed)) ∧
  ∀ i, s.calls i ≠ some (k, .computing)

theorem Stuck.step {s t : State V E} {k : Key} (h : Stuck k s) (st : Step produces s t) : Stuck k t := by
  obtain ⟨⟨o, h1, h2, h3⟩, h4⟩ := h
  cases st with
  | enter i k' fresh =>
    have hne : o ≠ i := by rintro rfl; rw [fresh] at h3; cases h3
    unfold State.enter
    split
    · refine ⟨⟨o, h1, h2, (update_ne _ _ hne).trans h3⟩, ?_⟩
      intro j hj
      by_cases e : j = i
      · subst e; simp [update_self] at hj
      · exact h4 j ((update_ne _ _ e).symm.trans hj)
    · refine ⟨⟨o, h1, h2, (update_ne _ _ hne).trans h3⟩, ?_⟩
      intro j hj
      by_cases e : j = i
      · subst e; simp [update_self] at hj
      · exact h4 j ((update_ne _ _ e).symm.trans hj)
    · next hc =>
      have hk : k ≠ k' := by rintro rfl; rw [h1] at hc; cases hc
      refine ⟨⟨o, (update_ne _ _ hk).trans h1, (update_ne _ _ hne).trans h2, (update_ne _ _ hne).trans h3⟩, ?_⟩
      intro j hj
      by_cases e : j = i
      · subst e; simp [update_self] at hj; exact hk hj.symm
      · exact h4 j ((update_ne _ _ e).symm.trans hj)
  | publish i k' x hi p =>
    have hk : k ≠ k' := by rintro rfl; exact h4 i hi
    have hne : o ≠ i := by rintro rfl; rw [hi] at h3; simp at h3
    refine ⟨⟨o, (update_ne _ _ hk).trans h1, (update_ne _ _ hne).trans h2, (update_ne _ _ hne).trans h3⟩, ?_⟩
    intro j hj
    by_cases e : j = i
    · subst e; simp [State.publish, update_self] at hj
    · exact h4 j ((update_ne _ _ e).symm.trans hj)
  | giveUp i k' hi =>
    have hk : k ≠ k' := by rintro rfl; exact h4 i hi
    have hne : o ≠ i := by rintro rfl; rw [hi] at h3; simp at h3
    refine ⟨⟨o, (update_ne _ _ hk).trans h1, h2, (update_ne _ _ hne).trans h3⟩, ?_⟩
    intro j hj
    by_cases e : j = i
    · subst e; simp [State.giveUp, update_self] at hj
    · exact h4 j ((update_ne _ _ e).symm.trans hj)
  | drop i k' hi =>
    have hne : o ≠ i := by rintro rfl; rcases hi with hi | hi <;> rw [hi] at h3 <;> simp at h3
    refine ⟨⟨o, h1, (update_ne _ _ hne).trans h2, (update_ne _ _ hne).trans h3⟩, ?_⟩
    intro j hj
    by_cases e : j = i
    · subst e; simp [State.drop, update_self] at hj
    · exact h4 j ((update_ne _ _ e).symm.trans hj)
  | receive i k' o' m a hi got =>
    have hne : o ≠ i := by rintro rfl; rw [hi] at h3; simp at h3
    refine ⟨⟨o, h1, h2, (update_ne _ _ hne).trans h3⟩, ?_⟩
    intro j hj
    by_cases e : j = i
    · subst e; simp [update_self] at hj
    · exact h4 j ((update_ne _ _ e).symm.trans hj)

/-- C81, violated. If a call that runs a block fails after the transactions ran (the initial reads cannot be
collected), or panics, the block is not run again: until the entry is lost by the cache, every call for it
that starts later can only answer "Trace error", although running it could well succeed. -/
theorem C81_failed_run_violated (s : State V E) (r : Reach (Step produces) .init s) (i : Nat) (k : Key)
    (hi : s.calls i = some (k, .computing)) (t : State V E) (rt : Reach (Step produces) (s.drop i k) t) (j : Nat)
    (fresh : (s.drop i k).calls j = none) (c : Call V E) (hj : t.calls j = some (k, c)) :
    (∃ o, c = .waiting o false) ∨ c = .answered .lost := by
  obtain ⟨inv, once⟩ := once_inv s r
  have hcache := once i k hi
  have hchan := inv.computing k i (.inl hi)
  have stuck : Stuck k (s.drop i k) := by
    refine ⟨⟨i, hcache, ?_, by simp [State.drop, update_self]⟩, ?_⟩
    · simp [State.drop, update_self, hchan]
    · intro j hj
      by_cases e : j = i
      · subst e; simp [State.drop, update_self] at hj
      · have hj' := (update_ne _ _ e).symm.trans hj
        have := once j k hj'
        rw [hcache] at this
        simp at this
        exact e this.symm
  have main : Stuck k t ∧ ∀ k' c, t.calls j = some (k', c) → k' = k →
      ((∃ o, c = .waiting o false ∧ t.chans o = ⟨none, true⟩ ∧ ∃ a, t.calls o = some (k, .answered a)) ∨ c = .answered .lost) := by
    clear hj
    induction rt with
    | refl => exact ⟨stuck, fun k' c h => (by rw [fresh] at h; cases h)⟩
    | @tail u v _ st ih =>
      obtain ⟨sk, ih⟩ := ih
      refine ⟨sk.step st, ?_⟩
      intro k' c' hc hk
      subst hk
      obtain ⟨⟨o, h1, h2, h3⟩, h4⟩ := sk
      cases st with
      | enter i' kk fr =>
        by_cases e : j = i'
        · subst e
          unfold State.enter at hc ⊢
          split at hc
          · next hx =>
            simp [update_self] at hc
            obtain ⟨rfl, rfl⟩ := hc
            rw [h1] at hx; cases hx
          · next o' hx =>
            simp only [update_self, Option.some.injEq, Prod.mk.injEq] at hc
            obtain ⟨rfl, rfl⟩ := hc
            rw [h1] at hx
            cases hx
            have hne : o ≠ j := by rintro rfl; rw [fr] at h3; cases h3
            exact .inl ⟨o, by rw [h2]; rfl, h2, .failed, (update_ne _ _ hne).trans h3⟩
          · next hx =>
            simp [update_self] at hc
            obtain ⟨rfl, rfl⟩ := hc
            rw [h1] at hx; cases hx
        · have hc' : u.calls j = some (k', c') := by
            unfold State.enter at hc
            split at hc <;> exact (update_ne _ _ e).symm.trans hc
          rcases ih k' c' hc' rfl with ⟨o', e1, e2, a, e3⟩ | e1
          · have hne : o' ≠ i' := by rintro rfl; rw [fr] at e3; cases e3
            refine .inl ⟨o', e1, ?_, a, ?_⟩
            · unfold State.enter; split <;> first | exact e2 | exact (update_ne _ _ hne).trans e2
            · unfold State.enter; split <;> exact (update_ne _ _ hne).trans e3
          · exact .inr e1
      | publish i' kk x hi' p =>
        by_cases e : j = i'
        · subst e
          rcases ih kk .computing hi' (by simp [State.publish, update_self] at hc; exact hc.1) with ⟨_, e1, _⟩ | e1 <;> cases e1
        · rcases ih k' c' ((update_ne _ _ e).symm.trans hc) rfl with ⟨o', e1, e2, a, e3⟩ | e1
          · have hne : o' ≠ i' := by rintro rfl; rw [hi'] at e3; simp at e3
            exact .inl ⟨o', e1, (update_ne _ _ hne).trans e2, a, (update_ne _ _ hne).trans e3⟩
          · exact .inr e1
      | giveUp i' kk hi' =>
        by_cases e : j = i'
        · subst e
          rcases ih kk .computing hi' (by simp [State.giveUp, update_self] at hc; exact hc.1) with ⟨_, e1, _⟩ | e1 <;> cases e1
        · rcases ih k' c' ((update_ne _ _ e).symm.trans hc) rfl with ⟨o', e1, e2, a, e3⟩ | e1
          · have hne : o' ≠ i' := by rintro rfl; rw [hi'] at e3; simp at e3
            exact .inl ⟨o', e1, e2, a, (update_ne _ _ hne).trans e3⟩
          · exact .inr e1
      | drop i' kk hi' =>
        by_cases e : j = i'
        · subst e
          have hk : kk = k' := by simp [State.drop, update_self] at hc; exact hc.1
          rcases hi' with hi' | hi'
          · rcases ih kk .computing hi' hk with ⟨_, e1, _⟩ | e1 <;> cases e1
          · rcases ih kk .failing hi' hk with ⟨_, e1, _⟩ | e1 <;> cases e1
        · rcases ih k' c' ((update_ne _ _ e).symm.trans hc) rfl with ⟨o', e1, e2, a, e3⟩ | e1
          · have hne : o' ≠ i' := by rintro rfl; rcases hi' with hi' | hi' <;> rw [hi'] at e3 <;> simp at e3
            exact .inl ⟨o', e1, (update_ne _ _ hne).trans e2, a, (update_ne _ _ hne).trans e3⟩
          · exact .inr e1
      | receive i' kk o' m a' hi' got =>
        by_cases e : j = i'
        · subst e
          simp only [update_self, Option.some.injEq, Prod.mk.injEq] at hc
          obtain ⟨rfl, rfl⟩ := hc
          rcases ih kk _ hi' rfl with ⟨o'', e1, e2, _⟩ | e1
          · cases e1
            rw [e2] at got
            simp [Chan.receive] at got
            exact .inr (by rw [← got])
          · cases e1
        · rcases ih k' c' ((update_ne _ _ e).symm.trans hc) rfl with ⟨o'', e1, e2, a, e3⟩ | e1
          · have hne : o'' ≠ i' := by rintro rfl; rw [hi'] at e3; simp at e3
            exact .inl ⟨o'', e1, e2, a, (update_ne _ _ hne).trans e3⟩
          · exact .inr e1
  rcases main.2 k c hj rfl with ⟨o, h, _⟩ | h
  · exact .inl ⟨o, h⟩
  · exact .inr h

/-- The block of the case would run to 7, but the second call gets "Trace error". -/
example : ∃ s : State Nat String, Reach (Step caseProduces) .init s ∧ s.calls 1 = some (⟨0, true⟩, .answered .lost) ∧
    caseProduces ⟨0, true⟩ (.ok 7) := by
  have r0 : Reach (Step caseProduces) (State.init : State Nat String) .init := .refl _
  have r1 := r0.tail (.enter 0 ⟨0, true⟩ rfl)
  have r2 := r1.tail (.drop 0 ⟨0, true⟩ (.inl rfl))
  have r3 := r2.tail (.enter 1 ⟨0, true⟩ rfl)
  have r4 := r3.tail (.receive 1 ⟨0, true⟩ 0 false .lost rfl rfl)
  exact ⟨_, r4, rfl, rfl⟩

/-- The entry of `k` is a result, and no run is going on for `k`. -/
def Kept (k : Key) (x : Result V E) (s : State V E) : Prop :=
  s.cache k = some (.cached x) ∧ ∀ i, s.calls i ≠ some (k, .computing)

theorem Kept.step {s t : State V E} {k : Key} {x : Result V E} (h : Kept k x s) (st : Step produces s t) : Kept k x t := by
  obtain ⟨h1, h4⟩ := h
  cases st with
  | enter i k' fresh =>
    unfold State.enter
    split
    · refine ⟨h1, ?_⟩
      intro j hj
      by_cases e : j = i
      · subst e; simp [update_self] at hj
      · exact h4 j ((update_ne _ _ e).symm.trans hj)
    · refine ⟨h1, ?_⟩
      intro j hj
      by_cases e : j = i
      · subst e; simp [update_self] at hj
      · exact h4 j ((update_ne _ _ e).symm.trans hj)
    · next hc =>
      have hk : k ≠ k' := by rintro rfl; rw [h1] at hc; cases hc
      refine ⟨(update_ne _ _ hk).trans h1, ?_⟩
      intro j hj
      by_cases e : j = i
      · subst e; simp [update_self] at hj; exact hk hj.symm
      · exact h4 j ((update_ne _ _ e).symm.trans hj)
  | publish i k' y hi p =>
    have hk : k ≠ k' := by rintro rfl; exact h4 i hi
    refine ⟨(update_ne _ _ hk).trans h1, ?_⟩
    intro j hj
    by_cases e : j = i
    · subst e; simp [State.publish, update_self] at hj
    · exact h4 j ((update_ne _ _ e).symm.trans hj)
  | giveUp i k' hi =>
    have hk : k ≠ k' := by rintro rfl; exact h4 i hi
    refine ⟨(update_ne _ _ hk).trans h1, ?_⟩
    intro j hj
    by_cases e : j = i
    · subst e; simp [State.giveUp, update_self] at hj
    · exact h4 j ((update_ne _ _ e).symm.trans hj)
  | drop i k' hi =>
    refine ⟨h1, ?_⟩
    intro j hj
    by_cases e : j = i
    · subst e; simp [State.drop, update_self] at hj
    · exact h4 j ((update_ne _ _ e).symm.trans hj)
  | receive i k' o' m a hi got =>
    refine ⟨h1, ?_⟩
    intro j hj
    by_cases e : j = i
    · subst e; simp [update_self] at hj
    · exact h4 j ((update_ne _ _ e).symm.trans hj)

/-- C81. A result stays: once a run has ended with it, every call that starts later answers it at once, until
the cache loses the entry. This is so for errors too, among them those that come from reading the database
and need not happen again. -/
theorem C81_kept (s : State V E) (r : Reach (Step produces) .init s) (i : Nat) (k : Key) (x : Result V E)
    (hi : s.calls i = some (k, .computing)) (t : State V E)
    (rt : Reach (Step produces) (s.publish i k x) t) (j : Nat) :
    (t.enter j k).calls j = some (k, .answered (.result x)) := by
  have kept : Kept k x (s.publish i k x) := by
    refine ⟨by simp [State.publish, update_self], ?_⟩
    intro j hj
    by_cases e : j = i
    · subst e; simp [State.publish, update_self] at hj
    · exact e (C81_once s r j i k ((update_ne _ _ e).symm.trans hj) hi)
  have : Kept k x t := by
    induction rt with
    | refl => exact kept
    | tail _ st ih => exact ih.step st
  unfold State.enter
  rw [this.1]
  simp [update_self]

/-- C81, violated. A run that ended with an error for want of the database is not repeated, although it may
end with traces now. -/
theorem C81_error_kept_violated : ∃ (produces : Key → Result Nat String → Prop) (k : Key) (s : State Nat String),
    produces k (.ok 7) ∧ Reach (Step produces) .init s ∧
    ∀ t, Reach (Step produces) s t → ∀ j, (t.enter j k).calls j = some (k, .answered (.result (.error "database is locked"))) := by
  refine ⟨fun _ r => r = .ok 7 ∨ r = .error "database is locked", ⟨0, false⟩,
    (State.init.enter 0 ⟨0, false⟩).publish 0 ⟨0, false⟩ (.error "database is locked"), .inl rfl, ?_, ?_⟩
  · refine .tail ?_ (.publish 0 ⟨0, false⟩ _ rfl (.inr rfl))
    refine .tail ?_ (.enter 0 ⟨0, false⟩ rfl)
    exact .refl _
  · intro t rt j
    exact C81_kept (State.init.enter 0 ⟨0, false⟩) (.tail (.refl _) (.enter 0 ⟨0, false⟩ rfl)) 0 ⟨0, false⟩
      (.error "database is locked") rfl t rt j

/-! ### The state -/

/-- C81. A stored block is run on the state that the blocks before it left. -/
theorem C81_base {St : Type} (apply : St → Nat → St) (genesis : St) (diffs : List Nat) (number : Nat) :
    traceBase apply genesis diffs number = (diffs.take number).foldl apply genesis := by
  cases number <;> simp [traceBase, stateAt]

example : traceBase (fun s d => s ++ [d]) [] [5, 6, 7] 2 = [5, 6] := by decide

/-- C81. A block that is not stored yet and whose parent is the last stored one also is. -/
theorem C81_base_next {St : Type} (apply : St → Nat → St) (genesis : St) (diffs : List Nat) :
    traceBase apply genesis diffs diffs.length = diffs.foldl apply genesis := by
  rw [C81_base, List.take_length]

/-- C81, violated. A pre-confirmed block on top of a pre-latest one, which is not stored, is run on the state
before the pre-latest block: whatever that changed is not seen. -/
theorem C81_pre_latest_violated {St : Type} (apply : St → Nat → St) (genesis : St) (diffs : List Nat) (preLatest : Nat)
    (h : apply (diffs.foldl apply genesis) preLatest ≠ diffs.foldl apply genesis) :
    traceBase apply genesis diffs (diffs.length + 1) ≠ (diffs ++ [preLatest]).foldl apply genesis := by
  rw [C81_base, List.take_of_length_le (by omega), List.foldl_append]
  exact fun e => h e.symm

example : traceBase (fun s d => s ++ [d]) [] [5, 6, 7] 4 = [5, 6, 7] := by decide

end Verif.Trace
