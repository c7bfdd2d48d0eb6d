import Verif.Natv.Spec

/-! # Invariants of the cache of native classes (C110) -/

namespace Verif.Natv

theorem cacheGet_none {c : List (Nat × Item)} {h : Nat} {c' : List (Nat × Item)}
    (e : cacheGet c h = (none, c')) : c' = c ∧ ∀ x ∈ c, x.1 ≠ h := by
  simp only [cacheGet] at e
  split at e
  · rename_i hf
    simp only [Prod.mk.injEq, true_and] at e
    refine ⟨e.symm, fun x hx he => ?_⟩
    rw [List.find?_eq_none] at hf
    exact hf x hx (by simp [he])
  · simp at e

theorem cacheGet_some {c : List (Nat × Item)} {h : Nat} {i : Item} {c' : List (Nat × Item)}
    (e : cacheGet c h = (some i, c')) :
    (h, i) ∈ c ∧ c' = (h, i) :: c.filter fun x => x.1 != h := by
  simp only [cacheGet] at e
  split at e
  · simp at e
  · rename_i x hf
    simp only [Prod.mk.injEq, Option.some.injEq] at e
    have h1 := List.mem_of_find?_eq_some hf
    have h2 := List.find?_some hf
    simp only [beq_iff_eq] at h2
    obtain ⟨a, b⟩ := x
    simp only at h2 e
    subst h2
    obtain ⟨rfl, rfl⟩ := e
    exact ⟨h1, rfl⟩

/-- The three cases of a request. -/
theorem get_cases (s : Sys) (h d : Nat) :
    (∃ n, (h, Item.compiled n) ∈ s.cache ∧ get s h d = (some n, { s with
      cache := (h, .compiled n) :: s.cache.filter fun x => x.1 != h
      asked := (h, d, some n) :: s.asked })) ∨
    ((h, Item.pending) ∈ s.cache ∧ get s h d = (none, { s with
      cache := (h, .pending) :: s.cache.filter fun x => x.1 != h
      asked := (h, d, none) :: s.asked })) ∨
    ((∀ x ∈ s.cache, x.1 ≠ h) ∧ get s h d = (none, { s with
      cache := cacheSet s.cap s.cache h .pending
      queue := if s.thread = .ended then s.queue else s.queue ++ [(h, d)]
      asked := (h, d, none) :: s.asked })) := by
  rcases hg : cacheGet s.cache h with ⟨o, c⟩
  cases o with
  | none =>
    obtain ⟨e, hno⟩ := cacheGet_none hg
    subst e
    exact Or.inr (Or.inr ⟨hno, by simp only [get, hg]⟩)
  | some i =>
    obtain ⟨hm, e⟩ := cacheGet_some hg
    subst e
    cases i with
    | compiled n => exact Or.inl ⟨n, hm, by simp only [get, hg]⟩
    | pending => exact Or.inr (Or.inl ⟨hm, by simp only [get, hg]⟩)

/-- The cases of a step of the thread. -/
theorem step_thread {compile : Nat → Outcome} {s s' : Sys} {a : Act} (ha : ∀ h d, a ≠ .get h d)
    (e : step compile s a = some s') :
    (∃ h d q, a = .take ∧ s.thread = .idle ∧ s.queue = (h, d) :: q ∧
      s' = { s with thread := .working h d, queue := q }) ∨
    (∃ h d n, a = .done ∧ s.thread = .working h d ∧ compile d = .ok n ∧
      s' = { s with thread := .idle, cache := cacheSet s.cap s.cache h (.compiled n) }) ∨
    (∃ h d, a = .done ∧ s.thread = .working h d ∧ compile d = .error ∧
      s' = { s with thread := .idle }) ∨
    (∃ h d, a = .done ∧ s.thread = .working h d ∧ compile d = .panic ∧
      s' = { s with thread := .ended, queue := [] }) := by
  cases a with
  | get h d => exact absurd rfl (ha h d)
  | take =>
    simp only [step] at e
    split at e
    · rename_i h d q ht hq
      simp only [Option.some.injEq] at e
      exact Or.inl ⟨h, d, q, rfl, ht, hq, e.symm⟩
    · exact absurd e (by simp)
  | done =>
    simp only [step] at e
    split at e
    · rename_i h d ht
      split at e
      · rename_i n hc
        simp only [Option.some.injEq] at e
        exact Or.inr (Or.inl ⟨h, d, n, rfl, ht, hc, e.symm⟩)
      · rename_i hc
        simp only [Option.some.injEq] at e
        exact Or.inr (Or.inr (Or.inl ⟨h, d, rfl, ht, hc, e.symm⟩))
      · rename_i hc
        simp only [Option.some.injEq] at e
        exact Or.inr (Or.inr (Or.inr ⟨h, d, rfl, ht, hc, e.symm⟩))
    · exact absurd e (by simp)

theorem run_inv {compile : Nat → Outcome} {P : Sys → Prop} {Q : Act → Prop}
    (hs : ∀ s s' a, Q a → P s → step compile s a = some s' → P s') :
    ∀ (acts : List Act) (s s' : Sys), (∀ a ∈ acts, Q a) → P s → run compile s acts = some s' →
      P s' := by
  intro acts
  induction acts with
  | nil => intro s s' _ hp h; simp only [run, Option.some.injEq] at h; subst h; exact hp
  | cons a as ih =>
    intro s s' hq hp h
    simp only [run, Option.bind_eq_some_iff] at h
    obtain ⟨m, hm, h⟩ := h
    exact ih m s' (fun b hb => hq b (by simp [hb])) (hs s m a (hq a (by simp)) hp hm) h

theorem run_append {compile : Nat → Outcome} {s m s' : Sys} {as bs : List Act}
    (h1 : run compile s as = some m) (h2 : run compile m bs = some s') :
    run compile s (as ++ bs) = some s' := by
  induction as generalizing s with
  | nil => simp only [run, Option.some.injEq] at h1; subst h1; exact h2
  | cons a as ih =>
    simp only [run, Option.bind_eq_some_iff, List.cons_append] at h1 ⊢
    obtain ⟨x, hx, h1⟩ := h1
    exact ⟨x, hx, ih h1⟩

theorem mem_cacheSet {cap : Nat} {c : List (Nat × Item)} {h : Nat} {i : Item} {x : Nat × Item}
    (hx : x ∈ cacheSet cap c h i) : x = (h, i) ∨ (x ∈ c ∧ x.1 ≠ h) := by
  have := List.mem_of_mem_take hx
  rcases List.mem_cons.1 this with e | e
  · exact Or.inl e
  · obtain ⟨a, b⟩ := List.mem_filter.1 e
    exact Or.inr ⟨a, by simpa using b⟩

theorem mem_front {c : List (Nat × Item)} {h : Nat} {i : Item} {x : Nat × Item}
    (hm : (h, i) ∈ c) (hx : x ∈ (h, i) :: c.filter fun x => x.1 != h) : x ∈ c := by
  rcases List.mem_cons.1 hx with rfl | hx
  · exact hm
  · exact (List.mem_filter.1 hx).1

/-! ## Where native code comes from -/

/-- Native code in the cache, work and answers stem from requests. -/
structure Prov (compile : Nat → Outcome) (s : Sys) : Prop where
  cache : ∀ h n, (h, Item.compiled n) ∈ s.cache → ∃ d, Asked s h d ∧ compile d = .ok n
  queue : ∀ h d, (h, d) ∈ s.queue → Asked s h d
  thread : ∀ h d, s.thread = .working h d → Asked s h d
  asked : ∀ h d n, (h, d, some n) ∈ s.asked → ∃ d', Asked s h d' ∧ compile d' = .ok n

theorem prov_step {compile : Nat → Outcome} (s s' : Sys) (a : Act) (P : Prov compile s)
    (e : step compile s a = some s') : Prov compile s' := by
  cases a with
  | get h d =>
    simp only [step, Option.some.injEq] at e
    rcases get_cases s h d with ⟨n, hm, hg⟩ | ⟨hm, hg⟩ | ⟨hno, hg⟩
    · rw [hg] at e
      subst e
      have mono : ∀ x y, Asked s x y → Asked { s with
          cache := (h, .compiled n) :: s.cache.filter fun x => x.1 != h
          asked := (h, d, some n) :: s.asked } x y := by
        rintro x y ⟨o, ho⟩; exact ⟨o, List.mem_cons_of_mem _ ho⟩
      refine ⟨?_, ?_, ?_, ?_⟩
      · intro x m hx
        obtain ⟨d', h1, h2⟩ := P.cache x m (mem_front hm hx)
        exact ⟨d', mono _ _ h1, h2⟩
      · intro x y hx; exact mono _ _ (P.queue x y hx)
      · intro x y hx; exact mono _ _ (P.thread x y hx)
      · intro x y m hx
        rcases List.mem_cons.1 hx with hx | hx
        · simp only [Prod.mk.injEq, Option.some.injEq] at hx
          obtain ⟨rfl, rfl, rfl⟩ := hx
          obtain ⟨d', h1, h2⟩ := P.cache x m hm
          exact ⟨d', mono _ _ h1, h2⟩
        · obtain ⟨d', h1, h2⟩ := P.asked x y m hx
          exact ⟨d', mono _ _ h1, h2⟩
    · rw [hg] at e
      subst e
      have mono : ∀ x y, Asked s x y → Asked { s with
          cache := (h, .pending) :: s.cache.filter fun x => x.1 != h
          asked := (h, d, none) :: s.asked } x y := by
        rintro x y ⟨o, ho⟩; exact ⟨o, List.mem_cons_of_mem _ ho⟩
      refine ⟨?_, ?_, ?_, ?_⟩
      · intro x m hx
        obtain ⟨d', h1, h2⟩ := P.cache x m (mem_front hm hx)
        exact ⟨d', mono _ _ h1, h2⟩
      · intro x y hx; exact mono _ _ (P.queue x y hx)
      · intro x y hx; exact mono _ _ (P.thread x y hx)
      · intro x y m hx
        rcases List.mem_cons.1 hx with hx | hx
        · simp at hx
        · obtain ⟨d', h1, h2⟩ := P.asked x y m hx
          exact ⟨d', mono _ _ h1, h2⟩
    · rw [hg] at e
      subst e
      have mono : ∀ x y, Asked s x y → Asked { s with
          cache := cacheSet s.cap s.cache h .pending
          queue := if s.thread = .ended then s.queue else s.queue ++ [(h, d)]
          asked := (h, d, none) :: s.asked } x y := by
        rintro x y ⟨o, ho⟩; exact ⟨o, List.mem_cons_of_mem _ ho⟩
      refine ⟨?_, ?_, ?_, ?_⟩
      · intro x m hx
        rcases mem_cacheSet hx with hx | ⟨hx, _⟩
        · simp at hx
        · obtain ⟨d', h1, h2⟩ := P.cache x m hx
          exact ⟨d', mono _ _ h1, h2⟩
      · intro x y hx
        simp only at hx
        split at hx
        · exact mono _ _ (P.queue x y hx)
        · rcases List.mem_append.1 hx with hx | hx
          · exact mono _ _ (P.queue x y hx)
          · simp only [List.mem_singleton, Prod.mk.injEq] at hx
            obtain ⟨rfl, rfl⟩ := hx
            exact ⟨none, by simp⟩
      · intro x y hx; exact mono _ _ (P.thread x y hx)
      · intro x y m hx
        rcases List.mem_cons.1 hx with hx | hx
        · simp at hx
        · obtain ⟨d', h1, h2⟩ := P.asked x y m hx
          exact ⟨d', mono _ _ h1, h2⟩
  | _ =>
    rcases step_thread (by simp) e with ⟨h, d, q, _, ht, hq, rfl⟩ | ⟨h, d, n, _, ht, hc, rfl⟩ |
      ⟨h, d, _, ht, hc, rfl⟩ | ⟨h, d, _, ht, hc, rfl⟩
    · refine ⟨P.cache, ?_, ?_, P.asked⟩
      · intro x y hx; exact P.queue x y (by rw [hq]; exact List.mem_cons_of_mem _ hx)
      · intro x y hx
        simp only [Thread.working.injEq] at hx
        obtain ⟨rfl, rfl⟩ := hx
        exact P.queue _ _ (by rw [hq]; simp)
    · refine ⟨?_, P.queue, fun x y hx => absurd hx (by simp), P.asked⟩
      intro x m hx
      rcases mem_cacheSet hx with hx | ⟨hx, _⟩
      · simp only [Prod.mk.injEq, Item.compiled.injEq] at hx
        obtain ⟨rfl, rfl⟩ := hx
        exact ⟨d, P.thread _ _ ht, hc⟩
      · exact P.cache x m hx
    · exact ⟨P.cache, P.queue, fun x y hx => absurd hx (by simp), P.asked⟩
    · exact ⟨P.cache, fun x y hx => absurd hx (by simp), fun x y hx => absurd hx (by simp), P.asked⟩

/-! ## The size of the cache -/

/-- Keys are distinct and there are at most `cap` of them. -/
def Sized (s : Sys) : Prop := (s.cache.map Prod.fst).Nodup ∧ s.cache.length ≤ s.cap

theorem nodup_front {c : List (Nat × Item)} {h : Nat} (i : Item) (hn : (c.map Prod.fst).Nodup) :
    ((((h, i) :: c.filter fun x => x.1 != h)).map Prod.fst).Nodup := by
  rw [List.map_cons, List.nodup_cons]
  constructor
  · intro hx
    obtain ⟨x, hx, he⟩ := List.mem_map.1 hx
    have := (List.mem_filter.1 hx).2
    simp only [bne_iff_ne] at this
    exact this he
  · exact (List.Sublist.map _ List.filter_sublist).nodup hn

theorem filter_shorter {c : List (Nat × Item)} {h : Nat} {i : Item} (hm : (h, i) ∈ c) :
    (c.filter fun x => x.1 != h).length + 1 ≤ c.length := by
  induction c with
  | nil => simp at hm
  | cons y ys ih =>
    rcases List.mem_cons.1 hm with rfl | hm
    · have := List.length_filter_le (fun x : Nat × Item => x.1 != h) ys
      simp only [List.filter_cons, bne_self_eq_false, Bool.false_eq_true, if_false, List.length_cons]
      omega
    · have := ih hm
      simp only [List.filter_cons, List.length_cons]
      split
      · simp only [List.length_cons]; omega
      · omega

theorem nodup_set {cap : Nat} {c : List (Nat × Item)} {h : Nat} (i : Item)
    (hn : (c.map Prod.fst).Nodup) : ((cacheSet cap c h i).map Prod.fst).Nodup :=
  (List.Sublist.map _ (List.take_sublist _ _)).nodup (nodup_front i hn)

theorem sized_step {compile : Nat → Outcome} (s s' : Sys) (a : Act) (P : Sized s)
    (e : step compile s a = some s') : Sized s' := by
  cases a with
  | get h d =>
    simp only [step, Option.some.injEq] at e
    rcases get_cases s h d with ⟨n, hm, hg⟩ | ⟨hm, hg⟩ | ⟨hno, hg⟩ <;> rw [hg] at e <;> subst e
    · refine ⟨nodup_front _ P.1, ?_⟩
      have := filter_shorter hm
      have := P.2
      simp only [List.length_cons]
      omega
    · refine ⟨nodup_front _ P.1, ?_⟩
      have := filter_shorter hm
      have := P.2
      simp only [List.length_cons]
      omega
    · exact ⟨nodup_set _ P.1, List.length_take_le _ _⟩
  | _ =>
    rcases step_thread (by simp) e with ⟨h, d, q, _, ht, hq, rfl⟩ | ⟨h, d, n, _, ht, hc, rfl⟩ |
      ⟨h, d, _, ht, hc, rfl⟩ | ⟨h, d, _, ht, hc, rfl⟩
    · exact P
    · exact ⟨nodup_set _ P.1, List.length_take_le _ _⟩
    · exact P
    · exact P

/-! ## Few classes -/

/-- If only the classes `S` are asked for and they fit into the cache, a class that was asked for
stays in the cache, and no class is waiting or being compiled twice.  `b` are the classes whose
compilation has begun. -/
structure Few (S : List Nat) (b : List Nat) (s : Sys) : Prop where
  fit : S.length ≤ s.cap
  sized : (s.cache.map Prod.fst).Nodup
  keys : ∀ x ∈ s.cache, x.1 ∈ S
  once : (b ++ s.queue.map Prod.fst).Nodup
  there : ∀ h ∈ b ++ s.queue.map Prod.fst, ∃ i, (h, i) ∈ s.cache
  asked : ∀ h d, Asked s h d → ∃ i, (h, i) ∈ s.cache
  work : ∀ h d, s.thread = .working h d → h ∈ b

theorem set_all {S : List Nat} {cap : Nat} {c : List (Nat × Item)} {h : Nat} (i : Item)
    (hS : S.length ≤ cap) (hn : (c.map Prod.fst).Nodup) (hk : ∀ x ∈ c, x.1 ∈ S) (hh : h ∈ S) :
    cacheSet cap c h i = (h, i) :: c.filter fun x => x.1 != h := by
  simp only [cacheSet]
  apply List.take_of_length_le
  have hnd := nodup_front (h := h) i hn
  have hsub : ∀ x ∈ ((((h, i) :: c.filter fun x => x.1 != h)).map Prod.fst), x ∈ S := by
    intro x hx
    obtain ⟨y, hy, rfl⟩ := List.mem_map.1 hx
    rcases List.mem_cons.1 hy with rfl | hy
    · exact hh
    · exact hk y (List.mem_filter.1 hy).1
  have := List.Nodup.length_le_of_subset hnd hsub
  rw [List.length_map] at this
  omega

theorem key_front {c : List (Nat × Item)} {h : Nat} (i : Item) {k : Nat}
    (hk : ∃ j, (k, j) ∈ c) : ∃ j, (k, j) ∈ (h, i) :: c.filter fun x => x.1 != h := by
  obtain ⟨j, hj⟩ := hk
  by_cases e : k = h
  · exact ⟨i, by rw [e]; simp⟩
  · exact ⟨j, List.mem_cons_of_mem _ (List.mem_filter.2 ⟨hj, by simpa using e⟩)⟩

theorem few_get {S b : List Nat} {s : Sys} (F : Few S b s) {h d : Nat} (hh : h ∈ S) :
    Few S b (get s h d).2 := by
  rcases get_cases s h d with ⟨n, hm, hg⟩ | ⟨hm, hg⟩ | ⟨hno, hg⟩ <;> rw [hg]
  · refine ⟨F.fit, nodup_front _ F.sized, fun x hx => F.keys x (mem_front hm hx), F.once,
      fun k hk => key_front _ (F.there k hk), ?_, F.work⟩
    rintro k y ⟨o, ho⟩
    rcases List.mem_cons.1 ho with ho | ho
    · simp only [Prod.mk.injEq] at ho
      exact ⟨.compiled n, by rw [ho.1]; simp⟩
    · exact key_front _ (F.asked k y ⟨o, ho⟩)
  · refine ⟨F.fit, nodup_front _ F.sized, fun x hx => F.keys x (mem_front hm hx), F.once,
      fun k hk => key_front _ (F.there k hk), ?_, F.work⟩
    rintro k y ⟨o, ho⟩
    rcases List.mem_cons.1 ho with ho | ho
    · simp only [Prod.mk.injEq] at ho
      exact ⟨.pending, by rw [ho.1]; simp⟩
    · exact key_front _ (F.asked k y ⟨o, ho⟩)
  · have hset := set_all Item.pending F.fit F.sized F.keys hh
    have hfresh : h ∉ b ++ s.queue.map Prod.fst := by
      intro hx
      obtain ⟨i, hi⟩ := F.there h hx
      exact hno _ hi rfl
    refine ⟨F.fit, nodup_set _ F.sized, ?_, ?_, ?_, ?_, F.work⟩
    · intro x hx
      rcases mem_cacheSet hx with rfl | ⟨hx, _⟩
      · exact hh
      · exact F.keys x hx
    · simp only
      split
      · exact F.once
      · rw [List.map_append, ← List.append_assoc, List.nodup_append]
        refine ⟨F.once, by simp, ?_⟩
        intro x hx y hy
        simp at hy
        subst hy
        exact fun e => hfresh (e ▸ hx)
    · intro k hk
      simp only at hk ⊢
      rw [hset]
      split at hk
      · exact key_front _ (F.there k hk)
      · rw [List.map_append, ← List.append_assoc] at hk
        rcases List.mem_append.1 hk with hk | hk
        · exact key_front _ (F.there k hk)
        · simp at hk
          exact ⟨.pending, by rw [hk]; simp⟩
    · rintro k y ⟨o, ho⟩
      simp only
      rw [hset]
      rcases List.mem_cons.1 ho with ho | ho
      · simp only [Prod.mk.injEq] at ho
        exact ⟨.pending, by rw [ho.1]; simp⟩
      · exact key_front _ (F.asked k y ⟨o, ho⟩)

theorem few_take {S b : List Nat} {s : Sys} {h d : Nat} {q : List (Nat × Nat)} (F : Few S b s)
    (hq : s.queue = (h, d) :: q) :
    Few S (b ++ [h]) { s with thread := .working h d, queue := q } := by
  have e : b ++ [h] ++ q.map Prod.fst = b ++ s.queue.map Prod.fst := by rw [hq]; simp
  refine ⟨F.fit, F.sized, F.keys, ?_, ?_, F.asked, ?_⟩
  · simp only; rw [e]; exact F.once
  · intro k hk; simp only at hk; rw [e] at hk; exact F.there k hk
  · intro x y hx
    simp only [Thread.working.injEq] at hx
    rw [← hx.1]
    simp

theorem few_done {compile : Nat → Outcome} {S b : List Nat} {s s' : Sys} (F : Few S b s)
    (e : step compile s .done = some s') : Few S b s' := by
  rcases step_thread (by simp) e with ⟨h, d, q, ha, _⟩ | ⟨h, d, n, _, ht, hc, rfl⟩ |
    ⟨h, d, _, ht, hc, rfl⟩ | ⟨h, d, _, ht, hc, rfl⟩
  · exact absurd ha (by simp)
  · obtain ⟨i, hi⟩ := F.there h (List.mem_append.2 (Or.inl (F.work h d ht)))
    have hh : h ∈ S := F.keys _ hi
    have hset := set_all (Item.compiled n) F.fit F.sized F.keys hh
    refine ⟨F.fit, nodup_set _ F.sized, ?_, F.once, ?_, ?_, fun x y hx => absurd hx (by simp)⟩
    · intro x hx
      rcases mem_cacheSet hx with rfl | ⟨hx, _⟩
      · exact hh
      · exact F.keys x hx
    · intro k hk; simp only; rw [hset]; exact key_front _ (F.there k hk)
    · intro k y hk; simp only; rw [hset]; exact key_front _ (F.asked k y hk)
  · exact ⟨F.fit, F.sized, F.keys, F.once, F.there, F.asked, fun x y hx => absurd hx (by simp)⟩
  · refine ⟨F.fit, F.sized, F.keys, ?_, ?_, F.asked, fun x y hx => absurd hx (by simp)⟩
    · have := F.once
      simp only [List.map_nil, List.append_nil]
      exact (List.sublist_append_left _ _).nodup this
    · intro k hk
      simp only [List.map_nil, List.append_nil] at hk
      exact F.there k (List.mem_append.2 (Or.inl hk))

theorem few_run {compile : Nat → Outcome} {S : List Nat} : ∀ (acts : List Act) (s s' : Sys)
    (b : List Nat), (∀ h d, Act.get h d ∈ acts → h ∈ S) → Few S b s →
    run compile s acts = some s' → Few S (b ++ begun compile s acts) s' := by
  intro acts
  induction acts with
  | nil =>
    intro s s' b _ F h
    simp only [run, Option.some.injEq] at h
    subst h
    simpa [begun] using F
  | cons a as ih =>
    intro s s' b hS F h
    simp only [run, Option.bind_eq_some_iff] at h
    obtain ⟨m, hm, h⟩ := h
    have hS' : ∀ h d, Act.get h d ∈ as → h ∈ S := fun h d hx => hS h d (List.mem_cons_of_mem _ hx)
    cases a with
    | get x d =>
      simp only [begun, hm, List.nil_append]
      refine ih m s' b hS' ?_ h
      simp only [step, Option.some.injEq] at hm
      rw [← hm]
      exact few_get F (hS x d (by simp))
    | take =>
      rcases step_thread (by simp) hm with ⟨x, d, q, _, ht, hq, rfl⟩ | ⟨_, _, _, ha, _⟩ |
        ⟨_, _, ha, _⟩ | ⟨_, _, ha, _⟩
      · simp only [begun, hm]
        rw [← List.append_assoc]
        exact ih _ s' _ hS' (few_take F hq) h
      · exact absurd ha (by simp)
      · exact absurd ha (by simp)
      · exact absurd ha (by simp)
    | done =>
      have : begun compile s (.done :: as) = begun compile m as := by
        simp only [begun, hm]
        rfl
      rw [this]
      exact ih m s' b hS' (few_done F hm) h

/-! ## Nothing is forgotten -/

/-- A pending class is waiting for the thread or being compiled, and the thread is there. -/
def Waits (s : Sys) : Prop :=
  s.thread ≠ .ended ∧ ∀ h, (h, Item.pending) ∈ s.cache →
    h ∈ s.queue.map Prod.fst ∨ ∃ d, s.thread = .working h d

/-- Whatever is asked for compiles. -/
def Fine (compile : Nat → Outcome) (s : Sys) : Prop :=
  (∀ h d, (h, d) ∈ s.queue → ∃ n, compile d = .ok n) ∧
  (∀ h d, s.thread = .working h d → ∃ n, compile d = .ok n)

theorem waits_step {compile : Nat → Outcome} (s s' : Sys) (a : Act)
    (hq : ∀ h d, a = .get h d → ∃ n, compile d = .ok n) (P : Waits s ∧ Fine compile s)
    (e : step compile s a = some s') : Waits s' ∧ Fine compile s' := by
  obtain ⟨⟨p1, p2⟩, p3, p4⟩ := P
  cases a with
  | get h d =>
    simp only [step, Option.some.injEq] at e
    rcases get_cases s h d with ⟨n, hm, hg⟩ | ⟨hm, hg⟩ | ⟨hno, hg⟩ <;> rw [hg] at e <;> subst e
    · exact ⟨⟨p1, fun k hk => p2 k (mem_front hm hk)⟩, p3, p4⟩
    · exact ⟨⟨p1, fun k hk => p2 k (mem_front hm hk)⟩, p3, p4⟩
    · refine ⟨⟨p1, ?_⟩, ?_, p4⟩
      · intro k hk
        simp only [if_neg p1, List.map_append]
        rcases mem_cacheSet hk with hk | ⟨hk, _⟩
        · simp only [Prod.mk.injEq, and_true] at hk
          left; rw [hk]; simp
        · rcases p2 k hk with h1 | h1
          · exact Or.inl (List.mem_append.2 (Or.inl h1))
          · exact Or.inr h1
      · intro x y hx
        simp only [if_neg p1] at hx
        rcases List.mem_append.1 hx with hx | hx
        · exact p3 x y hx
        · simp only [List.mem_singleton, Prod.mk.injEq] at hx
          rw [hx.2]
          exact hq h d rfl
  | _ =>
    rcases step_thread (by simp) e with ⟨h, d, q, _, ht, hq', rfl⟩ | ⟨h, d, n, _, ht, hc, rfl⟩ |
      ⟨h, d, _, ht, hc, rfl⟩ | ⟨h, d, _, ht, hc, rfl⟩
    · refine ⟨⟨by simp, ?_⟩, ?_, ?_⟩
      · intro k hk
        rcases p2 k hk with h1 | ⟨d', h1⟩
        · rw [hq', List.map_cons] at h1
          rcases List.mem_cons.1 h1 with h1 | h1
          · exact Or.inr ⟨d, by rw [h1]⟩
          · exact Or.inl h1
        · rw [ht] at h1; exact absurd h1 (by simp)
      · intro x y hx; exact p3 x y (by rw [hq']; exact List.mem_cons_of_mem _ hx)
      · intro x y hx
        simp only [Thread.working.injEq] at hx
        rw [← hx.2]
        exact p3 h d (by rw [hq']; simp)
    · refine ⟨⟨by simp, ?_⟩, p3, fun x y hx => absurd hx (by simp)⟩
      intro k hk
      rcases mem_cacheSet hk with hk | ⟨hk, hne⟩
      · simp at hk
      · rcases p2 k hk with h1 | ⟨d', h1⟩
        · exact Or.inl h1
        · rw [ht] at h1
          simp only [Thread.working.injEq] at h1
          exact absurd h1.1.symm hne
    · obtain ⟨n, hn⟩ := p4 h d ht
      rw [hc] at hn; exact absurd hn (by simp)
    · obtain ⟨n, hn⟩ := p4 h d ht
      rw [hc] at hn; exact absurd hn (by simp)

/-! ## Requests in a circle -/

theorem mem_recent {cap k j : Nat} (h : j ∈ (List.range k).reverse.take cap) :
    j < k ∧ k ≤ j + cap := by
  rw [List.mem_iff_getElem] at h
  obtain ⟨i, hi, e⟩ := h
  simp only [List.length_take, List.length_reverse, List.length_range] at hi
  simp only [List.getElem_take, List.getElem_reverse, List.getElem_range, List.length_range] at e
  omega

theorem take_cons_take {α : Type} (n : Nat) (a : α) (l : List α) :
    (a :: l.take n).take n = (a :: l).take n := by
  cases n with
  | zero => rfl
  | succ n =>
    simp only [List.take_succ_cons, List.cons.injEq, true_and]
    rw [List.take_take]
    congr 1
    omega

/-- The state after `k` requests of the classes `0, …, cap, 0, …` while the thread compiles another
class. -/
def circle (cap k : Nat) : Sys :=
  ⟨cap, ((List.range k).reverse.take cap).map fun j => (j % (cap + 1), Item.pending),
   (List.range k).map fun j => (j % (cap + 1), j % (cap + 1)), .working 0 0,
   (List.range k).reverse.map fun j => (j % (cap + 1), j % (cap + 1), none)⟩

theorem circle_step (cap k : Nat) :
    (get (circle cap k) (k % (cap + 1)) (k % (cap + 1))).2 = circle cap (k + 1) := by
  have hno : ∀ x ∈ (circle cap k).cache, x.1 ≠ k % (cap + 1) := by
    intro x hx he
    simp only [circle] at hx
    obtain ⟨j, hj, rfl⟩ := List.mem_map.1 hx
    obtain ⟨h1, h2⟩ := mem_recent hj
    simp only at he
    have h3 := Nat.sub_mod_eq_zero_of_mod_eq he.symm
    rw [Nat.mod_eq_of_lt (by omega)] at h3
    omega
  rcases get_cases (circle cap k) (k % (cap + 1)) (k % (cap + 1)) with ⟨n, hm, _⟩ | ⟨hm, _⟩ |
    ⟨_, hg⟩
  · exact absurd rfl (hno _ hm)
  · exact absurd rfl (hno _ hm)
  · rw [hg]
    have hf : ((circle cap k).cache.filter fun x => x.1 != k % (cap + 1)) = (circle cap k).cache := by
      rw [List.filter_eq_self]
      intro x hx
      simpa using hno x hx
    have hc : cacheSet (circle cap k).cap (circle cap k).cache (k % (cap + 1)) .pending =
        (circle cap (k + 1)).cache := by
      simp only [cacheSet, hf]
      simp only [circle, List.range_succ, List.reverse_append, List.reverse_cons, List.reverse_nil,
        List.nil_append, List.cons_append, List.map_take]
      rw [take_cons_take, List.map_cons]
    simp only [hc]
    simp only [circle, List.range_succ, List.map_append, List.map_cons, List.map_nil,
      List.reverse_append, List.reverse_cons, List.reverse_nil, List.nil_append, List.cons_append]
    simp

theorem circle_run (compile : Nat → Outcome) (cap : Nat) : ∀ k, run compile (circle cap 0)
    ((List.range k).map fun j => Act.get (j % (cap + 1)) (j % (cap + 1))) = some (circle cap k) := by
  intro k
  induction k with
  | zero => rfl
  | succ k ih =>
    rw [List.range_succ, List.map_append]
    refine run_append ih ?_
    simp only [List.map_cons, List.map_nil, run, step, circle_step, Option.bind_some]

end Verif.Natv
