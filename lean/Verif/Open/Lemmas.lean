import Verif.Open.Spec

/-
Lemmas about opening the database.
-/

namespace Verif.Open

open Verif.Open.Spec

variable {D : Type}

theorem last_nil (d : Disk D) : last d [] = d := rfl

theorem last_cons (d x : Disk D) (t : List (Disk D)) : last d (x :: t) = last x t := by
  unfold last
  rw [List.getLast?_cons]
  rfl

theorem last_append (d : Disk D) (t u : List (Disk D)) : last d (t ++ u) = last (last d t) u := by
  induction t generalizing d with
  | nil => rfl
  | cons x t ih => rw [List.cons_append, last_cons, last_cons, ih]

theorem take_append' (t u : List (Disk D)) (n : Nat) :
    (t ++ u).take n = t.take n ++ u.take (n - t.length) := List.take_append

/-- A property that holds of each state passed through holds of the last. -/
theorem last_of_all {P : Disk D → Prop} {d : Disk D} {t : List (Disk D)} (hd : P d)
    (h : ∀ x ∈ t, P x) : P (last d t) := by
  unfold last
  rcases e : t.getLast? with _ | x
  · exact hd
  · exact h x (List.mem_of_getLast? e)

/-! ### Migrations -/

theorem missing (S : Schema D) {r : Nat} (h : 40 ≤ r) (h' : r ≤ S.latest) :
    (S.ms.reverse.take (S.latest - r)).reverse = S.ms.drop (r - 40) := by
  unfold Schema.latest baseRevision at *
  rw [List.take_reverse, List.reverse_reverse]
  congr 1
  omega

/-- What stays while migrating. -/
structure Keeps (d x : Disk D) : Prop where
  history : x.history = d.history
  tries : x.tries = d.tries
  blocks : x.blocks = d.blocks
  l1 : x.l1 = d.l1

theorem Keeps.refl (d : Disk D) : Keeps d d := ⟨rfl, rfl, rfl, rfl⟩

theorem Keeps.trans {a b c : Disk D} (h : Keeps a b) (h' : Keeps b c) : Keeps a c :=
  ⟨h'.history.trans h.history, h'.tries.trans h.tries, h'.blocks.trans h.blocks,
    h'.l1.trans h.l1⟩

/-- Each state passed through is of a supported revision and has the same
content to come. -/
structure OnWay (S : Schema D) (d x : Disk D) : Prop where
  keeps : Keeps d x
  supported : Supported S x.rev
  same : upgraded S x.rev x.data = upgraded S d.rev d.data

theorem upgraded_of_pos (S : Schema D) {r : Nat} (x : D) (h : 40 ≤ r) :
    upgraded S r x = applied (S.ms.drop (r - 40)) x := by
  unfold upgraded
  rw [if_neg (by omega)]

theorem applyAll_onWay (S : Schema D) (n : Nat) (d : Disk D) (h : 40 ≤ d.rev)
    (h' : d.rev + n = S.latest) :
    (∀ x ∈ (applyAll (S.ms.drop (d.rev - 40)) d).1, OnWay S d x) ∧
      ((applyAll (S.ms.drop (d.rev - 40)) d).2 = (upgraded S d.rev d.data).isSome) ∧
      ((applyAll (S.ms.drop (d.rev - 40)) d).2 = true →
        (last d (applyAll (S.ms.drop (d.rev - 40)) d).1).rev = S.latest) := by
  induction n generalizing d with
  | zero =>
    have e : S.ms.drop (d.rev - 40) = [] := by
      apply List.drop_eq_nil_of_le
      unfold Schema.latest baseRevision at h'
      omega
    rw [e, upgraded_of_pos S _ h, e]
    refine ⟨by simp [applyAll], rfl, fun _ => ?_⟩
    show d.rev = _
    omega
  | succ n ih =>
    have hlt : d.rev - 40 < S.ms.length := by
      unfold Schema.latest baseRevision at h'
      omega
    have e : S.ms.drop (d.rev - 40) = S.ms[d.rev - 40] :: S.ms.drop (d.rev - 40 + 1) :=
      List.drop_eq_getElem_cons hlt
    rw [upgraded_of_pos S _ h, e]
    simp only [applyAll, applied]
    rcases hm : S.ms[d.rev - 40] d.data with _ | x
    · simp
    · have hr : ({ d with rev := d.rev + 1, data := x } : Disk D).rev - 40 = d.rev - 40 + 1 := by
        show d.rev + 1 - 40 = _
        omega
      have := ih { d with rev := d.rev + 1, data := x } (by show 40 ≤ d.rev + 1; omega)
        (by show d.rev + 1 + n = _; omega)
      rw [hr] at this
      obtain ⟨i1, i2, i3⟩ := this
      have hu : upgraded S (d.rev + 1) x = upgraded S d.rev d.data := by
        rw [upgraded_of_pos S _ h, e, upgraded_of_pos S x (by omega)]
        simp only [applied, hm, Option.bind_some]
        congr 2
      refine ⟨?_, ?_, ?_⟩
      · intro y hy
        simp only [List.mem_cons] at hy
        rcases hy with rfl | hy
        · refine ⟨⟨rfl, rfl, rfl, rfl⟩, Or.inr ⟨?_, ?_⟩, hu⟩
          · show 40 ≤ d.rev + 1
            omega
          · show d.rev + 1 ≤ _
            unfold Schema.latest baseRevision at h'
            omega
        · have w := i1 y hy
          exact ⟨⟨w.keeps.history, w.keeps.tries, w.keeps.blocks, w.keeps.l1⟩, w.supported,
            w.same.trans hu⟩
      · rw [i2, hu, upgraded_of_pos S _ h, e]
        simp only [applied, hm, Option.bind_some]
      · intro ho
        rw [last_cons]
        exact i3 ho

theorem migrateFrom_spec (S : Schema D) (d : Disk D) (h : 40 ≤ d.rev) (h' : d.rev ≤ S.latest) :
    (∀ x ∈ (migrateFrom S d).1, OnWay S d x) ∧
      ((migrateFrom S d).2 = (upgraded S d.rev d.data).isSome) ∧
      ((migrateFrom S d).2 = true → (last d (migrateFrom S d).1).rev = S.latest) := by
  have := applyAll_onWay S (S.latest - d.rev) d h (by omega)
  unfold migrateFrom
  by_cases e : d.rev = S.latest
  · rw [if_pos e]
    refine ⟨by simp, ?_, fun _ => e⟩
    rw [upgraded_of_pos S _ h, List.drop_eq_nil_of_le]
    · rfl
    · unfold Schema.latest baseRevision at e
      omega
  · rw [if_neg e, if_neg (by unfold baseRevision; omega), if_neg (by omega), missing S h h']
    exact this

theorem supported_latest (S : Schema D) : Supported S S.latest :=
  Or.inr ⟨by unfold Schema.latest baseRevision; omega, Nat.le_refl _⟩

theorem migrateDb_spec (S : Schema D) (d : Disk D) (h : Supported S d.rev) :
    (∀ x ∈ (migrateDb S d).1, OnWay S d x) ∧
      ((migrateDb S d).2 = (upgraded S d.rev d.data).isSome) ∧
      ((migrateDb S d).2 = true → (last d (migrateDb S d).1).rev = S.latest) := by
  unfold migrateDb
  by_cases e : d.rev = 0
  · rw [if_pos e]
    have hu : upgraded S d.rev d.data = (S.base d.data).bind (applied S.ms) := by
      unfold upgraded
      rw [if_pos e]
    rw [hu]
    rcases hb : S.base d.data with _ | x
    · simp
    · simp only [Option.bind_some]
      have hx : upgraded S 40 x = applied S.ms x := by
        rw [upgraded_of_pos S x (Nat.le_refl _)]
        rfl
      obtain ⟨i1, i2, i3⟩ := migrateFrom_spec S { d with rev := baseRevision, data := x }
        (Nat.le_refl 40) (by unfold Schema.latest; exact Nat.le_add_right _ _)
      refine ⟨?_, ?_, ?_⟩
      · intro y hy
        simp only [List.mem_cons] at hy
        rcases hy with rfl | hy
        · refine ⟨⟨rfl, rfl, rfl, rfl⟩, Or.inr ⟨Nat.le_refl _, Nat.le_add_right _ _⟩, ?_⟩
          rw [hu, hb]
          exact hx
        · have w := i1 y hy
          refine ⟨⟨w.keeps.history, w.keeps.tries, w.keeps.blocks, w.keeps.l1⟩, w.supported, ?_⟩
          rw [w.same, hu, hb]
          exact hx
      · rw [i2]
        show (upgraded S 40 x).isSome = _
        rw [hx]
      · intro ho
        rw [last_cons]
        exact i3 ho
  · rw [if_neg e]
    rcases h with h | ⟨h, h'⟩
    · exact absurd h e
    · exact migrateFrom_spec S d h h'

theorem migrateDb_refused (S : Schema D) (d : Disk D) (h : ¬ Supported S d.rev) :
    migrateDb S d = ([], false) := by
  unfold Supported at h
  unfold migrateDb migrateFrom Schema.latest baseRevision
  rw [if_neg (by omega), if_neg (by omega)]
  by_cases e : d.rev < 40
  · rw [if_pos e]
  · rw [if_neg e, if_pos (by omega)]

/-- A property of the disk that the migrations pass on holds throughout. -/
theorem migrateDb_keeps (S : Schema D) (d : Disk D) : ∀ x ∈ (migrateDb S d).1, Keeps d x := by
  intro x hx
  by_cases h : Supported S d.rev
  · exact ((migrateDb_spec S d h).1 x hx).keeps
  · rw [migrateDb_refused S d h] at hx
    simp at hx

/-! ### Modes -/

theorem mem_pruneRange {lo hi b : Nat} {bs : List Nat} :
    b ∈ pruneRange lo hi bs ↔ b ∈ bs ∧ ¬ (lo ≤ b ∧ b < hi) := by
  unfold pruneRange
  simp only [List.mem_filter, Bool.not_eq_eq_eq_not, Bool.not_true, Bool.and_eq_false_imp,
    decide_eq_true_eq, decide_eq_false_iff_not, Nat.not_lt]
  constructor
  · rintro ⟨h, h'⟩
    exact ⟨h, fun ⟨a, b⟩ => absurd (h' a) (by omega)⟩
  · rintro ⟨h, h'⟩
    exact ⟨h, fun a => by omega⟩

/-- How the blocks may change while opening. -/
def BlocksFrom (cfg : Cfg) (d x : Disk D) : Prop :=
  x.blocks = d.blocks ∨
    ∃ k i lo, cfg.history = some (.prune k) ∧ d.history = some i ∧ k < i ∧
      d.blocks.min? = some lo ∧ x.history = some k ∧
      x.blocks = pruneRange lo (lo + (i - k)) d.blocks

/-- How the remembered history may change while opening. -/
def HistoryFrom (cfg : Cfg) (d x : Disk D) : Prop :=
  x.history = d.history ∨
    ∃ k, cfg.history = some (.prune k) ∧ d.history.isSome = true ∧ x.history = some k ∧ k < 2 ^ 63

/-- What determining the history of an existing file does. -/
structure HistStep (cfg : Cfg) (d x : Disk D) : Prop where
  rev : x.rev = d.rev
  data : x.data = d.data
  tries : x.tries = d.tries
  l1 : x.l1 = d.l1
  blocks : BlocksFrom cfg d x
  history : HistoryFrom cfg d x

theorem determineHistory_states (cfg : Cfg) (d : Disk D) :
    ∀ x ∈ (determineHistory cfg.history false d).1, HistStep cfg d x := by
  intro x hx
  unfold determineHistory validate at hx
  rcases hc : cfg.history with _ | m
  · rcases hd : d.history with _ | i
    · simp [hc, hd] at hx
    · simp only [hc, hd, Option.getD_none, Bool.false_eq_true, if_false, Nat.lt_irrefl] at hx
      split at hx
      · simp at hx
      · simp only [List.mem_singleton] at hx
        subst hx
        exact ⟨rfl, rfl, rfl, rfl, Or.inl rfl, Or.inl hd.symm⟩
  · cases m with
    | archive =>
      rcases hd : d.history with _ | i <;> simp [hc, hd] at hx
    | prune k =>
      rcases hd : d.history with _ | i
      · simp [hc, hd] at hx
      · simp only [hc, hd, Option.getD_some, Bool.false_eq_true, if_false] at hx
        split at hx
        · simp at hx
        · rename_i hk
          have hh : HistoryFrom cfg d { d with history := some k } :=
            Or.inr ⟨k, hc, by rw [hd]; rfl, rfl, by omega⟩
          have one : HistStep cfg d { d with history := some k } :=
            ⟨rfl, rfl, rfl, rfl, Or.inl rfl, hh⟩
          split at hx
          · rename_i hlt
            split at hx
            · simp only [List.mem_singleton] at hx
              subst hx
              exact one
            · rename_i lo hlo
              simp only [List.mem_cons, List.not_mem_nil, or_false] at hx
              rcases hx with rfl | rfl
              · exact one
              · exact ⟨rfl, rfl, rfl, rfl, Or.inr ⟨k, i, lo, hc, hd, hlt, hlo, rfl, rfl⟩,
                  Or.inr ⟨k, hc, by rw [hd]; rfl, rfl, by omega⟩⟩
          · simp only [List.mem_singleton] at hx
            subst hx
            exact one

theorem determineHistory_eq (asked : Option Mode) (isNew : Bool) (d : Disk D) :
    determineHistory asked isNew d =
      validate (asked.getD (remembered d)) d.history isNew d := by
  unfold determineHistory remembered
  cases d.history <;> rfl

/-- What the history mode given back is. -/
theorem determineHistory_ok (asked : Option Mode) (isNew : Bool) (d : Disk D) (m : Mode)
    (h : (determineHistory asked isNew d).2 = some m) :
    remembered (last d (determineHistory asked isNew d).1) = m ∧
      m = asked.getD (remembered d) ∧
      (isNew = false → prunes m = d.history.isSome) ∧ (∀ k, m = .prune k → k < 2 ^ 63) := by
  rw [determineHistory_eq] at h ⊢
  generalize asked.getD (remembered d) = x at h ⊢
  unfold validate at h ⊢
  cases x with
  | archive =>
    rcases hd : d.history with _ | i
    · simp [hd] at h
      subst h
      simp [last_nil, remembered, hd, prunes]
    · simp [hd] at h
  | prune k =>
    rcases hd : d.history with _ | i
    · cases isNew
      · simp [hd] at h
      · simp only [hd] at h ⊢
        by_cases hk : 2 ^ 63 ≤ k
        · simp [hk] at h
        · simp [hk] at h ⊢
          subst h
          simp [last_cons, last_nil, remembered]
          omega
    · simp only [hd] at h ⊢
      by_cases hk : 2 ^ 63 ≤ k
      · simp [hk] at h
      · rw [if_neg hk] at h ⊢
        cases isNew
        · simp only [Bool.false_eq_true, if_false] at h ⊢
          by_cases hlt : k < i
          · rw [if_pos hlt] at h ⊢
            rcases hb : d.blocks.min? with _ | lo <;> simp [hb] at h <;> subst h <;>
              simp [last_cons, last_nil, remembered, prunes] <;> omega
          · rw [if_neg hlt] at h ⊢
            simp at h
            subst h
            simp [last_cons, last_nil, remembered, prunes]
            omega
        · simp at h ⊢
          subst h
          simp [last_cons, last_nil, remembered]
          omega

theorem determineHistory_iff (asked : Option Mode) (isNew : Bool) (d : Disk D) (m : Mode)
    (hn : isNew = true → d.history = none) :
    (determineHistory asked isNew d).2 = some m ↔
      m = asked.getD (remembered d) ∧ (isNew = false → prunes m = d.history.isSome) ∧
        (∀ k, m = .prune k → k < 2 ^ 63) := by
  constructor
  · intro h
    obtain ⟨-, a, b, c⟩ := determineHistory_ok asked isNew d m h
    exact ⟨a, b, c⟩
  · rintro ⟨rfl, hp, hb⟩
    rw [determineHistory_eq]
    generalize asked.getD (remembered d) = x at hp hb ⊢
    unfold validate
    cases x with
    | archive =>
      cases isNew
      · have := hp rfl
        simp only [prunes] at this
        simp [← this]
      · simp [hn rfl]
    | prune k =>
      have hk : ¬ (2 ^ 63 ≤ k) := by
        have := hb k rfl
        omega
      cases isNew
      · have := hp rfl
        simp only [prunes] at this
        rcases hd : d.history with _ | i
        · simp [hd] at this
        · simp only [if_neg hk, Bool.false_eq_true, if_false]
          split
          · split <;> rfl
          · rfl
      · simp only [hn rfl, if_true, if_neg hk]

theorem determineTries_iff (asked : Option Mode) (isNew : Bool) (d : Disk D) (m : Mode)
    (hn : isNew = true → d.tries = false) :
    (determineTries asked isNew d).2 = some m ↔
      m = asked.getD (if isNew || d.tries then Mode.prune 20 else Mode.archive) ∧
        (isNew = false → prunes m = d.tries) := by
  unfold determineTries
  generalize asked.getD (if (isNew || d.tries) = true then Mode.prune 20 else Mode.archive) = x
  constructor
  · intro h
    cases x <;> cases ht : d.tries <;> cases isNew <;> simp_all [prunes]
    all_goals (subst h; simp)
  · rintro ⟨rfl, h⟩
    cases m <;> cases ht : d.tries <;> cases isNew <;> simp_all [prunes]

theorem determineTries_existing (asked : Option Mode) (d : Disk D) :
    (determineTries asked false d).1 = [] := by
  unfold determineTries
  generalize asked.getD (if (false || d.tries) = true then Mode.prune 20 else Mode.archive) = m
  cases m <;> cases d.tries <;> rfl

theorem determineTries_ok (asked : Option Mode) (isNew : Bool) (d : Disk D) (m : Mode)
    (hn : isNew = true → d.tries = false)
    (h : (determineTries asked isNew d).2 = some m) :
    prunes m = (last d (determineTries asked isNew d).1).tries ∧
      m = asked.getD (if isNew || d.tries then Mode.prune 20 else Mode.archive) ∧
      (isNew = false → prunes m = d.tries) ∧
      remembered (last d (determineTries asked isNew d).1) = remembered d := by
  unfold determineTries at h ⊢
  generalize asked.getD (if (isNew || d.tries) = true then Mode.prune 20 else Mode.archive) = x at *
  cases x <;> cases ht : d.tries <;> cases isNew <;>
    simp_all [last_nil, last_cons, prunes, remembered]
  all_goals (subst h; simp)

/-! ### Opening an existing file -/

/-- What each state passed through shares with the file. -/
structure Way (S : Schema D) (cfg : Cfg) (d x : Disk D) : Prop where
  tries : x.tries = d.tries
  l1 : x.l1 = d.l1
  blocks : BlocksFrom cfg d x
  history : HistoryFrom cfg d x
  supported : Supported S x.rev ↔ Supported S d.rev
  same : upgraded S x.rev x.data = upgraded S d.rev d.data

theorem Way.refl (S : Schema D) (cfg : Cfg) (d : Disk D) : Way S cfg d d :=
  ⟨rfl, rfl, Or.inl rfl, Or.inl rfl, Iff.rfl, rfl⟩

theorem openDb_some (S : Schema D) (cfg : Cfg) (d : Disk D) :
    openDb S cfg (some d) =
      (let m := migrateDb S d
       if !m.2 then (m.1, .err)
       else
         let d₁ := last d m.1
         let h := determineHistory cfg.history false d₁
         match h.2 with
         | none => (m.1 ++ h.1, .err)
         | some hm =>
           match (determineTries cfg.tries false (last d₁ h.1)).2 with
           | none => (m.1 ++ h.1, .err)
           | some tm => (m.1 ++ h.1, .ok hm tm)) := by
  unfold openDb
  simp only [Option.isNone_some, Bool.false_eq_true, if_false, List.nil_append, Option.getD_some,
    determineTries_existing, List.append_nil]
  rfl

theorem openDb_some_states (S : Schema D) (cfg : Cfg) (d : Disk D) :
    (openDb S cfg (some d)).1 = (migrateDb S d).1 ∨
    ((migrateDb S d).2 = true ∧ (openDb S cfg (some d)).1 =
      (migrateDb S d).1 ++ (determineHistory cfg.history false (last d (migrateDb S d).1)).1) := by
  rw [openDb_some]
  rcases hm : (migrateDb S d).2 with _ | _
  · left
    simp [hm]
  · right
    refine ⟨rfl, ?_⟩
    simp only [hm, Bool.not_true, Bool.false_eq_true, if_false]
    split
    · rfl
    · split <;> rfl

theorem openDb_way (S : Schema D) (cfg : Cfg) (d : Disk D) :
    ∀ x ∈ (openDb S cfg (some d)).1, Way S cfg d x := by
  have first : ∀ x ∈ (migrateDb S d).1, Way S cfg d x := by
    intro x hx
    by_cases h : Supported S d.rev
    · have w := (migrateDb_spec S d h).1 x hx
      exact ⟨w.keeps.tries, w.keeps.l1, Or.inl w.keeps.blocks, Or.inl w.keeps.history,
        ⟨fun _ => h, fun _ => w.supported⟩, w.same⟩
    · rw [migrateDb_refused S d h] at hx
      simp at hx
  intro x hx
  rcases openDb_some_states S cfg d with e | ⟨ho, e⟩
  · rw [e] at hx
    exact first x hx
  · rw [e, List.mem_append] at hx
    rcases hx with hx | hx
    · exact first x hx
    · have w₁ : Way S cfg d (last d (migrateDb S d).1) := last_of_all (Way.refl S cfg d) first
      have k₁ : Keeps d (last d (migrateDb S d).1) :=
        last_of_all (Keeps.refl d) (migrateDb_keeps S d)
      have w₂ := determineHistory_states cfg _ x hx
      refine ⟨w₂.tries.trans w₁.tries, w₂.l1.trans w₁.l1, ?_, ?_, ?_, ?_⟩
      · have hb := w₂.blocks
        unfold BlocksFrom at hb ⊢
        rw [k₁.blocks, k₁.history] at hb
        exact hb
      · have hb := w₂.history
        unfold HistoryFrom at hb ⊢
        rw [k₁.history] at hb
        exact hb
      · rw [w₂.rev]
        exact w₁.supported
      · rw [w₂.rev, w₂.data]
        exact w₁.same

theorem Way.kind {S : Schema D} {cfg : Cfg} {d x : Disk D} (w : Way S cfg d x) :
    x.history.isSome = d.history.isSome ∧ x.tries = d.tries := by
  refine ⟨?_, w.tries⟩
  rcases w.history with h | ⟨k, -, h, e, -⟩
  · rw [h]
  · rw [e, h]
    rfl

theorem getLast_or (t : List (Disk D)) (d : Disk D) : t.getLast?.or (some d) = some (last d t) := by
  unfold last
  cases t.getLast? <;> rfl

end Verif.Open
