/-
Invariant of pruned tries.
-/
import Verif.Trie.Prune
import Verif.Trie.HistLemmas

namespace Verif.Trie
open Verif.Db

variable {C F : Type} [DecidableEq C] [DecidableEq F] {o : FeltOps F} {H : Nat} {mode : Option Nat}

/-- Blocks `lo ≤ b < hi` are protected, `cur` is the trie being worked on. -/
structure Inv (o : FeltOps F) (H : Nat) (mode : Option Nat) (db : PDb C F) (lo hi : Nat) (R : C → Nat → Option Nat)
    (K : Nat → C → Content F) (L : C → Nat → List Nat) (cur : C → Option Nat) (kc : C → Content F)
    (Lc : C → List Nat) : Prop where
  keyed : ∀ c, Keyed (db.roots c)
  roots : ∀ c b, lo ≤ b → b < hi → db.rootAt c b = R c b
  weak : ∀ c b, b < hi → db.rootAt c b = R c b ∨ db.rootAt c b = none
  empt : ∀ c b, b < hi → K b c = Content.empty → R c b = none
  stored : ∀ c b, lo ≤ b → b < hi → Stored o db.table H (R c b) (K b c) (L c b)
  scur : ∀ c, Stored o db.table H (cur c) (kc c) (Lc c)
  ncur : ∀ c, (Lc c).Nodup
  disj : mode ≠ none → ∀ c c', c ≠ c' → ∀ i ∈ Lc c, i ∉ Lc c'
  mrow : ∀ m ∈ db.removals, ∀ i ∈ m.2, ∃ x, db.table.row i = some x
  mcur : ∀ m ∈ db.removals, ∀ i ∈ m.2, ∀ c, i ∉ Lc c
  mold : ∀ m ∈ db.removals, ∀ i ∈ m.2, ∀ c b, lo ≤ b → b < hi → i ∈ L c b → b < m.1
  mnd : (db.removals.flatMap (·.2)).Nodup
  arch : mode = none → db.removals = []
  ond : mode = none → ∀ c b, lo ≤ b → b < hi → (L c b).Nodup

theorem flat_unique {α β : Type} {xs : List α} {f : α → List β} (h : (xs.flatMap f).Nodup) {m m' : α} {i : β}
    (hm : m ∈ xs) (hm' : m' ∈ xs) (hi : i ∈ f m) (hi' : i ∈ f m') : m = m' := by
  induction xs with
  | nil => simp at hm
  | cons x xs ih =>
    simp only [List.flatMap_cons, List.nodup_append] at h
    rcases List.mem_cons.1 hm with hx | hx <;> rcases List.mem_cons.1 hm' with hx' | hx'
    · rw [hx, hx']
    · exact absurd rfl (h.2.2 i (hx ▸ hi) i (List.mem_flatMap.2 ⟨m', hx', hi'⟩))
    · exact absurd rfl (h.2.2 i (hx' ▸ hi') i (List.mem_flatMap.2 ⟨m, hx, hi⟩))
    · exact ih h.2.1 hx hx'

theorem flat_filter {α β : Type} {xs : List α} {f : α → List β} (h : (xs.flatMap f).Nodup) (p : α → Bool) :
    ((xs.filter p).flatMap f).Nodup := by
  induction xs with
  | nil => simp
  | cons x xs ih =>
    simp only [List.flatMap_cons, List.nodup_append] at h
    rw [List.filter_cons]
    split
    · simp only [List.flatMap_cons, List.nodup_append]
      refine ⟨h.1, ih h.2.1, ?_⟩
      intro a ha b hb
      refine h.2.2 a ha b ?_
      rw [List.mem_flatMap] at hb ⊢
      obtain ⟨m, hm, hb⟩ := hb
      exact ⟨m, (List.mem_filter.1 hm).1, hb⟩
    · exact ih h.2.1

omit [DecidableEq F] in
theorem Table.row_filter (T : Table F) (p : Nat → Bool) (i : Nat) :
    Table.row ⟨T.rows.filter fun r => p r.1⟩ i = if p i then T.row i else none := by
  obtain ⟨rows⟩ := T
  unfold Table.row
  simp only
  induction rows with
  | nil => simp
  | cons r rs ih =>
    by_cases hr : r.1 = i
    · by_cases hp : p r.1
      · simp [hr ▸ hp, hr]
      · have hp' : p i = false := by rw [← hr]; simpa using hp
        simp only [List.filter_cons, hp]
        simp only [Bool.false_eq_true, if_false]
        rw [ih]
        simp [hp']
    · by_cases hp : p r.1
      · simp only [List.filter_cons, hp, if_true, List.find?_cons, beq_eq_false_iff_ne.2 hr, ih]
      · simp only [List.filter_cons, hp, Bool.false_eq_true, if_false, List.find?_cons,
          beq_eq_false_iff_ne.2 hr, ih]

omit [DecidableEq C] [DecidableEq F] in
theorem Inv.mono_lo {db : PDb C F} {lo lo' hi R K L cur kc Lc} (h : Inv o H mode db lo hi R K L cur kc Lc)
    (hl : lo ≤ lo') : Inv o H mode db lo' hi R K L cur kc Lc :=
  { h with
    roots := fun c b h1 h2 => h.roots c b (by omega) h2
    stored := fun c b h1 h2 => h.stored c b (by omega) h2
    mold := fun m hm i hi c b h1 h2 => h.mold m hm i hi c b (by omega) h2
    ond := fun hm c b h1 h2 => h.ond hm c b (by omega) h2 }

omit [DecidableEq C] [DecidableEq F] in
theorem Inv.mono_hi {db : PDb C F} {lo hi hi' R K L cur kc Lc} (h : Inv o H mode db lo hi R K L cur kc Lc)
    (hl : hi' ≤ hi) : Inv o H mode db lo hi' R K L cur kc Lc :=
  { h with
    roots := fun c b h1 h2 => h.roots c b h1 (by omega)
    weak := fun c b h1 => h.weak c b (by omega)
    empt := fun c b h1 => h.empt c b (by omega)
    stored := fun c b h1 h2 => h.stored c b h1 (by omega)
    mold := fun m hm i hi c b h1 h2 => h.mold m hm i hi c b h1 (by omega)
    ond := fun hm c b h1 h2 => h.ond hm c b h1 (by omega) }

omit [DecidableEq C] [DecidableEq F] in
/-- Pruning keeps everything that is protected. -/
theorem Inv.prune {db : PDb C F} {lo hi R K L cur kc Lc} (h : Inv o H mode db lo hi R K L cur kc Lc)
    {before : Nat} (hb : before ≤ lo) :
    Inv o H mode (db.pruneTrie before) lo hi R K L cur kc Lc ∧
    (∀ c, ∀ i ∈ Lc c, (db.pruneTrie before).table.row i = db.table.row i) := by
  have hrow : ∀ i, (db.pruneTrie before).table.row i =
      if i ∈ (db.removals.filter fun m => m.1 < before).flatMap (·.2) then none else db.table.row i := by
    intro i
    have := Table.row_filter db.table
      (fun i => !((db.removals.filter fun m => m.1 < before).flatMap (·.2)).contains i) i
    simp only [PDb.pruneTrie]
    rw [this]
    by_cases hi : i ∈ (db.removals.filter fun m => m.1 < before).flatMap (·.2)
    · simp only [if_pos hi]
      rw [if_neg]
      simp only [List.contains_iff_mem.2 hi, Bool.not_true, Bool.false_eq_true, not_false_eq_true]
    · simp only [if_neg hi]
      rw [if_pos]
      have := mt List.contains_iff_mem.1 hi
      simp only [Bool.not_eq_true] at this
      rw [this]
      rfl
  have hdoom : ∀ i, i ∈ (db.removals.filter fun m => m.1 < before).flatMap (·.2) →
      ∃ m ∈ db.removals, m.1 < before ∧ i ∈ m.2 := by
    intro i hi
    simp only [List.mem_flatMap, List.mem_filter, decide_eq_true_eq] at hi
    obtain ⟨m, ⟨h1, h2⟩, h3⟩ := hi
    exact ⟨m, h1, h2, h3⟩
  have hcurrow : ∀ c, ∀ i ∈ Lc c, (db.pruneTrie before).table.row i = db.table.row i := by
    intro c i hi
    rw [hrow, if_neg]
    intro hd
    obtain ⟨m, h1, h2, h3⟩ := hdoom i hd
    exact h.mcur m h1 i h3 c hi
  have hsub : ∀ m, m ∈ (db.pruneTrie before).removals → m ∈ db.removals ∧ ¬ m.1 < before := by
    intro m hm
    simpa [PDb.pruneTrie] using hm
  refine ⟨⟨h.keyed, h.roots, h.weak, h.empt, ?_, ?_, h.ncur, h.disj, ?_, ?_, ?_, ?_, ?_, h.ond⟩, hcurrow⟩
  · intro c b h1 h2
    refine (h.stored c b h1 h2).mono ?_
    intro j hj
    rw [hrow, if_neg]
    intro hd
    obtain ⟨m, g1, g2, g3⟩ := hdoom j hd
    have := h.mold m g1 j g3 c b h1 h2 hj
    omega
  · intro c
    exact (h.scur c).mono (hcurrow c)
  · intro m hm i hi
    obtain ⟨h1, h2⟩ := hsub m hm
    obtain ⟨x, hx⟩ := h.mrow m h1 i hi
    refine ⟨x, ?_⟩
    rw [hrow, if_neg, hx]
    intro hd
    obtain ⟨m', g1, g2, g3⟩ := hdoom i hd
    have := flat_unique h.mnd h1 g1 hi g3
    subst this
    exact h2 g2
  · intro m hm i hi
    exact h.mcur m (hsub m hm).1 i hi
  · intro m hm i hi
    exact h.mold m (hsub m hm).1 i hi
  · exact flat_filter h.mnd _
  · intro hm; simp [PDb.pruneTrie, h.arch hm]

/-- Replace the value at one contract. -/
def setAt {β : Type} (f : C → β) (c : C) (v : β) : C → β := fun c' => if c' = c then v else f c'

omit [DecidableEq F] in
theorem setAt_same {β : Type} (f : C → β) (c : C) (v : β) : setAt f c v c = v := by simp [setAt]

theorem setAt_ne {β : Type} (f : C → β) {c c' : C} (v : β) (h : c' ≠ c) : setAt f c v c' = f c' := by
  simp [setAt, h]

/-- `insert_trie` for one contract keeps the invariant with the new current trie. -/
theorem Inv.insert (hH : 0 < H) (hH2 : H < 256) {mode : Option Nat} {db : PDb C F} {lo hi R K L cur kc Lc}
    (h : Inv o H mode db lo hi R K L cur kc Lc) {n : Nat} (hn : hi ≤ n) (hkept : ∀ kept, mode = some kept → n - kept ≤ lo)
    (c : C) {Tc : Table F} (hTc : Stored o Tc H (cur c) (kc c) (Lc c))
    (hrows : ∀ j ∈ Lc c, db.table.row j = Tc.row j)
    (ws : List (List Bool × F)) (hws : ∀ w ∈ ws, w.1.length = H) :
    ∃ u db' ru Lc', computeUpdate o H Tc (cur c) (kc c) ws = .ok u ∧
      u.rootCommitment = specRoot o H ((kc c).writes o ws) ∧
      db.insertTrie o mode n u = .ok (db', ru) ∧ db'.roots = db.roots ∧
      Inv o H mode db' lo hi R K L (setAt cur c (ru.apply (cur c))) (setAt kc c ((kc c).writes o ws)) (setAt Lc c Lc') ∧
      (∀ c', ∀ i ∈ Lc c', db'.table.row i = db.table.row i) ∧
      (ws ≠ [] → ru = .unchanged → cur c = none ∧ (kc c).writes o ws = Content.empty) ∧
      (mode = none → ∀ i x, db.table.row i = some x → db'.table.row i = some x) := by
  -- the pruning prologue
  obtain ⟨dbp, hdbp, hroots, hp, hprow, hpa⟩ : ∃ dbp : PDb C F, (∀ rm, ∃ rem, db.prologue mode n rm = { dbp with removals := dbp.removals ++ rem } ∧
      (rem = [] ∨ (mode ≠ none ∧ rem = [(n, rm)]))) ∧ dbp.roots = db.roots ∧
      Inv o H mode dbp lo hi R K L cur kc Lc ∧ (∀ c, ∀ i ∈ Lc c, dbp.table.row i = db.table.row i) ∧
      (mode = none → dbp = db) := by
    rcases mode with _ | kept
    · exact ⟨db, fun rm => ⟨[], by simp [PDb.prologue], .inl rfl⟩, rfl, h, fun _ _ _ => rfl, fun _ => rfl⟩
    · have hrt : ∀ (d : PDb C F) (rm : List Nat), ∃ rem, d.removeTrie rm n = { d with removals := d.removals ++ rem } ∧
          (rem = [] ∨ (some kept ≠ none ∧ rem = [(n, rm)])) := by
        intro d rm
        unfold PDb.removeTrie
        split
        · exact ⟨[], by simp, .inl rfl⟩
        · exact ⟨_, rfl, .inr ⟨by simp, rfl⟩⟩
      by_cases hk : kept ≤ n
      · obtain ⟨h1, h2⟩ := h.prune (hkept kept rfl)
        exact ⟨db.pruneTrie (n - kept), fun rm => by simpa [PDb.prologue, hk] using hrt _ rm, rfl, h1, h2, by simp⟩
      · exact ⟨db, fun rm => by simpa [PDb.prologue, hk] using hrt _ rm, rfl, h, fun _ _ _ => rfl, by simp⟩
  obtain ⟨u, T', ru, L', e1, e2, e3, hst, hnd, hold, hrnd, hrm, hfresh, _, hunch⟩ :=
    update_ok (T := dbp.table) hH hH2 hTc (fun j hj => (hprow c j hj).trans (hrows j hj)) (h.ncur c) ws hws
  obtain ⟨rem, hrem, hremc⟩ := hdbp u.nodesRemoved
  have hremmem : ∀ m ∈ rem, m.1 = n ∧ m.2 = u.nodesRemoved ∧ mode ≠ none := by
    rcases hremc with rfl | ⟨hm, rfl⟩
    · simp
    · simp [hm]
  have hfr : ∀ c', ∀ i ∈ Lc c', ∃ x, dbp.table.row i = some x := fun c' => (hp.scur c').row
  have hkeep : ∀ c', ∀ i ∈ Lc c', T'.row i = dbp.table.row i := by
    intro c' i hi
    obtain ⟨x, hx⟩ := hfr c' i hi
    rw [hx, hold i x hx]
  have hL'c : mode ≠ none → ∀ c', c' ≠ c → ∀ i ∈ L', i ∉ Lc c' := by
    intro hmode c' hc i hi hi'
    rcases hfresh i hi with h1 | h1
    · exact hp.disj hmode c' c hc i hi' h1
    · obtain ⟨x, hx⟩ := hfr c' i hi'
      rw [h1] at hx
      simp at hx
  refine ⟨u, { dbp with table := T', removals := dbp.removals ++ rem }, ru, L', e1, e2, ?_, hroots, ?_, ?_, hunch,
    fun hm i x hx => hold i x (by rw [hpa hm]; exact hx)⟩
  · unfold PDb.insertTrie
    rw [hrem]
    simp only [e3, bind, Except.bind, pure, Except.pure]
  · refine ⟨hp.keyed, hp.roots, hp.weak, hp.empt, ?_, ?_, ?_, ?_, ?_, ?_, ?_, ?_, ?_, hp.ond⟩
    · intro c' b h1 h2
      refine (hp.stored c' b h1 h2).mono ?_
      intro j hj
      obtain ⟨x, hx⟩ := (hp.stored c' b h1 h2).row j hj
      rw [hx]
      exact hold j x hx
    · intro c'
      by_cases hc : c' = c
      · subst hc
        simp only [setAt_same]
        exact hst
      · simp only [setAt_ne _ _ hc]
        exact (hp.scur c').mono (hkeep c')
    · intro c'
      by_cases hc : c' = c
      · subst hc; simpa only [setAt_same] using hnd
      · simpa only [setAt_ne _ _ hc] using hp.ncur c'
    · intro hmode c1 c2 hne i h1 h2
      by_cases hc1 : c1 = c
      · subst hc1
        rw [setAt_same] at h1
        rw [setAt_ne _ _ hne.symm] at h2
        exact hL'c hmode c2 hne.symm i h1 h2
      · rw [setAt_ne _ _ hc1] at h1
        by_cases hc2 : c2 = c
        · subst hc2
          rw [setAt_same] at h2
          exact hL'c hmode c1 hc1 i h2 h1
        · rw [setAt_ne _ _ hc2] at h2
          exact hp.disj hmode c1 c2 hne i h1 h2
    · intro m hm i hi
      rcases List.mem_append.1 hm with hm | hm
      · obtain ⟨x, hx⟩ := hp.mrow m hm i hi
        exact ⟨x, hold i x hx⟩
      · rw [(hremmem m hm).2.1] at hi
        obtain ⟨x, hx⟩ := hfr c i ((hrm i).1 hi).1
        exact ⟨x, hold i x hx⟩
    · intro m hm i hi c'
      rcases List.mem_append.1 hm with hm | hm
      · by_cases hc : c' = c
        · subst hc
          rw [setAt_same]
          intro hi'
          rcases hfresh i hi' with h1 | h1
          · exact hp.mcur m hm i hi c' h1
          · obtain ⟨x, hx⟩ := hp.mrow m hm i hi
            rw [h1] at hx
            simp at hx
        · rw [setAt_ne _ _ hc]
          exact hp.mcur m hm i hi c'
      · rw [(hremmem m hm).2.1] at hi
        have hi := (hrm i).1 hi
        by_cases hc : c' = c
        · subst hc
          rw [setAt_same]
          exact hi.2
        · rw [setAt_ne _ _ hc]
          exact hp.disj (hremmem m hm).2.2 c c' (Ne.symm hc) i hi.1
    · intro m hm i hi c' b h1 h2 hi'
      rcases List.mem_append.1 hm with hm | hm
      · exact hp.mold m hm i hi c' b h1 h2 hi'
      · rw [(hremmem m hm).1]
        omega
    · simp only [List.flatMap_append, List.nodup_append]
      refine ⟨hp.mnd, ?_, ?_⟩
      · rcases hremc with rfl | ⟨_, rfl⟩
        · simp
        · simpa using hrnd
      · intro a ha b hb hab
        subst hab
        rw [List.mem_flatMap] at ha hb
        obtain ⟨m, hm, ha⟩ := ha
        obtain ⟨m', hm', hb⟩ := hb
        rw [(hremmem m' hm').2.1] at hb
        exact hp.mcur m hm a ha c ((hrm a).1 hb).1
    · intro hm
      rcases hremc with rfl | ⟨h1, _⟩
      · simp [hp.arch hm]
      · exact absurd hm h1
  · intro c' i hi
    rw [← hprow c' i hi]
    exact hkeep c' i hi

omit [DecidableEq F] in
theorem deleteRoots_keyed {rows : List (Nat × Option Nat)} (h : Keyed rows) (b : Nat) : Keyed (deleteRoots rows b) := by
  unfold deleteRoots
  split
  · exact h
  · exact h.filter _

theorem latest_deleteRoots_ge {rows : List (Nat × Option Nat)} (h : Keyed rows) {before b : Nat} (hb : before ≤ b) :
    latest (deleteRoots rows before) b = latest rows b := by
  unfold deleteRoots
  split
  · rfl
  · rename_i l v hl
    obtain ⟨h1, h2, _⟩ := latest_some hl
    simp only at h2
    exact latest_filter_ge h h1 (by omega)

theorem latest_deleteRoots {rows : List (Nat × Option Nat)} (h : Keyed rows) (before b : Nat) :
    latest (deleteRoots rows before) b = latest rows b ∨ latest (deleteRoots rows before) b = none := by
  unfold deleteRoots
  split
  · exact .inl rfl
  · exact latest_deleteBelow h _ _

/-- Rows of contract `c` after `insert_*_root` with a new value. -/
def putRows (mode : Option Nat) (rows : List (Nat × Option Nat)) (n : Nat) (v : Option Nat) : List (Nat × Option Nat) :=
  match mode with
  | none => upsert rows n v
  | some kept => if kept ≤ n then deleteRoots (upsert rows n v) (n - kept) else upsert rows n v

theorem putRows_keyed {mode : Option Nat} {rows : List (Nat × Option Nat)} (h : Keyed rows) (n : Nat)
    (v : Option Nat) : Keyed (putRows mode rows n v) := by
  unfold putRows
  split
  · exact h.upsert n v
  · split
    · exact deleteRoots_keyed (h.upsert n v) _
    · exact h.upsert n v

theorem putRows_at {mode : Option Nat} {rows : List (Nat × Option Nat)} (h : Keyed rows) (n : Nat)
    (v : Option Nat) : latest (putRows mode rows n v) n = some (n, v) := by
  have h0 : latest (upsert rows n v) n = some (n, v) := latest_upsert_ge h (Nat.le_refl n) (fun _ _ h => h)
  unfold putRows
  split
  · exact h0
  · split
    · rw [latest_deleteRoots_ge (h.upsert n v) (by omega), h0]
    · exact h0

theorem putRows_lt {mode : Option Nat} {rows : List (Nat × Option Nat)} (h : Keyed rows) {n b : Nat}
    {v : Option Nat} (hb : b < n) (hk : ∀ kept, mode = some kept → n - kept ≤ b) :
    latest (putRows mode rows n v) b = latest rows b := by
  have h0 : latest (upsert rows n v) b = latest rows b := latest_upsert_lt h hb
  unfold putRows
  split
  · exact h0
  · rename_i kept
    split
    · rw [latest_deleteRoots_ge (h.upsert n v) (hk kept rfl), h0]
    · exact h0

theorem putRows_weak {mode : Option Nat} {rows : List (Nat × Option Nat)} (h : Keyed rows) {n b : Nat}
    {v : Option Nat} (hb : b < n) :
    latest (putRows mode rows n v) b = latest rows b ∨ latest (putRows mode rows n v) b = none := by
  have h0 : latest (upsert rows n v) b = latest rows b := latest_upsert_lt h hb
  unfold putRows
  split
  · exact .inl h0
  · split
    · rw [← h0]; exact latest_deleteRoots (h.upsert n v) _ _
    · exact .inl h0

theorem putRows_mem {mode : Option Nat} {rows : List (Nat × Option Nat)} {n : Nat} {v : Option Nat}
    {r : Nat × Option Nat} (hr : r ∈ putRows mode rows n v) : r ∈ rows ∨ r.1 = n := by
  have h0 : r ∈ upsert rows n v → r ∈ rows ∨ r.1 = n := by
    intro h
    rw [mem_upsert] at h
    rcases h with rfl | h
    · exact .inr rfl
    · exact .inl h.1
  unfold putRows at hr
  split at hr
  · exact h0 hr
  · split at hr
    · unfold deleteRoots at hr
      split at hr
      · exact h0 hr
      · exact h0 (List.mem_filter.1 hr).1
    · exact h0 hr

omit [DecidableEq F] in
theorem insertRoot_eq (mode : Option Nat) (db : PDb C F) (n : Nat) (c : C) (ru : RootIndexUpdate) :
    db.insertRoot mode n c ru = if ru = .unchanged then db else
      { db with roots := setAt db.roots c (putRows mode (db.roots c) n (ru.apply none)) } := by
  cases ru <;> simp [PDb.insertRoot, RootIndexUpdate.apply, putRows] <;> rfl

omit [DecidableEq F] in
/-- `insert_*_root` keeps the invariant (it only touches the root table). -/
theorem Inv.insertRoot {mode : Option Nat} {db : PDb C F} {lo hi R K L cur kc Lc}
    (h : Inv o H mode db lo hi R K L cur kc Lc) {n : Nat} (hn : hi ≤ n) (hkept : ∀ kept, mode = some kept → n - kept ≤ lo)
    (c : C) (ru : RootIndexUpdate) :
    Inv o H mode (db.insertRoot mode n c ru) lo hi R K L cur kc Lc ∧
      (db.insertRoot mode n c ru).rootAt c n = ru.apply (db.rootAt c n) ∧
      (∀ c', c' ≠ c → (db.insertRoot mode n c ru).roots c' = db.roots c') ∧
      (db.insertRoot mode n c ru).table = db.table ∧
      (∀ c', ∀ r ∈ (db.insertRoot mode n c ru).roots c', r ∈ db.roots c' ∨ (c' = c ∧ r.1 = n)) := by
  rw [insertRoot_eq]
  split
  · rename_i hu
    subst hu
    exact ⟨h, rfl, fun _ _ => rfl, rfl, fun c' r hr => .inl hr⟩
  · rename_i hu
    have key : ∀ c', Keyed (setAt db.roots c (putRows mode (db.roots c) n (ru.apply none)) c') := by
      intro c'
      by_cases hc : c' = c
      · subst hc; rw [setAt_same]; exact putRows_keyed (h.keyed c') n _
      · rw [setAt_ne _ _ hc]; exact h.keyed c'
    refine ⟨{ h with keyed := key, roots := ?_, weak := ?_ }, ?_, ?_, rfl, ?_⟩
    · intro c' b h1 h2
      rw [← h.roots c' b h1 h2]
      unfold PDb.rootAt
      by_cases hc : c' = c
      · subst hc
        simp only [setAt_same]
        rw [putRows_lt (h.keyed c') (by omega) (fun kept hk => by have := hkept kept hk; omega)]
      · simp only [setAt_ne _ _ hc]
    · intro c' b h2
      unfold PDb.rootAt
      by_cases hc : c' = c
      · subst hc
        simp only [setAt_same]
        rcases putRows_weak (mode := mode) (h.keyed c') (n := n) (v := ru.apply none) (b := b) (by omega) with e | e
        · rw [e]; exact h.weak c' b h2
        · rw [e]; exact .inr rfl
      · simp only [setAt_ne _ _ hc]
        exact h.weak c' b h2
    · unfold PDb.rootAt
      simp only [setAt_same, putRows_at (h.keyed c) n]
      cases ru with
      | unchanged => exact absurd rfl hu
      | updated i => rfl
      | trieEmpty => rfl
    · intro c' hc
      exact setAt_ne _ _ hc
    · intro c' r hr
      by_cases hc : c' = c
      · subst hc
        simp only [setAt_same] at hr
        rcases putRows_mem hr with h | h
        · exact .inl h
        · exact .inr ⟨rfl, h⟩
      · simp only [setAt_ne _ _ hc] at hr
        exact .inl hr

end Verif.Trie
