import Verif.State.ReverseProps
/-
The table of CASM hashes, which reorgs do not clean up.
-/
namespace Verif.State
open Verif.Db

/-! ### case analysis of a step -/

theorem Good.block_cases {db : Db} {tr : Track} (g : Good db tr) (h : Hash) (u : Update) :
    (step db (.block h u) = db ∧ tr.step (.block h u) = tr) ∨
    (step db (.block h u) = insertUpdate { db with headers := db.headers ++ [(tr.chain.length, h)] } tr.chain.length u ∧
      tr.step (.block h u) = { tr with chain := tr.chain ++ [(h, u)] }) := by
  have hn : nextNumber db = tr.chain.length := by
    unfold nextNumber
    rw [g.head]
    by_cases hc : tr.chain = []
    · simp [hc]
    · rw [if_neg hc]
      have : 0 < tr.chain.length := by
        rcases Nat.eq_zero_or_pos tr.chain.length with h | h
        · exact absurd (List.length_eq_zero_iff.1 h) hc
        · exact h
      simp only; omega
  have hlo : tr.lo ≤ tr.chain.length := by rcases g.lo with h | h; omega; simp [h.1]
  have hdup : (db.headers.any fun r => r.1 == tr.chain.length || r.2 == h) = (tr.chain.drop tr.lo).any fun p => p.1 == h := by
    rw [Bool.eq_iff_iff]
    simp only [List.any_eq_true, Bool.or_eq_true, beq_iff_eq]
    constructor
    · rintro ⟨⟨i, h'⟩, hr, e⟩
      obtain ⟨h1, v, hv⟩ := (g.hdr i h').1 hr
      have hl := (List.getElem?_eq_some_iff.1 hv).1
      rcases e with e | e
      · simp only at e; omega
      · refine ⟨(h', v), ?_, e⟩
        rw [List.mem_iff_getElem?]
        exact ⟨i - tr.lo, by rw [List.getElem?_drop]; rw [show tr.lo + (i - tr.lo) = i by omega]; exact hv⟩
    · rintro ⟨⟨h', v⟩, hm, e⟩
      rw [List.mem_iff_getElem?] at hm
      obtain ⟨i, hi⟩ := hm
      rw [List.getElem?_drop] at hi
      exact ⟨(tr.lo + i, h'), (g.hdr _ _).2 ⟨by omega, v, hi⟩, .inr e⟩
  unfold step storeBlock
  simp only [hn]
  unfold insertHeader Track.step
  simp only [hdup]
  by_cases hd : (tr.chain.drop tr.lo).any fun p => p.1 == h
  · left
    simp only [hd, ite_true, Option.map_none, Option.getD_none, and_self]
  · right
    simp only [hd, Bool.false_eq_true, ite_false, Option.map_some, Option.getD_some, and_self]

theorem Good.reorg_cases {db : Db} {tr : Track} (g : Good db tr) (tail : Nat) :
    (step db (.reorg tail) = db ∧ tr.step (.reorg tail) = tr) ∨
    (tail < tr.chain.length ∧ step db (.reorg tail) = purgeDown db tail (tr.chain.length - 1 - tail) ∧
      tr.step (.reorg tail) = { tr with chain := tr.chain.take tail }) := by
  unfold step l2Reorg Track.step
  rw [g.head]
  by_cases hc : tr.chain = []
  · left
    simp only [hc, ite_true, Option.getD_none, List.length_nil, Nat.not_lt_zero, false_and, ite_false, and_self]
  simp only [hc, ite_false]
  have hl : tr.lo < tr.chain.length := by rcases g.lo with h | h; exact h; exact absurd h.2 hc
  have hcond : (State.hasBlock db tail && (tail == 0 || State.hasBlock db (tail - 1))) =
      decide (tail < tr.chain.length ∧ (tr.lo < tail ∨ (tail = 0 ∧ tr.lo = 0))) := by
    rw [g.hasBlock, g.hasBlock, Bool.eq_iff_iff]
    simp
    omega
  rw [hcond]
  by_cases hx : tail < tr.chain.length ∧ (tr.lo < tail ∨ (tail = 0 ∧ tr.lo = 0))
  · right
    simp only [hx, decide_true, ite_true, Option.getD_some, and_self]
  · left
    simp only [hx, decide_false, Bool.false_eq_true, ite_false, Option.getD_none, and_self]

/-! ### insertion of CASM hashes -/

theorem casmRows_congr {db db' : Db} (h : db'.casm = db.casm) (c : Class) : casmRows db' c = casmRows db c := by
  unfold casmRows; rw [h]

theorem mem_casmRows {db : Db} {c : Class} {x : Nat × Casm} :
    x ∈ casmRows db c ↔ ∃ r ∈ db.casm, r.cls = c ∧ x = (r.block, r.casm) := by
  unfold casmRows
  rw [List.mem_filterMap]
  constructor
  · rintro ⟨r, hr, h⟩
    by_cases e : r.cls = c
    · rw [if_pos e] at h
      exact ⟨r, hr, e, (Option.some.inj h).symm⟩
    · rw [if_neg e] at h; simp at h
  · rintro ⟨r, hr, e, rfl⟩
    exact ⟨r, hr, by rw [if_pos e]⟩

/-- One list of CASM hashes: those of classes without a row for this block yet are added. -/
theorem insCasms_rows (n : Nat) (ps : List (Class × Casm)) (hn : (ps.map (·.1)).Nodup) (db : Db) (c : Class) :
    casmRows (ps.foldl (insCasm n) db) c =
      casmRows db c ++ if (∃ x ∈ casmRows db c, x.1 = n) then [] else (ps.lookup c).toList.map fun v => (n, v) := by
  induction ps generalizing db with
  | nil => simp
  | cons p ps ih =>
    simp only [List.map_cons, List.nodup_cons] at hn
    rw [List.foldl_cons, ih hn.2]
    obtain ⟨d, v⟩ := p
    have hany : (db.casm.any fun r => r.cls == d && r.block == n) = true ↔ ∃ x ∈ casmRows db d, x.1 = n := by
      simp only [List.any_eq_true, Bool.and_eq_true, beq_iff_eq]
      constructor
      · rintro ⟨r, hr, e1, e2⟩
        exact ⟨_, mem_casmRows.2 ⟨r, hr, e1, rfl⟩, e2⟩
      · rintro ⟨x, hx, e⟩
        obtain ⟨r, hr, e1, rfl⟩ := mem_casmRows.1 hx
        exact ⟨r, hr, e1, e⟩
    rw [List.lookup_cons]
    by_cases e : c = d
    · subst e
      have hl : ps.lookup c = none := lookup_none_iff.2 hn.1
      simp only [BEq.rfl, hl, Option.toList_none, List.map_nil, ite_self, List.append_nil]
      unfold insCasm
      simp only [hany]
      by_cases hx : ∃ x ∈ casmRows db c, x.1 = n
      · rw [if_pos hx, if_pos hx, List.append_nil]
      · rw [if_neg hx, if_neg hx]
        unfold casmRows
        rw [List.filterMap_append]
        simp
    · have e3 : (c == d) = false := by simpa using e
      rw [e3]
      simp only
      have : casmRows (insCasm n db (d, v)) c = casmRows db c := by
        unfold insCasm
        split
        · rfl
        · unfold casmRows
          rw [List.filterMap_append]
          have e4 : ¬ d = c := fun h => e h.symm
          simp [e4]
      rw [this]

theorem foldl_casm {γ : Type} (f : Db → γ → Db) (hf : ∀ db x, (f db x).casm = db.casm) (l : List γ) (db : Db) :
    (l.foldl f db).casm = db.casm := by
  induction l generalizing db with
  | nil => rfl
  | cons x xs ih => rw [List.foldl_cons, ih, hf]

theorem insCasm_casm_congr {n : Nat} (ps : List (Class × Casm)) {db db' : Db} (h : db'.casm = db.casm) :
    (ps.foldl (insCasm n) db').casm = (ps.foldl (insCasm n) db).casm := by
  induction ps generalizing db db' with
  | nil => exact h
  | cons p ps ih =>
    rw [List.foldl_cons, List.foldl_cons]
    apply ih
    unfold insCasm
    rw [h]
    split
    · exact h
    · rfl

theorem insertUpdate_casm (db : Db) (n : Nat) (u : Update) :
    (insertUpdate db n u).casm = (u.migrated.foldl (insCasm n) (u.sierra.foldl (insCasm n) db)).casm := by
  unfold insertUpdate
  apply insCasm_casm_congr
  apply insCasm_casm_congr
  rw [foldl_casm _ (by intro db x; unfold declareImplicit; split <;> rfl)]
  rw [foldl_casm _ (by intro db x; unfold declare; simp only; split <;> rfl)]
  rw [foldl_casm _ (by
    intro db x
    unfold insSystem
    simp only
    rw [foldl_casm _ (by intro db x; rfl)])]
  rw [foldl_casm _ (by
    intro db x
    unfold insContract
    rw [foldl_casm _ (by intro db x; rfl)]
    rfl)]

/-- What a state update adds to the CASM hashes of a class. -/
theorem insertUpdate_casmRows (db : Db) (n : Nat) (u : Update) (hw : u.WF) (c : Class) (hfresh : ¬ ∃ x ∈ casmRows db c, x.1 = n) :
    casmRows (insertUpdate db n u) c = casmRows db c ++ (u.casmOf c).toList.map fun v => (n, v) := by
  rw [casmRows_congr (insertUpdate_casm db n u), insCasms_rows n _ hw.migrated, insCasms_rows n _ hw.sierra, if_neg hfresh]
  unfold Update.casmOf
  cases h1 : u.sierra.lookup c with
  | none => simp [hfresh]
  | some v =>
    simp only [Option.toList_some, List.map_cons, List.map_nil, Option.some_or]
    rw [if_pos ⟨(n, v), by simp, rfl⟩, List.append_nil]

/-! ### histories -/

/-- No reorg removes a block that declares or migrates a Sierra class. -/
def CleanReorgs (ops : List Op) : Prop :=
  ∀ pre tail post, ops = pre ++ .reorg tail :: post →
    ∀ u ∈ (Track.run pre).updates.drop tail, u.sierra = [] ∧ u.migrated = []

theorem CleanReorgs.init {ops : List Op} {op : Op} (h : CleanReorgs (ops ++ [op])) : CleanReorgs ops := by
  intro pre tail post e
  exact h pre tail (post ++ [op]) (by rw [e]; simp)

theorem pruneLoop_casm (db : Db) (first d : Nat) : (pruneLoop db first d).casm = db.casm := by
  induction d generalizing db first with
  | zero => rfl
  | succ d ih =>
    unfold pruneLoop
    simp only
    rw [ih]
    split <;> rfl

theorem prune_casm (db : Db) (p k : Nat) : (prune db p k).casm = db.casm := by
  unfold prune
  split
  · split
    · exact pruneLoop_casm _ _ _
    · rfl
  · rfl

theorem reorg_casm (db : Db) (tail : Nat) : (step db (.reorg tail)).casm = db.casm := by
  unfold step l2Reorg
  simp only
  split
  · rfl
  · split
    · rw [purgeDown_eq]; rfl
    · rfl

theorem casm_run (ops : List Op) (hw : OpsOk ops) (hc : CleanReorgs ops) (c : Class) :
    Tab (·.casmOf c) (Track.run ops).updates 0 (casmRows (run ops) c) := by
  induction ops using snoc_induction with
  | h0 => exact Tab.nil _
  | h1 ops op ih =>
    have hw0 : OpsOk ops := fun h u hm => hw h u (by simp [hm])
    have g := good_run ops hw0
    have t := ih hw0 hc.init
    have hr : run (ops ++ [op]) = step (run ops) op := by unfold run; rw [List.foldl_append]; rfl
    have ht : Track.run (ops ++ [op]) = (Track.run ops).step op := by unfold Track.run; rw [List.foldl_append]; rfl
    rw [hr, ht]
    have hul : (Track.run ops).updates.length = (Track.run ops).chain.length := by simp [Track.updates]
    cases op with
    | define h =>
      rw [casmRows_congr (db := run ops) (by simp only [step, insertDefinition]; split <;> rfl)]
      exact t
    | block h u =>
      rcases g.block_cases h u with ⟨e1, e2⟩ | ⟨e1, e2⟩
      · rw [e1, e2]; exact t
      · rw [e1, e2, insertUpdate_casmRows _ _ _ (hw h u (by simp))]
        · rw [casmRows_congr (db := run ops) (by rfl), ← hul]
          have := t.append u
          unfold Track.updates at this ⊢
          simpa using this
        · rintro ⟨x, hx, e⟩
          have := t.lt hx
          omega
    | reorg tail =>
      rw [casmRows_congr (reorg_casm _ _)]
      have hcl := hc ops tail [] rfl
      unfold Track.step
      simp only
      split
      · have hups : ({ Track.run ops with chain := (Track.run ops).chain.take tail } : Track).updates = (Track.run ops).updates.take tail := by
          simp [Track.updates, List.map_take]
        rw [hups]
        have hnone : ∀ i, tail ≤ i → (Track.run ops).updates[i]?.bind (·.casmOf c) = none := by
          intro i hi
          cases hu : (Track.run ops).updates[i]? with
          | none => rfl
          | some u =>
            obtain ⟨h1, h2⟩ := hcl u (by
              rw [List.mem_iff_getElem?]
              exact ⟨i - tail, by rw [List.getElem?_drop, show tail + (i - tail) = i by omega]; exact hu⟩)
            simp [Update.casmOf, h1, h2]
        have key : ∀ i : Nat, ((Track.run ops).updates.take tail)[i]?.bind (fun u => u.casmOf c) = (Track.run ops).updates[i]?.bind (fun u => u.casmOf c) := by
          intro i
          by_cases hi : i < tail
          · rw [List.getElem?_take_of_lt hi]
          · rw [hnone i (by omega), List.getElem?_eq_none (by rw [List.length_take]; omega)]; rfl
        refine ⟨t.keyed, ?_, ?_⟩
        · intro r hr; rw [key]; exact t.sound r hr
        · intro i v hi
          rw [key] at hi
          rcases t.complete i v hi with h | ⟨j, w, h1, h2, _⟩
          · exact .inl h
          · omega
      · exact t
    | prune p k =>
      rw [casmRows_congr (db' := step (run ops) (.prune p k)) (db := run ops) (prune_casm _ _ _)]
      unfold Track.step
      simp only
      split <;> exact t

/-! ### the reverse query -/

theorem mem_reverseSierra {db : Db} {hd to : Nat} {c : Class} {v : Option Casm} (h : (c, v) ∈ reverseSierra db hd to) :
    (∃ r ∈ casmRows db c, to < r.1 ∧ r.1 ≤ hd) ∧ v = (oldest (casmRows db c) to).map (·.2) := by
  unfold reverseSierra at h
  rw [List.mem_map] at h
  obtain ⟨r, hr, e⟩ := h
  simp at hr
  simp only [Prod.mk.injEq] at e
  obtain ⟨rfl, e2⟩ := e
  exact ⟨⟨_, mem_casmRows.2 ⟨r, hr.1, rfl, rfl⟩, hr.2⟩, e2.symm⟩

theorem reverseSierra_of_row {db : Db} {hd to : Nat} {c : Class} (h : ∃ r ∈ casmRows db c, to < r.1 ∧ r.1 ≤ hd) :
    (c, (oldest (casmRows db c) to).map (·.2)) ∈ reverseSierra db hd to := by
  obtain ⟨x, hx, h1, h2⟩ := h
  obtain ⟨r, hr, rfl, rfl⟩ := mem_casmRows.1 hx
  unfold reverseSierra
  rw [List.mem_map]
  exact ⟨r, by simp at h1 h2; simp [hr, h1, h2], rfl⟩

theorem oldest_eq_latest {α : Type} {rows : List (Nat × α)} {to : Nat} (hk : Keyed rows)
    (hone : ∀ r ∈ rows, ∀ s ∈ rows, r.1 ≤ to → s.1 ≤ to → r.1 = s.1) : oldest rows to = latest rows to := by
  have hsub : ∀ s ∈ rows.filter (fun s => decide (s.1 ≤ to)), s ∈ rows ∧ s.1 ≤ to := by
    intro s hs; simpa using hs
  have gen : ∀ (l : List (Nat × α)), (∀ s ∈ l, s ∈ rows ∧ s.1 ≤ to) →
      match l.foldr older none with
      | none => l = []
      | some s => s ∈ l := by
    intro l
    induction l with
    | nil => intro _; rfl
    | cons x xs ih =>
      intro h
      have := ih fun s hs => h s (List.mem_cons_of_mem _ hs)
      rw [List.foldr_cons]
      cases hb : xs.foldr older none with
      | none => simp [older]
      | some t =>
        rw [hb] at this
        simp only at this
        unfold older
        simp only
        split <;> rename_i hh
        · split at hh <;> simp at hh
        · split at hh <;> simp only [Option.some.injEq] at hh
          · simp [← hh]
          · rw [← hh]; exact List.mem_cons_of_mem _ this
  have h1 := gen _ hsub
  unfold oldest
  cases hb : (rows.filter fun s => decide (s.1 ≤ to)).foldr older none with
  | none =>
    rw [hb] at h1
    simp only at h1
    symm
    rw [latest_none]
    intro r hr
    rw [List.filter_eq_nil_iff] at h1
    have := h1 r hr
    simpa using this
  | some s =>
    rw [hb] at h1
    simp only at h1
    obtain ⟨h2, h3⟩ := hsub s h1
    symm
    rw [latest_eq_some_iff hk]
    refine ⟨h2, h3, ?_⟩
    intro r hr hle
    have := hone r hr s h2 hle h3
    omega

end Verif.State
