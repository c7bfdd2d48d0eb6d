/-
Every operation keeps the invariant of pruned tries.
-/
import Verif.Trie.PruneLemmas
import Verif.Trie.SpecPrune

namespace Verif.Trie
open Verif.Db

variable {C F : Type} [DecidableEq C] [DecidableEq F] {o : FeltOps F} {H : Nat} {mode : Option Nat}

omit [DecidableEq F] in
theorem logUpdate_not_mem {log : List (C × RootIndexUpdate)} {c : C} (h : c ∉ log.map (·.1)) :
    logUpdate log c = .unchanged := by
  induction log with
  | nil => rfl
  | cons e log ih =>
    obtain ⟨c', ru⟩ := e
    simp only [List.map_cons, List.mem_cons, not_or] at h
    rw [logUpdate, if_neg (Ne.symm h.1), ih h.2]

theorem Content.writes_append (c : Content F) (xs ys : List (List Bool × F)) :
    Content.writes o c (xs ++ ys) = Content.writes o (Content.writes o c xs) ys := by
  simp [Content.writes, List.foldl_append]

/-- Root at the parent block as read from the database. -/
def PDb.parentRoot (db : PDb C F) (n : Nat) (c : C) : Option Nat :=
  match n with
  | 0 => none
  | p + 1 => db.rootAt c p

omit [DecidableEq F] in
theorem parentRoot_congr {db db' : PDb C F} {c : C} (h : db.roots c = db'.roots c) (n : Nat) :
    db.parentRoot n c = db'.parentRoot n c := by
  cases n with
  | zero => rfl
  | succ p => simp [PDb.parentRoot, PDb.rootAt, h]

theorem update_eq (o : FeltOps F) (H : Nat) (mode : Option Nat) (src db : PDb C F) (n : Nat) (c : C)
    (leaf : List Bool → Option F) (ws : List (List Bool × F)) (h : ws.isEmpty = false) :
    PDb.update o H mode src db n c leaf ws = (do
      let u ← computeUpdate o H src.table (src.parentRoot n c) leaf ws
      let (db, ru) ← db.insertTrie o mode n u
      return (db.insertRoot mode n c ru, ru)) := by
  unfold PDb.update
  rw [if_neg (by simp [h])]
  cases n <;> rfl

theorem updates_ok (hH : 0 < H) (hH2 : H < 256) {mode : Option Nat} {src0 : PDb C F} {n lo : Nat}
    {leaf : C → List Bool → Option F} {R K L} (hkept : ∀ kept, mode = some kept → n - kept ≤ lo) :
    ∀ (ups : List (Bool × C × List (List Bool × F))) (db : PDb C F) cur kc Lc,
      Inv o H mode db lo n R K L cur kc Lc →
      (ups.map (·.2.1)).Nodup → (∀ u ∈ ups, ∀ w ∈ u.2.2, w.1.length = H) →
      (∀ u ∈ ups, src0.parentRoot n u.2.1 = cur u.2.1 ∧ db.parentRoot n u.2.1 = cur u.2.1 ∧
        leaf u.2.1 = kc u.2.1 ∧ Stored o src0.table H (cur u.2.1) (kc u.2.1) (Lc u.2.1) ∧
        ∀ j ∈ Lc u.2.1, db.table.row j = src0.table.row j) →
      (∀ c, db.rootAt c n = cur c) →
      ∃ db' log cur' kc' Lc', PDb.updates o H mode src0 n leaf ups db = .ok (db', log) ∧
        Inv o H mode db' lo n R K L cur' kc' Lc' ∧ log.map (·.1) = ups.map (·.2.1) ∧
        (∀ c, cur' c = (logUpdate log c).apply (cur c)) ∧ (∀ c, db'.rootAt c n = cur' c) ∧
        (∀ c, kc' c = Content.writes o (kc c) (writesTo ups c)) ∧
        (∀ c, (∀ u ∈ ups, u.2.1 = c → u.2.2 = []) → logUpdate log c = .unchanged) ∧
        (∀ c, ∀ r ∈ db'.roots c, r ∈ db.roots c ∨
          (r.1 = n ∧ ∃ u ∈ ups, u.2.1 = c ∧ u.2.2 ≠ [])) := by
  intro ups
  induction ups with
  | nil =>
    intro db cur kc Lc h _ _ _ hcur
    exact ⟨db, [], cur, kc, Lc, rfl, h, rfl, fun _ => rfl, hcur, fun _ => rfl, fun _ _ => rfl,
      fun c r hr => .inl hr⟩
  | cons up ups ih =>
    obtain ⟨par, c, ws⟩ := up
    intro db cur kc Lc h hnd hws hsrc hcur
    simp only [List.map_cons, List.nodup_cons] at hnd
    have hmem : ∀ u ∈ ups, u.2.1 ≠ c := by
      intro u hu he
      exact hnd.1 (List.mem_map.2 ⟨u, hu, he⟩)
    obtain ⟨s1, s2, s3, s4, s5⟩ := hsrc _ List.mem_cons_self
    simp only at s1 s2 s3 s4 s5
    by_cases hw : ws = []
    · subst hw
      obtain ⟨db', log, cur', kc', Lc', e, hI, hlog, hc', hr', hk', hun, hrow⟩ :=
        ih db cur kc Lc h hnd.2 (fun u hu => hws u (List.mem_cons_of_mem _ hu))
          (fun u hu => hsrc u (List.mem_cons_of_mem _ hu)) hcur
      have hnm : c ∉ log.map (·.1) := by rw [hlog]; exact hnd.1
      have hlu : ∀ c', logUpdate ((c, RootIndexUpdate.unchanged) :: log) c' = logUpdate log c' := by
        intro c'
        rw [logUpdate]
        split
        · rename_i hcc; subst hcc; rw [logUpdate_not_mem hnm]
        · rfl
      refine ⟨db', (c, .unchanged) :: log, cur', kc', Lc', ?_, hI, by simp [hlog], ?_, hr', ?_, ?_, ?_⟩
      · simp [PDb.updates, PDb.update, bind, Except.bind, e, pure, Except.pure]
      · intro c'; rw [hlu]; exact hc' c'
      · intro c'
        rw [hk']
        simp [writesTo]
      · intro c' hu'
        rw [hlu]
        exact hun c' (fun u hu => hu' u (List.mem_cons_of_mem _ hu))
      · intro c' r hr
        rcases hrow c' r hr with h | ⟨h1, u, hu, h2⟩
        · exact .inl h
        · exact .inr ⟨h1, u, List.mem_cons_of_mem _ hu, h2⟩
    · -- source of the computation
      have hTsrc : Stored o (if par then src0 else db).table H (cur c) (kc c) (Lc c) := by
        cases par
        · exact h.scur c
        · exact s4
      have hTrow : ∀ j ∈ Lc c, db.table.row j = (if par then src0 else db).table.row j := by
        cases par
        · exact fun _ _ => rfl
        · exact s5
      have hTroot : (if par then src0 else db).parentRoot n c = cur c := by
        cases par
        · exact s2
        · exact s1
      obtain ⟨u, db1, ru, Lc1, e1, _, e3, hr1, hI1, hrow1, _, _⟩ :=
        h.insert hH hH2 (Nat.le_refl n) hkept c hTsrc hTrow ws (hws _ List.mem_cons_self)
      obtain ⟨hI2, hat, hother, htab, hnew⟩ := hI1.insertRoot (Nat.le_refl n) hkept c ru
      have hcur2 : ∀ c', (db1.insertRoot mode n c ru).rootAt c' n = setAt cur c (ru.apply (cur c)) c' := by
        intro c'
        by_cases hc : c' = c
        · subst hc
          rw [hat, setAt_same]
          have : db1.rootAt c' n = cur c' := by rw [← hcur c']; simp [PDb.rootAt, hr1]
          rw [this]
        · rw [setAt_ne _ _ hc, ← hcur c']
          simp [PDb.rootAt, hother c' hc, hr1]
      obtain ⟨db', log, cur', kc', Lc', e, hI, hlog, hc', hr', hk', hun, hrow⟩ :=
        ih (db1.insertRoot mode n c ru) _ _ _ hI2 hnd.2 (fun u hu => hws u (List.mem_cons_of_mem _ hu))
          (by
            intro v hv
            have hne := hmem v hv
            obtain ⟨t1, t2, t3, t4, t5⟩ := hsrc v (List.mem_cons_of_mem _ hv)
            simp only [setAt_ne _ _ hne]
            refine ⟨t1, ?_, t3, t4, ?_⟩
            · rw [parentRoot_congr (db' := db) (by rw [hother _ hne, hr1]) n]; exact t2
            · intro j hj
              rw [htab, hrow1 _ j hj]
              exact t5 j hj) hcur2
      have hnm : c ∉ log.map (·.1) := by rw [hlog]; exact hnd.1
      refine ⟨db', (c, ru) :: log, cur', kc', Lc', ?_, hI, by simp [hlog], ?_, hr', ?_, ?_, ?_⟩
      · have hemp : ws.isEmpty = false := by simpa using hw
        have : PDb.update o H mode (if par then src0 else db) db n c (leaf c) ws =
            .ok (db1.insertRoot mode n c ru, ru) := by
          rw [update_eq _ _ _ _ _ _ _ _ _ hemp, hTroot, s3, e1]
          simp only [bind, Except.bind, pure, Except.pure, e3]
        simp only [PDb.updates, this, bind, Except.bind, e, pure, Except.pure]
      · intro c'
        rw [hc' c', logUpdate]
        by_cases hc : c = c'
        · subst hc
          rw [if_pos rfl, logUpdate_not_mem hnm, setAt_same]
          rfl
        · rw [if_neg hc, setAt_ne _ _ (Ne.symm hc)]
      · intro c'
        rw [hk' c']
        by_cases hc : c' = c
        · subst hc
          rw [setAt_same]
          simp only [writesTo, List.flatMap_cons, if_true, Content.writes_append]
        · rw [setAt_ne _ _ hc]
          simp only [writesTo, List.flatMap_cons, if_neg (Ne.symm hc), List.nil_append]
      · intro c' hu'
        rw [logUpdate]
        split
        · rename_i hc
          exact absurd (hu' _ List.mem_cons_self hc) hw
        · exact hun c' (fun u hu => hu' u (List.mem_cons_of_mem _ hu))
      · intro c' r hr
        rcases hrow c' r hr with h | ⟨h1, u, hu, h2⟩
        · rcases hnew c' r h with h | ⟨h3, h4⟩
          · rw [hr1] at h; exact .inl h
          · exact .inr ⟨h4, _, List.mem_cons_self, h3.symm, hw⟩
        · exact .inr ⟨h1, u, List.mem_cons_of_mem _ hu, h2⟩

theorem revert_ok (hH : 0 < H) (hH2 : H < 256) {mode : Option Nat} {head t lo : Nat} (hth : t < head)
    {leaf : C → List Bool → Option F} {R K L} (hkept : ∀ kept, mode = some kept → t - kept ≤ lo) :
    ∀ (revs : List (C × List (List Bool × F))) (db : PDb C F) cur kc Lc,
      Inv o H mode db lo t R K L cur kc Lc →
      (revs.map (·.1)).Nodup → (∀ u ∈ revs, ∀ w ∈ u.2, w.1.length = H) →
      (∀ u ∈ revs, db.rootAt u.1 head = cur u.1 ∧ leaf u.1 = kc u.1) →
      ∃ db' log cur' kc' Lc', PDb.revert o H mode head t leaf revs db = .ok (db', log) ∧
        Inv o H mode db' lo t R K L cur' kc' Lc' ∧ log.map (·.1) = revs.map (·.1) ∧
        (∀ c, cur' c = (logUpdate log c).apply (cur c)) ∧
        (∀ c, db'.rootAt c t = (logUpdate log c).apply (db.rootAt c t)) ∧
        (∀ c, kc' c = Content.writes o (kc c) (revWrites revs c)) ∧
        (∀ c, revWrites revs c = [] → logUpdate log c = .unchanged) ∧
        (∀ c, revWrites revs c ≠ [] → logUpdate log c = .unchanged → cur c = none ∧ kc' c = Content.empty) ∧
        (∀ c, ∀ r ∈ db'.roots c, r ∈ db.roots c ∨ r.1 = t) ∧
        (mode = none → ∀ i x, db.table.row i = some x → db'.table.row i = some x) := by
  intro revs
  induction revs with
  | nil =>
    intro db cur kc Lc h _ _ _
    exact ⟨db, [], cur, kc, Lc, rfl, h, rfl, fun _ => rfl, fun _ => rfl, fun _ => rfl, fun _ _ => rfl,
      fun c h => absurd rfl h, fun c r hr => .inl hr, fun _ _ _ h => h⟩
  | cons rev revs ih =>
    obtain ⟨c, ws⟩ := rev
    intro db cur kc Lc h hnd hws hsrc
    simp only [List.map_cons, List.nodup_cons] at hnd
    have hmem : ∀ u ∈ revs, u.1 ≠ c := by
      intro u hu he
      exact hnd.1 (List.mem_map.2 ⟨u, hu, he⟩)
    obtain ⟨s1, s2⟩ := hsrc _ List.mem_cons_self
    simp only at s1 s2
    obtain ⟨u, db1, ru, Lc1, e1, _, e3, hr1, hI1, hrow1, hunch, hkeep1⟩ :=
      h.insert hH hH2 (Nat.le_refl t) hkept c (h.scur c) (fun _ _ => rfl) ws (hws _ List.mem_cons_self)
    obtain ⟨hI2, hat, hother, htab, hnew⟩ := hI1.insertRoot (Nat.le_refl t) hkept c ru
    obtain ⟨db', log, cur', kc', Lc', e, hI, hlog, hc', hr', hk', hun, hun2, hrow, hkeep⟩ :=
      ih (db1.insertRoot mode t c ru) _ _ _ hI2 hnd.2 (fun u hu => hws u (List.mem_cons_of_mem _ hu))
        (by
          intro v hv
          have hne := hmem v hv
          obtain ⟨t1, t2⟩ := hsrc v (List.mem_cons_of_mem _ hv)
          simp only [setAt_ne _ _ hne]
          refine ⟨?_, t2⟩
          rw [← t1]
          simp [PDb.rootAt, hother _ hne, hr1])
    have hnm : c ∉ log.map (·.1) := by rw [hlog]; exact hnd.1
    have hrest : revWrites revs c = [] := by
      simp only [revWrites, List.flatMap_eq_nil_iff]
      intro u hu
      rw [if_neg (hmem u hu)]
    have hrev : ∀ c', revWrites ((c, ws) :: revs) c' = if c = c' then ws else revWrites revs c' := by
      intro c'
      have : revWrites ((c, ws) :: revs) c' = (if c = c' then ws else []) ++ revWrites revs c' := rfl
      rw [this]
      split
      · rename_i hc; subst hc; rw [hrest, List.append_nil]
      · simp
    refine ⟨db', (c, ru) :: log, cur', kc', Lc', ?_, hI, by simp [hlog], ?_, ?_, ?_, ?_, ?_, ?_,
      fun hm i x hx => hkeep hm i x (by rw [htab]; exact hkeep1 hm i x hx)⟩
    · simp only [PDb.revert, s1, s2, e1, e3, bind, Except.bind, e, pure, Except.pure]
    · intro c'
      rw [hc' c', logUpdate]
      by_cases hc : c = c'
      · subst hc
        rw [if_pos rfl, logUpdate_not_mem hnm, setAt_same]
        rfl
      · rw [if_neg hc, setAt_ne _ _ (Ne.symm hc)]
    · intro c'
      rw [hr' c', logUpdate]
      by_cases hc : c = c'
      · subst hc
        rw [if_pos rfl, logUpdate_not_mem hnm, hat]
        simp [RootIndexUpdate.apply, PDb.rootAt, hr1]
      · rw [if_neg hc]
        simp [PDb.rootAt, hother _ (Ne.symm hc), hr1]
    · intro c'
      rw [hk' c', hrev]
      by_cases hc : c = c'
      · subst hc
        rw [if_pos rfl, setAt_same, hrest]
        rfl
      · rw [if_neg hc, setAt_ne _ _ (Ne.symm hc)]
    · intro c' hc0
      rw [hrev] at hc0
      rw [logUpdate]
      by_cases hc : c = c'
      · subst hc
        rw [if_pos rfl] at hc0 ⊢
        subst hc0
        -- without writes nothing changes
        have hu : computeUpdate o H db.table (cur c) (kc c) [] = .ok u := e1
        have hadd : u.nodesAdded = [] ∧ u.nodesRemoved = [] := by
          cases hcc : cur c with
          | none =>
            rw [hcc] at hu
            simp [computeUpdate, MTree.open, MTree.empty, MTree.setMany, MTree.commit, bind, Except.bind] at hu
            subst hu
            exact ⟨rfl, rfl⟩
          | some i =>
            rw [hcc] at hu
            simp only [computeUpdate, MTree.open, MTree.load, MTree.setMany, MTree.commit, bind, Except.bind] at hu
            split at hu
            · simp at hu
            · simp only [Except.ok.injEq] at hu
              subst hu
              exact ⟨rfl, rfl⟩
        simp only [PDb.insertTrie, insertTrie, hadd.1, hadd.2, List.isEmpty_nil, Bool.not_true, Bool.false_and,
          bind, Except.bind, pure, Except.pure] at e3
        simp at e3
        exact e3.2.symm
      · rw [if_neg hc] at hc0 ⊢
        exact hun c' hc0
    · intro c' hc0
      rw [hrev] at hc0
      rw [logUpdate]
      by_cases hc : c = c'
      · subst hc
        rw [if_pos rfl] at hc0 ⊢
        intro hru
        obtain ⟨h1, h2⟩ := hunch hc0 hru
        refine ⟨h1, ?_⟩
        rw [hk' c, setAt_same, hrest, h2]
        rfl
      · rw [if_neg hc] at hc0 ⊢
        intro h0
        obtain ⟨h1, h2⟩ := hun2 c' hc0 h0
        rw [setAt_ne _ _ (Ne.symm hc)] at h1
        exact ⟨h1, h2⟩
    · intro c' r hr
      rcases hrow c' r hr with h | h
      · rcases hnew c' r h with h | h
        · rw [hr1] at h; exact .inl h
        · exact .inr h.2
      · exact .inr h

omit [DecidableEq C] [DecidableEq F] in
theorem Inv.coalesce {db : PDb C F} {lo t R K L cur kc Lc} (h : Inv o H mode db lo t R K L cur kc Lc) :
    Inv o H mode (db.coalesce t) lo t R K L cur kc Lc := by
  have hm : ∀ m ∈ (db.coalesce t).removals, ∃ m' ∈ db.removals, m.2 = m'.2 ∧ (m.1 = m'.1 ∨ m.1 = t) := by
    intro m hm
    simp only [PDb.coalesce, List.mem_map] at hm
    obtain ⟨m', hm', rfl⟩ := hm
    refine ⟨m', hm', ?_⟩
    split <;> simp
  refine ⟨h.keyed, h.roots, h.weak, h.empt, h.stored, h.scur, h.ncur, h.disj, ?_, ?_, ?_, ?_,
    fun hm => by simp [PDb.coalesce, h.arch hm], h.ond⟩
  · intro m hmm i hi
    obtain ⟨m', h1, h2, _⟩ := hm m hmm
    exact h.mrow m' h1 i (h2 ▸ hi)
  · intro m hmm i hi
    obtain ⟨m', h1, h2, _⟩ := hm m hmm
    exact h.mcur m' h1 i (h2 ▸ hi)
  · intro m hmm i hi c b hb1 hb2 hL
    obtain ⟨m', h1, h2, h3⟩ := hm m hmm
    have := h.mold m' h1 i (h2 ▸ hi) c b hb1 hb2 hL
    omega
  · have : (db.coalesce t).removals.flatMap (·.2) = db.removals.flatMap (·.2) := by
      simp only [PDb.coalesce, List.flatMap_map]
      congr 1
      funext m
      split <;> rfl
    rw [this]
    exact h.mnd

omit [DecidableEq C] [DecidableEq F] in
theorem Inv.purge {db : PDb C F} {lo hi R K L cur kc Lc} (h : Inv o H mode db lo hi R K L cur kc Lc) {n : Nat}
    (hn : hi ≤ n) : Inv o H mode (db.purge n) lo hi R K L cur kc Lc := by
  have hm : ∀ m ∈ (db.purge n).removals, m ∈ db.removals := by
    intro m hm
    exact (List.mem_filter.1 hm).1
  have hr : ∀ c b, b < hi → (db.purge n).rootAt c b = db.rootAt c b := by
    intro c b hb
    simp only [PDb.rootAt, PDb.purge]
    rw [latest_deleteAt_lt (h.keyed c) (by omega)]
  refine ⟨fun c => (h.keyed c).filter _, ?_, ?_, h.empt, h.stored, h.scur, h.ncur, h.disj, ?_, ?_, ?_, ?_,
    fun hm => by simp [PDb.purge, h.arch hm], h.ond⟩
  · intro c b h1 h2
    rw [hr c b h2]; exact h.roots c b h1 h2
  · intro c b h2
    rw [hr c b h2]; exact h.weak c b h2
  · intro m hmm; exact h.mrow m (hm m hmm)
  · intro m hmm; exact h.mcur m (hm m hmm)
  · intro m hmm; exact h.mold m (hm m hmm)
  · exact flat_filter h.mnd _

omit [DecidableEq C] [DecidableEq F] in
theorem Inv.purgeDown {db : PDb C F} {lo hi R K L cur kc Lc} (h : Inv o H mode db lo hi R K L cur kc Lc) {first : Nat}
    (hn : hi ≤ first) (len : Nat) : Inv o H mode (db.purgeDown first len) lo hi R K L cur kc Lc := by
  induction len generalizing db with
  | zero => exact h
  | succ len ih => exact ih (h.purge (by omega))

omit [DecidableEq C] [DecidableEq F] in
theorem purgeDown_roots (db : PDb C F) (first len : Nat) (c : C) :
    (db.purgeDown first len).roots c = (db.roots c).filter fun r => !(decide (first ≤ r.1) && decide (r.1 < first + len)) := by
  induction len generalizing db with
  | zero =>
    rw [List.filter_eq_self.2]
    · rfl
    · intro a _; simp; omega
  | succ len ih =>
    rw [PDb.purgeDown, ih]
    simp only [PDb.purge, deleteAt, List.filter_filter]
    congr 1
    funext r
    rw [Bool.eq_iff_iff]
    simp
    omega

/-- Close a block: the current tries become the tries of block `n`. -/
theorem Inv.close {db : PDb C F} {lo n R K L cur kc Lc} (h : Inv o H mode db lo n R K L cur kc Lc)
    (hcur : ∀ c, db.rootAt c n = cur c) {R' : C → Nat → Option Nat} {K' : Nat → C → Content F}
    (hR : ∀ c b, R' c b = if b = n then cur c else R c b) (hK : ∀ b c, K' b c = if b = n then kc c else K b c) :
    Inv o H mode db lo (n + 1) R' K' (fun c b => if b = n then Lc c else L c b) cur kc Lc := by
  have hemp : ∀ c, kc c = Content.empty → cur c = none := by
    intro c hc
    have := h.scur c
    cases hcc : cur c with
    | none => rfl
    | some i =>
      rw [hcc, hc] at this
      obtain ⟨t, _, hw, hg⟩ := this
      obtain ⟨k, v, hk⟩ := hw.exists_get
      rw [hg] at hk
      simp [Content.empty] at hk
  refine ⟨h.keyed, ?_, ?_, ?_, ?_, h.scur, h.ncur, h.disj, h.mrow, h.mcur, ?_, h.mnd, h.arch, ?_⟩
  · intro c b h1 h2
    rw [hR]
    split
    · rename_i hb; subst hb; exact hcur c
    · exact h.roots c b h1 (by omega)
  · intro c b h2
    rw [hR]
    split
    · rename_i hb; subst hb; exact .inl (hcur c)
    · exact h.weak c b (by omega)
  · intro c b h2 hk
    rw [hK] at hk
    rw [hR]
    split
    · rename_i hb; rw [if_pos hb] at hk; exact hemp c hk
    · rename_i hb; rw [if_neg hb] at hk; exact h.empt c b (by omega) hk
  · intro c b h1 h2
    rw [hR, hK]
    by_cases hb : b = n
    · simp only [if_pos hb]; exact h.scur c
    · simp only [if_neg hb]; exact h.stored c b h1 (by omega)
  · intro m hm i hi c b h1 h2 hL
    by_cases hb : b = n
    · simp only [if_pos hb] at hL
      exact absurd hL (h.mcur m hm i hi c)
    · simp only [if_neg hb] at hL
      exact h.mold m hm i hi c b h1 (by omega) hL
  · intro hm c b h1 h2
    by_cases hb : b = n
    · simp only [if_pos hb]; exact h.ncur c
    · simp only [if_neg hb]; exact h.ond hm c b h1 (by omega)

omit [DecidableEq C] [DecidableEq F] in
/-- Replace the current tries; with pruning they must not gain nodes. -/
theorem Inv.switch {db : PDb C F} {lo hi R K L cur kc Lc} (h : Inv o H mode db lo hi R K L cur kc Lc)
    {cur' : C → Option Nat} {kc' : C → Content F} {Lc' : C → List Nat}
    (hs : ∀ c, Stored o db.table H (cur' c) (kc' c) (Lc' c)) (hn : ∀ c, (Lc' c).Nodup)
    (hsub : mode ≠ none → ∀ c, ∀ i ∈ Lc' c, i ∈ Lc c) : Inv o H mode db lo hi R K L cur' kc' Lc' := by
  refine ⟨h.keyed, h.roots, h.weak, h.empt, h.stored, hs, hn, ?_, h.mrow, ?_, h.mold, h.mnd, h.arch, h.ond⟩
  · intro hm c c' hne i hi hi'
    exact h.disj hm c c' hne i (hsub hm c i hi) (hsub hm c' i hi')
  · intro m hm i hi c hi'
    by_cases hmode : mode = none
    · rw [h.arch hmode] at hm; simp at hm
    · exact h.mcur m hm i hi c (hsub hmode c i hi')

omit [DecidableEq C] [DecidableEq F] in
theorem Inv.vacuous {db : PDb C F} {lo hi R K L cur kc Lc} (h : Inv o H mode db lo hi R K L cur kc Lc) {lo' : Nat}
    (h1 : min lo hi ≤ lo') : Inv o H mode db lo' hi R K L cur kc Lc :=
  { h with
    roots := fun c b h1 h2 => h.roots c b (by omega) h2
    stored := fun c b h1 h2 => h.stored c b (by omega) h2
    mold := fun m hm i hi c b h1 h2 => h.mold m hm i hi c b (by omega) h2
    ond := fun hm c b h1 h2 => h.ond hm c b (by omega) h2 }

/-- The invariant of reachable states. -/
structure Good (o : FeltOps F) (H : Nat) (mode : Option Nat) (s : PState C F) (tr : Track C) : Prop where
  next : tr.next = s.next
  lo : tr.lo ≤ s.next - 1
  lo0 : mode = none → tr.lo = 0
  base : tr.base ≤ s.next - 1
  inv : ∃ L Lc, Inv o H mode s.db tr.lo s.next tr.root s.leaf L (tr.parent s.next) s.headLeaf Lc
  rows : ∀ c, ∀ r ∈ s.db.roots c, r.1 < s.next
  touched : ∀ c, ∀ r ∈ s.db.roots c, tr.base < r.1 → c ∈ s.touched r.1
  const : ∀ c b, tr.base ≤ b → b + 1 < s.next → c ∉ s.touched (b + 1) → tr.root c (b + 1) = tr.root c b

omit [DecidableEq C] in
theorem Good.init : Good o H mode (PState.init : PState C F) Track.init := by
  refine ⟨rfl, by simp [Track.init], fun _ => rfl, by simp [Track.init], ⟨fun _ _ => [], fun _ => [], ?_⟩, ?_, ?_, ?_⟩
  · refine ⟨fun c => List.Pairwise.nil, ?_, ?_, ?_, ?_, ?_, ?_, ?_, ?_, ?_, ?_, ?_, fun _ => rfl,
      fun _ _ b _ h => absurd h (Nat.not_lt_zero _)⟩
    · intro c b _ h; exact absurd h (Nat.not_lt_zero _)
    · intro c b h; exact absurd h (Nat.not_lt_zero _)
    · intro c b h; exact absurd h (Nat.not_lt_zero _)
    · intro c b _ h; exact absurd h (Nat.not_lt_zero _)
    · intro c; exact ⟨rfl, rfl⟩
    · intro c; exact List.nodup_nil
    · intro _ c c' _ i hi; exact absurd hi (by simp)
    · intro m hm; simp [PState.init] at hm
    · intro m hm; simp [PState.init] at hm
    · intro m hm; simp [PState.init] at hm
    · exact List.nodup_nil
  · intro c r hr; simp [PState.init] at hr
  · intro c r hr; simp [PState.init] at hr
  · intro c b _ h; exact absurd h (Nat.not_lt_zero _)

omit [DecidableEq C] [DecidableEq F] in
theorem rootAt_of_rows {db : PDb C F} {c : C} (hk : Keyed (db.roots c)) {n m : Nat} (hm : n ≤ m)
    (h : ∀ r ∈ db.roots c, r.1 ≤ m → r.1 ≤ n) : db.rootAt c m = db.rootAt c n := by
  unfold PDb.rootAt
  rw [latest_eq_of_no_between hk hm h]

omit [DecidableEq C] [DecidableEq F] in
theorem rootAt_none {db : PDb C F} {c : C} {n : Nat} (h : ∀ r ∈ db.roots c, n < r.1) : db.rootAt c n = none := by
  unfold PDb.rootAt
  rw [latest_none.2 h]
  rfl

omit [DecidableEq F] in
theorem leafWrite_foldl' (o : FeltOps F) [DecidableEq F] (c : Content F) (ws : List (List Bool × F)) :
    ws.foldl (leafWrite o) c = Content.writes o c ws := leafWrite_foldl c ws

theorem block_good (hH : 0 < H) (hH2 : H < 256) {s : PState C F} {tr : Track C}
    (h : Good o H mode s tr) (ups : List (Bool × C × List (List Bool × F))) (hop : OpOk o H s (.block ups)) :
    ∃ s' log, s.step o H mode (.block ups) = .ok (s', log) ∧
      Good o H mode s' (tr.step mode (POp.block ups : POp C F) log) := by
  obtain ⟨L, Lc, hI⟩ := h.inv
  obtain ⟨hnd, hws⟩ := hop
  have hlo := h.lo
  have hkeyed := hI.keyed
  -- the parent root
  have hpar : ∀ c, s.db.parentRoot s.next c = tr.parent s.next c := by
    intro c
    cases hn : s.next with
    | zero => rfl
    | succ p =>
      simp only [PDb.parentRoot, Track.parent]
      exact hI.roots c p (by omega) (by omega)
  have hcur : ∀ c, s.db.rootAt c s.next = tr.parent s.next c := by
    intro c
    rw [← hpar]
    cases hn : s.next with
    | zero =>
      apply rootAt_none
      intro r hr
      have := h.rows c r hr
      omega
    | succ p =>
      simp only [PDb.parentRoot]
      apply rootAt_of_rows (hkeyed c) (by omega)
      intro r hr _
      have := h.rows c r hr
      omega
  have hI' := hI.mono_lo (lo' := max tr.lo (lowest mode s.next)) (by omega)
  obtain ⟨db', log, cur', kc', Lc', e, hI2, hlog, hc', hr', hk', hun, hrow⟩ :=
    updates_ok hH hH2 (mode := mode) (src0 := s.db) (n := s.next) (leaf := s.headLeaf)
      (by intro kept hm; subst hm; simp only [lowest]; omega) ups s.db _ _ _ hI' hnd hws
      (fun u _ => ⟨hpar _, hpar _, rfl, hI'.scur _, fun _ _ => rfl⟩) hcur
  refine ⟨_, log, by simp only [PState.step, e, bind, Except.bind, pure, Except.pure]; rfl, ?_⟩
  have hcurEq : ∀ c, cur' c = (logUpdate log c).apply (tr.parent s.next c) := hc'
  refine ⟨?_, ?_, ?_, ?_, ⟨fun c b => if b = s.next then Lc' c else L c b, Lc', ?_⟩, ?_, ?_, ?_⟩
  · simp [Track.step, h.next]
  · simp only [Track.step, h.next]
    cases mode <;> simp only [lowest] <;> omega
  · intro hm
    subst hm
    simp [Track.step, lowest, h.lo0 rfl]
  · have := h.base; simp only [Track.step]; omega
  · have := hI2.close hr' (R' := (tr.step mode (POp.block ups : POp C F) log).root)
      (K' := fun b c => if b = s.next then (writesTo ups c).foldl (leafWrite o) (s.headLeaf c) else s.leaf b c)
      (by
        intro c b
        simp only [Track.step, h.next]
        split
        · rename_i hb; rw [hb]; exact (hcurEq c).symm
        · rfl)
      (by
        intro b c
        split
        · rw [hk', leafWrite_foldl']
        · rfl)
    have e1 : (tr.step mode (POp.block ups : POp C F) log).parent (s.next + 1) = cur' := by
      funext c
      simp only [Track.parent, Track.step, h.next, if_true]
      exact (hcurEq c).symm
    have e2 : PState.headLeaf (⟨db', s.next + 1, fun b c =>
        if b = s.next then (writesTo ups c).foldl (leafWrite o) (s.headLeaf c) else s.leaf b c,
        fun b => if b = s.next then (ups.filter fun u => !u.2.2.isEmpty).map (·.2.1) else s.touched b⟩ :
          PState C F) = kc' := by
      funext c
      rw [hk', ← leafWrite_foldl']
      simp only [PState.headLeaf, if_true]
    simp only
    rw [e1, e2]
    have e3 : (tr.step mode (POp.block ups : POp C F) log).lo = max tr.lo (lowest mode s.next) := by
      simp [Track.step, h.next]
    rw [e3]
    exact this
  · intro c r hr
    simp only at hr ⊢
    rcases hrow c r hr with h1 | ⟨h1, _⟩
    · have := h.rows c r h1; omega
    · omega
  · intro c r hr hb
    simp only at hr ⊢
    rcases hrow c r hr with h1 | ⟨h1, u, hu, h2, h3⟩
    · have := h.rows c r h1
      rw [if_neg (by omega)]
      exact h.touched c r h1 hb
    · rw [if_pos h1, List.mem_map]
      refine ⟨u, List.mem_filter.2 ⟨hu, ?_⟩, h2⟩
      simpa using h3
  · intro c b hb1 hb2 ht
    simp only at hb2 ht
    simp only [Track.step, h.next] at hb1 ⊢
    by_cases hb : b + 1 = s.next
    · rw [if_pos hb, if_neg (by omega)]
      rw [if_pos hb] at ht
      have : logUpdate log c = .unchanged := by
        apply hun
        intro u hu huc
        apply Classical.byContradiction
        intro hne
        apply ht
        rw [List.mem_map]
        exact ⟨u, List.mem_filter.2 ⟨hu, by simpa using hne⟩, huc⟩
      rw [this]
      rfl
    · rw [if_neg hb, if_neg (by omega)]
      rw [if_neg hb] at ht
      exact h.const c b hb1 (by omega) ht

omit [DecidableEq C] [DecidableEq F] in
theorem const_range {s : PState C F} {tr : Track C} {c : C} {t : Nat} (h : ∀ b, t ≤ b → b + 1 < s.next →
    c ∉ s.touched (b + 1) → tr.root c (b + 1) = tr.root c b) (hun : ∀ b, t < b → b < s.next → c ∉ s.touched b) :
    ∀ d, t + d < s.next → tr.root c (t + d) = tr.root c t := by
  intro d
  induction d with
  | zero => intro _; rfl
  | succ d ih =>
    intro hd
    have := h (t + d) (by omega) (by omega) (hun _ (by omega) (by omega))
    rw [← ih (by omega), ← this]
    rfl

omit [DecidableEq C] [DecidableEq F] in
theorem purgeDown_table (db : PDb C F) (first len : Nat) : (db.purgeDown first len).table = db.table := by
  induction len generalizing db with
  | zero => rfl
  | succ len ih => rw [PDb.purgeDown, ih]; rfl

theorem reorg_good (hH : 0 < H) (hH2 : H < 256) {s : PState C F} {tr : Track C}
    (h : Good o H mode s tr) (t : Nat) (revs : List (C × List (List Bool × F))) (hop : OpOk o H s (.reorg t revs))
    (hbase : mode ≠ none → tr.base ≤ t) :
    ∃ s' log, s.step o H mode (.reorg t revs) = .ok (s', log) ∧
      Good o H mode s' (tr.step mode (.reorg t revs : POp C F) log) := by
  obtain ⟨L, Lc, hI⟩ := h.inv
  obtain ⟨hlt, hnd, hws, hcont⟩ := hop
  have hlo := h.lo
  obtain ⟨hd, hnext⟩ : ∃ hd, s.next = hd + 1 := ⟨s.next - 1, by omega⟩
  have hth : t < hd := by omega
  have hheadroot : ∀ c, s.db.rootAt c hd = tr.root c hd := fun c => hI.roots c hd (by omega) (by omega)
  have hparent : tr.parent s.next = fun c => tr.root c hd := by rw [hnext]; rfl
  have hI' := (hI.mono_lo (lo' := max tr.lo (lowest mode t)) (by omega)).mono_hi (hi' := t) (by omega)
  obtain ⟨db', log, cur', kc', Lc', e, hI2, hlog, hc', hr', hk', hun, hun2, hrow, hkeep⟩ :=
    revert_ok hH hH2 (mode := mode) (head := hd) (t := t) hth (leaf := s.headLeaf)
      (by intro kept hm; subst hm; simp only [lowest]; omega) revs s.db _ _ _ hI' hnd hws
      (fun u _ => ⟨by rw [hheadroot, hparent], rfl⟩)
  have hI3 := (hI2.coalesce).purgeDown (first := t + 1) (by omega) (s.next - (t + 1))
  have hroots3 : ∀ c, ((db'.coalesce t).purgeDown (t + 1) (s.next - (t + 1))).roots c =
      (db'.roots c).filter fun r => !(decide (t + 1 ≤ r.1) && decide (r.1 < t + 1 + (s.next - (t + 1)))) := by
    intro c; rw [purgeDown_roots]; rfl
  -- root lookups at the target
  have hroot3 : ∀ c, ((db'.coalesce t).purgeDown (t + 1) (s.next - (t + 1))).rootAt c t = db'.rootAt c t := by
    intro c
    unfold PDb.rootAt
    rw [hroots3, latest_congr (rows' := db'.roots c) (hI2.keyed c)]
    intro r hr
    simp
    omega
  have htab3 : ((db'.coalesce t).purgeDown (t + 1) (s.next - (t + 1))).table = db'.table := purgeDown_table _ _ _
  -- the root at the target is what the bookkeeping says
  have hspec : ∀ c, (logUpdate log c).apply (s.db.rootAt c t) = (logUpdate log c).apply (tr.root c t) ∧
      ∃ L3, Stored o db'.table H ((logUpdate log c).apply (tr.root c t)) (s.leaf t c) L3 ∧ L3.Nodup ∧
        (mode ≠ none → ∀ i ∈ L3, i ∈ Lc' c) := by
    intro c
    have hempt : s.leaf t c = Content.empty → tr.root c t = none ∧ s.db.rootAt c t = none := by
      intro he
      have h1 := hI.empt c t (by omega) he
      refine ⟨h1, ?_⟩
      rcases hI.weak c t (by omega) with h2 | h2
      · rw [h2, h1]
      · exact h2
    have hkept' : cur' c = (logUpdate log c).apply (tr.root c t) → kc' c = s.leaf t c →
        ∃ L3, Stored o db'.table H ((logUpdate log c).apply (tr.root c t)) (s.leaf t c) L3 ∧ L3.Nodup ∧
        (mode ≠ none → ∀ i ∈ L3, i ∈ Lc' c) := by
      intro h1 h2
      rw [← h1, ← h2]
      exact ⟨Lc' c, hI2.scur c, hI2.ncur c, fun _ i hi => hi⟩
    by_cases hrw : revWrites revs c = []
    · have hlu := hun c hrw
      have hcurc : cur' c = tr.root c hd := by rw [hc' c, hlu, hparent]; rfl
      rw [hlu] at hkept' ⊢
      simp only [RootIndexUpdate.apply] at hkept' ⊢
      rcases (hcont c).2 hrw with ⟨h1, h2⟩ | h1
      · by_cases hmode : mode = none
        · -- nothing is ever deleted: the old trie is still there
          have hlo0 := h.lo0 hmode
          refine ⟨hI.roots c t (by omega) (by omega), L c t, ?_, hI.ond hmode c t (by omega) (by omega),
            fun hm => absurd hmode hm⟩
          have hst := hI.stored c t (by omega) (by omega)
          refine hst.mono ?_
          intro j hj
          obtain ⟨x, hx⟩ := hst.row j hj
          rw [hx]
          exact hkeep hmode j x hx
        · have hbase := hbase hmode
          have hconst : tr.root c hd = tr.root c t := by
            have := const_range (s := s) (tr := tr) (c := c) (t := t)
              (fun b hb => h.const c b (by omega)) h2 (hd - t) (by omega)
            rwa [show t + (hd - t) = hd by omega] at this
          have hat : s.db.rootAt c t = tr.root c t := by
            rw [← hconst, ← hheadroot c]
            symm
            apply rootAt_of_rows (hI.keyed c) (by omega)
            intro r hr _
            apply Classical.byContradiction
            intro hgt
            exact h2 r.1 (by omega) (h.rows c r hr) (h.touched c r hr (by omega))
          refine ⟨hat, hkept' (by rw [hcurc, hconst]) ?_⟩
          rw [hk' c, hrw, h1]
          rfl
      · obtain ⟨h2, h3⟩ := hempt h1
        rw [h2, h3, h1]
        exact ⟨rfl, [], ⟨rfl, rfl⟩, List.nodup_nil, fun _ i hi => by simp at hi⟩
    · have hkc : kc' c = s.leaf t c := by rw [hk' c]; exact (hcont c).1 hrw
      cases hlu : logUpdate log c with
      | unchanged =>
        obtain ⟨h1, h2⟩ := hun2 c hrw hlu
        rw [hkc] at h2
        obtain ⟨h3, h4⟩ := hempt h2
        simp only [RootIndexUpdate.apply]
        rw [h2, h3, h4]
        exact ⟨rfl, [], ⟨rfl, rfl⟩, List.nodup_nil, fun _ i hi => by simp at hi⟩
      | updated i => exact ⟨rfl, hlu ▸ hkept' (by rw [hc' c, hlu]; rfl) hkc⟩
      | trieEmpty => exact ⟨rfl, hlu ▸ hkept' (by rw [hc' c, hlu]; rfl) hkc⟩
  have hL3 := fun c => (hspec c).2
  obtain ⟨Lc3, hLc3⟩ := Classical.axiomOfChoice hL3
  have hI4 := (hI3.vacuous (lo' := min (max tr.lo (lowest mode t)) t) (by omega)).switch
    (cur' := fun c => (logUpdate log c).apply (tr.root c t)) (kc' := s.leaf t) (Lc' := Lc3)
    (fun c => by rw [htab3]; exact (hLc3 c).1) (fun c => (hLc3 c).2.1) (fun hm c => (hLc3 c).2.2 hm)
  have hI5 := hI4.close (R' := (tr.step mode (.reorg t revs : POp C F) log).root) (K' := s.leaf)
    (by
      intro c
      rw [hroot3, hr' c, (hspec c).1])
    (by
      intro c b
      simp only [Track.step]
      split
      · rename_i hb; rw [hb]
      · rfl)
    (by
      intro b c
      split
      · rename_i hb; rw [hb]
      · rfl)
  refine ⟨_, log, by simp only [PState.step, hnext, Nat.add_sub_cancel, e, bind, Except.bind, pure, Except.pure]; rfl, ?_⟩
  rw [← hnext]
  have ecur : (fun c => (logUpdate log c).apply (tr.root c t)) =
      (tr.step mode (.reorg t revs : POp C F) log).parent (t + 1) := by
    funext c
    simp only [Track.parent, Track.step, if_true]
  rw [ecur] at hI5
  refine ⟨rfl, ?_, ?_, ?_, ⟨_, _, hI5⟩, ?_, ?_, ?_⟩
  · simp only [Track.step]; omega
  · intro hm
    subst hm
    have := h.lo0 rfl
    simp only [Track.step, lowest]
    omega
  · simp only [Track.step]; omega
  · intro c r hr
    simp only at hr ⊢
    rw [hroots3] at hr
    obtain ⟨h1, h2⟩ := List.mem_filter.1 hr
    rcases hrow c r h1 with h3 | h3
    · have := h.rows c r h3
      simp at h2
      omega
    · omega
  · intro c r hr hb
    simp only [Track.step] at hr hb
    rw [hroots3] at hr
    obtain ⟨h1, h2⟩ := List.mem_filter.1 hr
    rcases hrow c r h1 with h3 | h3
    · have := h.rows c r h3
      simp at h2
      omega
    · omega
  · intro c b hb1 hb2
    simp only [Track.step] at hb1 hb2
    omega

theorem reorgAll_good {s : PState C F} {tr : Track C}
    (h : Good o H mode s tr) :
    ∃ s' log, s.step o H mode .reorgAll = .ok (s', log) ∧
      Good o H mode s' (tr.step mode (.reorgAll : POp C F) log) := by
  obtain ⟨L, Lc, hI⟩ := h.inv
  have hI1 := (hI.mono_hi (Nat.zero_le _)).purgeDown (first := 0) (Nat.le_refl 0) s.next
  have hI2 := (hI1.vacuous (lo' := 0) (by omega)).switch (cur' := fun _ => none) (kc' := fun _ => Content.empty)
    (Lc' := fun _ => []) (fun _ => ⟨rfl, rfl⟩) (fun _ => List.nodup_nil) (fun _ _ i hi => by simp at hi)
  refine ⟨_, [], rfl, rfl, Nat.zero_le _, fun _ => rfl, Nat.zero_le _, ⟨L, _, hI2⟩, ?_, ?_, ?_⟩
  · intro c r hr
    simp only at hr
    rw [purgeDown_roots] at hr
    obtain ⟨h1, h2⟩ := List.mem_filter.1 hr
    have := h.rows c r h1
    simp at h2
    omega
  · intro c r hr
    simp only at hr
    rw [purgeDown_roots] at hr
    obtain ⟨h1, h2⟩ := List.mem_filter.1 hr
    have := h.rows c r h1
    simp at h2
    omega
  · intro c b _ hb
    simp only at hb
    omega

theorem Stored.readable (hH : 0 < H) (hH2 : H < 256) {T : Table F} {root : Option Nat} {c : Content F} {L : List Nat}
    (h : Stored o T H root c L) : Readable o H T root c := by
  constructor
  · intro ops hops
    obtain ⟨t, e, _⟩ := run_ok hH ops (open_ok h) hops
    exact ⟨t, e⟩
  · intro ws hws
    obtain ⟨t, et, ht, _⟩ := setMany_ok hH ws hws (open_ok h)
    obtain ⟨u, eu, hu, _⟩ := commit_ok hH hH2 ht
    exact ⟨u, by simp only [computeUpdate, bind, Except.bind, et, eu], hu⟩

end Verif.Trie
