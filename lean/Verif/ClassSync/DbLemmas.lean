import Verif.ClassSync.Lemmas

namespace Verif.ClassSync
open Spec

/-- What holds of the tables while blocks below `top` are or are being stored. -/
structure DbInv (top : Nat) (db : Db) : Prop where
  uniq : (db.rows.map (·.hash)).Nodup
  low : ∀ r ∈ db.rows, ∀ m, r.block = some m → m < top
  red : ∀ x ∈ db.redeclared, x.2 < top ∧ ∃ r ∈ db.rows, r.hash = x.1 ∧ ∃ m, r.block = some m ∧ m < x.2
  redN : db.redeclared.Nodup

theorem row_unique {rows : List Row} (h : (rows.map (·.hash)).Nodup) {r r' : Row} (hr : r ∈ rows) (hr' : r' ∈ rows)
    (e : r.hash = r'.hash) : r = r' := by
  induction rows with
  | nil => cases hr
  | cons x rows ih =>
    simp only [List.map_cons, List.nodup_cons, List.mem_map, not_exists, not_and] at h
    rcases List.mem_cons.mp hr with h1 | h1 <;> rcases List.mem_cons.mp hr' with h2 | h2
    · rw [h1, h2]
    · subst h1; exact absurd e.symm (h.1 r' h2)
    · subst h2; exact absurd e (h.1 r h1)
    · exact ih h.2 h1 h2

/-- Changing rows without their hashes. -/
theorem map_hash {rows : List Row} {f : Row → Row} (hf : ∀ r, (f r).hash = r.hash) :
    (rows.map f).map (·.hash) = rows.map (·.hash) := by
  rw [List.map_map]
  apply List.map_congr_left
  intro r _; exact hf r

theorem upsert_inv {top : Nat} {db : Db} (h : DbInv top db) (hb : db.blocks < top) (k : Nat) :
    DbInv top (db.upsert k).1 ∧ (db.upsert k).1.redeclared = db.redeclared ∧ (db.upsert k).1.blocks = db.blocks ∧
      ∃ r ∈ (db.upsert k).1.rows, r.hash = k ∧ r.block = (db.upsert k).2 ∧ ∃ m, (db.upsert k).2 = some m := by
  unfold Db.upsert
  cases hf : db.rows.find? (·.hash == k) with
  | none =>
    refine ⟨⟨?_, ?_, ?_, h.redN⟩, rfl, rfl, _, List.mem_append_right _ List.mem_cons_self, rfl, rfl, _, rfl⟩
    · simp only [List.map_append, List.map_cons, List.map_nil]
      rw [List.nodup_append]
      refine ⟨h.uniq, by simp, ?_⟩
      intro a ha b hb' e
      simp only [List.mem_cons, List.not_mem_nil, or_false] at hb'
      obtain ⟨r, hr, rfl⟩ := List.mem_map.mp ha
      have := List.find?_eq_none.mp hf r hr
      simp at this
      exact this (by rw [e, hb'])
    · intro r hr m hm
      rcases List.mem_append.mp hr with hr | hr
      · exact h.low r hr m hm
      · simp only [List.mem_cons, List.not_mem_nil, or_false] at hr
        subst hr
        simp only [Option.some.injEq] at hm
        omega
    · intro x hx
      obtain ⟨h1, r, hr, h2⟩ := h.red x hx
      exact ⟨h1, r, List.mem_append_left _ hr, h2⟩
  | some r0 =>
    have hr0 : r0 ∈ db.rows := List.mem_of_find?_eq_some hf
    have hk : r0.hash = k := by simpa using List.find?_some hf
    refine ⟨⟨?_, ?_, ?_, h.redN⟩, rfl, rfl, _, List.mem_map.mpr ⟨r0, hr0, rfl⟩, ?_, ?_, ?_⟩
    · show ((db.rows.map (fun _ => _)).map Row.hash).Nodup
      rw [map_hash (by intro r; split <;> rfl)]
      exact h.uniq
    · intro r hr m hm
      obtain ⟨r', hr', rfl⟩ := List.mem_map.mp hr
      split at hm
      · cases hb' : r'.block with
        | none => rw [hb'] at hm; simp at hm; omega
        | some m' =>
          rw [hb'] at hm; simp at hm
          have := h.low r' hr' m' hb'
          omega
      · exact h.low r' hr' m hm
    · intro x hx
      obtain ⟨h1, r, hr, h2, m, h3, h4⟩ := h.red x hx
      refine ⟨h1, _, List.mem_map.mpr ⟨r, hr, rfl⟩, ?_, m, ?_, h4⟩
      · split <;> exact h2
      · split
        · simp [h3]
        · exact h3
    · rw [if_pos hk]; exact hk
    · rw [if_pos hk]
    · cases hb' : r0.block with
      | none => exact ⟨db.blocks, by simp [hb']⟩
      | some m => exact ⟨m, by simp [hb']⟩

theorem declare_inv {top : Nat} {db : Db} (h : DbInv top db) (hb : top = db.blocks + 1) (k : Nat)
    (hn : (k, db.blocks) ∉ db.redeclared) :
    DbInv top (db.declare k) ∧ (db.declare k).blocks = db.blocks ∧
      ∀ x ∈ (db.declare k).redeclared, x ∈ db.redeclared ∨ x = (k, db.blocks) := by
  obtain ⟨h1, h2, h3, r, hr, hk, hrb, m, hm⟩ := upsert_inv h (by omega) k
  unfold Db.declare
  cases hu : db.upsert k with
  | mk db' b =>
    rw [hu] at h1 h2 h3 hr hrb hm
    simp only at h1 h2 h3 hr hrb hm ⊢
    split
    · exact ⟨h1, h3, fun x hx => .inl (by rw [h2] at hx; exact hx)⟩
    · next hne =>
      refine ⟨⟨h1.uniq, h1.low, ?_, ?_⟩, h3, ?_⟩
      · intro x hx
        rcases List.mem_append.mp hx with hx | hx
        · exact h1.red x hx
        · simp only [List.mem_cons, List.not_mem_nil, or_false] at hx
          subst hx
          refine ⟨by simp only; omega, r, hr, hk, m, by rw [hrb, hm], ?_⟩
          have := h1.low r hr m (by rw [hrb, hm])
          have : m ≠ db.blocks := fun e => hne (by rw [hm, e])
          simp only
          omega
      · rw [List.nodup_append]
        refine ⟨h1.redN, by simp, ?_⟩
        intro a ha b hb' e
        simp only [List.mem_cons, List.not_mem_nil, or_false] at hb'
        rw [h2] at ha
        exact hn (by rw [← hb', ← e]; exact ha)
      · intro x hx
        rcases List.mem_append.mp hx with hx | hx
        · exact .inl (by rw [h2] at hx; exact hx)
        · exact .inr (by simpa using hx)

theorem declares_inv {top : Nat} (l : List Nat) : ∀ {db : Db}, DbInv top db → top = db.blocks + 1 → l.Nodup →
    (∀ k ∈ l, (k, db.blocks) ∉ db.redeclared) →
    DbInv top (l.foldl Db.declare db) ∧ (l.foldl Db.declare db).blocks = db.blocks := by
  induction l with
  | nil => intro db h _ _ _; exact ⟨h, rfl⟩
  | cons k l ih =>
    intro db h ht hn hk
    obtain ⟨h1, h2, h3⟩ := declare_inv h ht k (hk k List.mem_cons_self)
    have hn' := List.nodup_cons.mp hn
    obtain ⟨h4, h5⟩ := ih h1 (by rw [h2]; exact ht) hn'.2 (by
      intro j hj hmem
      rw [h2] at hmem
      rcases h3 _ hmem with h | h
      · exact hk j (List.mem_cons_of_mem _ hj) h
      · simp only [Prod.mk.injEq, and_true] at h
        exact hn'.1 (h ▸ hj))
    exact ⟨h4, by rw [List.foldl_cons, h5, h2]⟩

theorem upserts_inv {top : Nat} (l : List Nat) : ∀ {db : Db}, DbInv top db → db.blocks < top →
    DbInv top (l.foldl (fun s h => (s.upsert h).1) db) := by
  induction l with
  | nil => intro db h _; exact h
  | cons k l ih =>
    intro db h ht
    obtain ⟨h1, _, h3, _⟩ := upsert_inv h ht k
    exact ih h1 (by rw [h3]; exact ht)

theorem reach_inv {db : Db} (r : DbReach db) : DbInv db.blocks db := by
  induction r with
  | init => exact ⟨by simp, fun r hr => (by cases hr), fun x hx => (by cases hx), by simp⟩
  | @store db r declared deployed hd ih =>
    have h0 : DbInv (db.blocks + 1) db := ⟨ih.uniq, fun r hr m hm => Nat.lt_succ_of_lt (ih.low r hr m hm),
      fun x hx => ⟨Nat.lt_succ_of_lt (ih.red x hx).1, (ih.red x hx).2⟩, ih.redN⟩
    obtain ⟨h1, h2⟩ := declares_inv declared h0 rfl hd (fun k _ hx => Nat.lt_irrefl _ (ih.red _ hx).1)
    have h3 := upserts_inv deployed h1 (by rw [h2]; exact Nat.lt_succ_self _)
    exact ⟨h3.uniq, h3.low, h3.red, h3.redN⟩
  | @purge db r hpos ih =>
    refine ⟨?_, ?_, ?_, ih.redN.filter _⟩
    · show ((db.rows.map (fun _ => _)).map Row.hash).Nodup
      rw [map_hash (by intro r; split <;> rfl)]
      exact ih.uniq
    · intro r hr m hm
      obtain ⟨r', hr', rfl⟩ := List.mem_map.mp hr
      show m < db.blocks - 1
      split at hm
      · cases hm
      · next hne =>
        have := ih.low r' hr' m hm
        have : m ≠ db.blocks - 1 := fun e => hne (by rw [hm, e])
        omega
    · intro x hx
      obtain ⟨hx1, hx2⟩ := List.mem_filter.mp hx
      obtain ⟨h1, r, hr, h2, m, h3, h4⟩ := ih.red x hx1
      have hne : x.2 ≠ db.blocks - 1 := by simpa using hx2
      refine ⟨by show x.2 < db.blocks - 1; omega, _, List.mem_map.mpr ⟨r, hr, rfl⟩, ?_, m, ?_, h4⟩
      · split <;> exact h2
      · rw [if_neg]
        · exact h3
        · rw [h3]
          simp only [Option.some.injEq]
          omega
  | @persist db r c ih =>
    refine ⟨?_, ?_, ?_, ih.redN⟩
    · show ((db.rows.map (fun _ => _)).map Row.hash).Nodup
      rw [map_hash (by intro r; split <;> rfl)]
      exact ih.uniq
    · intro r hr m hm
      obtain ⟨r', hr', rfl⟩ := List.mem_map.mp hr
      refine ih.low r' hr' m ?_
      split at hm <;> exact hm
    · intro x hx
      obtain ⟨h1, r, hr, h2, m, h3, h4⟩ := ih.red x hx
      refine ⟨h1, _, List.mem_map.mpr ⟨r, hr, rfl⟩, ?_, m, ?_, h4⟩
      · split <;> exact h2
      · split <;> exact h3

theorem declaredAt_nodup {db : Db} (r : DbReach db) (b : Nat) (l : List Nat) (h : db.declaredAt b = some l) : l.Nodup := by
  have inv := reach_inv r
  unfold Db.declaredAt at h
  split at h
  · cases h
    rw [List.nodup_append]
    refine ⟨?_, ?_, ?_⟩
    · exact (List.Sublist.map _ List.filter_sublist).nodup inv.uniq
    · have hn := inv.redN
      have : ∀ (l : List (Nat × Nat)), l.Nodup → ((l.filter fun x => x.2 = b).map (·.1)).Nodup := by
        intro l
        induction l with
        | nil => intro _; simp
        | cons x l ih =>
          intro h
          have h' := List.nodup_cons.mp h
          rw [List.filter_cons]
          split
          · next hx =>
            rw [List.map_cons, List.nodup_cons]
            refine ⟨?_, ih h'.2⟩
            intro hm
            obtain ⟨y, hy, e⟩ := List.mem_map.mp hm
            obtain ⟨hy1, hy2⟩ := List.mem_filter.mp hy
            have : y = x := Prod.ext e (by rw [of_decide_eq_true hy2, of_decide_eq_true hx])
            exact h'.1 (this ▸ hy1)
          · exact ih h'.2
      exact this _ hn
    · intro a ha c hc e
      subst e
      obtain ⟨r, hr, rfl⟩ := List.mem_map.mp ha
      obtain ⟨hr1, hr2⟩ := List.mem_filter.mp hr
      obtain ⟨x, hx, hxe⟩ := List.mem_map.mp hc
      obtain ⟨hx1, hx2⟩ := List.mem_filter.mp hx
      obtain ⟨_, r', hr', h2, m, h3, h4⟩ := inv.red x hx1
      have : r' = r := row_unique inv.uniq hr' hr1 (by rw [h2, hxe])
      subst this
      rw [of_decide_eq_true hr2] at h3
      rw [of_decide_eq_true hx2] at h4
      cases h3
      omega
  · cases h

/-! ### Writing -/

theorem persist_fold (l : List Compiled) : ∀ (db : Db) (i : Nat) (row : Row), db.rows[i]? = some row →
    ∃ row', (l.foldl Db.persist db).rows[i]? = some row' ∧ row'.hash = row.hash ∧ row'.block = row.block ∧
      ((row'.defn = row.defn ∧ ∀ c ∈ l, c.raw.hash ≠ row.hash) ∨
        ∃ c ∈ l, c.raw.hash = row.hash ∧ row'.defn = some c.raw.defn) := by
  induction l with
  | nil => intro db i row h; exact ⟨row, h, rfl, rfl, .inl ⟨rfl, fun c hc => (by cases hc)⟩⟩
  | cons c l ih =>
    intro db i row h
    by_cases e : row.hash = c.raw.hash
    · have h1 : (db.persist c).rows[i]? = some { row with defn := some c.raw.defn } := by
        show (db.rows.map _)[i]? = _
        rw [List.getElem?_map, h]
        simp [e]
      obtain ⟨row', h2, h3, h4, h5⟩ := ih (db.persist c) i _ h1
      refine ⟨row', h2, h3, h4, .inr ?_⟩
      rcases h5 with ⟨h5, _⟩ | ⟨c', hc', h5, h6⟩
      · exact ⟨c, List.mem_cons_self, e.symm, h5⟩
      · exact ⟨c', List.mem_cons_of_mem _ hc', h5, h6⟩
    · have h1 : (db.persist c).rows[i]? = some row := by
        show (db.rows.map _)[i]? = _
        rw [List.getElem?_map, h]
        simp [e]
      obtain ⟨row', h2, h3, h4, h5⟩ := ih (db.persist c) i _ h1
      refine ⟨row', h2, h3, h4, ?_⟩
      rcases h5 with ⟨h5, h6⟩ | ⟨c', hc', h5, h6⟩
      · refine .inl ⟨h5, ?_⟩
        intro c' hc'
        rcases List.mem_cons.mp hc' with rfl | hc'
        · exact fun x => e x.symm
        · exact h6 c' hc'
      · exact .inr ⟨c', List.mem_cons_of_mem _ hc', h5, h6⟩

theorem persist_length (l : List Compiled) : ∀ db : Db, (l.foldl Db.persist db).rows.length = db.rows.length := by
  induction l with
  | nil => intro db; rfl
  | cons c l ih => intro db; rw [List.foldl_cons, ih]; simp [Db.persist]

theorem persist_casm (l : List Compiled) : ∀ (db : Db) (c : Compiled) (x : Nat), c ∈ l → c.casm = some x →
    ∃ y, (l.foldl Db.persist db).casm c.raw.hash = some y := by
  have keep : ∀ (l : List Compiled) (db : Db) (h y : Nat), db.casm h = some y →
      ∃ z, (l.foldl Db.persist db).casm h = some z := by
    intro l
    induction l with
    | nil => intro db h y e; exact ⟨y, e⟩
    | cons c l ih =>
      intro db h y e
      rw [List.foldl_cons]
      by_cases eh : h = c.raw.hash
      · cases hc : c.casm with
        | none => exact ih _ h y (by simp [Db.persist, eh, hc]; rw [← eh]; exact e)
        | some z => exact ih _ h z (by simp [Db.persist, eh, hc])
      · exact ih _ h y (by simp [Db.persist, eh]; exact e)
  induction l with
  | nil => intro db c x hc; cases hc
  | cons d l ih =>
    intro db c x hc hx
    rw [List.foldl_cons]
    rcases List.mem_cons.mp hc with rfl | hc
    · exact keep l _ c.raw.hash x (by simp [Db.persist, hx])
    · exact ih _ c x hc hx

/-! ### The last stage -/

theorem compile_ok {P : Type} {lib : Lib} {x : P × Raw} {c : Compiled} (h : compile lib x = .ok c) :
    c.raw = x.2 ∧ (x.2.defn.sierra = true → ∃ y, c.casm = some y ∧ lib.casmOf x.2.defn x.2.hash = some y) := by
  unfold compile at h
  split at h
  · split at h
    · cases h
    · next y hy => cases h; exact ⟨rfl, fun _ => ⟨y, rfl, hy⟩⟩
  · next hs => cases h; exact ⟨rfl, fun h => absurd h hs⟩

theorem compile_error {P : Type} {lib : Lib} {x : P × Raw} {e : Err P} (h : compile lib x = .error e) :
    e = .casm ∧ x.2.defn.sierra = true ∧ lib.casmOf x.2.defn x.2.hash = none := by
  unfold compile at h
  split at h
  · next hs =>
    split at h
    · next hn => cases h; exact ⟨rfl, hs, hn⟩
    · cases h
  · cases h

theorem map_compile {P : Type} {lib : Lib} : ∀ {a : List (P × Raw)} {b : List Compiled}, a.map (compile lib) = b.map .ok →
    b.map (·.raw) = a.map (·.2) ∧
      ∀ c ∈ b, c.raw.defn.sierra = true → ∃ y, c.casm = some y ∧ lib.casmOf c.raw.defn c.raw.hash = some y := by
  intro a
  induction a with
  | nil => intro b hb; cases b with | nil => exact ⟨rfl, fun c hc => (by cases hc)⟩ | cons => cases hb
  | cons x a ih =>
    intro b hb
    cases b with
    | nil => cases hb
    | cons y b =>
      simp only [List.map_cons, List.cons.injEq] at hb
      obtain ⟨h1, h2⟩ := compile_ok hb.1
      obtain ⟨h3, h4⟩ := ih hb.2
      refine ⟨by rw [List.map_cons, List.map_cons, h1, h3], ?_⟩
      intro c hc
      rcases List.mem_cons.mp hc with rfl | hc
      · rw [h1]; exact h2
      · exact h4 c hc

/-- The whole of `run` in terms of its stages. -/
theorem run_spec {P : Type} (lib : Lib) (pick : List (Err P) → Nat) (n : Nat) (expected : List (Except Unit (Nat × List Nat)))
    (feed : Feed P (P × Raw)) :
    let o := run lib pick n expected feed
    let d := verifyDeclared (checked lib pick n feed).fail expected (checked lib pick n feed).items.flatten
    (o.written.map (·.raw) <+: d.items.map (·.2)) ∧
    (∀ c ∈ o.written, c.raw.defn.sierra = true → ∃ y, c.casm = some y ∧ lib.casmOf c.raw.defn c.raw.hash = some y) ∧
    (o.fail = none → o.written.map (·.raw) = d.items.map (·.2) ∧ d.fail = none) ∧
    (∀ e, o.fail = some e → d.fail = some e ∨
      (e = .casm ∧ ∃ x ∈ d.items, x.2.defn.sierra = true ∧ lib.casmOf x.2.defn x.2.hash = none)) := by
  intro o d
  obtain ⟨⟨pre, hp, hm, hn⟩, he⟩ := chunked_spec (compile lib) pick n d
  have hm : pre.map (compile lib) = o.written.map .ok := hm
  obtain ⟨h1, h2⟩ := map_compile hm
  refine ⟨?_, h2, ?_, ?_⟩
  · rw [h1]; exact hp.map _
  · intro hf
    obtain ⟨h3, h4⟩ := hn hf
    exact ⟨by rw [h1, h3], h4⟩
  · intro e hf
    rcases he e hf with h | ⟨x, hx, h⟩
    · exact .inl h
    · obtain ⟨h3, h4, h5⟩ := compile_error h
      exact .inr ⟨h3, x, hx, h4, h5⟩

end Verif.ClassSync
