import Verif.ClassSync.DbLemmas

/-!
C79: what is expected of a block is what it declares.
-/

namespace Verif.ClassSync
open Spec

/-- Class `h` has a row with block `m`. -/
def Db.At (db : Db) (h m : Nat) : Prop := ∃ r ∈ db.rows, r.hash = h ∧ r.block = some m

theorem mem_declaredAt {db : Db} {b : Nat} {l : List Nat} (hl : db.declaredAt b = some l) (h : Nat) :
    h ∈ l ↔ db.At h b ∨ (h, b) ∈ db.redeclared := by
  unfold Db.declaredAt at hl
  split at hl
  · cases hl
    rw [List.mem_append]
    constructor
    · rintro (hx | hx)
      · obtain ⟨r, hr, e⟩ := List.mem_map.mp hx
        obtain ⟨h1, h2⟩ := List.mem_filter.mp hr
        exact .inl ⟨r, h1, e, of_decide_eq_true h2⟩
      · obtain ⟨x, hx', e⟩ := List.mem_map.mp hx
        obtain ⟨h1, h2⟩ := List.mem_filter.mp hx'
        refine .inr ?_
        have : x = (h, b) := Prod.ext e (of_decide_eq_true h2)
        exact this ▸ h1
    · rintro (⟨r, hr, e, hb⟩ | hx)
      · exact .inl (List.mem_map.mpr ⟨r, List.mem_filter.mpr ⟨hr, decide_eq_true hb⟩, e⟩)
      · exact .inr (List.mem_map.mpr ⟨(h, b), List.mem_filter.mpr ⟨hx, by simp⟩, rfl⟩)
  · cases hl

theorem at_upsert {db : Db} (u : (db.rows.map (·.hash)).Nodup) (k h m : Nat) :
    (db.upsert k).1.At h m ↔ db.At h m ∨ (h = k ∧ m = db.blocks ∧ ∀ m', ¬ db.At k m') := by
  unfold Db.upsert
  cases hf : db.rows.find? (·.hash == k) with
  | none =>
    have hno : ∀ r ∈ db.rows, r.hash ≠ k := by
      intro r hr e
      have := List.find?_eq_none.mp hf r hr
      simp [e] at this
    constructor
    · rintro ⟨r, hr, e, hb⟩
      rcases List.mem_append.mp hr with hr | hr
      · exact .inl ⟨r, hr, e, hb⟩
      · simp only [List.mem_cons, List.not_mem_nil, or_false] at hr
        subst hr
        refine .inr ⟨e.symm, (Option.some.inj hb).symm, ?_⟩
        rintro m' ⟨r', hr', e', _⟩
        exact hno r' hr' e'
    · rintro (⟨r, hr, e, hb⟩ | ⟨e1, e2, _⟩)
      · exact ⟨r, List.mem_append_left _ hr, e, hb⟩
      · subst e1; subst e2
        exact ⟨_, List.mem_append_right _ List.mem_cons_self, rfl, rfl⟩
  | some r0 =>
    have hr0 : r0 ∈ db.rows := List.mem_of_find?_eq_some hf
    have hk : r0.hash = k := by simpa using List.find?_some hf
    constructor
    · rintro ⟨r, hr, e, hb⟩
      obtain ⟨r', hr', rfl⟩ := List.mem_map.mp hr
      split at hb
      · next hrk =>
        rw [if_pos hrk] at e
        cases hb' : r'.block with
        | none =>
          rw [hb'] at hb
          simp at hb
          refine .inr ⟨by rw [← e, hrk], hb.symm, ?_⟩
          rintro m' ⟨r'', hr'', e'', hm''⟩
          have : r'' = r' := row_unique u hr'' hr' (by rw [e'', hrk])
          subst this
          rw [hb'] at hm''; cases hm''
        | some m' =>
          rw [hb'] at hb
          simp at hb
          subst hb
          exact .inl ⟨r', hr', e, hb'⟩
      · next hrk =>
        rw [if_neg hrk] at e
        exact .inl ⟨r', hr', e, hb⟩
    · rintro (⟨r, hr, e, hb⟩ | ⟨e1, e2, hno⟩)
      · refine ⟨_, List.mem_map.mpr ⟨r, hr, rfl⟩, ?_, ?_⟩
        · split <;> exact e
        · split
          · simp [hb]
          · exact hb
      · subst e1; subst e2
        refine ⟨_, List.mem_map.mpr ⟨r0, hr0, rfl⟩, ?_, ?_⟩
        · rw [if_pos hk]; exact hk
        · rw [if_pos hk]
          cases hb' : r0.block with
          | none => simp
          | some m' => exact absurd ⟨r0, hr0, hk, hb'⟩ (hno m')

theorem at_unique {db : Db} (u : (db.rows.map (·.hash)).Nodup) {h m m' : Nat} (a : db.At h m) (a' : db.At h m') : m = m' := by
  obtain ⟨r, hr, e, hb⟩ := a
  obtain ⟨r', hr', e', hb'⟩ := a'
  have : r = r' := row_unique u hr hr' (by rw [e, e'])
  subst this
  rw [hb] at hb'
  exact Option.some.inj hb'

theorem at_declare {top : Nat} {db : Db} (i : DbInv top db) (hb : top = db.blocks + 1) (k h m : Nat) :
    ((db.declare k).At h m ↔ db.At h m ∨ (h = k ∧ m = db.blocks ∧ ∀ m', ¬ db.At k m')) ∧
    (∀ x, x ∈ (db.declare k).redeclared ↔ x ∈ db.redeclared ∨ (x = (k, db.blocks) ∧ ∃ m', db.At k m' ∧ m' ≠ db.blocks)) := by
  obtain ⟨h1, h2, h3, r, hr, hk, hrb, m0, hm0⟩ := upsert_inv i (by omega) k
  have ha := at_upsert i.uniq k
  have at0 : (db.upsert k).1.At k m0 := ⟨r, hr, hk, by rw [hrb, hm0]⟩
  unfold Db.declare
  cases hu : db.upsert k with
  | mk db' b =>
    rw [hu] at ha h2 hm0 at0 h1
    simp only at ha h2 hm0 at0 h1 ⊢
    split
    · next he =>
      refine ⟨ha h m, fun x => ?_⟩
      rw [h2]
      constructor
      · exact .inl
      · rintro (hx | ⟨_, m', hm', hne⟩)
        · exact hx
        · exfalso
          have e1 : m0 = m' := at_unique h1.uniq at0 ((ha k m').mpr (.inl hm'))
          rw [hm0] at he
          exact hne (by rw [← e1]; exact Option.some.inj he)
    · next he =>
      refine ⟨ha h m, fun x => ?_⟩
      rw [List.mem_append, h2]
      have hne : m0 ≠ db.blocks := fun e => he (by rw [hm0, e])
      have hat : db.At k m0 := by
        rcases (ha k m0).mp at0 with h | ⟨_, h, _⟩
        · exact h
        · exact absurd h hne
      simp only [List.mem_cons, List.not_mem_nil, or_false]
      constructor
      · rintro (hx | hx)
        · exact .inl hx
        · exact .inr ⟨hx, m0, hat, hne⟩
      · rintro (hx | ⟨hx, _⟩)
        · exact .inl hx
        · exact .inr hx

/-- What declaring a list does to the tables. -/
theorem at_declares {top : Nat} (l : List Nat) : ∀ {db : Db}, DbInv top db → top = db.blocks + 1 → l.Nodup →
    (∀ k, (k, db.blocks) ∈ db.redeclared → k ∉ l) → ∀ h m,
    ((l.foldl Db.declare db).At h m ↔ db.At h m ∨ (h ∈ l ∧ m = db.blocks ∧ ∀ m', ¬ db.At h m')) ∧
    (∀ x, x ∈ (l.foldl Db.declare db).redeclared ↔
      x ∈ db.redeclared ∨ (x.1 ∈ l ∧ x.2 = db.blocks ∧ ∃ m', db.At x.1 m' ∧ m' ≠ db.blocks)) := by
  induction l with
  | nil => intro db _ _ _ _ h m; simp
  | cons k l ih =>
    intro db i ht hn hr h m
    have hn' := List.nodup_cons.mp hn
    have hnk : (k, db.blocks) ∉ db.redeclared := fun hx => hr k hx List.mem_cons_self
    obtain ⟨i1, hb1, hred⟩ := declare_inv i ht k hnk
    have hd := fun h m => (at_declare i ht k h m)
    obtain ⟨h1, h2⟩ := ih i1 (by rw [hb1]; exact ht) hn'.2 (by
      intro j hj hjl
      rw [hb1] at hj
      rcases hred _ hj with hj | hj
      · exact hr j hj (List.mem_cons_of_mem _ hjl)
      · simp only [Prod.mk.injEq, and_true] at hj
        exact hn'.1 (hj ▸ hjl)) h m
    rw [hb1] at h1 h2
    rw [List.foldl_cons]
    refine ⟨?_, ?_⟩
    · rw [h1, (hd h m).1]
      constructor
      · rintro ((hx | ⟨e, hm, hno⟩) | ⟨hx, hm, hno⟩)
        · exact .inl hx
        · subst e; exact .inr ⟨List.mem_cons_self, hm, hno⟩
        · exact .inr ⟨List.mem_cons_of_mem _ hx, hm, fun m' hm' => hno m' ((hd h m').1.mpr (.inl hm'))⟩
      · rintro (hx | ⟨hx, hm, hno⟩)
        · exact .inl (.inl hx)
        · rcases List.mem_cons.mp hx with rfl | hx'
          · exact .inl (.inr ⟨rfl, hm, hno⟩)
          · refine .inr ⟨hx', hm, ?_⟩
            intro m' hm'
            rcases (hd h m').1.mp hm' with h' | ⟨e, _⟩
            · exact hno m' h'
            · exact hn'.1 (e ▸ hx')
    · intro x
      rw [h2, (hd h m).2]
      constructor
      · rintro ((hx | ⟨e, m', ha, hne⟩) | ⟨hx, hm, m', ha, hne⟩)
        · exact .inl hx
        · subst e; exact .inr ⟨List.mem_cons_self, rfl, m', ha, hne⟩
        · rcases (hd x.1 m').1.mp ha with h' | ⟨e, _⟩
          · exact .inr ⟨List.mem_cons_of_mem _ hx, hm, m', h', hne⟩
          · exact absurd (e ▸ hx) hn'.1
      · rintro (hx | ⟨hx, hm, m', ha, hne⟩)
        · exact .inl (.inl hx)
        · rcases List.mem_cons.mp hx with e | hx
          · refine .inl (.inr ⟨Prod.ext e hm, m', ?_, hne⟩)
            rw [← e]; exact ha
          · exact .inr ⟨hx, hm, m', (hd x.1 m').1.mpr (.inl ha), hne⟩

theorem at_upserts {top : Nat} (l : List Nat) : ∀ {db : Db}, DbInv top db → db.blocks < top → ∀ h m,
    ((l.foldl (fun s h => (s.upsert h).1) db).At h m ↔ db.At h m ∨ (h ∈ l ∧ m = db.blocks ∧ ∀ m', ¬ db.At h m')) ∧
    (l.foldl (fun s h => (s.upsert h).1) db).redeclared = db.redeclared := by
  induction l with
  | nil => intro db _ _ h m; simp
  | cons k l ih =>
    intro db i ht h m
    obtain ⟨i1, hr1, hb1, _⟩ := upsert_inv i ht k
    have hd := at_upsert i.uniq k
    obtain ⟨h1, h2⟩ := ih i1 (by rw [hb1]; exact ht) h m
    rw [List.foldl_cons]
    refine ⟨?_, by rw [h2, hr1]⟩
    rw [hb1] at h1
    rw [h1, hd h m]
    constructor
    · rintro ((hx | ⟨e, hm, hno⟩) | ⟨hx, hm, hno⟩)
      · exact .inl hx
      · subst e; exact .inr ⟨List.mem_cons_self, hm, hno⟩
      · exact .inr ⟨List.mem_cons_of_mem _ hx, hm, fun m' hm' => hno m' ((hd h m').mpr (.inl hm'))⟩
    · rintro (hx | ⟨hx, hm, hno⟩)
      · exact .inl (.inl hx)
      · by_cases e : h = k
        · subst e; exact .inl (.inr ⟨rfl, hm, hno⟩)
        · rcases List.mem_cons.mp hx with hx | hx
          · exact absurd hx e
          · refine .inr ⟨hx, hm, ?_⟩
            intro m' hm'
            rcases (hd h m').mp hm' with h' | ⟨e', _⟩
            · exact hno m' h'
            · exact e e'

/-- C79. After a block is stored, the classes expected of it are those it declares and those it deploys
that no block has introduced before, and what is expected of earlier blocks stays. -/
theorem C79_expected (db : Db) (rc : DbReach db) (declared deployed : List Nat) (hd : declared.Nodup) :
    (∃ l, (db.storeBlock declared deployed).declaredAt db.blocks = some l ∧
      ∀ h, h ∈ l ↔ h ∈ declared ∨
        (h ∈ deployed ∧ ∀ b k, db.declaredAt b = some k → h ∉ k)) ∧
    ∀ b, b < db.blocks → ∃ l l', db.declaredAt b = some l ∧ (db.storeBlock declared deployed).declaredAt b = some l' ∧
      ∀ h, h ∈ l' ↔ h ∈ l := by
  have inv := reach_inv rc
  have h0 : DbInv (db.blocks + 1) db := ⟨inv.uniq, fun r hr m hm => Nat.lt_succ_of_lt (inv.low r hr m hm),
    fun x hx => ⟨Nat.lt_succ_of_lt (inv.red x hx).1, (inv.red x hx).2⟩, inv.redN⟩
  have hnr : ∀ k, (k, db.blocks) ∈ db.redeclared → k ∉ declared := fun k hx => absurd (inv.red _ hx).1 (Nat.lt_irrefl _)
  obtain ⟨i1, hb1⟩ := declares_inv declared h0 rfl hd (fun k _ hx => Nat.lt_irrefl _ (inv.red _ hx).1)
  have hA := fun h m => at_declares declared h0 rfl hd hnr h m
  have hU := fun h m => at_upserts deployed i1 (by rw [hb1]; exact Nat.lt_succ_self _) h m
  rw [hb1] at hU
  have low : ∀ h m, db.At h m → m < db.blocks := by
    rintro h m ⟨r, hr, _, hb⟩
    exact inv.low r hr m hb
  have hAt : ∀ h m, (db.storeBlock declared deployed).At h m ↔
      db.At h m ∨ ((h ∈ declared ∨ h ∈ deployed) ∧ m = db.blocks ∧ ∀ m', ¬ db.At h m') := by
    intro h m
    have e : (db.storeBlock declared deployed).At h m ↔
        (deployed.foldl (fun s h => (s.upsert h).1) (declared.foldl Db.declare db)).At h m := Iff.rfl
    rw [e, (hU h m).1, (hA h m).1]
    constructor
    · rintro ((hx | ⟨hx, hm, hno⟩) | ⟨hx, hm, hno⟩)
      · exact .inl hx
      · exact .inr ⟨.inl hx, hm, hno⟩
      · exact .inr ⟨.inr hx, hm, fun m' hm' => hno m' ((hA h m').1.mpr (.inl hm'))⟩
    · rintro (hx | ⟨hx, hm, hno⟩)
      · exact .inl (.inl hx)
      · by_cases hdc : h ∈ declared
        · exact .inl (.inr ⟨hdc, hm, hno⟩)
        · refine .inr ⟨hx.resolve_left hdc, hm, ?_⟩
          intro m' hm'
          rcases (hA h m').1.mp hm' with h' | ⟨h', _⟩
          · exact hno m' h'
          · exact hdc h'
  have hRed : ∀ x, x ∈ (db.storeBlock declared deployed).redeclared ↔
      x ∈ db.redeclared ∨ (x.1 ∈ declared ∧ x.2 = db.blocks ∧ ∃ m', db.At x.1 m') := by
    intro x
    have e : (db.storeBlock declared deployed).redeclared =
        (deployed.foldl (fun s h => (s.upsert h).1) (declared.foldl Db.declare db)).redeclared := rfl
    rw [e, (hU 0 0).2, (hA 0 0).2]
    constructor
    · rintro (hx | ⟨hx, hm, m', ha, _⟩)
      · exact .inl hx
      · exact .inr ⟨hx, hm, m', ha⟩
    · rintro (hx | ⟨hx, hm, m', ha⟩)
      · exact .inl hx
      · exact .inr ⟨hx, hm, m', ha, Nat.ne_of_lt (low _ _ ha)⟩
  have hsome : ∀ (d : Db) b, b < d.blocks → ∃ l, d.declaredAt b = some l := by
    intro d b hb
    unfold Db.declaredAt
    rw [if_pos hb]
    exact ⟨_, rfl⟩
  have hblocks : (db.storeBlock declared deployed).blocks = db.blocks + 1 := rfl
  refine ⟨?_, ?_⟩
  · obtain ⟨l, hl⟩ := hsome (db.storeBlock declared deployed) db.blocks (by rw [hblocks]; exact Nat.lt_succ_self _)
    refine ⟨l, hl, ?_⟩
    intro h
    rw [mem_declaredAt hl, hAt, hRed]
    have hnever : (∀ b k, db.declaredAt b = some k → h ∉ k) ↔ ∀ m', ¬ db.At h m' := by
      constructor
      · intro hx m' hm'
        obtain ⟨k, hk⟩ := hsome db m' (low _ _ hm')
        exact hx m' k hk ((mem_declaredAt hk h).mpr (.inl hm'))
      · intro hx b k hk hm
        rcases (mem_declaredAt hk h).mp hm with h' | h'
        · exact hx b h'
        · obtain ⟨_, r, hr, e, m, hm, _⟩ := inv.red _ h'
          exact hx m ⟨r, hr, e, hm⟩
    rw [hnever]
    constructor
    · rintro ((hx | ⟨hx | hx, _, hno⟩) | (hx | ⟨hx, _⟩))
      · exact absurd (low _ _ hx) (Nat.lt_irrefl _)
      · exact .inl hx
      · exact .inr ⟨hx, hno⟩
      · exact absurd (inv.red _ hx).1 (Nat.lt_irrefl _)
      · exact .inl hx
    · rintro (hx | ⟨hx, hno⟩)
      · by_cases hex : ∃ m', db.At h m'
        · exact .inr (.inr ⟨hx, rfl, hex⟩)
        · exact .inl (.inr ⟨.inl hx, rfl, fun m' hm' => hex ⟨m', hm'⟩⟩)
      · exact .inl (.inr ⟨.inr hx, rfl, hno⟩)
  · intro b hb
    obtain ⟨l, hl⟩ := hsome db b hb
    obtain ⟨l', hl'⟩ := hsome (db.storeBlock declared deployed) b (by rw [hblocks]; omega)
    refine ⟨l, l', hl, hl', ?_⟩
    intro h
    rw [mem_declaredAt hl', mem_declaredAt hl, hAt, hRed]
    constructor
    · rintro ((hx | ⟨_, hm, _⟩) | (hx | ⟨_, hm, _⟩))
      · exact .inl hx
      · omega
      · exact .inr hx
      · simp only at hm; omega
    · rintro (hx | hx)
      · exact .inl (.inl hx)
      · exact .inr (.inl hx)

example : ((({ blocks := 0, rows := [], redeclared := [], casm := fun _ => none } : Db).storeBlock [7] []).storeBlock [8, 7] [9, 7]).declaredAt 1 =
    some [8, 9, 7] := by decide

end Verif.ClassSync
