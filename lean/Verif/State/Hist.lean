import Verif.State.Insert
/-
Histories of blocks, reorgs and pruning: the database always describes the surviving chain.
-/
namespace Verif.State
open Verif.Db

/-- First index satisfying a predicate, as a condition on `getElem?`. -/
theorem findIdx?_iff {β : Type} (p : β → Bool) (us : List β) (i : Nat) :
    us.findIdx? p = some i ↔ (∃ u, us[i]? = some u ∧ p u = true) ∧ ∀ j u, j < i → us[j]? = some u → p u = false := by
  rw [List.findIdx?_eq_some_iff_getElem]
  constructor
  · rintro ⟨h, h1, h2⟩
    refine ⟨⟨us[i], List.getElem?_eq_getElem h, h1⟩, ?_⟩
    intro j u hj hu
    have := h2 j hj
    obtain ⟨hl, e⟩ := List.getElem?_eq_some_iff.1 hu
    simpa [e] using this
  · rintro ⟨⟨u, hu, h1⟩, h2⟩
    obtain ⟨hl, e⟩ := List.getElem?_eq_some_iff.1 hu
    refine ⟨hl, by rw [e]; exact h1, ?_⟩
    intro j hj
    have := h2 j us[j] hj (List.getElem?_eq_getElem (by omega))
    simp [this]

structure Good (db : Db) (tr : Track) : Prop where
  valid : Valid db
  lo : tr.lo < tr.chain.length ∨ (tr.lo = 0 ∧ tr.chain = [])
  hdr : ∀ i h, (i, h) ∈ db.headers ↔ tr.lo ≤ i ∧ ∃ u, tr.chain[i]? = some (h, u)
  hkey : Keyed db.headers
  huniq : ∀ r ∈ db.headers, ∀ s ∈ db.headers, r.2 = s.2 → r = s
  storage : ∀ a k, Tab (·.storageOf a k) tr.updates tr.lo (storageRows db a k)
  nonce : ∀ a, Tab (·.nonceOf a) tr.updates tr.lo (nonceRows db a)
  cls : ∀ a, Tab (·.classOf a) tr.updates tr.lo (classRows db a)
  defKeys : (db.classDefs.map (·.1)).Nodup
  defs : ∀ h b, db.classDefs.lookup h = some (some b) ↔ tr.declaredAt h = some b

theorem good_init : Good {} {} := by
  refine ⟨⟨by simp, by simp, by simp, by simp⟩, .inr ⟨rfl, rfl⟩, by simp, Keyed.nil, by simp, ?_, ?_, ?_, by simp, ?_⟩
  · intro a k; exact Tab.nil _
  · intro a; exact Tab.nil _
  · intro a; exact Tab.nil _
  · intro h b; simp [Track.declaredAt, Track.updates]

/-! ### head and earliest -/

theorem Good.head {db : Db} {tr : Track} (g : Good db tr) :
    head db = if tr.chain = [] then none else some (tr.chain.length - 1) := by
  unfold State.head
  by_cases hc : tr.chain = []
  · rw [if_pos hc]
    have : db.headers = [] := by
      rw [List.eq_nil_iff_forall_not_mem]
      rintro ⟨i, h⟩ hm
      obtain ⟨_, u, hu⟩ := (g.hdr i h).1 hm
      rw [hc] at hu; simp at hu
    rw [this]; rfl
  · rw [if_neg hc]
    have hl : tr.lo < tr.chain.length := by rcases g.lo with h | h; exact h; exact absurd h.2 hc
    have hx : tr.chain.length - 1 < tr.chain.length := by omega
    have hm : (tr.chain.length - 1, tr.chain[tr.chain.length - 1].1) ∈ db.headers := by
      rw [g.hdr]
      exact ⟨by omega, _, List.getElem?_eq_getElem hx⟩
    cases hn : newest db.headers with
    | none => rw [newest_none hn] at hm; simp at hm
    | some r =>
      obtain ⟨h1, h2⟩ := newest_some hn
      have := h2 _ hm
      simp only at this
      obtain ⟨_, u, hu⟩ := (g.hdr r.1 r.2).1 h1
      have := (List.getElem?_eq_some_iff.1 hu).1
      simp only [Option.map_some, Option.some.injEq]
      omega

theorem Good.hasBlock {db : Db} {tr : Track} (g : Good db tr) (n : Nat) :
    hasBlock db n = decide (tr.lo ≤ n ∧ n < tr.chain.length) := by
  unfold State.hasBlock
  rw [Bool.eq_iff_iff]
  simp only [List.any_eq_true, beq_iff_eq, decide_eq_true_eq]
  constructor
  · rintro ⟨⟨i, h⟩, hr, rfl⟩
    obtain ⟨h1, u, hu⟩ := (g.hdr i h).1 hr
    exact ⟨h1, (List.getElem?_eq_some_iff.1 hu).1⟩
  · rintro ⟨h1, h2⟩
    exact ⟨(n, tr.chain[n].1), (g.hdr _ _).2 ⟨h1, _, List.getElem?_eq_getElem h2⟩, rfl⟩

theorem Good.earliest {db : Db} {tr : Track} (g : Good db tr) (hc : tr.chain ≠ []) : earliest db = some tr.lo := by
  have hl : tr.lo < tr.chain.length := by rcases g.lo with h | h; exact h; exact absurd h.2 hc
  unfold State.earliest
  rw [List.min?_eq_some_iff]
  constructor
  · rw [List.mem_map]
    exact ⟨(tr.lo, tr.chain[tr.lo].1), (g.hdr _ _).2 ⟨Nat.le_refl _, _, List.getElem?_eq_getElem hl⟩, rfl⟩
  · intro b hb
    rw [List.mem_map] at hb
    obtain ⟨⟨i, h⟩, hr, rfl⟩ := hb
    exact ((g.hdr i h).1 hr).1

/-! ### class definitions -/

theorem lookup_map_upd (l : List (Class × Option Nat)) (h x : Class) (n : Nat) :
    (l.map fun d => if d.1 = h then (h, some n) else d).lookup x =
      if x = h then (if (l.lookup x).isSome then some (some n) else none) else l.lookup x := by
  induction l with
  | nil => simp
  | cons d ds ih =>
    obtain ⟨c, o⟩ := d
    rw [List.map_cons, List.lookup_cons, ih, List.lookup_cons]
    by_cases e1 : c = h <;> by_cases e2 : x = h
    · simp [e1, e2]
    · have e3 : (x == c) = false := by simpa using fun e => e2 (e.trans e1)
      have e4 : (x == h) = false := by simpa using e2
      simp [e1, e2, e4]
    · have e3 : (x == c) = false := by simpa using fun e => e1 (e.symm.trans e2)
      rw [if_pos e2, if_pos e2, e3]
      simp only [e1, ite_false, e3]
    · simp only [e1, e2, ite_false]

/-- What `upsertDeclaredAt` does to each class. -/
theorem upsert_lookup (defs : List (Class × Option Nat)) (n : Nat) (h x : Class) :
    (upsertDeclaredAt defs n h).1.lookup x =
      if x = h then some (some (((defs.lookup h).bind id).getD n)) else defs.lookup x := by
  unfold upsertDeclaredAt
  cases hl : defs.lookup h with
  | none =>
    simp only
    rw [List.lookup_append]
    by_cases e : x = h
    · subst e; simp [hl]
    · have e2 : (x == h) = false := by simpa using e
      simp [e, List.lookup_cons, e2]
  | some o =>
    cases o with
    | none =>
      simp only [lookup_map_upd]
      by_cases e : x = h
      · subst e; simp [hl]
      · simp [e]
    | some b =>
      simp only
      by_cases e : x = h
      · subst e; simp [hl]
      · simp [e]

theorem lookup_none_iff {γ : Type} {l : List (Nat × γ)} {a : Nat} : l.lookup a = none ↔ a ∉ l.map (·.1) := by
  constructor
  · intro h hm
    rw [List.mem_map] at hm
    obtain ⟨p, hp, e⟩ := hm
    induction l with
    | nil => simp at hp
    | cons q qs ih =>
      rw [List.lookup_cons] at h
      split at h
      · simp at h
      · rename_i hne
        rcases List.mem_cons.1 hp with rfl | hp
        · simp at hne; exact hne e.symm
        · exact ih h hp
  · intro h
    apply lookup_eq_none
    intro p hp e
    exact h (List.mem_map.2 ⟨p, hp, e⟩)

theorem upsert_keys (defs : List (Class × Option Nat)) (n : Nat) (h : Class) (hn : (defs.map (·.1)).Nodup) :
    ((upsertDeclaredAt defs n h).1.map (·.1)).Nodup := by
  unfold upsertDeclaredAt
  cases hl : defs.lookup h with
  | none =>
    simp only [List.map_append, List.map_cons, List.map_nil]
    rw [List.nodup_append]
    refine ⟨hn, by simp, ?_⟩
    intro a ha b hb e
    simp at hb
    rw [lookup_none_iff] at hl
    exact hl (hb ▸ e ▸ ha)
  | some o =>
    cases o with
    | none =>
      simp only [List.map_map]
      have : ((fun x : Class × Option Nat => x.1) ∘ fun d : Class × Option Nat => if d.1 = h then (h, some n) else d) = fun d => d.1 := by
        funext d
        simp only [Function.comp]
        split
        · rename_i e; exact e.symm
        · rfl
      rw [this]; exact hn
    | some b => exact hn

/-- What a sequence of declarations does to each class. -/
theorem declares_lookup (n : Nat) (hs : List Class) (db : Db) (hn : (db.classDefs.map (·.1)).Nodup) (x : Class) :
    ((hs.foldl (declare n) db).classDefs.map (·.1)).Nodup ∧
    (hs.foldl (declare n) db).classDefs.lookup x =
      if x ∈ hs then some (some (((db.classDefs.lookup x).bind id).getD n)) else db.classDefs.lookup x := by
  induction hs generalizing db with
  | nil => simp [hn]
  | cons h hs ih =>
    rw [List.foldl_cons]
    have hd : (declare n db h).classDefs = (upsertDeclaredAt db.classDefs n h).1 := by
      unfold declare; simp only; split <;> rfl
    have hk := upsert_keys db.classDefs n h hn
    rw [← hd] at hk
    obtain ⟨g1, g2⟩ := ih _ hk
    refine ⟨g1, ?_⟩
    rw [g2, hd, upsert_lookup]
    by_cases e1 : x ∈ hs <;> by_cases e2 : x = h <;> simp [e1, e2]

def deployedClass (p : Addr × ContractUpd) : Option Class :=
  match p.2.cls with
  | some (.deploy c) => some c
  | _ => none

theorem implicit_lookup (n : Nat) (ps : List (Addr × ContractUpd)) (db : Db) (hn : (db.classDefs.map (·.1)).Nodup) (x : Class) :
    ((ps.foldl (declareImplicit n) db).classDefs.map (·.1)).Nodup ∧
    (ps.foldl (declareImplicit n) db).classDefs.lookup x =
      if x ∈ ps.filterMap deployedClass then some (some (((db.classDefs.lookup x).bind id).getD n)) else db.classDefs.lookup x := by
  induction ps generalizing db with
  | nil => simp [hn]
  | cons p ps ih =>
    rw [List.foldl_cons, List.filterMap_cons]
    cases hc : deployedClass p with
    | none =>
      have : declareImplicit n db p = db := by
        unfold deployedClass at hc
        unfold declareImplicit
        split at hc
        · simp at hc
        · rename_i h; split
          · rename_i c e; exact absurd e (h c)
          · rfl
      rw [this]; exact ih db hn
    | some c =>
      have hd : (declareImplicit n db p).classDefs = (upsertDeclaredAt db.classDefs n c).1 := by
        unfold deployedClass at hc
        split at hc
        · rename_i e
          cases hc
          unfold declareImplicit
          rw [e]
        · simp at hc
      have hk := upsert_keys db.classDefs n c hn
      rw [← hd] at hk
      obtain ⟨g1, g2⟩ := ih _ hk
      refine ⟨g1, ?_⟩
      rw [g2, hd, upsert_lookup]
      by_cases e1 : x ∈ ps.filterMap deployedClass <;> by_cases e2 : x = c
      · simp [e2]
      · simp [e1, e2]
      · subst e2; simp [e1]
      · simp [e1, e2]

theorem insertUpdate_defs (db : Db) (n : Nat) (u : Update) (hn : (db.classDefs.map (·.1)).Nodup) (x : Class) :
    ((insertUpdate db n u).classDefs.map (·.1)).Nodup ∧
    (insertUpdate db n u).classDefs.lookup x =
      if u.declares x then some (some (((db.classDefs.lookup x).bind id).getD n)) else db.classDefs.lookup x := by
  have hdb : ∀ db : Db, (u.system.foldl (insSystem n) (u.contracts.foldl (insContract n) db)).classDefs = db.classDefs := by
    intro db
    have h1 : ∀ (kvs : List (Key × Val)) (cid : Nat) (db : Db), (kvs.foldl (insStorage n cid) db).classDefs = db.classDefs := by
      intro kvs cid
      induction kvs with
      | nil => intro db; rfl
      | cons kv kvs ih => intro db; rw [List.foldl_cons, ih]; rfl
    have h2 : ∀ (ps : List (Addr × List (Key × Val))) (db : Db), (ps.foldl (insSystem n) db).classDefs = db.classDefs := by
      intro ps
      induction ps with
      | nil => intro db; rfl
      | cons p ps ih => intro db; rw [List.foldl_cons, ih]; unfold insSystem; simp only; rw [h1]
    have h3 : ∀ (ps : List (Addr × ContractUpd)) (db : Db), (ps.foldl (insContract n) db).classDefs = db.classDefs := by
      intro ps
      induction ps with
      | nil => intro db; rfl
      | cons p ps ih => intro db; rw [List.foldl_cons, ih]; unfold insContract; rw [h1]; rfl
    rw [h2, h3]
  unfold insertUpdate
  simp only
  generalize hX : u.system.foldl (insSystem n) (u.contracts.foldl (insContract n) db) = X
  have hXd : X.classDefs = db.classDefs := by rw [← hX]; exact hdb db
  generalize hY : (u.sierra.map (·.1) ++ u.cairo).foldl (declare n) X = Y
  obtain ⟨c1, e1⟩ := casm_frame n u.sierra (u.contracts.foldl (declareImplicit n) Y)
  rw [e1]
  obtain ⟨c2, e2⟩ := casm_frame n u.migrated { u.contracts.foldl (declareImplicit n) Y with casm := c1 }
  rw [e2]
  simp only
  have hY1 := declares_lookup n (u.sierra.map (·.1) ++ u.cairo) X (by rw [hXd]; exact hn) x
  rw [hY, hXd] at hY1
  have hZ := implicit_lookup n u.contracts Y hY1.1 x
  refine ⟨hZ.1, ?_⟩
  rw [hZ.2, hY1.2]
  have hd : u.declares x = (decide (x ∈ u.sierra.map (·.1) ++ u.cairo) || decide (x ∈ u.contracts.filterMap deployedClass)) := by
    rw [Bool.eq_iff_iff]
    unfold Update.declares
    simp only [Bool.or_eq_true, List.any_eq_true, beq_iff_eq, List.contains_iff_mem, decide_eq_true_eq, List.mem_append,
      List.mem_map, List.mem_filterMap]
    have hdep : ∀ p : Addr × ContractUpd, deployedClass p = some x ↔ p.2.cls = some (.deploy x) := by
      intro p
      unfold deployedClass
      split
      · rename_i c e; rw [e]; simp
      · rename_i h
        constructor
        · intro e; simp at e
        · intro e; exact absurd e (h x)
    constructor
    · rintro ((h | h) | ⟨p, h1, h2⟩)
      · exact .inl (.inr h)
      · exact .inl (.inl h)
      · exact .inr ⟨p, h1, (hdep p).2 h2⟩
    · rintro ((h | h) | ⟨p, h1, h2⟩)
      · exact .inl (.inr h)
      · exact .inl (.inl h)
      · exact .inr ⟨p, h1, (hdep p).1 h2⟩
  rw [hd]
  by_cases h1 : x ∈ u.sierra.map (·.1) ++ u.cairo <;> by_cases h2 : x ∈ u.contracts.filterMap deployedClass <;> simp [h1, h2]

/-! ### a block -/

theorem Good.block {db : Db} {tr : Track} (g : Good db tr) (h : Hash) (u : Update) (hw : u.WF) :
    Good (step db (.block h u)) (tr.step (.block h u)) := by
  have hn : nextNumber db = tr.chain.length := by
    unfold nextNumber
    rw [g.head]
    by_cases hc : tr.chain = []
    · simp [hc]
    · rw [if_neg hc]
      have : 0 < tr.chain.length := by
        rcases Nat.eq_zero_or_pos tr.chain.length with h | h
        · exact absurd (List.length_eq_zero_iff.1 h) hc
        · exact h
      simp only; omega
  have hlo : tr.lo ≤ tr.chain.length := by rcases g.lo with h | h; omega; simp [h.1]
  have hdup : (db.headers.any fun r => r.1 == tr.chain.length || r.2 == h) = (tr.chain.drop tr.lo).any fun p => p.1 == h := by
    rw [Bool.eq_iff_iff]
    simp only [List.any_eq_true, Bool.or_eq_true, beq_iff_eq]
    constructor
    · rintro ⟨⟨i, h'⟩, hr, e⟩
      obtain ⟨h1, v, hv⟩ := (g.hdr i h').1 hr
      have hl := (List.getElem?_eq_some_iff.1 hv).1
      rcases e with e | e
      · simp only at e; omega
      · refine ⟨(h', v), ?_, e⟩
        rw [List.mem_iff_getElem?]
        exact ⟨i - tr.lo, by rw [List.getElem?_drop]; rw [show tr.lo + (i - tr.lo) = i by omega]; exact hv⟩
    · rintro ⟨⟨h', v⟩, hm, e⟩
      rw [List.mem_iff_getElem?] at hm
      obtain ⟨i, hi⟩ := hm
      rw [List.getElem?_drop] at hi
      exact ⟨(tr.lo + i, h'), (g.hdr _ _).2 ⟨by omega, v, hi⟩, .inr e⟩
  unfold step storeBlock
  simp only [hn]
  unfold insertHeader Track.step
  simp only [hdup]
  by_cases hd : (tr.chain.drop tr.lo).any fun p => p.1 == h
  · simp only [hd, ite_true, Option.map_none, Option.getD_none]; exact g
  simp only [hd, Bool.false_eq_true, ite_false, Option.map_some, Option.getD_some]
  rw [Bool.not_eq_true] at hd
  rw [hd] at hdup
  have hv : Valid { db with headers := db.headers ++ [(tr.chain.length, h)] } := g.valid.congr rfl rfl rfl rfl
  obtain ⟨e1, e2, e3, e4, e5⟩ := insertUpdate_eff hv tr.chain.length u hw
  have hul : tr.updates.length = tr.chain.length := by simp [Track.updates]
  have hups : ({ tr with chain := tr.chain ++ [(h, u)] } : Track).updates = tr.updates ++ [u] := by simp [Track.updates]
  refine ⟨e1, ?_, ?_, ?_, ?_, ?_, ?_, ?_, (insertUpdate_defs { db with headers := db.headers ++ [(tr.chain.length, h)] } tr.chain.length u g.defKeys 0).1, ?_⟩
  · left; simp; omega
  · intro i h'
    rw [e5]
    simp only [List.mem_append, List.mem_singleton, g.hdr, Prod.mk.injEq]
    constructor
    · rintro (⟨h1, v, hv⟩ | ⟨rfl, rfl⟩)
      · exact ⟨h1, v, by rw [List.getElem?_append_left (List.getElem?_eq_some_iff.1 hv).1]; exact hv⟩
      · exact ⟨hlo, u, by simp⟩
    · rintro ⟨h1, v, hv⟩
      by_cases hi : i < tr.chain.length
      · rw [List.getElem?_append_left hi] at hv
        exact .inl ⟨h1, v, hv⟩
      · have := (List.getElem?_eq_some_iff.1 hv).1
        simp at this
        have : i = tr.chain.length := by omega
        subst this
        simp at hv
        exact .inr ⟨rfl, hv.1.symm⟩
  · rw [e5]
    unfold Keyed
    rw [List.pairwise_append]
    refine ⟨g.hkey, by simp, ?_⟩
    rintro ⟨i, h'⟩ hr s hs
    simp at hs
    obtain ⟨_, v, hv⟩ := (g.hdr i h').1 hr
    have := (List.getElem?_eq_some_iff.1 hv).1
    rw [hs]; simp only; omega
  · rw [e5]
    have hfresh : ∀ r ∈ db.headers, r.2 ≠ h := by
      intro r hr e
      have := List.any_eq_false.1 hdup r hr
      simp [e] at this
    intro r hr s hs e
    simp only [List.mem_append, List.mem_singleton] at hr hs
    rcases hr with hr | hr <;> rcases hs with hs | hs
    · exact g.huniq r hr s hs e
    · rw [hs] at e; exact absurd e (hfresh r hr)
    · rw [hr] at e; exact absurd e.symm (hfresh s hs)
    · rw [hr, hs]
  · intro a k
    rw [e2, hups, ← hul]
    exact (g.storage a k).append u
  · intro a
    rw [e3, hups, ← hul]
    exact (g.nonce a).append u
  · intro a
    rw [e4, hups, ← hul]
    exact (g.cls a).append u
  · intro x b
    rw [(insertUpdate_defs { db with headers := db.headers ++ [(tr.chain.length, h)] } tr.chain.length u g.defKeys x).2]
    have hg := g.defs x
    unfold Track.declaredAt at *
    rw [hups, List.findIdx?_append]
    simp only
    cases hf : tr.updates.findIdx? fun u => u.declares x with
    | some c =>
      have hc := (hg c).2 hf
      rw [hc]
      simp
    | none =>
      have hno : ∀ b, db.classDefs.lookup x ≠ some (some b) := by
        intro b hb
        rw [hg b, hf] at hb; simp at hb
      have hbind : (db.classDefs.lookup x).bind id = none := by
        cases ho : db.classDefs.lookup x with
        | none => rfl
        | some o =>
          cases o with
          | none => rfl
          | some b => exact absurd ho (hno b)
      rw [hbind]
      by_cases hdx : u.declares x
      · simp [hdx, List.findIdx?_cons, hul]
      · simp only [hdx, Bool.false_eq_true, ite_false, Option.or_none, List.findIdx?_cons, List.findIdx?_nil,
          Option.map_none]
        constructor
        · intro e; exact absurd e (hno b)
        · intro e; simp at e

/-! ### a reorg -/

theorem purgeDown_eq (db : Db) (tail d : Nat) :
    purgeDown db tail d = { db with
      headers := db.headers.filter fun r => !(decide (tail ≤ r.1) && decide (r.1 ≤ tail + d))
      redeclared := db.redeclared.filter fun r => !(decide (tail ≤ r.2) && decide (r.2 ≤ tail + d))
      contracts := db.contracts.filter fun r => !(decide (tail ≤ r.block) && decide (r.block ≤ tail + d))
      nonces := db.nonces.filter fun r => !(decide (tail ≤ r.block) && decide (r.block ≤ tail + d))
      storage := db.storage.filter fun r => !(decide (tail ≤ r.block) && decide (r.block ≤ tail + d))
      classDefs := db.classDefs.map fun x => match x.2 with
        | some b => if tail ≤ b ∧ b ≤ tail + d then (x.1, none) else x
        | none => x } := by
  have fb : ∀ x n : Nat, (x != n) = !(decide (n ≤ x) && decide (x ≤ n)) := by
    intro x n
    rw [Bool.eq_iff_iff]
    simp
    omega
  induction d generalizing db with
  | zero =>
    simp only [purgeDown, purgeBlock, delBlock, Nat.add_zero, fb]
    congr 1
    apply List.map_congr_left
    rintro ⟨c, o⟩ _
    cases o with
    | none => simp
    | some b =>
      simp only [Option.some.injEq]
      by_cases e : b = tail
      · subst e; simp
      · rw [if_neg e, if_neg (by omega)]
  | succ d ih =>
    have f : ∀ x : Nat, ((!(decide (tail ≤ x) && decide (x ≤ tail + d))) && (x != tail + d + 1)) =
        !(decide (tail ≤ x) && decide (x ≤ tail + (d + 1))) := by
      intro x
      rw [Bool.eq_iff_iff]
      simp
      omega
    rw [purgeDown, ih]
    simp only [purgeBlock, delBlock, List.filter_filter, f, List.map_map]
    congr 1
    apply List.map_congr_left
    rintro ⟨c, o⟩ _
    cases o with
    | none => simp
    | some b =>
      simp only [Function.comp, Option.some.injEq]
      by_cases e : b = tail + d + 1
      · subst e
        simp only [ite_true]
        rw [if_pos (by omega)]
      · rw [if_neg e]
        simp only
        by_cases e2 : tail ≤ b ∧ b ≤ tail + d
        · rw [if_pos e2, if_pos (by omega)]
        · rw [if_neg e2, if_neg (by omega)]

theorem sel_purgeDown {κ α : Type} (p : κ → Prop) [DecidablePred p] (rows : List (Row κ α)) (tail len : Nat)
    (hlen : ∀ r ∈ sel p rows, r.1 < len) (hl : tail < len) :
    sel p (rows.filter fun r => !(decide (tail ≤ r.block) && decide (r.block ≤ tail + (len - 1 - tail)))) =
      (sel p rows).filter fun r => decide (r.1 < tail) := by
  apply sel_filter
  intro r hr hp
  have := hlen (r.block, r.val) (mem_sel.2 ⟨r, hr, hp, rfl⟩)
  simp only at this
  rw [Bool.eq_iff_iff]
  simp
  omega

theorem Good.reorg {db : Db} {tr : Track} (g : Good db tr) (tail : Nat) :
    Good (step db (.reorg tail)) (tr.step (.reorg tail)) := by
  unfold step l2Reorg Track.step
  rw [g.head]
  by_cases hc : tr.chain = []
  · simp only [hc, ite_true, Option.getD_none, List.length_nil, Nat.not_lt_zero, false_and, ite_false]
    exact g
  simp only [hc, ite_false]
  have hl : tr.lo < tr.chain.length := by rcases g.lo with h | h; exact h; exact absurd h.2 hc
  have hcond : (State.hasBlock db tail && (tail == 0 || State.hasBlock db (tail - 1))) =
      decide (tail < tr.chain.length ∧ (tr.lo < tail ∨ (tail = 0 ∧ tr.lo = 0))) := by
    rw [g.hasBlock, g.hasBlock, Bool.eq_iff_iff]
    simp
    omega
  rw [hcond]
  by_cases hnx : ¬(tail < tr.chain.length ∧ (tr.lo < tail ∨ (tail = 0 ∧ tr.lo = 0)))
  · simp only [hnx, decide_false, Bool.false_eq_true, ite_false, Option.getD_none]; exact g
  have hx := Decidable.not_not.1 hnx
  clear hnx
  simp only [hx, decide_true, ite_true, Option.getD_some, and_self]
  rw [purgeDown_eq]
  have hul : tr.updates.length = tr.chain.length := by simp [Track.updates]
  have hups : ({ tr with chain := tr.chain.take tail } : Track).updates = tr.updates.take tail := by
    simp [Track.updates, List.map_take]
  have hrest : ∀ x : Nat, x < tr.chain.length → (!(decide (tail ≤ x) && decide (x ≤ tail + (tr.chain.length - 1 - tail)))) = decide (x < tail) := by
    intro x hx
    rw [Bool.eq_iff_iff]
    simp
    omega
  have hmem : ∀ i h, (i, h) ∈ (db.headers.filter fun r => !(decide (tail ≤ r.1) && decide (r.1 ≤ tail + (tr.chain.length - 1 - tail)))) ↔
      (i, h) ∈ db.headers ∧ i < tail := by
    intro i h
    rw [List.mem_filter]
    constructor
    · rintro ⟨h1, h2⟩
      obtain ⟨_, v, hv⟩ := (g.hdr i h).1 h1
      rw [hrest _ (List.getElem?_eq_some_iff.1 hv).1] at h2
      exact ⟨h1, by simpa using h2⟩
    · rintro ⟨h1, h2⟩
      obtain ⟨_, v, hv⟩ := (g.hdr i h).1 h1
      rw [hrest _ (List.getElem?_eq_some_iff.1 hv).1]
      exact ⟨h1, by simpa using h2⟩
  refine ⟨⟨g.valid.addrs, g.valid.keys, ?_, ?_⟩, ?_, ?_, ?_, ?_, ?_, ?_, ?_, ?_, ?_⟩
  · intro r hr; exact g.valid.nonceIds r (List.mem_filter.1 hr).1
  · intro r hr; exact g.valid.storageIds r (List.mem_filter.1 hr).1
  · simp only [List.length_take]
    rcases hx.2 with h | h
    · left; omega
    · right; simp [h.1, h.2]
  · intro i h
    rw [hmem, g.hdr]
    constructor
    · rintro ⟨⟨h1, v, hv⟩, h2⟩
      exact ⟨h1, v, by rw [List.getElem?_take_of_lt h2]; exact hv⟩
    · rintro ⟨h1, v, hv⟩
      have := (List.getElem?_eq_some_iff.1 hv).1
      rw [List.length_take] at this
      rw [List.getElem?_take_of_lt (by omega)] at hv
      exact ⟨⟨h1, v, hv⟩, by omega⟩
  · exact g.hkey.filter _
  · intro r hr s hs e
    exact g.huniq r (List.mem_filter.1 hr).1 s (List.mem_filter.1 hs).1 e
  · intro a k
    rw [hups]
    have := sel_purgeDown (fun key : Nat × Nat => db.addrs[key.1]? = some a ∧ db.keys[key.2]? = some k) db.storage tail tr.chain.length
      (fun r hr => by rw [← hul]; exact (g.storage a k).lt hr) hx.1
    have h2 := (g.storage a k).take hx.2
    unfold storageRows
    unfold sel at this
    rw [this]
    exact h2
  · intro a
    rw [hups]
    have := sel_purgeDown (fun key : Nat => db.addrs[key]? = some a) db.nonces tail tr.chain.length
      (fun r hr => by rw [← hul]; exact (g.nonce a).lt hr) hx.1
    have h2 := (g.nonce a).take hx.2
    unfold nonceRows
    unfold sel at this
    rw [this]
    exact h2
  · intro a
    rw [hups]
    have := sel_purgeDown (fun key : Nat => key = a) db.contracts tail tr.chain.length
      (fun r hr => by rw [← hul]; exact (g.cls a).lt hr) hx.1
    have h2 := (g.cls a).take hx.2
    unfold classRows
    unfold sel at this
    rw [this]
    exact h2
  · have : ((fun x : Class × Option Nat => x.1) ∘ fun x : Class × Option Nat => match x.2 with
        | some b => if tail ≤ b ∧ b ≤ tail + (tr.chain.length - 1 - tail) then (x.1, none) else x
        | none => x) = fun d => d.1 := by
      funext d
      simp only [Function.comp]
      split
      · split <;> rfl
      · rfl
    simp only [List.map_map, this]
    exact g.defKeys
  · intro x b
    have hl2 : ∀ l : List (Class × Option Nat), (l.map fun x => match x.2 with
        | some b => if tail ≤ b ∧ b ≤ tail + (tr.chain.length - 1 - tail) then (x.1, none) else x
        | none => x).lookup x = (l.lookup x).map fun o => match o with
          | some b => if tail ≤ b ∧ b ≤ tail + (tr.chain.length - 1 - tail) then none else some b
          | none => none := by
      intro l
      induction l with
      | nil => rfl
      | cons d ds ih =>
        obtain ⟨c, o⟩ := d
        rw [List.map_cons, List.lookup_cons, List.lookup_cons]
        cases o with
        | none =>
          simp only
          cases hxc : (x == c)
          · simp only; exact ih
          · rfl
        | some b' =>
          by_cases hb : tail ≤ b' ∧ b' ≤ tail + (tr.chain.length - 1 - tail)
          · simp only [hb, and_self, ite_true]
            cases hxc : (x == c)
            · simp only; exact ih
            · simp [hb]
          · simp only [hb, ite_false]
            cases hxc : (x == c)
            · simp only; exact ih
            · simp [hb]
    have hg := g.defs x
    simp only [hl2]
    unfold Track.declaredAt at *
    rw [hups]
    have hfi : (tr.updates.take tail).findIdx? (fun u => u.declares x) = some b ↔
        tr.updates.findIdx? (fun u => u.declares x) = some b ∧ b < tail := by
      rw [findIdx?_iff, findIdx?_iff]
      constructor
      · rintro ⟨⟨v, hv, h1⟩, h2⟩
        have hlt := (List.getElem?_eq_some_iff.1 hv).1
        rw [List.length_take] at hlt
        rw [List.getElem?_take_of_lt (by omega)] at hv
        refine ⟨⟨⟨v, hv, h1⟩, ?_⟩, by omega⟩
        intro j w hj hw
        exact h2 j w hj (by rw [List.getElem?_take_of_lt (by omega)]; exact hw)
      · rintro ⟨⟨⟨v, hv, h1⟩, h2⟩, hb⟩
        refine ⟨⟨v, by rw [List.getElem?_take_of_lt hb]; exact hv, h1⟩, ?_⟩
        intro j w hj hw
        rw [List.getElem?_take_of_lt (by omega)] at hw
        exact h2 j w hj hw
    rw [hfi, ← hg b]
    cases ho : db.classDefs.lookup x with
    | none => simp
    | some o =>
      cases o with
      | none => simp
      | some b' =>
        have hb' := (hg b').1 ho
        rw [findIdx?_iff] at hb'
        obtain ⟨⟨v, hv, _⟩, _⟩ := hb'
        have hlt := (List.getElem?_eq_some_iff.1 hv).1
        rw [hul] at hlt
        simp only [Option.map_some, Option.some.injEq]
        by_cases hb : tail ≤ b' ∧ b' ≤ tail + (tr.chain.length - 1 - tail)
        · rw [if_pos hb]
          constructor
          · intro e; simp at e
          · rintro ⟨rfl, h2⟩; omega
        · rw [if_neg hb]
          simp only [Option.some.injEq]
          constructor
          · rintro rfl; exact ⟨rfl, by omega⟩
          · rintro ⟨h, _⟩; exact h

/-! ### pruning -/

theorem Good.pruneBlock {db : Db} {tr : Track} (g : Good db tr) (hl : tr.lo + 1 < tr.chain.length) :
    Good (pruneBlock db tr.lo) { tr with lo := tr.lo + 1 } := by
  refine ⟨⟨g.valid.addrs, g.valid.keys, ?_, ?_⟩, .inl hl, ?_, g.hkey.filter _, ?_, ?_, ?_, ?_, g.defKeys, g.defs⟩
  · intro r hr
    simp only [State.pruneBlock, pruneTable_eq] at hr
    exact g.valid.nonceIds r (List.mem_filter.1 hr).1
  · intro r hr
    simp only [State.pruneBlock, pruneTable_eq] at hr
    exact g.valid.storageIds r (List.mem_filter.1 hr).1
  · intro i h
    simp only [State.pruneBlock, List.mem_filter, g.hdr, bne_iff_ne]
    constructor
    · rintro ⟨⟨h1, h2⟩, h3⟩; exact ⟨by omega, h2⟩
    · rintro ⟨h1, h2⟩; exact ⟨⟨by omega, h2⟩, by omega⟩
  · intro r hr s hs e
    exact g.huniq r (List.mem_filter.1 hr).1 s (List.mem_filter.1 hs).1 e
  · intro a k
    have := sel_pruneTable (p := fun key : Nat × Nat => db.addrs[key.1]? = some a ∧ db.keys[key.2]? = some k) db.storage (tr.lo + 1)
      (by
        rintro ⟨i, j⟩ ⟨i', j'⟩ h1 h2
        simp only at h1 h2
        rw [nodup_getElem?_inj g.valid.addrs h1.1 h2.1, nodup_getElem?_inj g.valid.keys h1.2 h2.2])
    have h2 := (g.storage a k).prune
    show Tab _ tr.updates (tr.lo + 1) (sel (fun key : Nat × Nat => db.addrs[key.1]? = some a ∧ db.keys[key.2]? = some k) (pruneTable db.storage (tr.lo + 1)))
    rw [this]
    exact h2
  · intro a
    have := sel_pruneTable (p := fun key : Nat => db.addrs[key]? = some a) db.nonces (tr.lo + 1)
      (fun k k' h1 h2 => nodup_getElem?_inj g.valid.addrs h1 h2)
    have h2 := (g.nonce a).prune
    show Tab _ tr.updates (tr.lo + 1) (sel (fun key : Nat => db.addrs[key]? = some a) (pruneTable db.nonces (tr.lo + 1)))
    rw [this]
    exact h2
  · intro a
    have := sel_pruneTable (p := fun key : Nat => key = a) db.contracts (tr.lo + 1)
      (fun k k' h1 h2 => h1.trans h2.symm)
    have h2 := (g.cls a).prune
    show Tab _ tr.updates (tr.lo + 1) (sel (fun key : Nat => key = a) (pruneTable db.contracts (tr.lo + 1)))
    rw [this]
    exact h2

theorem Good.pruneLoop {db : Db} {tr : Track} (g : Good db tr) (d : Nat) (hl : tr.lo + d < tr.chain.length) :
    Good (pruneLoop db tr.lo d) { tr with lo := tr.lo + d } := by
  induction d generalizing db tr with
  | zero => exact g
  | succ d ih =>
    unfold State.pruneLoop
    have hb : State.hasBlock db tr.lo = true := by
      rw [g.hasBlock]; simp; omega
    simp only [hb, ite_true]
    have := ih (g.pruneBlock (by omega)) (by simp only; omega)
    simp only at this
    rw [show tr.lo + 1 + d = tr.lo + (d + 1) by omega] at this
    exact this

theorem Good.prune {db : Db} {tr : Track} (g : Good db tr) (point kept : Nat) :
    Good (step db (.prune point kept)) (tr.step (.prune point kept)) := by
  unfold step State.prune Track.step
  rw [g.head]
  by_cases hc : tr.chain = []
  · simp only [hc, ite_true, List.length_nil, Nat.not_lt_zero, false_and, ite_false]; exact g
  have hl : tr.lo < tr.chain.length := by rcases g.lo with h | h; exact h; exact absurd h.2 hc
  rw [g.earliest hc]
  simp only [hc, ite_false]
  by_cases hx : point < tr.chain.length ∧ kept ≤ point
  · rw [if_pos hx, if_pos (by omega)]
    have := g.pruneLoop (point - kept - tr.lo) (by omega)
    rw [show tr.lo + (point - kept - tr.lo) = max tr.lo (point - kept) by omega] at this
    exact this
  · rw [if_neg hx, if_neg (by omega)]; exact g

theorem Good.define {db : Db} {tr : Track} (g : Good db tr) (h : Class) :
    Good (step db (.define h)) (tr.step (.define h)) := by
  unfold step insertDefinition Track.step
  simp only
  split
  · exact g
  · rename_i hn
    have hnone : h ∉ db.classDefs.map (·.1) := by
      intro hm
      rw [List.mem_map] at hm
      obtain ⟨d, hd, e⟩ := hm
      exact hn (List.any_eq_true.2 ⟨d, hd, by simpa using e⟩)
    refine ⟨g.valid.congr rfl rfl rfl rfl, g.lo, g.hdr, g.hkey, g.huniq, g.storage, g.nonce, g.cls, ?_, ?_⟩
    · simp only [List.map_append, List.map_cons, List.map_nil]
      rw [List.nodup_append]
      refine ⟨g.defKeys, by simp, ?_⟩
      intro a ha b hb e
      simp at hb
      exact hnone (hb ▸ e ▸ ha)
    · intro x b
      rw [← g.defs x b]
      simp only
      rw [List.lookup_append]
      cases ho : db.classDefs.lookup x with
      | some o => simp
      | none =>
        simp only [Option.none_or]
        rw [List.lookup_cons]
        cases (x == h) <;> simp

theorem good_step {db : Db} {tr : Track} (g : Good db tr) (op : Op) (hw : ∀ h u, op = .block h u → u.WF) :
    Good (step db op) (tr.step op) := by
  cases op with
  | define h => exact g.define h
  | block h u => exact g.block h u (hw h u rfl)
  | reorg tail => exact g.reorg tail
  | prune p k => exact g.prune p k

theorem good_fold {db : Db} {tr : Track} (g : Good db tr) (ops : List Op) (hw : OpsOk ops) :
    Good (ops.foldl step db) (ops.foldl Track.step tr) := by
  induction ops generalizing db tr with
  | nil => exact g
  | cons op ops ih =>
    exact ih (good_step g op fun h u e => hw h u (by simp [e])) fun h u hm => hw h u (List.mem_cons_of_mem _ hm)

theorem good_run (ops : List Op) (hw : OpsOk ops) : Good (run ops) (Track.run ops) := good_fold good_init ops hw

/-! ### reads -/

theorem Good.numberOf {db : Db} {tr : Track} (g : Good db tr) (h : Hash) : numberOf db h = tr.resolve (.hash h) := by
  unfold State.numberOf Track.resolve
  cases hf : db.headers.find? fun r => r.2 == h with
  | none =>
    symm
    simp only [Option.map_none, Option.map_eq_none_iff, List.findIdx?_eq_none_iff]
    rintro ⟨h', v⟩ hp
    rw [List.find?_eq_none] at hf
    rw [List.mem_iff_getElem?] at hp
    obtain ⟨i, hi⟩ := hp
    rw [List.getElem?_drop] at hi
    have := hf _ ((g.hdr (tr.lo + i) h').2 ⟨by omega, v, hi⟩)
    simpa using this
  | some r =>
    have h1 := List.mem_of_find?_eq_some hf
    have h2 : r.2 = h := by simpa using List.find?_some hf
    obtain ⟨h3, v, hv⟩ := (g.hdr r.1 r.2).1 h1
    have : ((tr.chain.drop tr.lo).findIdx? fun p => p.1 == h) = some (r.1 - tr.lo) := by
      rw [findIdx?_iff]
      refine ⟨⟨(r.2, v), ?_, by simp [h2]⟩, ?_⟩
      · rw [List.getElem?_drop, show tr.lo + (r.1 - tr.lo) = r.1 by omega]; exact hv
      · rintro j ⟨h', w⟩ hj hw
        rw [List.getElem?_drop] at hw
        simp only [beq_eq_false_iff_ne]
        intro e
        have := g.huniq (tr.lo + j, h') ((g.hdr _ _).2 ⟨by omega, w, hw⟩) r h1 (by simp only; rw [e, h2])
        rw [← this] at hj
        simp only at hj
        omega
    simp only [this, Option.map_some, Option.some.injEq]
    omega

theorem Good.resolve_ge {db : Db} {tr : Track} (_g : Good db tr) (h : Hash) {n : Nat} (hn : tr.resolve (.hash h) = some n) : tr.lo ≤ n := by
  unfold Track.resolve at hn
  simp only [Option.map_eq_some_iff] at hn
  obtain ⟨i, _, e⟩ := hn
  omega

theorem Good.read {db : Db} {tr : Track} (g : Good db tr) {α : Type} {f : Update → Option α} {rows : List (Nat × α)}
    (ht : Tab f tr.updates tr.lo rows) (id : BlockId) (hr : tr.Retained id) :
    (atBlock db id rows).map (·.2) = tr.at f id := by
  have hul : tr.updates.length = tr.chain.length := by simp [Track.updates]
  unfold atBlock Track.at
  cases id with
  | latest =>
    simp only [Track.resolve, Option.bind_some]
    rw [← hul]
    exact ht.newest (by rw [hul]; rcases g.lo with h | h; omega; simp [h.1])
  | number n =>
    simp only [Track.resolve, Option.bind_some]
    exact ht.latest hr
  | hash h =>
    simp only
    rw [g.numberOf]
    cases hn : tr.resolve (.hash h) with
    | none => rfl
    | some n =>
      simp only [Option.bind_some]
      exact ht.latest (g.resolve_ge h hn)

end Verif.State
