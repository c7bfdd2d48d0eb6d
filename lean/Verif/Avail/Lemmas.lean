import Verif.Avail.Spec

/-! Lemmas for C78. -/

namespace Verif.Avail
open Spec

/-- The definition in the row of a class. -/
def Db.defnOf (db : Db) (h : Nat) : Option Def := (db.rows h).bind (·.defn)

/-- The block in the row of a class. -/
def Db.blockOf (db : Db) (h : Nat) : Option Nat := (db.rows h).bind (·.block)

theorem defnOf_insertDef (db : Db) (h : Nat) (d : Def) (k : Nat) :
    (db.insertDef h d).defnOf k = if k = h then (db.defnOf h).or (some d) else db.defnOf k := by
  unfold Db.defnOf Db.insertDef
  by_cases e : k = h
  · simp only [if_pos e]
    cases db.rows h <;> rfl
  · simp only [if_neg e]

theorem blockOf_insertDef (db : Db) (h : Nat) (d : Def) (k : Nat) :
    (db.insertDef h d).blockOf k = db.blockOf k := by
  unfold Db.blockOf Db.insertDef
  by_cases e : k = h
  · subst e
    simp only [if_true]
    cases db.rows k <;> rfl
  · simp only [if_neg e]

theorem defnOf_declareAt (db : Db) (m h k : Nat) : (db.declareAt m h).defnOf k = db.defnOf k := by
  unfold Db.defnOf Db.declareAt
  by_cases e : k = h
  · subst e
    simp only [if_true]
    cases db.rows k <;> rfl
  · simp only [if_neg e]

theorem blockOf_declareAt (db : Db) (m h k : Nat) :
    (db.declareAt m h).blockOf k = if k = h then (db.blockOf h).or (some m) else db.blockOf k := by
  unfold Db.blockOf Db.declareAt
  by_cases e : k = h
  · simp only [if_pos e]
    cases db.rows h <;> rfl
  · simp only [if_neg e]

theorem fold_declareAt (m : Nat) (l : List Nat) (db : Db) :
    (l.foldl (fun s h => s.declareAt m h) db).chain = db.chain ∧
    (l.foldl (fun s h => s.declareAt m h) db).casm = db.casm ∧
    (∀ k, (l.foldl (fun s h => s.declareAt m h) db).defnOf k = db.defnOf k) ∧
    (∀ k, (l.foldl (fun s h => s.declareAt m h) db).blockOf k =
      (db.blockOf k).or (if k ∈ l then some m else none)) := by
  induction l generalizing db with
  | nil => simp
  | cons a l ih =>
    obtain ⟨h1, h2, h3, h4⟩ := ih (db.declareAt m a)
    refine ⟨h1, h2, fun k => ?_, fun k => ?_⟩
    · rw [List.foldl_cons, h3, defnOf_declareAt]
    · rw [List.foldl_cons, h4, blockOf_declareAt]
      by_cases e : k = a
      · subst e
        simp only [if_true, List.mem_cons, true_or]
        cases db.blockOf k <;> rfl
      · rw [if_neg e]; simp only [List.mem_cons, e, false_or]

theorem chain_storeBlock (db : Db) (u : Upd) : (db.storeBlock u).chain = db.chain ++ [u] :=
  (fold_declareAt _ _ _).1

theorem casm_storeBlock (db : Db) (u : Upd) : (db.storeBlock u).casm = db.casm :=
  (fold_declareAt _ _ _).2.1

theorem defnOf_storeBlock (db : Db) (u : Upd) (k : Nat) : (db.storeBlock u).defnOf k = db.defnOf k :=
  (fold_declareAt _ _ _).2.2.1 k

theorem blockOf_storeBlock (db : Db) (u : Upd) (k : Nat) : (db.storeBlock u).blockOf k =
    (db.blockOf k).or (if k ∈ u.introduced then some db.chain.length else none) :=
  (fold_declareAt _ _ _).2.2.2 k

theorem defnOf_purge (db : Db) (k : Nat) : db.purge.defnOf k = db.defnOf k := by
  unfold Db.purge Db.defnOf
  show (Option.map _ (db.rows k)).bind _ = _
  cases db.rows k with
  | none => rfl
  | some r => simp only [Option.map_some, Option.bind_some]; split <;> rfl

theorem blockOf_purge (db : Db) (k : Nat) : db.purge.blockOf k =
    if db.blockOf k = some (db.chain.length - 1) then none else db.blockOf k := by
  unfold Db.purge Db.blockOf
  show (Option.map _ (db.rows k)).bind _ = _
  cases db.rows k with
  | none => rfl
  | some r =>
    simp only [Option.map_some, Option.bind_some]
    split <;> rfl

/-- A property of databases that purging keeps is kept by a reorganisation. -/
theorem reorg_ind {P : Db → Prop} (hp : ∀ db, db.chain ≠ [] → P db → P db.purge) (k : Nat) :
    ∀ n db, db.chain.length = n → P db → P (db.reorg k) := by
  intro n
  induction n with
  | zero =>
    intro db hn h
    unfold Db.reorg
    rw [dif_neg (by omega)]; exact h
  | succ n ih =>
    intro db hn h
    unfold Db.reorg
    by_cases hk : k < db.chain.length
    · rw [dif_pos hk]
      refine ih _ ?_ (hp db ?_ h)
      · simp [Db.purge, hn]
      · intro e; rw [e] at hn; cases hn
    · rw [dif_neg hk]; exact h

theorem chain_reorg (k : Nat) (db : Db) : (db.reorg k).chain = db.chain.take k := by
  have : ∀ n db, db.chain.length = n → (Db.reorg db k).chain = db.chain.take k := by
    intro n
    induction n with
    | zero =>
      intro db hn
      unfold Db.reorg
      rw [dif_neg (by omega), List.take_of_length_le (by omega)]
    | succ n ih =>
      intro db hn
      unfold Db.reorg
      by_cases hk : k < db.chain.length
      · rw [dif_pos hk, ih _ (by simp [Db.purge, hn])]
        show db.chain.dropLast.take k = _
        rw [List.dropLast_eq_take, List.take_take, Nat.min_eq_left (by omega)]
      · rw [dif_neg hk, List.take_of_length_le (by omega)]
  exact this _ db rfl

theorem defnOf_reorg (k : Nat) (db : Db) (h : Nat) : (db.reorg k).defnOf h = db.defnOf h :=
  reorg_ind (P := fun x => x.defnOf h = db.defnOf h) (fun x _ e => by rw [defnOf_purge, e]) k _ db rfl rfl

theorem casm_reorg (k : Nat) (db : Db) : (db.reorg k).casm = db.casm :=
  reorg_ind (P := fun x => x.casm = db.casm) (fun _ _ e => e) k _ db rfl rfl

theorem introduced_iff (u : Upd) (h : Nat) : h ∈ u.introduced ↔ Introduces u h := by
  unfold Upd.introduced Introduces
  simp only [List.mem_append, List.mem_map, Prod.exists, exists_eq_right]
  grind

theorem newClasses_iff (u : Upd) (h : Nat) : h ∈ u.newClasses ↔ Introduces u h := by
  unfold Upd.newClasses Introduces
  simp only [List.mem_append, List.mem_map, Prod.exists, exists_eq_right]
  grind

/-- The block in the row of a class is the first that introduces it. -/
def RowsOk (db : Db) : Prop :=
  ∀ h, db.blockOf h = db.chain.findIdx? fun u => u.introduced.contains h

theorem rowsOk_purge {db : Db} (hne : db.chain ≠ []) (hr : RowsOk db) : RowsOk db.purge := by
  intro h
  rw [blockOf_purge, hr h]
  show _ = db.chain.dropLast.findIdx? _
  have e := List.dropLast_concat_getLast hne
  have hl : db.chain.length - 1 = db.chain.dropLast.length := by simp
  rw [hl]
  generalize db.chain.dropLast = xs at *
  rw [← e, List.findIdx?_append]
  cases e1 : xs.findIdx? fun u => u.introduced.contains h with
  | none =>
    simp only [Option.none_or, List.findIdx?_cons, List.findIdx?_nil]
    split
    · simp
    · rfl
  | some i =>
    have := List.findIdx?_eq_some_iff_getElem.mp e1
    obtain ⟨hi, _⟩ := this
    rw [Option.some_or, if_neg]
    intro hx
    cases hx
    omega

theorem rowsOk_apply {db : Db} (hr : RowsOk db) (e : Event) : RowsOk (db.apply e) := by
  cases e with
  | cairo d h => intro k; show (db.insertDef h d).blockOf k = _; rw [blockOf_insertDef]; exact hr k
  | sierra d h c => intro k; show (db.insertDef h d).blockOf k = _; rw [blockOf_insertDef]; exact hr k
  | block u =>
    intro k
    show (db.storeBlock u).blockOf k = (db.storeBlock u).chain.findIdx? _
    rw [blockOf_storeBlock, chain_storeBlock, List.findIdx?_append, hr k]
    congr 1
    simp only [List.findIdx?_cons, List.findIdx?_nil, List.contains_iff_mem]
    split <;> simp
  | reorg k => exact reorg_ind (fun _ h1 h2 => rowsOk_purge h1 h2) k _ db rfl hr

theorem defnOf_apply {db : Db} (e : Event) {h : Nat} {d : Def} (hd : db.defnOf h = some d) :
    (db.apply e).defnOf h = some d := by
  have ins : ∀ k d', (db.insertDef k d').defnOf h = some d := by
    intro k d'
    rw [defnOf_insertDef]
    by_cases ek : h = k
    · subst ek; rw [if_pos rfl, hd]; rfl
    · rw [if_neg ek]; exact hd
  cases e with
  | cairo d' k => exact ins k d'
  | sierra d' k c => exact ins k d'
  | block u => show (db.storeBlock u).defnOf h = _; rw [defnOf_storeBlock]; exact hd
  | reorg k => show (db.reorg k).defnOf h = _; rw [defnOf_reorg]; exact hd

theorem defnOf_fold (q : List Event) {db : Db} {h : Nat} {d : Def} (hd : db.defnOf h = some d) :
    (q.foldl Db.apply db).defnOf h = some d := by
  induction q generalizing db with
  | nil => exact hd
  | cons e q ih => exact ih (defnOf_apply e hd)

theorem hasDef_iff (db : Db) (h : Nat) : db.hasDef h = true ↔ ∃ d, db.defnOf h = some d := by
  unfold Db.hasDef Db.defnOf
  exact Option.isSome_iff_exists

/-! ### Everything known has a definition -/

/-- Classes that the stored blocks introduce have definitions. -/
def DefGood (db : Db) : Prop := ∀ h, (∃ u ∈ db.chain, Introduces u h) → ∃ d, db.defnOf h = some d

/-- So it is now and after each of the events to come. -/
def AllGood : Db → List Event → Prop
  | db, [] => DefGood db
  | db, e :: q => DefGood db ∧ AllGood (db.apply e) q

theorem allGood_now {db : Db} {q : List Event} (h : AllGood db q) : DefGood db := by
  cases q with
  | nil => exact h
  | cons e q => exact h.1

theorem allGood_end {db : Db} {q : List Event} (h : AllGood db q) : DefGood (q.foldl Db.apply db) := by
  induction q generalizing db with
  | nil => exact h
  | cons e q ih => exact ih h.2

theorem allGood_append {db : Db} {q r : List Event} (h : AllGood db q)
    (hr : AllGood (q.foldl Db.apply db) r) : AllGood db (q ++ r) := by
  induction q generalizing db with
  | nil => exact hr
  | cons e q ih => exact ⟨h.1, ih h.2 hr⟩

theorem defGood_class {db : Db} (h : DefGood db) (e : Event)
    (hc : (db.apply e).chain = db.chain) : DefGood (db.apply e) := by
  intro k hk
  rw [hc] at hk
  obtain ⟨d, hd⟩ := h k hk
  exact ⟨d, defnOf_apply e hd⟩

theorem defGood_reorg {db : Db} (h : DefGood db) (k : Nat) : DefGood (db.apply (.reorg k)) := by
  intro x hx
  obtain ⟨u, hu, hi⟩ := hx
  have hu : u ∈ (db.reorg k).chain := hu
  rw [chain_reorg] at hu
  obtain ⟨d, hd⟩ := h x ⟨u, List.mem_of_mem_take hu, hi⟩
  exact ⟨d, defnOf_apply _ hd⟩

/-- Class events. -/
def IsClass : Event → Prop
  | .cairo _ _ => True
  | .sierra _ _ _ => True
  | _ => False

theorem chain_class (db : Db) {e : Event} (h : IsClass e) : (db.apply e).chain = db.chain := by
  cases e with
  | cairo d k => rfl
  | sierra d k c => rfl
  | block u => cases h
  | reorg k => cases h

theorem allGood_classes {db : Db} (h : DefGood db) {q : List Event} (hq : ∀ e ∈ q, IsClass e) :
    AllGood db q := by
  induction q generalizing db with
  | nil => exact h
  | cons e q ih =>
    exact ⟨h, ih (defGood_class h e (chain_class db (hq e List.mem_cons_self)))
      fun x hx => hq x (List.mem_cons_of_mem _ hx)⟩

theorem chain_classes {q : List Event} (hq : ∀ e ∈ q, IsClass e) (db : Db) :
    (q.foldl Db.apply db).chain = db.chain := by
  induction q generalizing db with
  | nil => rfl
  | cons e q ih =>
    rw [List.foldl_cons, ih (fun x hx => hq x (List.mem_cons_of_mem _ hx)),
      chain_class db (hq e List.mem_cons_self)]

theorem isClass_events (u : Upd) (ds : List Downloaded) : ∀ e ∈ classEvents u ds, IsClass e := by
  intro e he
  unfold classEvents at he
  obtain ⟨x, _, hx⟩ := List.mem_filterMap.mp he
  cases x with
  | cairo d h => simp only [Option.some.injEq] at hx; subst hx; trivial
  | sierra d h c =>
    simp only at hx
    split at hx
    · simp only [Option.some.injEq] at hx; subst hx; trivial
    · cases hx

/-- A class event leaves a definition under its hash. -/
theorem defnOf_event {q : List Event} {db : Db} {h : Nat}
    (he : (∃ d, Event.cairo d h ∈ q) ∨ ∃ d c, Event.sierra d h c ∈ q) :
    ∃ d, (q.foldl Db.apply db).defnOf h = some d := by
  induction q generalizing db with
  | nil => rcases he with ⟨_, h⟩ | ⟨_, _, h⟩ <;> cases h
  | cons e q ih =>
    have ins : ∀ (db : Db) d, ∃ d', (db.insertDef h d).defnOf h = some d' := by
      intro db d
      rw [defnOf_insertDef, if_pos rfl]
      cases db.defnOf h with
      | none => exact ⟨d, rfl⟩
      | some x => exact ⟨x, rfl⟩
    rcases he with ⟨d, hm⟩ | ⟨d, c, hm⟩
    · rcases List.mem_cons.mp hm with rfl | hm
      · obtain ⟨d', hd'⟩ := ins db d
        exact ⟨d', defnOf_fold q hd'⟩
      · exact ih (.inl ⟨d, hm⟩)
    · rcases List.mem_cons.mp hm with rfl | hm
      · obtain ⟨d', hd'⟩ := ins db d
        exact ⟨d', defnOf_fold q (db := db.insertSierra h d c) hd'⟩
      · exact ih (.inr ⟨d, c, hm⟩)

theorem mapM_mem {α β : Type} {f : α → Option β} {l : List α} {r : List β} (h : l.mapM f = some r)
    {x : α} (hx : x ∈ l) : ∃ y ∈ r, f x = some y := by
  induction l generalizing r with
  | nil => cases hx
  | cons a l ih =>
    rw [List.mapM_cons] at h
    simp only [Option.bind_eq_bind, Option.bind_eq_some_iff, Option.pure_def] at h
    obtain ⟨y, hy, ys, hys, e⟩ := h
    simp only [Option.some.injEq] at e
    subst e
    rcases List.mem_cons.mp hx with rfl | hx
    · exact ⟨y, List.mem_cons_self, hy⟩
    · obtain ⟨z, hz, hf⟩ := ih hys hx
      exact ⟨z, List.mem_cons_of_mem _ hz, hf⟩

theorem mapM_from {α β : Type} {f : α → Option β} {l : List α} {r : List β} (h : l.mapM f = some r)
    {y : β} (hy : y ∈ r) : ∃ x ∈ l, f x = some y := by
  induction l generalizing r with
  | nil => simp at h; subst h; cases hy
  | cons a l ih =>
    rw [List.mapM_cons] at h
    simp only [Option.bind_eq_bind, Option.bind_eq_some_iff, Option.pure_def] at h
    obtain ⟨z, hz, ys, hys, e⟩ := h
    simp only [Option.some.injEq] at e
    subst e
    rcases List.mem_cons.mp hy with rfl | hy
    · exact ⟨a, List.mem_cons_self, hz⟩
    · obtain ⟨x, hx, hf⟩ := ih hys hy
      exact ⟨x, List.mem_cons_of_mem _ hx, hf⟩

/-- What a download gives. -/
theorem download_some {hashOf : Def → Nat} {g : Gateway} {h : Nat} {x : Downloaded}
    (e : download hashOf g h = some x) : ∃ d c, g h = some (d, c) ∧
      ((d.sierra = false ∧ x = .cairo d (hashOf d)) ∨
       (d.sierra = true ∧ hashOf d = h ∧ x = .sierra d h c)) := by
  unfold download at e
  cases hg : g h with
  | none => rw [hg] at e; cases e
  | some p =>
    obtain ⟨d, c⟩ := p
    rw [hg] at e
    refine ⟨d, c, rfl, ?_⟩
    simp only at e
    cases hs : d.sierra with
    | false =>
      rw [hs] at e
      simp only [Bool.false_eq_true, if_false, Option.some.injEq] at e
      exact .inl ⟨rfl, e.symm⟩
    | true =>
      rw [hs] at e
      simp only [if_true] at e
      by_cases hh : hashOf d = h
      · rw [if_pos hh] at e
        simp only [Option.some.injEq] at e
        exact .inr ⟨rfl, hh, e.symm⟩
      · rw [if_neg hh] at e; cases e

/-- Everything a block in flight is not going to download has a definition. -/
def LoadGood (db : Db) (l : List (Upd × List Nat)) : Prop :=
  ∀ p ∈ l, ∀ h, Introduces p.1 h → h ∉ p.2 → ∃ d, db.defnOf h = some d

theorem loadGood_apply {db : Db} {l : List (Upd × List Nat)} (h : LoadGood db l) (e : Event) :
    LoadGood (db.apply e) l := by
  intro p hp k hk hn
  obtain ⟨d, hd⟩ := h p hp k hk hn
  exact ⟨d, defnOf_apply e hd⟩

theorem good_reach {hashOf : Def → Nat} {sierra : Nat → Bool} {s : St} (r : HonestReach hashOf sierra s) :
    AllGood s.db s.queue ∧ LoadGood s.db s.loading := by
  induction r with
  | init => exact ⟨fun h ⟨u, hu, _⟩ => (by cases hu), fun p hp => (by cases hp)⟩
  | @quiet s t r h ih =>
    obtain ⟨ih1, ih2⟩ := ih
    rcases h with ⟨u, rfl⟩ | ⟨k, _, rfl⟩ | ⟨e, rest, hq, rfl⟩ | rfl
    · refine ⟨ih1, ?_⟩
      intro p hp h hi hn
      rcases List.mem_append.mp hp with hp | hp
      · exact ih2 p hp h hi hn
      · simp only [List.mem_cons, List.not_mem_nil, or_false] at hp
        subst hp
        have : s.db.hasDef h = true := by
          cases hh : s.db.hasDef h with
          | true => rfl
          | false =>
            refine absurd (List.mem_filter.mpr ⟨(newClasses_iff u h).mpr hi, ?_⟩) hn
            rw [hh]; rfl
        exact (hasDef_iff _ _).mp this
    · exact ⟨allGood_append ih1 ⟨allGood_end ih1, defGood_reorg (allGood_end ih1) k⟩, ih2⟩
    · rw [hq] at ih1
      exact ⟨ih1.2, loadGood_apply ih2 e⟩
    · exact ⟨allGood_now ih1, fun p hp => (by cases hp)⟩
  | @emit s r g u hs rest ds hl hd hg kind cairo declared ih =>
    obtain ⟨ih1, ih2⟩ := ih
    refine ⟨?_, fun p hp => ih2 p (by rw [hl]; exact List.mem_cons_of_mem _ hp)⟩
    have hcls := isClass_events u ds
    have good1 : AllGood s.db (s.queue ++ classEvents u ds) :=
      allGood_append ih1 (allGood_classes (allGood_end ih1) hcls)
    refine allGood_append good1 ?_
    have good2 := allGood_end good1
    refine ⟨good2, ?_⟩
    intro h ⟨v, hv, hi⟩
    have hv : v ∈ (Db.storeBlock _ u).chain := hv
    rw [chain_storeBlock] at hv
    have lift : ∀ {d : Def}, (List.foldl Db.apply s.db (s.queue ++ classEvents u ds)).defnOf h = some d →
        ∃ d, (Db.apply (List.foldl Db.apply s.db (s.queue ++ classEvents u ds)) (.block u)).defnOf h = some d :=
      fun hd => ⟨_, defnOf_apply _ hd⟩
    rcases List.mem_append.mp hv with hv | hv
    · obtain ⟨d, hd⟩ := good2 h ⟨v, hv, hi⟩
      exact lift hd
    · simp only [List.mem_cons, List.not_mem_nil, or_false] at hv
      subst hv
      by_cases hmem : h ∈ hs
      · obtain ⟨y, hy, he⟩ := mapM_mem hd hmem
        obtain ⟨d, c, hgh, hx⟩ := download_some he
        have hash := hg h d c hgh
        have ev : ((∃ d, Event.cairo d h ∈ classEvents v ds) ∨
            ∃ d c, Event.sierra d h c ∈ classEvents v ds) ∨
            ∃ d, (s.queue.foldl Db.apply s.db).defnOf h = some d := by
          rcases hx with ⟨hs', rfl⟩ | ⟨hs', _, rfl⟩
          · rw [hash] at hy
            exact .inl (.inl ⟨d, List.mem_filterMap.mpr ⟨_, hy, rfl⟩⟩)
          · have inSierra : (∃ c, (h, c) ∈ v.sierra) →
                ∃ d c, Event.sierra d h c ∈ classEvents v ds := by
              rintro ⟨c', hc'⟩
              refine ⟨d, c, List.mem_filterMap.mpr ⟨_, hy, ?_⟩⟩
              have : v.sierra.any (·.1 == h) = true :=
                List.any_eq_true.mpr ⟨_, hc', by simp⟩
              simp only [this, if_true]
            have hk : sierra h = true := by rw [← kind h d c hgh]; exact hs'
            rcases hi with hi | hi | ⟨a, hi⟩
            · rw [cairo h hi] at hk; cases hk
            · exact .inl (.inr (inSierra hi))
            · rcases declared a h hi hk with hin | hin
              · exact .inl (.inr (inSierra hin))
              · exact .inr (allGood_end ih1 h hin)
        rcases ev with ev | ⟨d', hd'⟩
        · rw [List.foldl_append] at *
          obtain ⟨d', hd'⟩ := defnOf_event (db := s.queue.foldl Db.apply s.db) ev
          exact lift hd'
        · have := defnOf_fold (classEvents v ds) hd'
          rw [← List.foldl_append] at this
          exact lift this
      · obtain ⟨d, hd⟩ := ih2 (v, hs) (by rw [hl]; exact List.mem_cons_self) h hi hmem
        exact lift (defnOf_fold _ hd)
  | @giveUp s r g u hs rest ds hl hd hg ih =>
    exact ⟨allGood_append ih.1 (allGood_classes (allGood_end ih.1) (isClass_events u ds)),
      fun p hp => (by cases hp)⟩

/-! ### Definitions have their hash -/

/-- The events carry classes under their own hash. -/
def EventOk (hashOf : Def → Nat) : Event → Prop
  | .cairo d h => hashOf d = h ∧ d.sierra = false
  | .sierra d h _ => hashOf d = h ∧ d.sierra = true
  | _ => True

/-- So do the rows, and Sierra classes have a compiled class. -/
structure HashOk (hashOf : Def → Nat) (db : Db) : Prop where
  hash : ∀ h d, db.defnOf h = some d → hashOf d = h
  casm : ∀ h d, db.defnOf h = some d → d.sierra = true → ∃ c, db.casm h = some c
  stored : ∀ h c, db.casm h = some c → ∃ d, db.defnOf h = some d
  rows : RowsOk db

theorem hashOk_apply {hashOf : Def → Nat} {db : Db} (h : HashOk hashOf db) {e : Event}
    (he : EventOk hashOf e) : HashOk hashOf (db.apply e) := by
  have hr := rowsOk_apply h.rows e
  cases e with
  | cairo d k =>
    refine ⟨?_, ?_, ?_, hr⟩
    · intro x d' hd
      have hd : (db.insertDef k d).defnOf x = some d' := hd
      rw [defnOf_insertDef] at hd
      by_cases ex : x = k
      · subst ex
        rw [if_pos rfl] at hd
        cases e1 : db.defnOf x with
        | none => rw [e1] at hd; cases hd; exact he.1
        | some y => rw [e1] at hd; cases hd; exact h.hash x _ e1
      · rw [if_neg ex] at hd; exact h.hash x d' hd
    · intro x d' hd hs
      have hd : (db.insertDef k d).defnOf x = some d' := hd
      rw [defnOf_insertDef] at hd
      by_cases ex : x = k
      · subst ex
        rw [if_pos rfl] at hd
        cases e1 : db.defnOf x with
        | none => rw [e1] at hd; cases hd; rw [he.2] at hs; cases hs
        | some y => rw [e1] at hd; cases hd; exact h.casm x _ e1 hs
      · rw [if_neg ex] at hd; exact h.casm x d' hd hs
    · intro x c hc
      obtain ⟨d', hd'⟩ := h.stored x c hc
      exact ⟨d', defnOf_apply _ hd'⟩
  | sierra d k c =>
    refine ⟨?_, ?_, ?_, hr⟩
    · intro x d' hd
      have hd : (db.insertDef k d).defnOf x = some d' := hd
      rw [defnOf_insertDef] at hd
      by_cases ex : x = k
      · subst ex
        rw [if_pos rfl] at hd
        cases e1 : db.defnOf x with
        | none => rw [e1] at hd; cases hd; exact he.1
        | some y => rw [e1] at hd; cases hd; exact h.hash x _ e1
      · rw [if_neg ex] at hd; exact h.hash x d' hd
    · intro x d' hd hs
      show ∃ c', (if x = k then some c else db.casm x) = some c'
      by_cases ex : x = k
      · exact ⟨c, if_pos ex⟩
      · rw [if_neg ex]
        have hd : (db.insertDef k d).defnOf x = some d' := hd
        rw [defnOf_insertDef, if_neg ex] at hd
        exact h.casm x d' hd hs
    · intro x c' hc
      have hc : (if x = k then some c else db.casm x) = some c' := hc
      by_cases ex : x = k
      · subst ex
        exact defnOf_event (q := [.sierra d x c]) (.inr ⟨d, c, List.mem_cons_self⟩)
      · rw [if_neg ex] at hc
        obtain ⟨d', hd'⟩ := h.stored x c' hc
        exact ⟨d', defnOf_apply _ hd'⟩
  | block u =>
    refine ⟨?_, ?_, ?_, hr⟩
    · intro x d hd
      have hd : (db.storeBlock u).defnOf x = some d := hd
      rw [defnOf_storeBlock] at hd
      exact h.hash x d hd
    · intro x d hd hs
      have hd : (db.storeBlock u).defnOf x = some d := hd
      rw [defnOf_storeBlock] at hd
      show ∃ c, (db.storeBlock u).casm x = some c
      rw [casm_storeBlock]
      exact h.casm x d hd hs
    · intro x c hc
      have hc : (db.storeBlock u).casm x = some c := hc
      rw [casm_storeBlock] at hc
      obtain ⟨d', hd'⟩ := h.stored x c hc
      exact ⟨d', defnOf_apply _ hd'⟩
  | reorg k =>
    refine ⟨?_, ?_, ?_, hr⟩
    · intro x d hd
      have hd : (db.reorg k).defnOf x = some d := hd
      rw [defnOf_reorg] at hd
      exact h.hash x d hd
    · intro x d hd hs
      have hd : (db.reorg k).defnOf x = some d := hd
      rw [defnOf_reorg] at hd
      show ∃ c, (db.reorg k).casm x = some c
      rw [casm_reorg]
      exact h.casm x d hd hs
    · intro x c hc
      have hc : (db.reorg k).casm x = some c := hc
      rw [casm_reorg] at hc
      obtain ⟨d', hd'⟩ := h.stored x c hc
      exact ⟨d', defnOf_apply _ hd'⟩

theorem eventOk_classes {hashOf : Def → Nat} {g : Gateway} {hs : List Nat} {ds : List Downloaded}
    (hd : hs.mapM (download hashOf g) = some ds) (u : Upd) : ∀ e ∈ classEvents u ds, EventOk hashOf e := by
  intro e he
  obtain ⟨x, hx, hy⟩ := List.mem_filterMap.mp he
  obtain ⟨h, _, hh⟩ := mapM_from hd hx
  obtain ⟨d, c, _, h1 | h1⟩ := download_some hh
  · obtain ⟨hs', rfl⟩ := h1
    simp only [Option.some.injEq] at hy
    subst hy
    exact ⟨rfl, hs'⟩
  · obtain ⟨hs', he', rfl⟩ := h1
    simp only at hy
    split at hy
    · simp only [Option.some.injEq] at hy
      subst hy
      exact ⟨he', hs'⟩
    · cases hy

theorem hashOk_reach {hashOf : Def → Nat} {s : St} (r : Reach hashOf s) :
    HashOk hashOf s.db ∧ ∀ e ∈ s.queue, EventOk hashOf e := by
  induction r with
  | init =>
    exact ⟨⟨fun h d e => (by cases e), fun h d e => (by cases e), fun h c e => (by cases e), fun h => rfl⟩,
      fun e he => (by cases he)⟩
  | @step s t r h ih =>
    obtain ⟨ih1, ih2⟩ := ih
    cases h with
    | check u => exact ⟨ih1, ih2⟩
    | emit g u hs rest ds hl hd =>
      refine ⟨ih1, ?_⟩
      intro e he
      rcases List.mem_append.mp he with he | he
      · rcases List.mem_append.mp he with he | he
        · exact ih2 e he
        · exact eventOk_classes hd u e he
      · simp only [List.mem_cons, List.not_mem_nil, or_false] at he
        subst he; trivial
    | giveUp g u hs rest ds hl hd =>
      refine ⟨ih1, ?_⟩
      intro e he
      rcases List.mem_append.mp he with he | he
      · exact ih2 e he
      · exact eventOk_classes hd u e he
    | reorg k hl =>
      refine ⟨ih1, ?_⟩
      intro e he
      rcases List.mem_append.mp he with he | he
      · exact ih2 e he
      · simp only [List.mem_cons, List.not_mem_nil, or_false] at he
        subst he; trivial
    | consume e rest hq =>
      rw [hq] at ih2
      exact ⟨hashOk_apply ih1 (ih2 e List.mem_cons_self), fun x hx => ih2 x (List.mem_cons_of_mem _ hx)⟩
    | restart => exact ⟨ih1, fun e he => (by cases he)⟩

theorem honest_reach {hashOf : Def → Nat} {sierra : Nat → Bool} {s : St}
    (r : HonestReach hashOf sierra s) : Reach hashOf s := by
  induction r with
  | init => exact .init
  | @quiet s t r h ih =>
    rcases h with ⟨u, rfl⟩ | ⟨k, hl, rfl⟩ | ⟨e, rest, hq, rfl⟩ | rfl
    · exact ih.step (.check s u)
    · exact ih.step (.reorg s k hl)
    · exact ih.step (.consume s e rest hq)
    · exact ih.step (.restart s)
  | @emit s r g u hs rest ds hl hd hg kind cairo declared ih => exact ih.step (.emit s g u hs rest ds hl hd)
  | @giveUp s r g u hs rest ds hl hd hg ih => exact ih.step (.giveUp s g u hs rest ds hl hd)

/-- The answer of `getClass` from the columns of the row. -/
theorem getClass_eq (db : Db) (n h : Nat) (hn : n < db.chain.length) :
    getClass db n h = match db.blockOf h with
      | none => .classHashNotFound
      | some m => if m ≤ n then (match db.defnOf h with | none => .internal | some d => .found d)
        else .classHashNotFound := by
  unfold getClass Db.blockOf Db.defnOf
  rw [if_pos hn]
  cases db.rows h with
  | none => rfl
  | some r =>
    cases hb : r.block with
    | none => simp [hb]
    | some m => cases hd : r.defn <;> simp [hb, hd]

theorem knownAt_iff {db : Db} (hr : RowsOk db) (n h : Nat) :
    KnownAt db.chain n h ↔ ∃ m, db.blockOf h = some m ∧ m ≤ n := by
  rw [hr h]
  constructor
  · rintro ⟨m, u, hm, hu, hi⟩
    cases e : db.chain.findIdx? fun u => u.introduced.contains h with
    | none =>
      rw [List.findIdx?_eq_none_iff] at e
      have := e u (List.mem_of_getElem? hu)
      rw [List.contains_iff_mem.mpr ((introduced_iff u h).mpr hi)] at this
      cases this
    | some k =>
      refine ⟨k, rfl, ?_⟩
      obtain ⟨_, _, h2⟩ := List.findIdx?_eq_some_iff_getElem.mp e
      apply Classical.byContradiction
      intro hlt
      have h3 := h2 m (by omega)
      have hlen : m < db.chain.length := by omega
      rw [List.getElem?_eq_getElem hlen] at hu
      cases hu
      exact h3 (List.contains_iff_mem.mpr ((introduced_iff _ h).mpr hi))
  · rintro ⟨m, e, hm⟩
    obtain ⟨hlen, h1, _⟩ := List.findIdx?_eq_some_iff_getElem.mp e
    exact ⟨m, db.chain[m], hm, List.getElem?_eq_getElem hlen,
      (introduced_iff _ h).mp (List.contains_iff_mem.mp h1)⟩

end Verif.Avail
