import Verif.Diff.Spec
/-!
# C38: layered state updates

Reading from `apply old new` is reading from `new` first and then from `old`. It holds for classes and declarations; for nonces and storage
it holds unless `new` replaces the class of a contract that `old` deploys, which violates the property.
-/
namespace Verif.Diff

theorem modify_lookup {α : Type} (d : α) (l : List (Nat × α)) (k : Nat) (f : α → α) (a : Nat) :
    (modify d l k f).lookup a = if a = k then some (f ((l.lookup k).getD d)) else l.lookup a := by
  induction l with
  | nil =>
    simp only [modify, List.lookup_cons, List.lookup_nil, Option.getD_none]
    by_cases h : a = k
    · simp [h]
    · rw [beq_eq_false_iff_ne.2 h]; simp [h]
  | cons p l ih =>
    obtain ⟨b, v⟩ := p
    unfold modify
    by_cases hb : b = k
    · subst hb
      simp only [if_true, List.lookup_cons]
      by_cases h : a = b
      · simp [h]
      · rw [beq_eq_false_iff_ne.2 h]; simp [h]
    · simp only [hb, if_false]
      rw [List.lookup_cons, ih, List.lookup_cons, List.lookup_cons]
      have hkb : (k == b) = false := beq_eq_false_iff_ne.2 (Ne.symm hb)
      rw [hkb]
      by_cases h : a = b
      · subst h
        simp [hb]
      · rw [beq_eq_false_iff_ne.2 h]

theorem lookup_none' {α : Type} {l : List (Nat × α)} {a : Nat} (h : a ∉ l.map (·.1)) : l.lookup a = none := by
  induction l with
  | nil => rfl
  | cons p l ih =>
    obtain ⟨k, v⟩ := p
    simp only [List.map_cons, List.mem_cons, not_or] at h
    rw [List.lookup_cons, beq_eq_false_iff_ne.2 h.1]
    exact ih h.2

theorem modifies_lookup {α β : Type} (d : α) (g : α → β → α) (xs : List (Nat × β)) (hn : (xs.map (·.1)).Nodup) (l : List (Nat × α)) (a : Nat) :
    (xs.foldl (fun l p => modify d l p.1 fun e => g e p.2) l).lookup a =
      ((xs.lookup a).map (fun c => g ((l.lookup a).getD d) c)).or (l.lookup a) := by
  induction xs generalizing l with
  | nil => rfl
  | cons p xs ih =>
    obtain ⟨b, c⟩ := p
    have hn' := List.nodup_cons.1 hn
    rw [List.foldl_cons, ih hn'.2, List.lookup_cons, modify_lookup]
    by_cases h : a = b
    · subst h
      rw [lookup_none' hn'.1]
      simp
    · rw [beq_eq_false_iff_ne.2 h]
      simp [h]

theorem insert_lookup (l : List (Nat × Nat)) (p : Nat × Nat) (a : Nat) : (insert l p).lookup a = if a = p.1 then some p.2 else l.lookup a := by
  unfold insert
  rw [modify_lookup]

theorem inserts_lookup (xs : List (Nat × Nat)) (hn : (xs.map (·.1)).Nodup) (l : List (Nat × Nat)) (a : Nat) :
    (xs.foldl insert l).lookup a = (xs.lookup a).or (l.lookup a) := by
  induction xs generalizing l with
  | nil => rfl
  | cons p xs ih =>
    obtain ⟨b, c⟩ := p
    have hn' := List.nodup_cons.1 hn
    rw [List.foldl_cons, ih hn'.2, List.lookup_cons, insert_lookup]
    by_cases h : a = b
    · subst h
      rw [lookup_none' hn'.1]
      simp
    · rw [beq_eq_false_iff_ne.2 h]
      simp [h]

theorem insertSet_mem (l : List Nat) (x y : Nat) : y ∈ insertSet l x ↔ y = x ∨ y ∈ l := by
  unfold insertSet
  split
  · constructor
    · exact .inr
    · rintro (rfl | h)
      · assumption
      · exact h
  · simp [or_comm]

theorem insertSets_mem (xs l : List Nat) (y : Nat) : y ∈ xs.foldl insertSet l ↔ y ∈ xs ∨ y ∈ l := by
  induction xs generalizing l with
  | nil => simp
  | cons x xs ih =>
    rw [List.foldl_cons, ih, insertSet_mem, List.mem_cons]
    constructor
    · rintro (h | h | h) <;> simp [h]
    · rintro ((h | h) | h) <;> simp [h]

theorem apply_contract (old new : SU) (hn : new.Ok) (a : Nat) :
    (apply old new).contracts.lookup a =
      ((new.contracts.lookup a).map fun c => applyContract ((old.contracts.lookup a).getD {}) c).or (old.contracts.lookup a) :=
  modifies_lookup ({} : CUpd) applyContract new.contracts hn.contracts old.contracts a

theorem apply_system (old new : SU) (hn : new.Ok) (a : Nat) :
    (apply old new).system.lookup a =
      ((new.system.lookup a).map fun c => c.foldl insert ((old.system.lookup a).getD [])).or (old.system.lookup a) :=
  modifies_lookup ([] : List (Nat × Nat)) (fun e (c : List (Nat × Nat)) => c.foldl insert e) new.system hn.system old.system a

theorem lookup_mem' {α : Type} {l : List (Nat × α)} {a : Nat} {v : α} (h : l.lookup a = some v) : (a, v) ∈ l := by
  induction l with
  | nil => cases h
  | cons p l ih =>
    obtain ⟨k, x⟩ := p
    rw [List.lookup_cons] at h
    split at h
    · rename_i hb
      cases h
      rw [eq_of_beq hb]
      exact List.mem_cons_self
    · exact List.mem_cons_of_mem _ (ih h)

/-- C38. The class of a contract: the newer update first. -/
theorem C38_class (old new : SU) (hn : new.Ok) (a : Nat) :
    contractClass (apply old new) a = (contractClass new a).or (contractClass old a) := by
  unfold contractClass
  rw [apply_contract old new hn]
  cases new.contracts.lookup a with
  | none => simp
  | some c =>
    cases old.contracts.lookup a with
    | none => cases hc : c.cls <;> simp [applyContract, hc]
    | some e => cases hc : c.cls <;> simp [applyContract, hc]

/-- C38. A class is declared in the merged update if and only if it is declared in one of the two. -/
theorem C38_declared (old new : SU) (hn : new.Ok) (c : Nat) :
    classIsDeclared (apply old new) c = (classIsDeclared new c || classIsDeclared old c) := by
  have h1 : (apply old new).sierra.lookup c = (new.sierra.lookup c).or (old.sierra.lookup c) := inserts_lookup new.sierra hn.sierra old.sierra c
  have h2 : c ∈ (apply old new).cairo ↔ c ∈ new.cairo ∨ c ∈ old.cairo := insertSets_mem new.cairo old.cairo c
  unfold classIsDeclared
  rw [h1, Option.isSome_or]
  simp only [List.contains_iff_mem, h2]
  by_cases a : c ∈ new.cairo <;> by_cases b : c ∈ old.cairo <;> simp [a, b]

/-- The update deploys the contract. -/
def SU.Deploys (u : SU) (a : Nat) : Prop := ∃ c h, u.contracts.lookup a = some c ∧ c.cls = some (.deploy h)

/-- The update replaces the class of the contract. -/
def SU.Replaces (u : SU) (a : Nat) : Prop := ∃ c h, u.contracts.lookup a = some c ∧ c.cls = some (.replace h)

/-- C38, nonces: the newer update first, unless it replaces the class of a contract that the older one deploys. A contract that the newer
update deploys cannot have an entry in the older one. -/
theorem C38_nonce_partial (old new : SU) (hn : new.Ok) (a : Nat) (h1 : ¬ (old.Deploys a ∧ new.Replaces a))
    (h2 : new.Deploys a → old.contracts.lookup a = none) :
    contractNonce (apply old new) a = (contractNonce new a).or (contractNonce old a) := by
  unfold contractNonce
  rw [apply_contract old new hn]
  cases hc : new.contracts.lookup a with
  | none => simp
  | some c =>
    cases ho : old.contracts.lookup a with
    | none => cases hcn : c.nonce <;> cases hcc : c.cls <;> simp [applyContract, hcn, hcc]
    | some e =>
      have h3 : ∀ h, c.cls ≠ some (.deploy h) := by
        intro h hd
        have := h2 ⟨c, h, hc, hd⟩
        rw [ho] at this
        cases this
      have h4 : ∀ h h', e.cls = some (.deploy h) → c.cls ≠ some (.replace h') := fun h h' x y => h1 ⟨⟨e, h, ho, x⟩, ⟨c, h', hc, y⟩⟩
      cases hcn : c.nonce <;> cases hcc : c.cls <;> cases hen : e.nonce <;> cases hec : e.cls <;>
        simp only [applyContract, hcn, hcc, hen, hec, Option.map_some, Option.some_or, Option.none_or, Option.bind_some,
          Option.bind_none, Option.or_none, Option.getD_some]
      all_goals grind

/-- C38, storage: the same. The address belongs to contracts or to system contracts, in both updates. -/
theorem C38_storage_partial (old new : SU) (hn : new.Ok) (a k : Nat) (h1 : ¬ (old.Deploys a ∧ new.Replaces a))
    (h2 : new.Deploys a → old.contracts.lookup a = none)
    (h3 : (old.system.lookup a = none ∧ new.system.lookup a = none) ∨ (old.contracts.lookup a = none ∧ new.contracts.lookup a = none)) :
    storageValue (apply old new) a k = (storageValue new a k).or (storageValue old a k) := by
  unfold storageValue
  rw [apply_contract old new hn, apply_system old new hn]
  rcases h3 with ⟨e1, e2⟩ | ⟨e1, e2⟩
  · rw [e1, e2]
    simp only [Option.map_none, Option.or_none, Option.bind_none]
    cases hc : new.contracts.lookup a with
    | none => simp
    | some c =>
      have hcs := hn.storage _ (lookup_mem' hc)
      cases ho : old.contracts.lookup a with
      | none =>
        simp only [Option.map_some, Option.some_or, Option.bind_some, Option.getD_none, applyContract, Option.bind_none, Option.or_none]
        rw [inserts_lookup _ hcs]
        cases hcc : c.cls <;> simp
      | some e =>
        have h3 : ∀ h, c.cls ≠ some (.deploy h) := by
          intro h hd
          have := h2 ⟨c, h, hc, hd⟩
          rw [ho] at this
          cases this
        have h4 : ∀ h h', e.cls = some (.deploy h) → c.cls ≠ some (.replace h') := fun h h' x y => h1 ⟨⟨e, h, ho, x⟩, ⟨c, h', hc, y⟩⟩
        simp only [Option.map_some, Option.some_or, Option.bind_some, Option.getD_some, applyContract]
        rw [inserts_lookup _ hcs]
        cases c.storage.lookup k with
        | some v => simp
        | none =>
          simp only [Option.none_or, Option.map_none]
          cases hcc : c.cls with
          | none => simp
          | some x =>
            cases x with
            | deploy h => exact absurd hcc (h3 h)
            | replace h' =>
              cases hec : e.cls with
              | none => simp
              | some y =>
                cases y with
                | deploy h => exact absurd hcc (h4 h h' hec)
                | replace h => simp
  · rw [e1, e2]
    simp only [Option.map_none, Option.or_none, Option.bind_none, Option.none_or]
    cases hc : new.system.lookup a with
    | none => simp
    | some s =>
      have hs := hn.sysStorage _ (lookup_mem' hc)
      cases ho : old.system.lookup a with
      | none => simp [inserts_lookup _ hs]
      | some e =>
        simp only [Option.map_some, Option.some_or, Option.bind_some, Option.getD_some]
        rw [inserts_lookup _ hs]
        cases s.lookup k <;> simp

/-- C38 is violated: whenever the newer update replaces the class of a contract that the older one deploys, and neither sets the nonce,
the merged update has no nonce for it although the older one has nonce zero. The database, which is asked next, does not know the contract. -/
theorem C38_nonce_violated (old new : SU) (hn : new.Ok) (a : Nat) (c e : CUpd) (h h' : Nat) (ho : old.contracts.lookup a = some e)
    (hc : new.contracts.lookup a = some c) (he : e.cls = some (.deploy h)) (hr : c.cls = some (.replace h')) (n1 : e.nonce = none)
    (n2 : c.nonce = none) :
    contractNonce (apply old new) a = none ∧ (contractNonce new a).or (contractNonce old a) = some 0 := by
  unfold contractNonce
  rw [apply_contract old new hn, ho, hc]
  simp [applyContract, he, hr, n1, n2]

/-- C38 is violated in the same way for storage that neither update sets. -/
theorem C38_storage_violated (old new : SU) (hn : new.Ok) (a k : Nat) (c e : CUpd) (h h' : Nat) (ho : old.contracts.lookup a = some e)
    (hc : new.contracts.lookup a = some c) (he : e.cls = some (.deploy h)) (hr : c.cls = some (.replace h'))
    (s1 : e.storage.lookup k = none) (s2 : c.storage.lookup k = none) (hs : old.system.lookup a = none) (hs' : new.system.lookup a = none) :
    storageValue (apply old new) a k = none ∧ (storageValue new a k).or (storageValue old a k) = some .zero := by
  have hcs := hn.storage _ (lookup_mem' hc)
  unfold storageValue
  rw [apply_contract old new hn, apply_system old new hn, ho, hc, hs, hs']
  simp only [Option.map_some, Option.some_or, Option.bind_some, Option.getD_some, applyContract]
  rw [inserts_lookup _ hcs, s1, s2]
  simp [he, hr]

/-- C38 is violated: the classes that the newer update migrates are lost. -/
theorem C38_migrated_violated (old new : SU) : (apply old new).migrated = old.migrated := rfl

/-! ## Examples -/

def exOld : SU := { contracts := [(5, { storage := [(1, 10), (2, 20)], cls := some (.deploy 7) })], sierra := [(7, 70)] }
def exNew : SU := { contracts := [(5, { storage := [(2, 21)], nonce := some 1 }), (6, { cls := some (.deploy 7) })], cairo := [8] }
def exReplace : SU := { contracts := [(5, { cls := some (.replace 8) })] }

theorem exNew_ok : exNew.Ok := by constructor <;> decide
theorem exReplace_ok : exReplace.Ok := by constructor <;> decide

example : storageValue (apply exOld exNew) 5 1 = some (.set 10) ∧ storageValue (apply exOld exNew) 5 2 = some (.set 21) ∧
    storageValue (apply exOld exNew) 5 3 = some .zero ∧ contractNonce (apply exOld exNew) 5 = some 1 ∧
    contractNonce (apply exOld exNew) 6 = some 0 := by decide

example : storageValue (apply exOld exNew) 5 2 = (storageValue exNew 5 2).or (storageValue exOld 5 2) :=
  C38_storage_partial exOld exNew exNew_ok 5 2
    (by rintro ⟨_, c, h, e, e2⟩; cases e; cases e2) (by rintro ⟨c, h, e, e2⟩; cases e; cases e2) (.inl ⟨rfl, rfl⟩)

/-- Deployed in the older update, replaced in the newer one. -/
example : contractNonce exOld 5 = some 0 ∧ contractNonce (apply exOld exReplace) 5 = none :=
  ⟨rfl, (C38_nonce_violated exOld exReplace exReplace_ok 5 _ _ 7 8 rfl rfl rfl rfl rfl rfl).1⟩

/-- C38, single update: the nonce found is the one set, zero for a contract deployed here, and nothing otherwise. -/
theorem C38_nonce_one (u : SU) (a : Nat) : contractNonce u a =
    match u.contracts.lookup a with
    | none => none
    | some x => match x.nonce, x.cls with
      | some n, _ => some n
      | none, some (.deploy _) => some 0
      | none, _ => none := by
  unfold contractNonce
  cases u.contracts.lookup a with
  | none => rfl
  | some x =>
    obtain ⟨storage, cls, nonce⟩ := x
    rcases nonce with _ | n <;> rcases cls with _ | (c | c) <;> rfl

/-- C38, single update: for a user contract, the value found is the one set, zero for a contract deployed here, and nothing otherwise. -/
theorem C38_storage_one (u : SU) (a k : Nat) (hs : u.system.lookup a = none) : storageValue u a k =
    match u.contracts.lookup a with
    | none => none
    | some x => match x.storage.lookup k, x.cls with
      | some v, _ => some (.set v)
      | none, some (.deploy _) => some .zero
      | none, _ => none := by
  unfold storageValue
  rw [hs]
  cases u.contracts.lookup a with
  | none => rfl
  | some x =>
    obtain ⟨storage, cls, nonce⟩ := x
    dsimp only [Option.bind_some, Option.bind_none]
    rw [Option.or_none]
    cases storage.lookup k <;> rcases cls with _ | (c | c) <;> rfl

example : contractNonce ⟨[(5, ⟨[(1, 2)], some (.deploy 9), none⟩)], [], [], [], []⟩ 5 = some 0 := by decide
example : storageValue ⟨[(5, ⟨[(1, 2)], some (.deploy 9), none⟩)], [], [], [], []⟩ 5 1 = some (.set 2) ∧
    storageValue ⟨[(5, ⟨[(1, 2)], some (.deploy 9), none⟩)], [], [], [], []⟩ 5 3 = some .zero := by decide

end Verif.Diff
