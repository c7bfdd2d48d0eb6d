import Verif.State.ReadBack
/-
C20: a stored state update is read back unchanged. C47: not so after pruning.
-/
namespace Verif.State
open Verif.Db

section
variable (db : Db) (n : Nat)

/-! Each of the six queries affects its own components only. -/

theorem readNonces_other (s : Update) : (∀ a, (readNonces db n s).classUpdOf a = s.classUpdOf a) ∧
    (∀ a k, (readNonces db n s).contractStorage a k = s.contractStorage a k) ∧
    (readNonces db n s).system = s.system ∧ (readNonces db n s).cairo = s.cairo ∧
    (readNonces db n s).sierra = s.sierra ∧ (readNonces db n s).migrated = s.migrated := by
  unfold readNonces
  refine ⟨fun a => ?_, fun a k => ?_, ?_, ?_, ?_, ?_⟩
  · refine view_fold_same _ (fun u : Update => u.classUpdOf a) (fun u r => ?_) _ _
    split
    · split
      · exact withNonce_cls _ _ _ _
      · rfl
    · rfl
  · refine view_fold_same _ (fun u : Update => u.contractStorage a k) (fun u r => ?_) _ _
    split
    · split
      · exact withNonce_sto _ _ _ _ _
      · rfl
    · rfl
  · refine view_fold_same _ (fun u : Update => u.system) (fun u r => ?_) _ _
    split
    · split <;> rfl
    · rfl
  · refine view_fold_same _ (fun u : Update => u.cairo) (fun u r => ?_) _ _
    split
    · split <;> rfl
    · rfl
  · refine view_fold_same _ (fun u : Update => u.sierra) (fun u r => ?_) _ _
    split
    · split <;> rfl
    · rfl
  · refine view_fold_same _ (fun u : Update => u.migrated) (fun u r => ?_) _ _
    split
    · split <;> rfl
    · rfl

theorem readNonces_nonce (s : Update) (a : Addr) : (readNonces db n s).nonceOf a =
    (db.nonces.reverse.findSome? fun r => if r.block = n ∧ db.addrs[r.key]? = some a then some r.val else none).or (s.nonceOf a) := by
  unfold readNonces
  refine view_fold _ (fun u : Update => u.nonceOf a) _ (fun u r => ?_) _ _
  by_cases h1 : r.block = n
  · cases h2 : db.addrs[r.key]? with
    | none => simp [h1]
    | some b =>
      simp only [h1, ite_true, withNonce_nonce, true_and, Option.some.injEq]
      by_cases e : b = a
      · simp [e]
      · have e' : ¬ a = b := fun h => e h.symm
        simp [e, e']
  · simp [h1]

theorem withStorage_sets (u : Update) (a : Addr) (k : Key) (v : Val) : (withStorage u a k v).cairo = u.cairo ∧
    (withStorage u a k v).sierra = u.sierra ∧ (withStorage u a k v).migrated = u.migrated := by
  unfold withStorage
  split <;> exact ⟨rfl, rfl, rfl⟩

theorem readStorage_other (s : Update) : (∀ a, (readStorage db n s).classUpdOf a = s.classUpdOf a) ∧
    (∀ a, (readStorage db n s).nonceOf a = s.nonceOf a) ∧ (readStorage db n s).cairo = s.cairo ∧
    (readStorage db n s).sierra = s.sierra ∧ (readStorage db n s).migrated = s.migrated := by
  unfold readStorage
  refine ⟨fun a => ?_, fun a => ?_, ?_, ?_, ?_⟩
  · refine view_fold_same _ (fun u : Update => u.classUpdOf a) (fun u r => ?_) _ _
    split
    · split
      · exact withStorage_cls _ _ _ _ _
      · rfl
    · rfl
  · refine view_fold_same _ (fun u : Update => u.nonceOf a) (fun u r => ?_) _ _
    split
    · split
      · exact withStorage_nonce _ _ _ _ _
      · rfl
    · rfl
  · refine view_fold_same _ (fun u : Update => u.cairo) (fun u r => ?_) _ _
    split
    · split
      · exact (withStorage_sets _ _ _ _).1
      · rfl
    · rfl
  · refine view_fold_same _ (fun u : Update => u.sierra) (fun u r => ?_) _ _
    split
    · split
      · exact (withStorage_sets _ _ _ _).2.1
      · rfl
    · rfl
  · refine view_fold_same _ (fun u : Update => u.migrated) (fun u r => ?_) _ _
    split
    · split
      · exact (withStorage_sets _ _ _ _).2.2
      · rfl
    · rfl

theorem readStorage_sto (s : Update) (a : Addr) (k : Key) : (readStorage db n s).contractStorage a k =
    (db.storage.reverse.findSome? fun r => if r.block = n ∧ db.addrs[r.key.1]? = some a ∧ db.keys[r.key.2]? = some k ∧
      isSystem a = false then some r.val else none).or (s.contractStorage a k) := by
  unfold readStorage
  refine view_fold _ (fun u : Update => u.contractStorage a k) _ (fun u r => ?_) _ _
  by_cases h1 : r.block = n
  · cases h2 : db.addrs[r.key.1]? with
    | none => simp [h1]
    | some b =>
      cases h3 : db.keys[r.key.2]? with
      | none => simp [h1]
      | some j =>
        simp only [h1, ite_true, withStorage_sto, true_and, Option.some.injEq]
        by_cases e : b = a
        · by_cases e2 : j = k
          · subst e; subst e2; cases isSystem b <;> simp
          · have e' : ¬ k = j := fun h => e2 h.symm
            simp [e2, e']
        · have e' : ¬ a = b := fun h => e h.symm
          simp [e, e']
  · simp [h1]

theorem readStorage_sys (s : Update) (a : Addr) (k : Key) : (readStorage db n s).systemStorage a k =
    (db.storage.reverse.findSome? fun r => if r.block = n ∧ db.addrs[r.key.1]? = some a ∧ db.keys[r.key.2]? = some k ∧
      isSystem a = true then some r.val else none).or (s.systemStorage a k) := by
  unfold readStorage
  refine view_fold _ (fun u : Update => u.systemStorage a k) _ (fun u r => ?_) _ _
  by_cases h1 : r.block = n
  · cases h2 : db.addrs[r.key.1]? with
    | none => simp [h1]
    | some b =>
      cases h3 : db.keys[r.key.2]? with
      | none => simp [h1]
      | some j =>
        simp only [h1, ite_true, withStorage_sys, true_and, Option.some.injEq]
        by_cases e : b = a
        · by_cases e2 : j = k
          · subst e; subst e2; cases isSystem b <;> simp
          · have e' : ¬ k = j := fun h => e2 h.symm
            simp [e2, e']
        · have e' : ¬ a = b := fun h => e h.symm
          simp [e, e']
  · simp [h1]

theorem mem_putSet (s : List Nat) (x y : Nat) : y ∈ putSet s x ↔ y = x ∨ y ∈ s := by
  unfold putSet
  split
  · rename_i h
    constructor
    · exact .inr
    · rintro (rfl | h2)
      · simpa using h
      · exact h2
  · simp [or_comm]

/-- A fold that only adds to a set. -/
theorem set_fold {σ ρ : Type} (stp : σ → ρ → σ) (mem : σ → Prop) (pick : ρ → Prop)
    (h : ∀ s r, mem (stp s r) ↔ pick r ∨ mem s) (rs : List ρ) (s : σ) :
    mem (rs.foldl stp s) ↔ (∃ r ∈ rs, pick r) ∨ mem s := by
  induction rs generalizing s with
  | nil => simp
  | cons r rs ih =>
    rw [List.foldl_cons, ih, h]
    simp only [List.mem_cons, exists_eq_or_imp]
    constructor
    · rintro (h | h | h)
      · exact .inl (.inr h)
      · exact .inl (.inl h)
      · exact .inr h
    · rintro ((h | h) | h)
      · exact .inr (.inl h)
      · exact .inl h
      · exact .inr (.inr h)

theorem readDeclared_other (s : Update) : (readDeclared db n s).contracts = s.contracts ∧
    (readDeclared db n s).system = s.system ∧ (readDeclared db n s).migrated = s.migrated := by
  unfold readDeclared
  refine ⟨?_, ?_, ?_⟩
  · refine view_fold_same _ (fun u : Update => u.contracts) (fun u r => ?_) _ _
    split
    · split <;> rfl
    · rfl
  · refine view_fold_same _ (fun u : Update => u.system) (fun u r => ?_) _ _
    split
    · split <;> rfl
    · rfl
  · refine view_fold_same _ (fun u : Update => u.migrated) (fun u r => ?_) _ _
    split
    · split <;> rfl
    · rfl

theorem readDeclared_sierra (s : Update) (h : Class) : (readDeclared db n s).sierra.lookup h =
    (db.classDefs.reverse.findSome? fun d => if d.2 = some n ∧ d.1 = h then
      (db.casm.find? fun r => r.cls == h && r.block == n).map (·.casm) else none).or (s.sierra.lookup h) := by
  unfold readDeclared
  refine view_fold _ (fun u : Update => u.sierra.lookup h) _ (fun u d => ?_) _ _
  by_cases h1 : d.2 = some n
  · simp only [h1, ite_true, true_and]
    by_cases e : d.1 = h
    · subst e
      cases h2 : db.casm.find? fun r => r.cls == d.1 && r.block == n with
      | none => simp
      | some r => simp [put_lookup]
    · have e' : ¬ h = d.1 := fun x => e x.symm
      rw [if_neg e]
      cases h2 : db.casm.find? fun r => r.cls == d.1 && r.block == n with
      | none => simp
      | some r => simp [put_lookup, e']
  · simp [h1]

theorem readDeclared_cairo (s : Update) (h : Class) : h ∈ (readDeclared db n s).cairo ↔
    (∃ d ∈ db.classDefs, d.2 = some n ∧ d.1 = h ∧ (db.casm.find? fun r => r.cls == h && r.block == n) = none) ∨ h ∈ s.cairo := by
  unfold readDeclared
  refine set_fold _ (fun u : Update => h ∈ u.cairo) _ (fun u d => ?_) _ _
  by_cases h1 : d.2 = some n
  · simp only [h1, ite_true, true_and]
    by_cases e : d.1 = h
    · subst e
      cases h2 : db.casm.find? fun r => r.cls == d.1 && r.block == n with
      | none => simp [mem_putSet]
      | some r => simp
    · have e' : ¬ h = d.1 := fun x => e x.symm
      cases h2 : db.casm.find? fun r => r.cls == d.1 && r.block == n with
      | none => simp [mem_putSet, e, e']
      | some r => simp [e]
  · simp [h1]

theorem readRedeclared_other (s : Update) : (readRedeclared db n s).contracts = s.contracts ∧
    (readRedeclared db n s).system = s.system ∧ (readRedeclared db n s).migrated = s.migrated ∧
    (readRedeclared db n s).sierra = s.sierra := by
  unfold readRedeclared
  refine ⟨?_, ?_, ?_, ?_⟩
  · refine view_fold_same _ (fun u : Update => u.contracts) (fun u r => ?_) _ _
    split <;> rfl
  · refine view_fold_same _ (fun u : Update => u.system) (fun u r => ?_) _ _
    split <;> rfl
  · refine view_fold_same _ (fun u : Update => u.migrated) (fun u r => ?_) _ _
    split <;> rfl
  · refine view_fold_same _ (fun u : Update => u.sierra) (fun u r => ?_) _ _
    split <;> rfl

theorem readRedeclared_cairo (s : Update) (h : Class) : h ∈ (readRedeclared db n s).cairo ↔
    (∃ d ∈ db.redeclared, d.2 = n ∧ d.1 = h) ∨ h ∈ s.cairo := by
  unfold readRedeclared
  refine set_fold _ (fun u : Update => h ∈ u.cairo) _ (fun u d => ?_) _ _
  by_cases h1 : d.2 = n
  · simp only [h1, ite_true, true_and, mem_putSet]
    constructor
    · rintro (e | e)
      · exact .inl e.symm
      · exact .inr e
    · rintro (e | e)
      · exact .inl e.symm
      · exact .inr e
  · simp [h1]

theorem readMigrated_other (s : Update) : (readMigrated db n s).contracts = s.contracts ∧
    (readMigrated db n s).system = s.system ∧ (readMigrated db n s).cairo = s.cairo ∧
    (readMigrated db n s).sierra = s.sierra := by
  unfold readMigrated
  refine ⟨?_, ?_, ?_, ?_⟩
  · refine view_fold_same _ (fun u : Update => u.contracts) (fun u r => ?_) _ _
    split <;> rfl
  · refine view_fold_same _ (fun u : Update => u.system) (fun u r => ?_) _ _
    split <;> rfl
  · refine view_fold_same _ (fun u : Update => u.cairo) (fun u r => ?_) _ _
    split <;> rfl
  · refine view_fold_same _ (fun u : Update => u.sierra) (fun u r => ?_) _ _
    split <;> rfl

theorem readMigrated_migrated (s : Update) (h : Class) : (readMigrated db n s).migrated.lookup h =
    (db.casm.reverse.findSome? fun r => if r.block = n ∧ r.cls = h ∧
      (db.casm.any fun s => s.cls == h && decide (s.block < n)) = true then some r.casm else none).or (s.migrated.lookup h) := by
  unfold readMigrated
  refine view_fold _ (fun u : Update => u.migrated.lookup h) _ (fun u r => ?_) _ _
  by_cases h1 : r.block = n
  · by_cases e : r.cls = h
    · subst e
      simp only [h1, true_and]
      split <;> simp [put_lookup]
    · have e' : ¬ h = r.cls := fun x => e x.symm
      simp only [h1, e, true_and, false_and, ite_false, Option.none_or]
      split <;> simp [put_lookup, e']
  · simp [h1]

theorem readClasses_other (s : Update) : (∀ a, (readClasses db n s).nonceOf a = s.nonceOf a) ∧
    (∀ a k, (readClasses db n s).contractStorage a k = s.contractStorage a k) ∧
    (readClasses db n s).system = s.system ∧ (readClasses db n s).cairo = s.cairo ∧
    (readClasses db n s).sierra = s.sierra ∧ (readClasses db n s).migrated = s.migrated := by
  unfold readClasses
  refine ⟨fun a => ?_, fun a k => ?_, ?_, ?_, ?_, ?_⟩
  · refine view_fold_same _ (fun u : Update => u.nonceOf a) (fun u r => ?_) _ _
    split
    · exact withClass_nonce _ _ _ _
    · rfl
  · refine view_fold_same _ (fun u : Update => u.contractStorage a k) (fun u r => ?_) _ _
    split
    · exact withClass_sto _ _ _ _ _
    · rfl
  · refine view_fold_same _ (fun u : Update => u.system) (fun u r => ?_) _ _
    split <;> rfl
  · refine view_fold_same _ (fun u : Update => u.cairo) (fun u r => ?_) _ _
    split <;> rfl
  · refine view_fold_same _ (fun u : Update => u.sierra) (fun u r => ?_) _ _
    split <;> rfl
  · refine view_fold_same _ (fun u : Update => u.migrated) (fun u r => ?_) _ _
    split <;> rfl

theorem readClasses_cls (s : Update) (a : Addr) : (readClasses db n s).classUpdOf a =
    (db.contracts.reverse.findSome? fun r => if r.block = n ∧ r.key = a then
      some (if db.contracts.any (fun s => s.key == a && decide (s.block < n)) then .replace r.val else .deploy r.val)
      else none).or (s.classUpdOf a) := by
  unfold readClasses
  refine view_fold _ (fun u : Update => u.classUpdOf a) _ (fun u r => ?_) _ _
  by_cases h1 : r.block = n
  · by_cases e : r.key = a
    · subst e
      simp only [h1, ite_true, withClass_cls, true_and, Option.some_or]
    · have e' : ¬ a = r.key := fun x => e x.symm
      simp [h1, withClass_cls, e, e']
  · simp [h1]

end

end Verif.State
