import Verif.Pend.Spec
import Verif.Diff.LayerProps
/-!
# Merging state differences: what the merged update says
-/
namespace Verif.Pend
open Verif.Diff (SU CUpd Found modify insert insertSet modify_lookup insert_lookup inserts_lookup lookup_none')

/-! ## Association lists -/

/-- Folding `modify` over any list of changes, seen through a view of the entries. -/
theorem fold_view {α β γ : Type} (d : α) (g : α → β → α) (v : α → Option γ) (w : β → Option γ) (hd : v d = none)
    (hv : ∀ e b, v (g e b) = (w b).or (v e)) (xs : List (Nat × β)) (l : List (Nat × α)) (a : Nat) :
    ((xs.foldl (fun l p => modify d l p.1 fun e => g e p.2) l).lookup a).bind v =
      ((xs.filter fun p => p.1 == a).reverse.findSome? fun p => w p.2).or ((l.lookup a).bind v) := by
  induction xs generalizing l with
  | nil => simp
  | cons p xs ih =>
    obtain ⟨b, c⟩ := p
    rw [List.foldl_cons, ih, modify_lookup]
    by_cases h : a = b
    · subst h
      simp only [if_true, List.filter_cons, beq_self_eq_true, List.reverse_cons, List.findSome?_append, Option.bind_some, hv]
      rw [List.findSome?_singleton, ← Option.or_assoc]
      congr 1
      cases l.lookup a with
      | none => simp [hd]
      | some e => simp
    · have h' : (b == a) = false := beq_eq_false_iff_ne.2 (Ne.symm h)
      simp [h, h']

theorem findSome_lookup {β : Type} (xs : List (Nat × β)) (a : Nat) :
    (xs.filter fun p => p.1 == a).findSome? (fun p => some p.2) = xs.lookup a := by
  induction xs with
  | nil => rfl
  | cons p xs ih =>
    obtain ⟨b, c⟩ := p
    rw [List.lookup_cons, List.filter_cons]
    by_cases h : a = b
    · subst h; simp
    · have h' : (b == a) = false := beq_eq_false_iff_ne.2 (Ne.symm h)
      rw [beq_eq_false_iff_ne.2 h]
      simp [h', ih]

theorem findSome_bind {β γ : Type} (w : β → Option γ) (xs : List (Nat × β)) (hn : (xs.map (·.1)).Nodup) (a : Nat) :
    (xs.filter fun p => p.1 == a).reverse.findSome? (fun p => w p.2) = (xs.lookup a).bind w := by
  induction xs with
  | nil => rfl
  | cons p xs ih =>
    obtain ⟨b, c⟩ := p
    have hn' := List.nodup_cons.1 hn
    rw [List.lookup_cons, List.filter_cons]
    by_cases h : a = b
    · subst h
      have h0 : (xs.filter fun p => p.1 == a) = [] := by
        rw [List.filter_eq_nil_iff]
        intro q hq e
        exact hn'.1 (List.mem_map.2 ⟨q, hq, eq_of_beq e⟩)
      simp [h0]
    · have h' : (b == a) = false := beq_eq_false_iff_ne.2 (Ne.symm h)
      rw [beq_eq_false_iff_ne.2 h]
      simp only [h', Bool.false_eq_true, if_false]
      exact ih hn'.2

theorem modify_keys {α : Type} (d : α) (l : List (Nat × α)) (k : Nat) (f : α → α) :
    (modify d l k f).map (·.1) = if k ∈ l.map (·.1) then l.map (·.1) else l.map (·.1) ++ [k] := by
  induction l with
  | nil => simp [Diff.modify]
  | cons p l ih =>
    unfold Diff.modify
    by_cases h : p.1 = k
    · simp [h]
    · simp only [h, if_false, List.map_cons, ih, List.mem_cons]
      by_cases hk : k ∈ l.map (·.1)
      · simp [hk]
      · have : ¬ (k = p.1 ∨ k ∈ l.map (·.1)) := by
          rintro (e | e)
          · exact h e.symm
          · exact hk e
        rw [if_neg hk, if_neg this]
        rfl

theorem modify_nodup {α : Type} (d : α) {l : List (Nat × α)} (h : (l.map (·.1)).Nodup) (k : Nat) (f : α → α) :
    ((modify d l k f).map (·.1)).Nodup := by
  rw [modify_keys]
  split
  · exact h
  · rename_i hk
    rw [List.nodup_append]
    refine ⟨h, by simp, ?_⟩
    intro a ha b hb e
    simp only [List.mem_singleton] at hb
    subst hb; subst e
    exact hk ha

theorem modifies_nodup {α β : Type} (d : α) (g : α → β → α) (xs : List (Nat × β)) {l : List (Nat × α)} (h : (l.map (·.1)).Nodup) :
    ((xs.foldl (fun l p => modify d l p.1 fun e => g e p.2) l).map (·.1)).Nodup := by
  induction xs generalizing l with
  | nil => exact h
  | cons p xs ih => exact ih (modify_nodup d h _ _)

theorem inserts_nodup (xs : List (Nat × Nat)) {l : List (Nat × Nat)} (h : (l.map (·.1)).Nodup) : ((xs.foldl insert l).map (·.1)).Nodup := by
  induction xs generalizing l with
  | nil => exact h
  | cons p xs ih => exact ih (modify_nodup _ h _ _)

/-- Inserting any list: the last entry counts. -/
theorem inserts_last (xs l : List (Nat × Nat)) (k : Nat) : (xs.foldl insert l).lookup k = (xs.reverse.lookup k).or (l.lookup k) := by
  induction xs generalizing l with
  | nil => rfl
  | cons p xs ih =>
    obtain ⟨b, c⟩ := p
    have : (xs.reverse ++ [(b, c)]).lookup k = (xs.reverse.lookup k).or (if k = b then some c else none) := by
      rw [List.lookup_append, List.lookup_cons]
      by_cases h : k = b
      · simp [h]
      · rw [beq_eq_false_iff_ne.2 h]; simp [h]
    rw [List.foldl_cons, ih, insert_lookup, List.reverse_cons, this, Option.or_assoc]
    congr 1
    by_cases h : k = b <;> simp [h]

theorem lookup_reverse {β : Type} (xs : List (Nat × β)) (hn : (xs.map (·.1)).Nodup) (a : Nat) : xs.reverse.lookup a = xs.lookup a := by
  have h := findSome_bind (fun b : β => some b) xs hn a
  rw [← findSome_lookup, List.filter_reverse, h]
  cases xs.lookup a <;> rfl

theorem lookup_map {β γ : Type} (f : β → γ) (xs : List (Nat × β)) (a : Nat) : (xs.map fun p => (p.1, f p.2)).lookup a = (xs.lookup a).map f := by
  induction xs with
  | nil => rfl
  | cons p xs ih =>
    obtain ⟨b, c⟩ := p
    simp only [List.map_cons, List.lookup_cons]
    cases a == b
    · exact ih
    · rfl

theorem lookup_filter {β : Type} (q : Nat → Bool) (xs : List (Nat × β)) (a : Nat) :
    (xs.filter fun p => q p.1).lookup a = if q a then xs.lookup a else none := by
  induction xs with
  | nil => simp
  | cons p xs ih =>
    obtain ⟨b, c⟩ := p
    rw [List.filter_cons]
    by_cases h : a = b
    · subst h
      cases hq : q a
      · simp only [Bool.false_eq_true, if_false]
        rw [ih, hq]; simp
      · simp
    · have hb := beq_eq_false_iff_ne.2 h
      cases hq : q b
      · simp only [Bool.false_eq_true, if_false]
        rw [ih, List.lookup_cons, hb]
      · simp only [if_true]
        rw [List.lookup_cons, hb, List.lookup_cons, hb, ih]

/-- The flattened writes of one address. -/
theorem flat_filter (s : List (Nat × List (Nat × Nat))) (a k : Nat) :
    ((flat s).filter fun p => p.1 == a).reverse.findSome? (fun p => if p.2.1 = k then some p.2.2 else none) =
      (s.filter fun p => p.1 == a).reverse.findSome? fun p => p.2.reverse.lookup k := by
  induction s with
  | nil => rfl
  | cons p s ih =>
    obtain ⟨b, vs⟩ := p
    have hf : flat ((b, vs) :: s) = (vs.map fun kv => (b, kv)) ++ flat s := rfl
    rw [hf, List.filter_append, List.reverse_append, List.findSome?_append, ih, List.filter_cons]
    by_cases h : b = a
    · subst h
      simp only [beq_self_eq_true, if_true, List.reverse_cons, List.findSome?_append, List.findSome?_singleton]
      congr 1
      have h1 : ((vs.map fun kv => (b, kv)).filter fun p => p.1 == b) = vs.map fun kv => (b, kv) := by
        rw [List.filter_eq_self]
        intro q hq
        obtain ⟨kv, _, rfl⟩ := List.mem_map.1 hq
        exact beq_self_eq_true _
      rw [h1, ← List.map_reverse, List.findSome?_map]
      generalize vs.reverse = ws
      induction ws with
      | nil => rfl
      | cons w ws ihw =>
        obtain ⟨x, y⟩ := w
        rw [List.findSome?_cons, List.lookup_cons]
        by_cases hx : k = x
        · subst hx; simp
        · rw [beq_eq_false_iff_ne.2 hx]
          simp only [Function.comp_apply, Ne.symm hx, if_false]
          exact ihw
    · have h' : (b == a) = false := beq_eq_false_iff_ne.2 h
      have h1 : ((vs.map fun kv => (b, kv)).filter fun p => p.1 == a) = [] := by
        rw [List.filter_eq_nil_iff]
        intro q hq
        obtain ⟨kv, _, rfl⟩ := List.mem_map.1 hq
        simp [h']
      simp [h1, h']

/-! ## Views of an update -/

/-- The nonce set, the class change and the values set for contracts and system contracts. -/
def vN (u : SU) (a : Nat) : Option Nat := (u.contracts.lookup a).bind (·.nonce)
def vC (u : SU) (a : Nat) : Option Diff.ClassUpd := (u.contracts.lookup a).bind (·.cls)
def vS (u : SU) (a k : Nat) : Option Nat := (u.contracts.lookup a).bind fun c => c.storage.lookup k
def vY (u : SU) (a k : Nat) : Option Nat := (u.system.lookup a).bind fun s => s.lookup k

/-- A deployment makes everything zero. -/
def zeroIf : Option Diff.ClassUpd → Option Nat
  | some (.deploy _) => some 0
  | _ => none

theorem nonce_view (u : SU) (a : Nat) : Diff.contractNonce u a = (vN u a).or (zeroIf (vC u a)) := by
  unfold Diff.contractNonce vN vC
  cases u.contracts.lookup a with
  | none => rfl
  | some c =>
    obtain ⟨s, cls, n⟩ := c
    rcases cls with _ | (_ | _) <;> rfl

theorem class_view (u : SU) (a : Nat) : Diff.contractClass u a = (vC u a).map (·.hash) := by
  unfold Diff.contractClass vC
  cases u.contracts.lookup a <;> rfl

/-- The value of what was found. -/
def foundVal : Found → Nat
  | .zero => 0
  | .set v => v

theorem storage_view (u : SU) (a k : Nat) :
    Diff.storageValue u a k = (((vS u a k).map Found.set).or ((zeroIf (vC u a)).map fun _ => Found.zero)).or ((vY u a k).map Found.set) := by
  unfold Diff.storageValue vS vC vY
  cases u.contracts.lookup a with
  | none => cases u.system.lookup a <;> rfl
  | some c =>
    obtain ⟨s, cls, n⟩ := c
    rcases cls with _ | (_ | _) <;> cases u.system.lookup a <;> rfl

/-! ## The conversion -/

theorem toSU_nodup (d : GDiff) : ((toSU d).contracts.map (·.1)).Nodup ∧ ((toSU d).system.map (·.1)).Nodup := by
  constructor
  · refine modifies_nodup ({} : CUpd) (fun c (x : Nat) => { c with cls := some (.replace x) }) d.replaced ?_
    refine modifies_nodup ({} : CUpd) (fun c (x : Nat) => { c with nonce := some x }) d.nonces ?_
    refine modifies_nodup ({} : CUpd) (fun c (x : Nat) => { c with cls := some (.deploy x) }) d.deployed ?_
    exact modifies_nodup ({} : CUpd) (fun c (x : Nat × Nat) => { c with storage := insert c.storage x }) _ List.nodup_nil
  · exact modifies_nodup ([] : List (Nat × Nat)) (fun c (x : Nat × Nat) => insert c x) _ List.nodup_nil

theorem toSU_nonce (d : GDiff) (hn : (d.nonces.map (·.1)).Nodup) (a : Nat) : vN (toSU d) a = d.nonceOf a := by
  have e1 := fold_view ({} : CUpd) (fun c (x : Nat) => { c with cls := some (.replace x) }) (·.nonce) (fun _ => none) rfl
    (fun _ _ => rfl) d.replaced
  have e2 := fold_view ({} : CUpd) (fun c (x : Nat) => { c with nonce := some x }) (·.nonce) some rfl (fun _ _ => rfl) d.nonces
  have e3 := fold_view ({} : CUpd) (fun c (x : Nat) => { c with cls := some (.deploy x) }) (·.nonce) (fun _ => none) rfl
    (fun _ _ => rfl) d.deployed
  have e4 := fold_view ({} : CUpd) (fun c (x : Nat × Nat) => { c with storage := insert c.storage x }) (·.nonce) (fun _ => none) rfl
    (fun _ _ => rfl) (flat (d.storage.filter fun p => !State.isSystem p.1))
  unfold vN
  refine (e1 _ a).trans ?_
  rw [List.findSome?_eq_none_iff.2 (fun _ _ => rfl), Option.none_or]
  refine (e2 _ a).trans ?_
  have e5 : (d.nonces.filter fun p => p.1 == a).reverse.findSome? (fun p => some p.2) = d.nonceOf a := by
    rw [findSome_bind (fun x : Nat => some x) d.nonces hn]
    unfold GDiff.nonceOf
    cases d.nonces.lookup a <;> rfl
  rw [e5]
  refine (congrArg _ (e3 _ a)).trans ?_
  rw [List.findSome?_eq_none_iff.2 (fun _ _ => rfl), Option.none_or]
  refine (congrArg _ (e4 _ a)).trans ?_
  rw [List.findSome?_eq_none_iff.2 (fun _ _ => rfl), Option.none_or]
  exact Option.or_none

theorem toSU_class (d : GDiff) (a : Nat) :
    vC (toSU d) a = ((d.replaces a).map Diff.ClassUpd.replace).or ((d.deploys a).map Diff.ClassUpd.deploy) := by
  have aux : ∀ (f : Nat → Diff.ClassUpd) (xs : List (Nat × Nat)),
      (xs.filter fun p => p.1 == a).reverse.findSome? (fun p => some (f p.2)) = (xs.reverse.lookup a).map f := by
    intro f xs
    rw [← List.filter_reverse, ← findSome_lookup]
    generalize (xs.reverse.filter fun p => p.1 == a) = l
    cases l <;> rfl
  have e1 := fold_view ({} : CUpd) (fun c (x : Nat) => { c with cls := some (.replace x) }) (·.cls) (fun x => some (.replace x)) rfl
    (fun _ _ => rfl) d.replaced
  have e2 := fold_view ({} : CUpd) (fun c (x : Nat) => { c with nonce := some x }) (·.cls) (fun _ => none) rfl (fun _ _ => rfl) d.nonces
  have e3 := fold_view ({} : CUpd) (fun c (x : Nat) => { c with cls := some (.deploy x) }) (·.cls) (fun x => some (.deploy x)) rfl
    (fun _ _ => rfl) d.deployed
  have e4 := fold_view ({} : CUpd) (fun c (x : Nat × Nat) => { c with storage := insert c.storage x }) (·.cls) (fun _ => none) rfl
    (fun _ _ => rfl) (flat (d.storage.filter fun p => !State.isSystem p.1))
  unfold vC
  refine (e1 _ a).trans ?_
  rw [aux Diff.ClassUpd.replace]
  refine congrArg _ ?_
  refine (e2 _ a).trans ?_
  rw [List.findSome?_eq_none_iff.2 (fun _ _ => rfl), Option.none_or]
  refine (e3 _ a).trans ?_
  rw [aux Diff.ClassUpd.deploy]
  refine (congrArg _ (e4 _ a)).trans ?_
  rw [List.findSome?_eq_none_iff.2 (fun _ _ => rfl), Option.none_or]
  exact Option.or_none

theorem insert_view (k : Nat) (e : List (Nat × Nat)) (b : Nat × Nat) :
    (insert e b).lookup k = (if b.1 = k then some b.2 else none).or (e.lookup k) := by
  rw [insert_lookup]
  by_cases h : k = b.1
  · subst h; simp
  · simp [h, Ne.symm h]

theorem toSU_storage (d : GDiff) (hs : (d.storage.map (·.1)).Nodup) (a k : Nat) :
    vS (toSU d) a k = if State.isSystem a then none else d.storageOf a k := by
  have e1 := fold_view ({} : CUpd) (fun c (x : Nat) => { c with cls := some (.replace x) }) (fun c => c.storage.lookup k) (fun _ => none) rfl
    (fun _ _ => rfl) d.replaced
  have e2 := fold_view ({} : CUpd) (fun c (x : Nat) => { c with nonce := some x }) (fun c => c.storage.lookup k) (fun _ => none) rfl
    (fun _ _ => rfl) d.nonces
  have e3 := fold_view ({} : CUpd) (fun c (x : Nat) => { c with cls := some (.deploy x) }) (fun c => c.storage.lookup k) (fun _ => none) rfl
    (fun _ _ => rfl) d.deployed
  have e4 := fold_view ({} : CUpd) (fun c (x : Nat × Nat) => { c with storage := insert c.storage x }) (fun c => c.storage.lookup k)
    (fun x => if x.1 = k then some x.2 else none) rfl (fun e b => insert_view k e.storage b)
    (flat (d.storage.filter fun p => !State.isSystem p.1))
  unfold vS
  refine (e1 _ a).trans ?_
  rw [List.findSome?_eq_none_iff.2 (fun _ _ => rfl), Option.none_or]
  refine (e2 _ a).trans ?_
  rw [List.findSome?_eq_none_iff.2 (fun _ _ => rfl), Option.none_or]
  refine (e3 _ a).trans ?_
  rw [List.findSome?_eq_none_iff.2 (fun _ _ => rfl), Option.none_or]
  refine (e4 _ a).trans ?_
  have hs' : ((d.storage.filter fun p => !State.isSystem p.1).map (·.1)).Nodup := hs.sublist (List.filter_sublist.map _)
  rw [flat_filter, findSome_bind (fun v : List (Nat × Nat) => v.reverse.lookup k) _ hs', lookup_filter (fun x => !State.isSystem x)]
  unfold GDiff.storageOf
  cases State.isSystem a <;> simp

theorem systemStorage_keys (s : List (Nat × List (Nat × Nat))) : ((systemStorage s).map (·.1)).Nodup := by
  unfold systemStorage
  simp only [List.filterMap_cons, List.filterMap_nil]
  cases s.lookup 1 <;> cases s.lookup 2 <;> simp

theorem systemStorage_lookup (s : List (Nat × List (Nat × Nat))) (a : Nat) :
    (systemStorage s).lookup a = if State.isSystem a then s.lookup a else none := by
  unfold systemStorage State.isSystem
  simp only [List.filterMap_cons, List.filterMap_nil]
  by_cases h1 : a = 1
  · subst h1
    cases s.lookup 1 <;> cases s.lookup 2 <;> rfl
  · by_cases h2 : a = 2
    · subst h2
      cases s.lookup 1 <;> cases s.lookup 2 <;> rfl
    · have b1 : (a == 1) = false := beq_eq_false_iff_ne.2 h1
      have b2 : (a == 2) = false := beq_eq_false_iff_ne.2 h2
      cases s.lookup 1 <;> cases s.lookup 2 <;> simp [b1, b2, List.lookup_cons]

theorem toSU_system (d : GDiff) (a k : Nat) : vY (toSU d) a k = if State.isSystem a then d.storageOf a k else none := by
  have e := fold_view ([] : List (Nat × Nat)) (fun c (x : Nat × Nat) => insert c x) (fun c => c.lookup k)
    (fun x => if x.1 = k then some x.2 else none) rfl (fun e b => insert_view k e b) (flat (systemStorage d.storage)) [] a
  unfold vY
  refine e.trans ?_
  rw [flat_filter, findSome_bind (fun v : List (Nat × Nat) => v.reverse.lookup k) _ (systemStorage_keys _), systemStorage_lookup]
  unfold GDiff.storageOf
  cases State.isSystem a <;> simp

/-! ## Layering two updates -/

theorem apply_nonce (o n : SU) (hn : (n.contracts.map (·.1)).Nodup) (a : Nat) : vN (Diff.apply o n) a = (vN n a).or (vN o a) := by
  have e := fold_view ({} : CUpd) Diff.applyContract (·.nonce) (·.nonce) rfl
    (fun e b => by unfold Diff.applyContract; cases b.nonce <;> rfl) n.contracts o.contracts a
  rw [findSome_bind _ _ hn] at e
  exact e

theorem apply_class (o n : SU) (hn : (n.contracts.map (·.1)).Nodup) (a : Nat) : vC (Diff.apply o n) a = (vC n a).or (vC o a) := by
  have e := fold_view ({} : CUpd) Diff.applyContract (·.cls) (·.cls) rfl
    (fun e b => by unfold Diff.applyContract; cases b.cls <;> rfl) n.contracts o.contracts a
  rw [findSome_bind _ _ hn] at e
  exact e

/-- All storage maps of the update have distinct keys. -/
def StoreOk (u : SU) : Prop :=
  (∀ c ∈ u.contracts, (c.2.storage.map (·.1)).Nodup) ∧ ∀ c ∈ u.system, (c.2.map (·.1)).Nodup

theorem bind_congr_mem {β γ : Type} (l : List (Nat × β)) (a : Nat) (f g : β → Option γ) (h : ∀ p ∈ l, f p.2 = g p.2) :
    (l.lookup a).bind f = (l.lookup a).bind g := by
  cases hl : l.lookup a with
  | none => rfl
  | some v => exact h _ (Diff.lookup_mem' hl)

theorem apply_storage (o n : SU) (hn : (n.contracts.map (·.1)).Nodup) (hs : StoreOk n) (a k : Nat) :
    vS (Diff.apply o n) a k = (vS n a k).or (vS o a k) := by
  have e := fold_view ({} : CUpd) Diff.applyContract (fun c => c.storage.lookup k) (fun c => c.storage.reverse.lookup k) rfl
    (fun e b => inserts_last b.storage e.storage k) n.contracts o.contracts a
  rw [findSome_bind (fun c : CUpd => c.storage.reverse.lookup k) _ hn,
    bind_congr_mem n.contracts a _ (fun c => c.storage.lookup k) fun p hp => lookup_reverse _ (hs.1 p hp) k] at e
  exact e

theorem apply_system' (o n : SU) (hn : (n.system.map (·.1)).Nodup) (hs : StoreOk n) (a k : Nat) :
    vY (Diff.apply o n) a k = (vY n a k).or (vY o a k) := by
  have e := fold_view ([] : List (Nat × Nat)) (fun e (c : List (Nat × Nat)) => c.foldl insert e) (fun c => c.lookup k)
    (fun c => c.reverse.lookup k) rfl (fun e b => inserts_last b e k) n.system o.system a
  rw [findSome_bind (fun c : List (Nat × Nat) => c.reverse.lookup k) _ hn,
    bind_congr_mem n.system a _ (fun c => c.lookup k) fun p hp => lookup_reverse _ (hs.2 p hp) k] at e
  exact e

theorem modify_mem {α : Type} (P : α → Prop) (d : α) (hd : P d) (l : List (Nat × α)) (k : Nat) (f : α → α) (hf : ∀ x, P x → P (f x))
    (h : ∀ p ∈ l, P p.2) : ∀ p ∈ modify d l k f, P p.2 := by
  induction l with
  | nil =>
    intro p hp
    simp only [Diff.modify, List.mem_singleton] at hp
    subst hp
    exact hf _ hd
  | cons q l ih =>
    intro p hp
    unfold Diff.modify at hp
    split at hp
    · rcases List.mem_cons.1 hp with e | e
      · subst e; exact hf _ (h q List.mem_cons_self)
      · exact h _ (List.mem_cons_of_mem _ e)
    · rcases List.mem_cons.1 hp with e | e
      · subst e; exact h _ List.mem_cons_self
      · exact ih (fun p hp => h p (List.mem_cons_of_mem _ hp)) p e

theorem modifies_mem {α β : Type} (P : α → Prop) (d : α) (hd : P d) (g : α → β → α) (hg : ∀ x b, P x → P (g x b)) (xs : List (Nat × β))
    (l : List (Nat × α)) (h : ∀ p ∈ l, P p.2) : ∀ p ∈ xs.foldl (fun l p => modify d l p.1 fun e => g e p.2) l, P p.2 := by
  induction xs generalizing l with
  | nil => exact h
  | cons x xs ih => exact ih _ (modify_mem P d hd l _ _ (fun e he => hg e _ he) h)

/-- The storage of a contract has distinct keys. -/
def KeysOk (c : CUpd) : Prop := (c.storage.map (·.1)).Nodup

theorem toSU_storeOk (d : GDiff) : StoreOk (toSU d) := by
  constructor
  · refine modifies_mem KeysOk {} List.nodup_nil (fun c (x : Nat) => { c with cls := some (.replace x) })
      (fun _ _ h => h) d.replaced _ ?_
    refine modifies_mem KeysOk {} List.nodup_nil (fun c (x : Nat) => { c with nonce := some x })
      (fun _ _ h => h) d.nonces _ ?_
    refine modifies_mem KeysOk {} List.nodup_nil (fun c (x : Nat) => { c with cls := some (.deploy x) })
      (fun _ _ h => h) d.deployed _ ?_
    refine modifies_mem KeysOk {} List.nodup_nil
      (fun c (x : Nat × Nat) => { c with storage := insert c.storage x }) (fun _ _ h => modify_nodup _ h _ _) _ _ ?_
    simp
  · refine modifies_mem (fun c : List (Nat × Nat) => (c.map (·.1)).Nodup) [] List.nodup_nil (fun c (x : Nat × Nat) => insert c x)
      (fun _ _ h => modify_nodup _ h _ _) _ _ ?_
    simp

/-! ## Merging the differences of the transactions -/

theorem lastSays_snoc {β γ : Type} (f : β → Option γ) (l : List β) (d : β) : lastSays f (l ++ [d]) = (f d).or (lastSays f l) := by
  unfold lastSays
  rw [List.reverse_append, List.findSome?_append, List.reverse_singleton, List.findSome?_singleton]

theorem lastSays_append {β γ : Type} (f : β → Option γ) (l r : List β) : lastSays f (l ++ r) = (lastSays f r).or (lastSays f l) := by
  unfold lastSays
  rw [List.reverse_append, List.findSome?_append]

theorem lastSays_none {β γ : Type} (f : β → Option γ) (l : List β) : lastSays f l = none ↔ ∀ d ∈ l, f d = none := by
  unfold lastSays
  rw [List.findSome?_eq_none_iff]
  simp

theorem snoc_induction {α : Type} {P : List α → Prop} (l : List α) (h0 : P []) (h1 : ∀ l x, P l → P (l ++ [x])) : P l := by
  rw [← List.reverse_reverse l]
  induction l.reverse with
  | nil => exact h0
  | cons x r ih => rw [List.reverse_cons]; exact h1 _ _ ih

/-- The fold of `extend`. -/
def merged (ds : List GDiff) : GDiff := ds.foldl extend {}

theorem merged_snoc (ds : List GDiff) (d : GDiff) : merged (ds ++ [d]) = extend (merged ds) d := by
  unfold merged; rw [List.foldl_append]; rfl

theorem merged_nodup (ds : List GDiff) : ((merged ds).storage.map (·.1)).Nodup ∧ ((merged ds).nonces.map (·.1)).Nodup := by
  induction ds using snoc_induction with
  | h0 => exact ⟨List.nodup_nil, List.nodup_nil⟩
  | h1 l x ih =>
    rw [merged_snoc]
    exact ⟨modifies_nodup [] (fun v (b : List (Nat × Nat)) => v ++ b) x.storage ih.1, inserts_nodup _ ih.2⟩

theorem merged_nonce (ds : List GDiff) (h : ∀ d ∈ ds, d.Ok) (a : Nat) : (merged ds).nonceOf a = lastSays (·.nonceOf a) ds := by
  induction ds using snoc_induction with
  | h0 => rfl
  | h1 l x ih =>
    rw [merged_snoc, lastSays_snoc, ← ih fun d hd => h d (by simp [hd])]
    exact inserts_lookup _ (h x (by simp)).nonces _ a

theorem merged_storage (ds : List GDiff) (h : ∀ d ∈ ds, d.Ok) (a k : Nat) : (merged ds).storageOf a k = lastSays (·.storageOf a k) ds := by
  induction ds using snoc_induction with
  | h0 => rfl
  | h1 l x ih =>
    rw [merged_snoc, lastSays_snoc, ← ih fun d hd => h d (by simp [hd])]
    have e := fold_view ([] : List (Nat × Nat)) (fun v (b : List (Nat × Nat)) => v ++ b) (fun v => v.reverse.lookup k)
      (fun v => v.reverse.lookup k) rfl (fun e b => by rw [List.reverse_append, List.lookup_append]) x.storage (merged l).storage a
    rw [findSome_bind (fun v : List (Nat × Nat) => v.reverse.lookup k) _ (h x (by simp)).storage] at e
    exact e

theorem merged_deploys (ds : List GDiff) (a : Nat) : (merged ds).deploys a = lastSays (·.deploys a) ds := by
  induction ds using snoc_induction with
  | h0 => rfl
  | h1 l x ih =>
    rw [merged_snoc, lastSays_snoc, ← ih]
    unfold GDiff.deploys extend
    simp only
    rw [List.reverse_append, List.lookup_append]

theorem merged_replaces (ds : List GDiff) (a : Nat) : (merged ds).replaces a = lastSays (·.replaces a) ds := by
  induction ds using snoc_induction with
  | h0 => rfl
  | h1 l x ih =>
    rw [merged_snoc, lastSays_snoc, ← ih]
    unfold GDiff.replaces extend
    simp only
    rw [List.reverse_append, List.lookup_append]

theorem dedup_nodup (d : GDiff) (h : (d.storage.map (·.1)).Nodup) : ((dedup d).storage.map (·.1)).Nodup := by
  unfold dedup
  rw [List.map_map]
  exact h

theorem dedup_storage (d : GDiff) (a k : Nat) : (dedup d).storageOf a k = d.storageOf a k := by
  unfold GDiff.storageOf dedup
  rw [lookup_map fun v : List (Nat × Nat) => v.foldl insert []]
  cases d.storage.lookup a with
  | none => rfl
  | some v =>
    simp only [Option.map_some, Option.bind_some]
    rw [lookup_reverse _ (inserts_nodup v (l := []) List.nodup_nil), inserts_last]
    exact Option.or_none

theorem total_views (g : GBlock) (h : ∀ d ∈ txDiffs g, d.Ok) (a k : Nat) :
    vN (toSU (total g)) a = lastSays (·.nonceOf a) (txDiffs g) ∧
    vC (toSU (total g)) a = ((lastSays (·.replaces a) (txDiffs g)).map Diff.ClassUpd.replace).or
      ((lastSays (·.deploys a) (txDiffs g)).map Diff.ClassUpd.deploy) ∧
    vS (toSU (total g)) a k = (if State.isSystem a then none else lastSays (·.storageOf a k) (txDiffs g)) ∧
    vY (toSU (total g)) a k = (if State.isSystem a then lastSays (·.storageOf a k) (txDiffs g) else none) := by
  have hn := merged_nodup (txDiffs g)
  have hs : (total g).storageOf a k = lastSays (·.storageOf a k) (txDiffs g) := (dedup_storage _ a k).trans (merged_storage _ h a k)
  refine ⟨?_, ?_, ?_, ?_⟩
  · rw [toSU_nonce (total g) hn.2]; exact merged_nonce _ h a
  · rw [toSU_class, ← merged_replaces, ← merged_deploys]; rfl
  · rw [toSU_storage (total g) (dedup_nodup _ hn.1), hs]
  · rw [toSU_system, hs]

end Verif.Pend
