import Verif.Commit.Ext
import Verif.Common.VersionProps
import Verif.Trie.Props
/-!
# C36 and C53: the state commitment

C36: the commitments of a block are those of the state after it, whatever the history, the order of the updates and the threads were.
C53: a batch of blocks that is applied as one merged update, as checkpoint sync does, has the commitment of its last block. The program
violates this for updates that migrate classes.
-/
namespace Verif.Commit
open Verif.Trie

variable {F : Type} [DecidableEq F] {o : Ops F} {H : Nat} {isSys : Key → Bool}

theorem applyUpdates_holds (hH : 0 < H) (hH2 : H < 256) (us : List (Update F)) :
    ∀ {w : World F} {S : St F}, Holds o H isSys w S → Possible o H isSys S us →
      ∃ w', applyUpdates o H isSys w us = .ok (w', (S.trace o us).map (St.commitments o H isSys)) ∧
        Holds o H isSys w' (us.foldl (St.apply o) S) := by
  induction us with
  | nil => intro w S h _; exact ⟨w, rfl, h⟩
  | cons u us ih =>
    intro w S h hp
    obtain ⟨w1, s, c, e1, h1, hc⟩ := update_holds hH hH2 h hp.1 hp.2.1
    obtain ⟨w2, e2, h2⟩ := ih h1 hp.2.2
    refine ⟨w2, ?_, h2⟩
    simp only [applyUpdates, e1, e2, bind, Except.bind, pure, Except.pure, St.trace, List.map_cons, ← hc]

/-- C36. From a fresh database, every sequence of well-formed updates whose contracts have classes succeeds, and the commitments of each
block are those of the state after it, as defined in `Spec` with no reference to a database. -/
theorem C36_commitment (hH : 0 < H) (hH2 : H < 256) (us : List (Update F)) (hp : Possible o H isSys St.empty us) :
    ∃ w, applyUpdates o H isSys World.init us = .ok (w, ((St.empty : St F).trace o us).map (St.commitments o H isSys)) := by
  obtain ⟨w, e, _⟩ := applyUpdates_holds hH hH2 us init_holds hp
  exact ⟨w, e⟩

theorem trace_last (us : List (Update F)) (S : St F) (h : us ≠ []) : (S.trace o us).getLast? = some (us.foldl (St.apply o) S) := by
  induction us generalizing S with
  | nil => exact absurd rfl h
  | cons u us ih =>
    cases us with
    | nil => rfl
    | cons v us =>
      have := ih (S.apply o u) (by simp)
      simp only [St.trace, List.foldl_cons] at this ⊢
      rw [List.getLast?_cons_cons]
      exact this

/-- C36. Two histories that end in the same state end with the same commitments, even if they have nothing else in common. -/
theorem C36_state (hH : 0 < H) (hH2 : H < 256) (us us' : List (Update F)) (hne : us ≠ []) (hne' : us' ≠ [])
    (hp : Possible o H isSys St.empty us) (hp' : Possible o H isSys St.empty us')
    (hs : us.foldl (St.apply o) St.empty = us'.foldl (St.apply o) (St.empty : St F)) :
    ∃ w w' cs cs' c, applyUpdates o H isSys World.init us = .ok (w, cs) ∧ applyUpdates o H isSys World.init us' = .ok (w', cs') ∧
      cs.getLast? = some c ∧ cs'.getLast? = some c := by
  obtain ⟨w, e⟩ := C36_commitment hH hH2 us hp
  obtain ⟨w', e'⟩ := C36_commitment hH hH2 us' hp'
  refine ⟨w, w', _, _, St.commitments o H isSys (us.foldl (St.apply o) St.empty), e, e', ?_, ?_⟩
  · rw [List.getLast?_map, trace_last us _ hne]; rfl
  · rw [List.getLast?_map, trace_last us' _ hne', hs]; rfl

theorem possible_append (us vs : List (Update F)) (S : St F) :
    Possible o H isSys S (us ++ vs) ↔ Possible o H isSys S us ∧ Possible o H isSys (us.foldl (St.apply o) S) vs := by
  induction us generalizing S with
  | nil => simp [Possible]
  | cons u us ih => simp only [List.cons_append, Possible, List.foldl_cons, ih, and_assoc]

omit [DecidableEq F] in
theorem classes_same (S : St F) {u u' : Update F} (hu' : u'.Ok H isSys) (h : u.Same u') (hc : u.Classes S) : u'.Classes S := by
  intro p hp hn
  have hl := lookup_of_mem hu'.contracts (a := p.1) (v := p.2) hp
  rcases h.contracts p.1 with ⟨_, e'⟩ | ⟨c, c', e, e', hcl, _, _⟩
  · rw [hl] at e'; cases e'
  · rw [hl] at e'
    have hcc : p.2 = c' := Option.some.inj e'
    exact hc (p.1, c) (lookup_mem e) (hcl.trans (by rw [← hcc]; exact hn))

/-- C36. The order of the entries of an update does not matter: if `u'` has the same changes as `u`, in any order of the contracts, of
their storage entries and of the classes, the commitments after any history are the same, and so are those of all later blocks. -/
theorem C36_order (hH : 0 < H) (hH2 : H < 256) (us vs : List (Update F)) (u u' : Update F)
    (hp : Possible o H isSys St.empty (us ++ u :: vs)) (hu' : u'.Ok H isSys) (hs : u.Same u') :
    ∃ w w' cs, applyUpdates o H isSys World.init (us ++ u :: vs) = .ok (w, cs) ∧
      applyUpdates o H isSys World.init (us ++ u' :: vs) = .ok (w', cs) := by
  have hpa := (possible_append us (u :: vs) St.empty).1 hp
  have ha : ∀ S : St F, S.apply o u = S.apply o u' := fun S => apply_same S hpa.2.1 hu' hs
  have hp' : Possible o H isSys St.empty (us ++ u' :: vs) := by
    refine (possible_append us (u' :: vs) St.empty).2 ⟨hpa.1, hu', classes_same _ hu' hs hpa.2.2.1, ?_⟩
    rw [← ha]
    exact hpa.2.2.2
  obtain ⟨w, e⟩ := C36_commitment hH hH2 _ hp
  obtain ⟨w', e'⟩ := C36_commitment hH hH2 _ hp'
  refine ⟨w, w', _, e, ?_⟩
  rw [e']
  congr 3
  have gen : ∀ (xs : List (Update F)) (S : St F), S.trace o (xs ++ u' :: vs) = S.trace o (xs ++ u :: vs) := by
    intro xs
    induction xs with
    | nil => intro S; simp only [List.nil_append, St.trace, ha]
    | cons x xs ih => intro S; simp only [List.cons_append, St.trace, ih]
  exact gen us _

theorem contractResults_missing (hH : 0 < H) (hH2 : H < 256) {w : World F} {S : St F} (h : Holds o H isSys w S)
    (cs : List (Key × ContractUpd F)) (hus : ∀ p ∈ cs, isSys p.1 = false) (hks : ∀ p ∈ cs, ∀ q ∈ p.2.storage, q.1.length = H)
    (l r : List (Key × ContractUpd F)) (p : Key × ContractUpd F) (hcs : cs = l ++ p :: r)
    (hl : ∀ q ∈ l, q.2.cls = none → S.cls q.1 ≠ none) (hp : p.2.cls = none) (hp' : S.cls p.1 = none) :
    contractResults o H isSys w cs = .error (.classMissing p.1) := by
  induction l generalizing cs with
  | nil =>
    subst hcs
    have hup := hus p (by simp)
    have hc : newClass o isSys w p.1 p.2.cls = .error (.classMissing p.1) := by
      simp [newClass, hup, hp, h.cls, hp']
    obtain ⟨x, hx⟩ : ∃ x, newRoot o H w p.1 p.2.storage = .ok x := by
      obtain ⟨y, _, e, _⟩ := contract_ok (isSys := isSys) hH hH2 h.tries h.tries p.1 (fun _ _ h => h) rfl rfl
        (by rw [h.leaf]) p.2.storage (hks p (by simp)) p.2.nonce (some o.ped.zero) (.inr (.inl nofun))
      unfold updateContractState at e
      cases hr : newRoot o H w p.1 p.2.storage with
      | ok x => exact ⟨x, rfl⟩
      | error x => rw [hr] at e; cases e
    have : updateContractState o H isSys w p.1 p.2.storage p.2.nonce p.2.cls = .error (.classMissing p.1) := by
      unfold updateContractState
      rw [hx, hc]
      rfl
    simp only [List.nil_append, contractResults, this, bind, Except.bind]
  | cons q l ih =>
    subst hcs
    have hq := hl q List.mem_cons_self
    obtain ⟨y, _, e, _⟩ := contract_ok (isSys := isSys) hH hH2 h.tries h.tries q.1 (fun _ _ h => h) rfl rfl
      (by rw [h.leaf]) q.2.storage (hks q (by simp)) q.2.nonce q.2.cls (by
        rw [h.cls]
        cases hc : q.2.cls with
        | some c => exact .inr (.inl nofun)
        | none => exact .inr (.inr (hq hc)))
    have := ih (l ++ p :: r) (fun z hz => hus z (List.mem_cons_of_mem _ hz)) (fun z hz => hks z (List.mem_cons_of_mem _ hz)) rfl
      (fun z hz => hl z (List.mem_cons_of_mem _ hz))
    simp only [List.cons_append, contractResults, e, this, bind, Except.bind]

/-- C36. An update of a contract that has no class fails with an error that names the first such contract; by `C36_commitment`, nothing else
fails. -/
theorem C36_missing_class (hH : 0 < H) (hH2 : H < 256) (us : List (Update F)) (hp : Possible o H isSys St.empty us) (u : Update F)
    (hu : u.Ok H isSys) (l r : List (Key × ContractUpd F)) (p : Key × ContractUpd F) (hcs : u.contracts = l ++ p :: r)
    (hl : ∀ q ∈ l, q.2.cls ≠ none ∨ (us.foldl (St.apply o) (St.empty : St F)).cls q.1 ≠ none) (h1 : p.2.cls = none)
    (h2 : (us.foldl (St.apply o) (St.empty : St F)).cls p.1 = none) :
    applyUpdates o H isSys World.init (us ++ [u]) = .error (.classMissing p.1) := by
  have gen : ∀ (us : List (Update F)) (w : World F) (S : St F), Holds o H isSys w S → Possible o H isSys S us →
      (∀ q ∈ l, q.2.cls = none → (us.foldl (St.apply o) S).cls q.1 ≠ none) → (us.foldl (St.apply o) S).cls p.1 = none →
      applyUpdates o H isSys w (us ++ [u]) = .error (.classMissing p.1) := by
    intro us
    induction us with
    | nil =>
      intro w S h _ hl hc
      have := contractResults_missing hH hH2 h u.contracts hu.user hu.keys l r p hcs hl h1 hc
      simp only [List.nil_append, applyUpdates, applyUpdate, updateState, this, bind, Except.bind]
    | cons v us ih =>
      intro w S h hpv hl hc
      obtain ⟨w1, s, c, e1, hw1, _⟩ := update_holds hH hH2 h hpv.1 hpv.2.1
      have := ih w1 _ hw1 hpv.2.2 hl hc
      simp only [List.cons_append, applyUpdates, e1, this, bind, Except.bind]
  exact gen us _ _ init_holds hp (fun q hq hn => (hl q hq).resolve_left (fun h => h hn)) h2

/-- C36. The state commitment: zero for the empty state, the storage commitment alone before version 0.14.0 as long as there are no classes,
and otherwise the hash of both commitments. Versions are compared number by number (`C45_order`). -/
theorem C36_calculate (s c : F) (v : Common.Version) :
    (s = o.ped.zero → c = o.ped.zero → calculate o s c v = o.ped.zero) ∧
    (s ≠ o.ped.zero → c = o.ped.zero → v.rank < (⟨0, 14, 0, 0⟩ : Common.Version).rank → calculate o s c v = s) ∧
    (s ≠ o.ped.zero → c = o.ped.zero → (⟨0, 14, 0, 0⟩ : Common.Version).rank ≤ v.rank → calculate o s c v = o.global s c) ∧
    (c ≠ o.ped.zero → calculate o s c v = o.global s c) := by
  unfold calculate
  rw [Common.C45_order]
  refine ⟨fun h1 h2 => by simp [h1, h2], fun h1 h2 h3 => ?_, fun h1 h2 h3 => ?_, fun h => by simp [h]⟩
  · simp [h1, h2, Nat.compare_eq_lt.2 h3]
  · have : ¬ compare v.rank (⟨0, 14, 0, 0⟩ : Common.Version).rank = .lt := by
      rw [Nat.compare_eq_lt]; omega
    simp [h1, h2, this]

/-- C53, the part the program satisfies: after any history, a batch of updates none of which migrates a class gives as one merged update the
commitments of its last block. -/
theorem C53_batch_partial (hH : 0 < H) (hH2 : H < 256) (us vs : List (Update F)) (hne : vs ≠ [])
    (hp : Possible o H isSys St.empty (us ++ vs)) (hm : ∀ v ∈ vs, v.migrated = []) (hd : ∀ v ∈ vs, (v.sierra.map (·.1)).Nodup) :
    ∃ w w' cs cs' c, applyUpdates o H isSys World.init (us ++ vs) = .ok (w, cs) ∧
      applyUpdates o H isSys World.init (us ++ [merge vs]) = .ok (w', cs') ∧ cs.getLast? = some c ∧ cs'.getLast? = some c := by
  have hpa := (possible_append us vs St.empty).1 hp
  have hok : ∀ v ∈ vs, v.Ok H isSys ∧ v.migrated = [] ∧ (v.sierra.map (·.1)).Nodup := by
    have : ∀ (vs : List (Update F)) (S : St F), Possible o H isSys S vs → ∀ v ∈ vs, v.Ok H isSys := by
      intro vs
      induction vs with
      | nil => intro _ _ v hv; cases hv
      | cons x vs ih =>
        intro S h v hv
        rcases List.mem_cons.1 hv with rfl | hv
        · exact h.1
        · exact ih _ h.2.2 v hv
    exact fun v hv => ⟨this vs _ hpa.2 v hv, hm v hv, hd v hv⟩
  have h0 : (({} : Update F)).Ok H isSys := by
    constructor <;> simp
  have hS : ∀ S : St F, S.apply o {} = S := fun _ => rfl
  obtain ⟨m1, m2, m3⟩ := merge_apply (o := o) vs hok {} h0 rfl (by simp)
  have m4 : (merge vs).Classes (us.foldl (St.apply o) St.empty) :=
    merge_classes (o := o) vs _ {} h0 rfl (by simp) hok (by intro p hp; cases hp) (by rw [hS]; exact hpa.2)
  have hp' : Possible o H isSys St.empty (us ++ [merge vs]) := (possible_append us [merge vs] St.empty).2 ⟨hpa.1, m1, m4, trivial⟩
  refine C36_state hH hH2 _ _ (by simp [hne]) (by simp) hp hp' ?_
  rw [List.foldl_append, List.foldl_append, List.foldl_cons, List.foldl_nil]
  have := m3 (us.foldl (St.apply o) St.empty)
  rw [hS] at this
  exact this.symm

/-! ## Examples -/

/-- Toy hash functions. -/
def exOps : Ops Nat where
  ped := toyOps
  pos := toyOps
  classLeaf x := 2 * x + 1
  global s c := 31 * s + c

/-- Addresses of two bits: 0 and 1 belong to system contracts. -/
def exSys (a : Key) : Bool := a == [false, false] || a == [false, true]

/-- Two contracts are deployed, a class is declared; then one contract changes its storage, and a system contract gets a value. -/
def exUpdates : List (Update Nat) :=
  [ { contracts := [([true, false], { storage := [([false, true], 4)], cls := some 9 }), ([true, true], { cls := some 9, nonce := some 1 })]
      sierra := [([true, false], 5)] },
    { contracts := [([true, true], { storage := [([true, true], 6), ([false, true], 2)] }), ([true, false], { storage := [([false, true], 0)] })]
      system := [([false, true], [([false, false], 8)])]
      sierra := [([false, false], 3)] } ]

theorem exUpdates_ok : Possible exOps 2 exSys St.empty exUpdates := by
  refine ⟨?_, ?_, ?_, ?_, trivial⟩
  · constructor <;> decide
  · intro p hp hn; revert hn; revert p; decide
  · constructor <;> decide
  · intro p hp hn
    clear hn
    have : p.1 = [true, true] ∨ p.1 = [true, false] := by
      revert hp; revert p; decide
    rcases this with h | h <;> rw [h] <;> decide

example : ∃ w, applyUpdates exOps 2 exSys World.init exUpdates =
    .ok (w, ((St.empty : St Nat).trace exOps exUpdates).map (St.commitments exOps 2 exSys)) :=
  C36_commitment (by decide) (by decide) _ exUpdates_ok

/-- The merged batch has the same commitments as the second block. -/
example : ∃ w w' cs cs' c, applyUpdates exOps 2 exSys World.init ([] ++ exUpdates) = .ok (w, cs) ∧
    applyUpdates exOps 2 exSys World.init ([] ++ [merge exUpdates]) = .ok (w', cs') ∧ cs.getLast? = some c ∧ cs'.getLast? = some c :=
  C53_batch_partial (by decide) (by decide) [] exUpdates (by decide) exUpdates_ok (by decide) (by decide)

/-- The second update with its entries in another order. -/
def exOther : Update Nat :=
  { contracts := [([true, false], { storage := [([false, true], 0)] }), ([true, true], { storage := [([false, true], 2), ([true, true], 6)] })]
    system := [([false, true], [([false, false], 8)])]
    sierra := [([false, false], 3)] }

example : exUpdates[1].contracts ≠ exOther.contracts := by decide

theorem exOther_ok : exOther.Ok 2 exSys := by constructor <;> decide

theorem sameMap_iff {α : Type} [DecidableEq α] {l l' : List (Key × α)} (h : (l.map (·.1)).Nodup) (h' : (l'.map (·.1)).Nodup)
    (hp : l.Perm l') : SameMap l l' := by
  refine ⟨h, h', fun k => ?_⟩
  cases e : l.lookup k with
  | some v => exact (lookup_of_mem h' (hp.mem_iff.1 (lookup_mem e))).symm
  | none =>
    cases e' : l'.lookup k with
    | none => rfl
    | some v => rw [lookup_of_mem h (hp.mem_iff.2 (lookup_mem e'))] at e; cases e

example : exUpdates[1].Same exOther where
  contracts := by
    intro a
    by_cases h1 : a = [true, false]
    · subst h1
      exact .inr ⟨_, _, rfl, rfl, rfl, rfl, sameMap_iff (by decide) (by decide) (by decide)⟩
    · by_cases h2 : a = [true, true]
      · subst h2
        exact .inr ⟨_, _, rfl, rfl, rfl, rfl, sameMap_iff (by decide) (by decide) (by decide)⟩
      · left
        constructor <;> simp [exUpdates, exOther, List.lookup_cons, beq_eq_false_iff_ne.2 h1, beq_eq_false_iff_ne.2 h2]
  system := by
    intro a
    by_cases h1 : a = [false, true]
    · subst h1
      exact .inr ⟨_, _, rfl, rfl, sameMap_iff (by decide) (by decide) (by decide)⟩
    · left
      constructor <;> simp [exUpdates, exOther, List.lookup_cons, beq_eq_false_iff_ne.2 h1]
  sierra := sameMap_iff (by decide) (by decide) (by decide)
  migrated := sameMap_iff (by decide) (by decide) (by decide)

/-- A change of the nonce of a contract that was never deployed. -/
example : applyUpdates exOps 2 exSys World.init ([] ++ [{ contracts := [([true, false], { nonce := some 1 })] }]) =
    .error (.classMissing [true, false]) :=
  C36_missing_class (o := exOps) (H := 2) (isSys := exSys) (by decide) (by decide) [] trivial
    { contracts := [([true, false], { nonce := some 1 })] } (by constructor <;> decide) [] [] _ rfl nofun rfl rfl

/-- The class that the first block declares is migrated. -/
def exMigrate : Update Nat := { migrated := [([true, false], 7)] }

theorem exMigrate_ok : Possible exOps 2 exSys St.empty (exUpdates.take 1 ++ [exMigrate]) := by
  refine ⟨exUpdates_ok.1, exUpdates_ok.2.1, ?_, ?_, trivial⟩
  · constructor <;> decide
  · intro p hp; cases hp

/-- C53 is violated: for a batch that migrates a class, the merged update gives another class commitment than the block itself. -/
theorem C53_violated : ∃ (o : Ops Nat) (H : Nat) (isSys : Key → Bool) (us vs : List (Update Nat)), 0 < H ∧ H < 256 ∧ vs ≠ [] ∧
    Possible o H isSys St.empty (us ++ vs) ∧
    ∃ w w' cs cs' s c c', applyUpdates o H isSys World.init (us ++ vs) = .ok (w, cs) ∧
      applyUpdates o H isSys World.init (us ++ [merge vs]) = .ok (w', cs') ∧
      cs.getLast? = some (s, c) ∧ cs'.getLast? = some (s, c') ∧ c ≠ c' := by
  refine ⟨exOps, 2, exSys, exUpdates.take 1, [exMigrate], by decide, by decide, by decide, exMigrate_ok, ?_⟩
  have hp : Possible exOps 2 exSys St.empty (exUpdates.take 1 ++ [merge [exMigrate]]) := by
    refine ⟨exUpdates_ok.1, exUpdates_ok.2.1, ?_, ?_, trivial⟩
    · constructor <;> decide
    · intro p hp; cases hp
  obtain ⟨w, e⟩ := C36_commitment (o := exOps) (isSys := exSys) (by decide) (by decide) _ exMigrate_ok
  obtain ⟨w', e'⟩ := C36_commitment (o := exOps) (isSys := exSys) (by decide) (by decide) _ hp
  exact ⟨w, w', _, _, _, _, _, e, e', rfl, rfl, by decide⟩

end Verif.Commit
