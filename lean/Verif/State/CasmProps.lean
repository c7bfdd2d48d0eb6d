import Verif.State.Casm
/-
C18: CASM hashes after reorgs. The property fails; what holds, and the counterexamples.
-/
namespace Verif.State
open Verif.Db

/-- **C18, partial.** If no reorg removes a block that declares or migrates a Sierra class, the CASM hash of every class
at every block is what the surviving chain says. Missing: reorgs of blocks with declarations, where it is false
(`C18_violated`). -/
theorem C18_casm_hash_partial (ops : List Op) (hw : OpsOk ops) (hc : CleanReorgs ops) (id : BlockId) (c : Class) :
    casmHashAt (run ops) id c = (Track.run ops).at (·.casmOf c) id := by
  have g := good_run ops hw
  have t := casm_run ops hw hc c
  have hul : (Track.run ops).updates.length = (Track.run ops).chain.length := by simp [Track.updates]
  unfold casmHashAt atBlock Track.at
  cases id with
  | latest =>
    simp only [Track.resolve, Option.bind_some]
    rw [← hul]
    exact t.newest (by omega)
  | number n =>
    simp only [Track.resolve, Option.bind_some]
    exact t.latest (by omega)
  | hash h =>
    simp only
    rw [g.numberOf]
    cases (Track.run ops).resolve (.hash h) with
    | none => rfl
    | some n => exact t.latest (by omega)

/-- The same for a reorg: applying the reverse class updates to the class leaves at `hd` gives those at `target`.
Missing: histories with reorgs of declarations (`C18_reorg_violated`) and classes with more than one CASM hash at or
before the target that get another one after it (`C18_two_migrations_violated`). -/
theorem C18_reverse_classes_partial (ops : List Op) (hw : OpsOk ops) (hc : CleanReorgs ops) (hd target : Nat)
    (hle : target ≤ hd)
    (hone : ∀ c i j, i ≤ target → j ≤ target → (Track.run ops).updates[i]?.bind (·.casmOf c) ≠ none →
      (Track.run ops).updates[j]?.bind (·.casmOf c) ≠ none → i = j) (c : Class) :
    revertClasses (run ops) hd target (fun c => asOf (·.casmOf c) (Track.run ops).updates hd) c =
      asOf (·.casmOf c) (Track.run ops).updates target := by
  have t := casm_run ops hw hc c
  have hold : (oldest (casmRows (run ops) c) target).map (·.2) = asOf (·.casmOf c) (Track.run ops).updates target := by
    rw [oldest_eq_latest t.keyed, t.latest (by omega)]
    intro r hr s hs h1 h2
    exact hone c r.1 s.1 h1 h2 (by rw [t.sound r hr]; simp) (by rw [t.sound s hs]; simp)
  unfold revertClasses
  by_cases hk : ∃ r ∈ casmRows (run ops) c, target < r.1 ∧ r.1 ≤ hd
  · rw [setAll_of_mem _ _ c _ (reverseSierra_of_row hk)]
    · exact hold
    · intro w hww
      exact (mem_reverseSierra hww).2
  · rw [setAll_of_not_mem]
    · exact t.unchanged (by omega) hle hk
    · intro w hww
      exact hk (mem_reverseSierra hww).1

/-- Blocks that declare the class 51 with CASM hash 900 and migrate it to 901, and a reorg that removes a block
without declarations. -/
def cleanOps : List Op := [
  .block 100 { cairo := [50] },
  .block 101 { sierra := [(51, 900)] },
  .block 102 { migrated := [(51, 901)] },
  .block 103 {},
  .reorg 3,
  .block 203 { sierra := [(52, 950)] } ]

theorem cleanOps_ok : OpsOk cleanOps := by
  apply opsOk_of
  decide

theorem reorg_at {ops pre post : List Op} {tail : Nat} (e : ops = pre ++ .reorg tail :: post) :
    ops[pre.length]? = some (.reorg tail) ∧ pre = ops.take pre.length := by
  subst e
  simp

theorem cleanOps_clean : CleanReorgs cleanOps := by
  intro pre tail post e
  obtain ⟨h1, h2⟩ := reorg_at e
  have hl : pre.length = 4 := by
    have hb : pre.length < 6 := by
      have := congrArg List.length e
      simp [cleanOps] at this
      omega
    have : ∀ i, i < 6 → (∃ t, cleanOps[i]? = some (.reorg t)) → i = 4 := by
      intro i hi hx
      obtain ⟨t, ht⟩ := hx
      match i, hi with
      | 0, _ => simp [cleanOps] at ht
      | 1, _ => simp [cleanOps] at ht
      | 2, _ => simp [cleanOps] at ht
      | 3, _ => simp [cleanOps] at ht
      | 4, _ => rfl
      | 5, _ => simp [cleanOps] at ht
    exact this _ hb ⟨tail, h1⟩
  rw [hl] at h1 h2
  have ht : tail = 3 := by simp [cleanOps] at h1; omega
  rw [h2, ht]
  decide

/-- The hypotheses of the partial theorems hold of a history with a declaration, a migration and a reorg. -/
example : OpsOk cleanOps ∧ CleanReorgs cleanOps ∧ casmHashAt (run cleanOps) (.number 1) 51 = some 900 ∧
    casmHashAt (run cleanOps) .latest 51 = some 901 ∧
    revertClasses (run cleanOps) 3 1 (fun c => asOf (·.casmOf c) (Track.run cleanOps).updates 3) 51 = some 900 ∧
    revertClasses (run cleanOps) 3 1 (fun c => asOf (·.casmOf c) (Track.run cleanOps).updates 3) 52 = none := by
  refine ⟨cleanOps_ok, cleanOps_clean, ?_⟩
  decide

/-- A fork that declares class 51 at block 1, and a second one that declares it, with another hash, at block 2. -/
def forkOps : List Op := [
  .block 100 {},
  .block 101 { sierra := [(51, 900)] },
  .reorg 1,
  .block 201 {},
  .block 202 { sierra := [(51, 901)] } ]

/-- **C18 fails.** After a reorg of the declaring block the CASM hash of the removed fork is still reported, at the head
and, after the class is declared again, at the blocks before that. -/
theorem C18_violated : ∃ ops, OpsOk ops ∧ NoPrune ops ∧ ∃ id c,
    casmHashAt (run ops) id c ≠ casmHashAt (run (replay (Track.run ops).chain)) id c := by
  refine ⟨forkOps, ?_, by unfold NoPrune; decide, .number 1, 51, by decide⟩
  apply opsOk_of
  decide

/-- A consequence: the next reorg, to block 1, puts the leaf of the removed fork into the class tree, where the chain
has none. The state commitment then does not match the header and the reorg is abandoned (revert.rs 42-48). -/
theorem C18_reorg_violated : ∃ ops, OpsOk ops ∧ ∃ hd target c, target < hd ∧ hd + 1 = (Track.run ops).chain.length ∧
    revertClasses (run ops) hd target (fun c => asOf (·.casmOf c) (Track.run ops).updates hd) c ≠
      asOf (·.casmOf c) (Track.run ops).updates target := by
  refine ⟨forkOps, ?_, 2, 1, 51, by decide, by decide, by decide⟩
  apply opsOk_of
  decide

/-- Another: the state update of the block that declares the class on the new fork is read back with the class as
both declared and migrated. -/
theorem C18_read_back_violated : ∃ ops, OpsOk ops ∧ (Track.run ops).updates[2]?.map (·.migrated) = some [] ∧
    (readUpdate (run ops) 2).map (·.migrated) = some [(51, 901)] := by
  refine ⟨forkOps, ?_, by decide, by decide⟩
  apply opsOk_of
  decide

/-- Without any reorg before, a class with two CASM hashes before the target is reverted to the first one. -/
theorem C18_two_migrations_violated : ∃ ops, OpsOk ops ∧ BlocksOnly ops ∧ ∃ hd target c, target < hd ∧
    revertClasses (run ops) hd target (fun c => asOf (·.casmOf c) (Track.run ops).updates hd) c ≠
      asOf (·.casmOf c) (Track.run ops).updates target := by
  refine ⟨[.block 1 { sierra := [(51, 900)] }, .block 2 { migrated := [(51, 901)] }, .block 3 { migrated := [(51, 902)] }],
    ?_, by unfold BlocksOnly; decide, 2, 1, 51, by decide, by decide⟩
  apply opsOk_of
  decide

end Verif.State
