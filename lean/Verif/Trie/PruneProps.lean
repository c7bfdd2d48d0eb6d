/-
Property theorems C12-C14: pruning and rollback of tries.
-/
import Verif.Trie.PruneHist
import Verif.Trie.Props

namespace Verif.Trie
open Verif.Db

variable {C F : Type} [DecidableEq C] [DecidableEq F] (o : FeltOps F) (H : Nat) (mode : Option Nat)

theorem step_good (hH : 0 < H) (hH2 : H < 256) {s : PState C F} {tr : Track C} (h : Good o H mode s tr)
    (op : POp C F) (hop : OpOk o H s op) (ha : AboveLast mode tr op) :
    ∃ s' log, s.step o H mode op = .ok (s', log) ∧ Good o H mode s' (tr.step mode op log) := by
  cases op with
  | block ups => exact block_good hH hH2 h ups hop
  | reorg t revs => exact reorg_good hH hH2 h t revs hop ha
  | reorgAll => exact reorgAll_good h

theorem hist_good (hH : 0 < H) (hH2 : H < 256) {s : PState C F} {tr : Track C}
    (h : Hist o H mode (AboveLast mode) s tr) : Good o H mode s tr := by
  induction h with
  | init => exact Good.init
  | step _ hop ha e ih =>
    obtain ⟨s', log, e', hg⟩ := step_good o H mode hH hH2 ih _ hop ha
    rw [e] at e'
    cases e'
    exact hg

/-- **C12** With any pruning depth, every sequence of blocks can be stored, and afterwards the trie of every contract
at every one of the last `kept + 1` blocks (every block in archive mode) is completely readable: it answers
all reads and writes like the map of the values written up to that block, and has its commitment. -/
theorem C12_pruning_keeps_retained (hH : 0 < H) (hH2 : H < 256)
    (blocks : List (List (Bool × C × List (List Bool × F))))
    (hok : ∀ ups ∈ blocks, (ups.map (·.2.1)).Nodup ∧ ∀ u ∈ ups, ∀ w ∈ u.2.2, w.1.length = H) :
    ∃ s, (PState.init : PState C F).run o H mode (blocks.map .block) = .ok s ∧
      ∀ b, b < blocks.length → (∀ kept, mode = some kept → blocks.length ≤ b + kept + 1) → ∀ c,
        Readable o H s.db.table (s.db.rootAt c b)
          (contentAfter o ((blocks.take (b + 1)).map fun ups => writesTo ups c)) := by
  -- generalise over the blocks already stored
  have key : ∀ (todo : List (List (Bool × C × List (List Bool × F)))) (done : List (List (Bool × C × List (List Bool × F))))
      (s : PState C F) (tr : Track C), Good o H mode s tr → s.next = done.length →
      tr.lo ≤ lowest mode (done.length - 1) →
      (∀ ups ∈ todo, (ups.map (·.2.1)).Nodup ∧ ∀ u ∈ ups, ∀ w ∈ u.2.2, w.1.length = H) →
      (∀ b, b < done.length → ∀ c, s.leaf b c = contentAfter o ((done.take (b + 1)).map fun ups => writesTo ups c)) →
      ∃ s' tr', s.run o H mode (todo.map .block) = .ok s' ∧ Good o H mode s' tr' ∧
        s'.next = (done ++ todo).length ∧ tr'.lo ≤ lowest mode ((done ++ todo).length - 1) ∧
        ∀ b, b < (done ++ todo).length → ∀ c,
          s'.leaf b c = contentAfter o (((done ++ todo).take (b + 1)).map fun ups => writesTo ups c) := by
    intro todo
    induction todo with
    | nil =>
      intro done s tr hg hn hlo _ hl
      exact ⟨s, tr, rfl, hg, by simpa using hn, by simpa using hlo, by simpa using hl⟩
    | cons ups todo ih =>
      intro done s tr hg hn hlo hok hl
      obtain ⟨s1, log, e1, hg1⟩ := block_good hH hH2 hg ups (hok ups List.mem_cons_self)
      have hs1 : s1.next = s.next + 1 ∧ ∀ b c, s1.leaf b c =
          if b = s.next then (writesTo ups c).foldl (leafWrite o) (s.headLeaf c) else s.leaf b c := by
        simp only [PState.step, bind, Except.bind, pure, Except.pure] at e1
        split at e1
        · simp at e1
        · simp only [Except.ok.injEq, Prod.mk.injEq] at e1
          rw [← e1.1]
          exact ⟨rfl, fun _ _ => rfl⟩
      obtain ⟨s', tr', e2, h1, h2, h3, h4⟩ := ih (done ++ [ups]) s1 _ hg1 (by simp [hs1.1, hn])
        (by
          simp only [Track.step, hg.next, hn, List.length_append, List.length_singleton, Nat.add_sub_cancel]
          cases mode with
          | none => simp only [lowest] at hlo ⊢; omega
          | some kept => simp only [lowest] at hlo ⊢; omega)
        (fun u hu => hok u (List.mem_cons_of_mem _ hu))
        (by
          intro b hb c
          simp only [List.length_append, List.length_singleton] at hb
          rw [hs1.2]
          split
          · rename_i hbn
            have hb' : b = done.length := by omega
            rw [leafWrite_foldl']
            rw [List.take_of_length_le (by simp; omega)]
            simp only [List.map_append, List.map_cons, List.map_nil, contentAfter, List.foldl_append, List.foldl_cons,
              List.foldl_nil]
            congr 1
            cases hdl : done.length with
            | zero =>
              have : done = [] := List.length_eq_zero_iff.1 hdl
              subst this
              simp [PState.headLeaf, hn]
              rfl
            | succ p =>
              have := hl p (by omega) c
              simp only [PState.headLeaf, hn, hdl]
              rw [this, List.take_of_length_le (by omega)]
              rfl
          · rw [List.take_append_of_le_length (by omega)]
            exact hl b (by omega) c)
      refine ⟨s', tr', ?_, h1, by simpa using h2, by simpa using h3, by simpa using h4⟩
      simp only [List.map_cons, PState.run, e1, bind, Except.bind]
      exact e2
  obtain ⟨s, tr, e, hg, hn, hlo, hl⟩ := key blocks [] PState.init Track.init Good.init rfl (Nat.zero_le _) hok
    (by intro b hb; simp at hb)
  simp only [List.nil_append] at hn hlo hl
  refine ⟨s, e, ?_⟩
  intro b hb hw c
  obtain ⟨L, Lc, hI⟩ := hg.inv
  have hlob : tr.lo ≤ b := by
    cases mode with
    | none => simp only [lowest] at hlo; omega
    | some kept => have := hw kept rfl; simp only [lowest] at hlo; omega
  rw [hI.roots c b hlob (by omega), ← hl b hb c]
  exact (hI.stored c b hlob (by omega)).readable hH hH2

/-- **C13** (archive mode, complete) Without pruning, after every history of blocks and reorgs the next sensible
operation succeeds, and the trie of every contract at every block of the chain is completely readable. -/
theorem C13_reorg_keeps_tries_archive (hH : 0 < H) (hH2 : H < 256) {s : PState C F} {tr : Track C}
    (h : Hist o H none (fun _ _ => True) s tr) :
    (∀ op, OpOk o H s op → ∃ s' log, s.step o H none op = .ok (s', log)) ∧
    ∀ b, b < s.next → ∀ c, Readable o H s.db.table (s.db.rootAt c b) (s.leaf b c) := by
  have conv : ∀ {s : PState C F} {tr : Track C}, Hist o H none (fun _ _ => True) s tr →
      Hist o H none (AboveLast none) s tr := by
    intro s tr h
    induction h with
    | init => exact .init
    | step _ hop _ e ih =>
      refine .step ih hop ?_ e
      unfold AboveLast
      split
      · exact fun h => absurd rfl h
      · trivial
  have hg := hist_good o H none hH hH2 (conv h)
  constructor
  · intro op hop
    obtain ⟨s', log, e, _⟩ := step_good o H none hH hH2 hg op hop (by
      unfold AboveLast
      split
      · exact fun h => absurd rfl h
      · trivial)
    exact ⟨s', log, e⟩
  · intro b hb c
    obtain ⟨L, Lc, hI⟩ := hg.inv
    have := hg.lo0 rfl
    rw [hI.roots c b (by omega) hb]
    exact (hI.stored c b (by omega) hb).readable hH hH2

/-- **C13** (pruning, partial) Full statement: for every history of blocks and reorgs the retained tries stay
readable.  Proved for histories in which no reorg goes below the target of an earlier reorg
(`AboveLast`); without that restriction the statement is false for this code (`C13_violated`). -/
theorem C13_reorg_keeps_tries_partial (hH : 0 < H) (hH2 : H < 256) {s : PState C F} {tr : Track C}
    (h : Hist o H mode (AboveLast mode) s tr) :
    (∀ op, OpOk o H s op → AboveLast mode tr op → ∃ s' log, s.step o H mode op = .ok (s', log)) ∧
    tr.lo ≤ s.next - 1 ∧
    ∀ b, tr.lo ≤ b → b < s.next → ∀ c, Readable o H s.db.table (s.db.rootAt c b) (s.leaf b c) := by
  have hg := hist_good o H mode hH hH2 h
  refine ⟨?_, hg.lo, ?_⟩
  · intro op hop ha
    obtain ⟨s', log, e, _⟩ := step_good o H mode hH hH2 hg op hop ha
    exact ⟨s', log, e⟩
  · intro b hlo hb c
    obtain ⟨L, Lc, hI⟩ := hg.inv
    rw [hI.roots c b hlo hb]
    exact (hI.stored c b hlo hb).readable hH hH2

/-- **C14** (partial, same restriction on reorgs as C13) In the retained window the root lookup returns exactly the root
recorded by the last operation that changed the trie at or before the block; below the window it returns
that root or reports that there is none, never another root. -/
theorem C14_root_lookup_exact_partial (hH : 0 < H) (hH2 : H < 256) {s : PState C F} {tr : Track C}
    (h : Hist o H mode (AboveLast mode) s tr) (c : C) (b : Nat) (hb : b < s.next) :
    (tr.lo ≤ b → s.db.rootAt c b = tr.root c b) ∧
    (s.db.rootAt c b = tr.root c b ∨ s.db.rootAt c b = none) := by
  obtain ⟨L, Lc, hI⟩ := (hist_good o H mode hH hH2 h).inv
  exact ⟨fun h => hI.roots c b h hb, hI.weak c b hb⟩

/-- Only blocks are appended. -/
def BlocksOnly (_ : Track C) : POp C F → Prop
  | .block _ => True
  | _ => False

/-- **C14** (complete for chains without reorgs) -/
theorem C14_root_lookup_exact_blocks (hH : 0 < H) (hH2 : H < 256) {s : PState C F} {tr : Track C}
    (h : Hist o H mode BlocksOnly s tr) (c : C) (b : Nat) (hb : b < s.next) :
    ((∀ kept, mode = some kept → s.next ≤ b + kept + 1) → s.db.rootAt c b = tr.root c b) ∧
    (s.db.rootAt c b = tr.root c b ∨ s.db.rootAt c b = none) := by
  have conv : ∀ {s : PState C F} {tr : Track C}, Hist o H mode BlocksOnly s tr →
      Hist o H mode (AboveLast mode) s tr ∧ tr.next = s.next ∧ tr.lo ≤ lowest mode (s.next - 1) := by
    intro s tr h
    induction h with
    | init => exact ⟨.init, rfl, Nat.zero_le _⟩
    | @step s tr op s' log _ hop ha e ih =>
      obtain ⟨ih1, ih2, ih3⟩ := ih
      cases op with
      | reorg => exact absurd ha id
      | reorgAll => exact absurd ha id
      | block ups =>
        refine ⟨.step ih1 hop trivial e, ?_⟩
        have hs : s'.next = s.next + 1 := by
          simp only [PState.step, bind, Except.bind, pure, Except.pure] at e
          split at e
          · simp at e
          · simp only [Except.ok.injEq, Prod.mk.injEq] at e
            rw [← e.1]
        simp only [Track.step, hs, ih2, true_and, Nat.add_sub_cancel]
        cases mode with
        | none => simp only [lowest] at ih3 ⊢; omega
        | some kept => simp only [lowest] at ih3 ⊢; omega
  obtain ⟨h1, h2, h3⟩ := conv h
  obtain ⟨hx, hy⟩ := C14_root_lookup_exact_partial o H mode hH hH2 h1 c b hb
  refine ⟨fun hk => hx ?_, hy⟩
  cases mode with
  | none => simp only [lowest] at h3; omega
  | some kept => have := hk kept rfl; simp only [lowest] at h3; omega

/-! ### The violation -/

/-- Result of a step (the old state if it fails). -/
def PState.next! (s : PState C F) (op : POp C F) : PState C F × List (C × RootIndexUpdate) :=
  match s.step o H mode op with
  | .ok p => p
  | .error _ => (s, [])

/-- Did the step succeed? -/
def PState.stepOk (s : PState C F) (op : POp C F) : Bool :=
  match s.step o H mode op with
  | .ok _ => true
  | .error _ => false

theorem PState.step_next! {s : PState C F} {op : POp C F} (h : s.stepOk o H mode op = true) :
    s.step o H mode op = .ok (s.next! o H mode op) := by
  unfold PState.stepOk at h
  unfold PState.next!
  split at h
  · rename_i e; rw [e]
  · simp at h

/-- A history on two contracts with a reorg followed by a deeper reorg. -/
def badOps : List (POp Bool Nat) :=
  [.block [(true, false, [([true], 1)])], .block [], .block [], .block [(true, false, [([true], 2)])],
   .reorg 2 [(false, [([true], 1)])], .reorg 1 [],
   .block [(true, true, [([true], 1)])], .block [(true, true, [([true], 2)])], .block [(true, true, [([true], 3)])],
   .block [(true, true, [([true], 4)])]]

/-- The state after the first `n` operations. -/
def badState : Nat → PState Bool Nat
  | 0 => PState.init
  | n + 1 => match badOps[n]? with
    | some op => ((badState n).next! toyOps 1 (some 3) op).1
    | none => badState n

/-- The bookkeeping after the first `n` operations. -/
def badTrack : Nat → Track Bool
  | 0 => Track.init
  | n + 1 => match badOps[n]? with
    | some op => (badTrack n).step (some 3) op ((badState n).next! toyOps 1 (some 3) op).2
    | none => badTrack n

theorem badState_step (n : Nat) (op : POp Bool Nat) (h : badOps[n]? = some op)
    (hs : (badState n).stepOk toyOps 1 (some 3) op = true) (hok : OpOk toyOps 1 (badState n) op)
    {allow : Track Bool → POp Bool Nat → Prop} (ha : allow (badTrack n) op)
    (hh : Hist toyOps 1 (some 3) allow (badState n) (badTrack n)) :
    Hist toyOps 1 (some 3) allow (badState (n + 1)) (badTrack (n + 1)) := by
  have h1 : badState (n + 1) = ((badState n).next! toyOps 1 (some 3) op).1 := by simp only [badState, h]
  have h2 : badTrack (n + 1) = (badTrack n).step (some 3) op ((badState n).next! toyOps 1 (some 3) op).2 := by
    simp only [badTrack, h]
  rw [h1, h2]
  exact .step hh hok ha (PState.step_next! toyOps 1 (some 3) hs)

/-- The history up to its first reorg is an instance of the hypotheses of the theorems above (pruning, a block that
overwrites a value, a reorg that restores it). -/
theorem badHist5 {allow : Track Bool → POp Bool Nat → Prop} (ha : ∀ n op, n < 5 → badOps[n]? = some op → allow (badTrack n) op) :
    Hist toyOps 1 (some 3) allow (badState 5) (badTrack 5) := by
  refine badState_step 4 _ rfl (by decide) ?_ (ha _ _ (by decide) rfl) ?_
  · refine ⟨by decide, by decide, by decide, ?_⟩
    intro c
    cases c
    · refine ⟨fun _ => ?_, fun h => absurd h (by decide)⟩
      funext k
      by_cases hk : k = [true]
      · subst hk; decide
      · have e1 : Content.writes toyOps ((badState 4).headLeaf false) (revWrites [(false, [([true], 1)])] false) k
            = Content.write toyOps ((badState 4).headLeaf false) [true] 1 k := rfl
        have e2 : (badState 4).headLeaf false k = leafWrite toyOps ((badState 4).leaf 2 false) ([true], 2) k := rfl
        rw [e1]
        simp [Content.write, hk, e2, leafWrite]
    · exact ⟨fun h => absurd rfl h, fun _ => .inr rfl⟩
  refine badState_step 3 _ rfl (by decide) (by exact ⟨by decide, by decide⟩) (ha _ _ (by decide) rfl) ?_
  refine badState_step 2 _ rfl (by decide) (by exact ⟨by decide, by decide⟩) (ha _ _ (by decide) rfl) ?_
  refine badState_step 1 _ rfl (by decide) (by exact ⟨by decide, by decide⟩) (ha _ _ (by decide) rfl) ?_
  refine badState_step 0 _ rfl (by decide) (by exact ⟨by decide, by decide⟩) (ha _ _ (by decide) rfl) ?_
  exact .init

example : Hist toyOps 1 (some 3) (AboveLast (some 3)) (badState 5) (badTrack 5) := by
  refine badHist5 ?_
  intro n op hn h
  unfold AboveLast
  split
  · rcases n with _ | _ | _ | _ | _ | n
    all_goals first | (simp [badOps] at h; done) | skip
    · intro _; simp [badOps] at h; rw [← h.1]; decide
    · omega
  · trivial

/-- **C13 is violated** by the code with pruning: there is a history of sensible operations (a reorg, then a deeper
reorg, then ordinary blocks) after which the trie of a contract at the head of the chain cannot be loaded any more:
its nodes have been pruned. -/
theorem C13_violated : ∃ (s : PState Bool Nat) (tr : Track Bool),
    Hist toyOps 1 (some 3) (fun _ _ => True) s tr ∧ tr.lo ≤ 5 ∧ s.next = 6 ∧
    ¬ Readable toyOps 1 s.db.table (s.db.rootAt false 5) (s.leaf 5 false) := by
  refine ⟨badState 10, badTrack 10, ?_, by decide, by decide, ?_⟩
  · refine badState_step 9 _ rfl (by decide) (by exact ⟨by decide, by decide⟩) trivial ?_
    refine badState_step 8 _ rfl (by decide) (by exact ⟨by decide, by decide⟩) trivial ?_
    refine badState_step 7 _ rfl (by decide) (by exact ⟨by decide, by decide⟩) trivial ?_
    refine badState_step 6 _ rfl (by decide) (by exact ⟨by decide, by decide⟩) trivial ?_
    refine badState_step 5 _ rfl (by decide) ?_ trivial ?_
    · refine ⟨by decide, by decide, by decide, ?_⟩
      intro c
      refine ⟨fun h => absurd rfl h, fun _ => .inl ⟨rfl, ?_⟩⟩
      intro b h1 h2
      have : b = 2 := by
        have : (badState 5).next = 3 := by decide
        omega
      subst this
      revert c
      decide
    · exact badHist5 fun _ _ _ _ => trivial
  · intro h
    obtain ⟨u, e, _⟩ := h.2 [] (by simp)
    have : (match computeUpdate toyOps 1 (badState 10).db.table ((badState 10).db.rootAt false 5)
        ((badState 10).leaf 5 false) [] with
      | .ok _ => true
      | .error _ => false) = false := by decide
    rw [e] at this
    simp at this

/-- Another instance for C12: three contracts' worth of updates, overwriting and erasing, with pruning depth 1. -/
example : ∀ ups ∈ ([[(true, false, [([true], 1)])], [(false, false, [([true], 0)]), (true, true, [([false], 3)])]] :
    List (List (Bool × Bool × List (List Bool × Nat)))),
    (ups.map (·.2.1)).Nodup ∧ ∀ u ∈ ups, ∀ w ∈ u.2.2, w.1.length = 1 := by decide

end Verif.Trie
