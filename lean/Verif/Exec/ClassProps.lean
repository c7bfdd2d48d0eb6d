import Verif.Exec.Props

/-!
C76: the classes an execution on top of decided blocks knows, and what a finished proposal says
about classes. C77: the cache of compiled classes.
-/

namespace Verif.Exec
open Spec

/-- The class definitions a decided block carries are those of the classes it declares, with the
compiled class hash of the declaration. -/
def Faithful (b : Blk) : Prop :=
  ∀ h v, (h, v) ∈ b.declared ↔ ∃ c ∈ b.classes, c.hash = h ∧ c.casmV2 = v

theorem find_casm {b : Blk} (wf : Wf b) (hf : Faithful b) (h : Nat) :
    ((b.classes.find? fun c => c.hash == h).map fun c => c.casmV2) = b.declared.lookup h := by
  cases e : b.classes.find? fun c => c.hash == h with
  | none =>
    symm
    show b.declared.lookup h = none
    rw [lookup_none_iff]
    intro v hv
    obtain ⟨c, hc, he, _⟩ := (hf h v).mp hv
    have := List.find?_eq_none.mp e c hc
    simp [he] at this
  | some c =>
    have hc := List.mem_of_find?_eq_some e
    have hh : c.hash = h := by simpa using List.find?_some e
    symm
    exact lookup_of_mem wf.declared ((hf h c.casmV2).mpr ⟨c, hc, hh, rfl⟩)

/-- The compiled class hash of a class is the one of the last block that declares or migrates it,
if the decided blocks carry the definitions of what they declare and do not migrate the class.
Missing: migrations, see `C76_migrated_violated`. -/
theorem C76_compiled_partial {chain : List Blk} {n : Nat} {db : Db} {d : Decided}
    (hv : OnTop chain n db d) (wf : ∀ b ∈ chain, Wf b) (h : Nat)
    (hf : ∀ p ∈ d, Faithful p.2) (hm : ∀ p ∈ d, p.1 ≤ n → ∀ v, (h, v) ∉ p.2.migrated) :
    ∃ v, getCompiledClassHash db d (some n) h = some v ∧
      Last (chain.take (n + 1)) (SetsCompiled h) v := by
  refine ⟨(casmHashAt db d n h).getD 0, rfl, ?_⟩
  have e : casmHashAt db d n h =
      (chain.take (n + 1)).reverse.findSome? fun b => b.casmHash h := by
    rw [← read_chain hv]
    unfold casmHashAt decidedCasmHash findClass Db.casmHashAt
    congr 1
    have : ∀ l : List (Nat × Blk), (∀ p ∈ l, p ∈ d ∧ p.1 ≤ n) →
        ((l.findSome? fun p =>
          (p.2.classes.find? fun c => c.hash == h).map fun c => (p.1, c)).map fun p => p.2.casmV2) =
        l.findSome? fun p => p.2.casmHash h := by
      intro l
      induction l with
      | nil => intro _; rfl
      | cons p l ih =>
        intro hl
        obtain ⟨hp, hle⟩ := hl p List.mem_cons_self
        have h1 := find_casm (wf p.2 (List.mem_of_getElem? (hv.agree p hp))) (hf p hp) h
        have h2 : p.2.casmHash h = p.2.declared.lookup h := by
          unfold Blk.casmHash
          rw [lookup_none_iff.mpr (hm p hp hle), Option.or_none]
        rw [List.findSome?_cons, List.findSome?_cons, h2, ← h1,
          ← ih fun q hq => hl q (List.mem_cons_of_mem _ hq)]
        cases p.2.classes.find? fun c => c.hash == h <;> rfl
    exact this _ fun p hp => mem_revBlocks.mp hp
  rw [e]
  exact last_of_newest _ _ fun b hb v => casm_iff (wf b (List.mem_of_mem_take hb)) h v

theorem declaredAt_some {db : Db} {h m : Nat} (e : db.declaredAt h = some m) :
    ∃ b, db.blocks[m]? = some b ∧ b.introduces h = true := by
  unfold Db.declaredAt at e
  rw [List.findIdx?_eq_some_iff_getElem] at e
  obtain ⟨hm, h1, _⟩ := e
  exact ⟨db.blocks[m], List.getElem?_eq_getElem hm, h1⟩

theorem declaredAt_le {db : Db} {h i : Nat} {b : Blk} (hb : db.blocks[i]? = some b)
    (hi : b.introduces h = true) : ∃ m, db.declaredAt h = some m ∧ m ≤ i := by
  unfold Db.declaredAt
  cases e : db.blocks.findIdx? fun b => b.introduces h with
  | none =>
    rw [List.findIdx?_eq_none_iff] at e
    rw [e b (List.mem_of_getElem? hb)] at hi
    cases hi
  | some m =>
    refine ⟨m, rfl, ?_⟩
    rw [List.findIdx?_eq_some_iff_getElem] at e
    obtain ⟨hm, _, h2⟩ := e
    apply Classical.byContradiction
    intro hlt
    have := h2 i (by omega)
    have hlen : i < db.blocks.length := by omega
    rw [List.getElem?_eq_getElem hlen] at hb
    cases hb
    exact this hi

/-- An execution on top of block `n` knows exactly the classes that the blocks up to `n` declare,
if the decided blocks carry the definitions of what they declare, declare no Cairo 0 classes and
deploy only declared classes, and the database has the definitions of the classes it declares.
Missing: blocks from which transactions were rolled back, see `C76_rollback_violated`. -/
theorem C76_classes_partial {chain : List Blk} {n : Nat} {db : Db} {d : Decided}
    (hv : OnTop chain n db d) (h : Nat)
    (hf : ∀ p ∈ d, Faithful p.2) (hc : ∀ p ∈ d, p.2.cairo = [])
    (hd : ∀ p ∈ d, ∀ h, (∃ q ∈ p.2.contracts, q.2.cls = some (.deploy h)) →
      (∃ c, (h, c) ∈ p.2.declared) ∨ ∃ b ∈ chain.take p.1, Declares b h)
    (hdef : ∀ h, (∃ b ∈ db.blocks, Declares b h) → (db.defs h).isSome) :
    ((nonCached db d (some n) false h).runnable ≠ .undeclared ↔
      ∃ b ∈ chain.take (n + 1), Declares b h) ∧
    (nonCached db d (some n) false h).runnable ≠ .failed := by
  have hst : ∀ m, m < db.blocks.length → db.blocks[m]? = chain[m]? := by
    intro m hm
    conv => lhs; rw [hv.stored]
    rw [take_getElem?, if_pos hm]
  show ((classAt db d n h).runnable ≠ _ ↔ _) ∧ (classAt db d n h).runnable ≠ _
  unfold classAt
  cases e : findClass (revBlocks d n) h with
  | some r =>
    obtain ⟨m, c⟩ := r
    refine ⟨⟨fun _ => ?_, fun _ => by simp [ClassRes.runnable]⟩, by simp [ClassRes.runnable]⟩
    unfold findClass at e
    obtain ⟨p, hp, hle, hs, _⟩ := decided_some hv.ascending n _ _ e
    obtain ⟨c', hc', he⟩ := Option.map_eq_some_iff.mp hs
    have hmem := List.mem_of_find?_eq_some hc'
    have hh : c'.hash = h := by simpa using List.find?_some hc'
    refine ⟨p.2, ?_, .inr (.inl ⟨c'.casmV2, (hf p hp h _).mpr ⟨c', hmem, hh, rfl⟩⟩)⟩
    exact List.mem_iff_getElem?.mpr ⟨p.1, by
      rw [take_getElem?, if_pos (by omega)]; exact hv.agree p hp⟩
  | none =>
    show ((db.classAt n h).runnable ≠ _ ↔ _) ∧ (db.classAt n h).runnable ≠ _
    have hno : ∀ p ∈ d, p.1 ≤ n → ∀ v, (h, v) ∉ p.2.declared := by
      intro p hp hle v hm
      obtain ⟨c, hc', he, _⟩ := (hf p hp h v).mp hm
      unfold findClass at e
      have := List.findSome?_eq_none_iff.mp e p (mem_revBlocks.mpr ⟨hp, hle⟩)
      rw [Option.map_eq_none_iff] at this
      have := List.find?_eq_none.mp this c hc'
      simp [he] at this
    have key : ∀ i, ∀ b, i ≤ n → chain[i]? = some b → Declares b h →
        ∃ m, db.declaredAt h = some m ∧ m ≤ n := by
      intro i
      induction i using Nat.strongRecOn with
      | ind i ih =>
        intro b hin hb hdec
        by_cases hk : i < db.blocks.length
        · obtain ⟨m, hm, hle⟩ := declaredAt_le (by rw [hst i hk]; exact hb)
            ((introduces_iff b h).mpr hdec)
          exact ⟨m, hm, by omega⟩
        · rcases hv.cover i hin with h' | ⟨b', hb'⟩
          · omega
          · have hbb := hv.agree _ hb'
            simp only at hbb
            rw [hb] at hbb
            cases hbb
            rcases hdec with hx | ⟨c, hx⟩ | hx
            · rw [hc _ hb'] at hx; cases hx
            · exact absurd hx (hno _ hb' hin c)
            · rcases hd _ hb' h hx with ⟨c, hx⟩ | ⟨b2, hb2, hx⟩
              · exact absurd hx (hno _ hb' hin c)
              · obtain ⟨j, hj⟩ := List.mem_iff_getElem?.mp hb2
                rw [take_getElem?] at hj
                by_cases hji : j < i
                · rw [if_pos hji] at hj
                  exact ih j hji b2 (by omega) hj hx
                · rw [if_neg hji] at hj; cases hj
    unfold Db.classAt
    cases e2 : db.declaredAt h with
    | none =>
      refine ⟨⟨fun hx => absurd rfl hx, ?_⟩, by simp [ClassRes.runnable]⟩
      rintro ⟨b, hb, hx⟩
      obtain ⟨j, hj⟩ := List.mem_iff_getElem?.mp hb
      rw [take_getElem?] at hj
      by_cases hjn : j < n + 1
      · rw [if_pos hjn] at hj
        obtain ⟨m, hm, _⟩ := key j b (by omega) hj hx
        rw [e2] at hm; cases hm
      · rw [if_neg hjn] at hj; cases hj
    | some m =>
      simp only
      by_cases hmn : m ≤ n
      · rw [if_pos hmn]
        obtain ⟨b, hb, hi⟩ := declaredAt_some e2
        have hD : ∃ b ∈ db.blocks, Declares b h :=
          ⟨b, List.mem_of_getElem? hb, (introduces_iff b h).mp hi⟩
        have hlen : m < db.blocks.length := by
          rcases Nat.lt_or_ge m db.blocks.length with h' | h'
          · exact h'
          · rw [List.getElem?_eq_none h'] at hb; cases hb
        cases e3 : db.defs h with
        | none => have := hdef h hD; rw [e3] at this; cases this
        | some r =>
          refine ⟨⟨fun _ => ⟨b, ?_, (introduces_iff b h).mp hi⟩, fun _ => by simp [ClassRes.runnable]⟩,
            by simp [ClassRes.runnable]⟩
          exact List.mem_iff_getElem?.mpr ⟨m, by
            rw [take_getElem?, if_pos (by omega), ← hst m hlen]; exact hb⟩
      · rw [if_neg hmn]
        refine ⟨⟨fun hx => absurd rfl hx, ?_⟩, by simp [ClassRes.runnable]⟩
        rintro ⟨b, hb, hx⟩
        obtain ⟨j, hj⟩ := List.mem_iff_getElem?.mp hb
        rw [take_getElem?] at hj
        by_cases hjn : j < n + 1
        · rw [if_pos hjn] at hj
          obtain ⟨m', hm, hle⟩ := key j b (by omega) hj hx
          rw [e2] at hm; cases hm
          omega
        · rw [if_neg hjn] at hj; cases hj

/-- Block `0` declares class `50`, block `1` is decided and declares class `60`. -/
def classChain : List Blk :=
  [{ emptyBlk with declared := [(50, 5)] },
   { emptyBlk with declared := [(60, 6)], classes := [{ hash := 60, casmV2 := 6, sierra := 61, casm := 62 }] }]

def classDb : Db := { blocks := classChain.take 1, defs := fun h => if h = 50 then some (51, some 52) else none }

def classDecided : Decided := [(1, classChain[1])]

theorem class_onTop : OnTop classChain 1 classDb classDecided where
  reach := by decide
  stored := rfl
  ascending := by simp [classDecided]
  agree := by intro p hp; simp [classDecided] at hp; subst hp; rfl
  cover := by
    intro m hm
    match m with
    | 0 => exact .inl (by decide)
    | 1 => exact .inr ⟨_, List.mem_cons_self⟩
  noGap := by
    intro p hp m h1 h2
    simp [classDecided] at hp
    subst hp
    simp at h1
    omega

theorem class_wf : ∀ b ∈ classChain, Wf b := by
  intro b hb
  simp only [classChain, List.mem_cons, List.not_mem_nil, or_false] at hb
  rcases hb with rfl | rfl
  all_goals
    constructor
    all_goals simp [emptyBlk]

theorem class_faithful : ∀ p ∈ classDecided, Faithful p.2 := by
  intro p hp
  simp [classDecided] at hp
  subst hp
  intro h v
  simp [classChain]
  constructor
  · rintro ⟨rfl, rfl⟩; exact ⟨rfl, rfl⟩
  · rintro ⟨rfl, rfl⟩; exact ⟨rfl, rfl⟩

example : ∃ v, getCompiledClassHash classDb classDecided (some 1) 60 = some v ∧
    Last (classChain.take 2) (SetsCompiled 60) v :=
  C76_compiled_partial class_onTop class_wf 60 class_faithful (by
    intro p hp _ v hm
    simp [classDecided] at hp
    subst hp
    simp [classChain, emptyBlk] at hm)

example : ((nonCached classDb classDecided (some 1) false 60).runnable ≠ .undeclared ↔
    ∃ b ∈ classChain.take 2, Declares b 60) ∧
    (nonCached classDb classDecided (some 1) false 60).runnable ≠ .failed := by
  refine C76_classes_partial class_onTop 60 class_faithful ?_ ?_ ?_
  · intro p hp
    simp [classDecided] at hp
    subst hp; rfl
  · intro p hp h ⟨q, hq, _⟩
    simp [classDecided] at hp
    subst hp
    simp [classChain, emptyBlk] at hq
  · rintro h ⟨b, hb, hx⟩
    simp [classDb, classChain] at hb
    subst hb
    rcases hx with hx | ⟨c, hx⟩ | ⟨q, hq, _⟩
    · simp [emptyBlk] at hx
    · simp at hx; simp [classDb, hx.1]
    · simp [emptyBlk] at hq

example : nonCached classDb classDecided (some 1) false 60 = .found (some 1) 61 (some 62) := by
  decide +kernel
example : nonCached classDb classDecided (some 0) false 60 = .undeclared := by decide +kernel

/-- A class migrated by a decided block keeps its old compiled class hash until the block is
committed and confirmed. -/
theorem C76_migrated_violated : ∃ (chain : List Blk) (n : Nat) (db : Db) (d : Decided) (h : Nat),
    OnTop chain n db d ∧ (∀ b ∈ chain, Wf b) ∧ (∀ p ∈ d, Faithful p.2) ∧
    getCompiledClassHash db d (some n) h = some 5 ∧
    Last (chain.take (n + 1)) (SetsCompiled h) 55 := by
  refine ⟨[{ emptyBlk with declared := [(50, 5)] }, { emptyBlk with migrated := [(50, 55)] }], 1,
    { blocks := [{ emptyBlk with declared := [(50, 5)] }], defs := noDefs },
    [(1, { emptyBlk with migrated := [(50, 55)] })], 50, ?_, ?_, ?_, by decide +kernel, ?_⟩
  · constructor
    · decide
    · rfl
    · simp
    · intro p hp; simp at hp; subst hp; rfl
    · intro m hm
      match m with
      | 0 => exact .inl (by decide)
      | 1 => exact .inr ⟨_, List.mem_cons_self⟩
    · intro p hp m h1 h2
      simp at hp; subst hp
      simp at h1; omega
  · intro b hb
    simp only [List.mem_cons, List.not_mem_nil, or_false] at hb
    rcases hb with rfl | rfl
    all_goals
      constructor
      all_goals simp [emptyBlk]
  · intro p hp
    simp at hp; subst hp
    intro h v
    simp [emptyBlk]
  · refine .inl ⟨[_], _, [], rfl, .inr ⟨List.mem_cons_self, ?_⟩, ?_⟩
    · intro w hw; simp [emptyBlk] at hw
    · intro b hb; cases hb

/-! ### Declarations of a proposal -/

/-- Executing a proposal: batches of transactions, and rollbacks that drop no successful
declaration. -/
inductive StageRun : Stage → Prop where
  | start : StageRun { txs := [], classes := [] }
  | batch {s : Stage} (r : StageRun s) (l : List Tx) : StageRun (s.executeBatch l)
  | rollback {s s' : Stage} (r : StageRun s) (target : Nat) (h : s.rollback target = some s')
      (none : ∀ t ∈ s.txs.drop target, t.declares = none ∨ t.reverted = true) : StageRun s'

theorem filterMap_added_none {l : List Tx}
    (h : ∀ t ∈ l, t.declares = none ∨ t.reverted = true) : l.filterMap Tx.added = [] := by
  rw [List.filterMap_eq_nil_iff]
  intro t ht
  unfold Tx.added
  rcases h t ht with h | h
  · rw [h]; split <;> rfl
  · rw [if_pos h]

/-- The definitions a finished proposal carries are those of the classes its state diff declares,
in the same order, unless a declaration was rolled back.
Missing: rollbacks of declarations, see `C76_rollback_violated`. -/
theorem C76_declared_partial {s : Stage} (r : StageRun s) :
    s.finalize.1 = s.finalize.2.map fun c => (c.hash, c.casmV2) := by
  have key : s.txs.filterMap Tx.added = s.classes := by
    induction r with
    | start => rfl
    | @batch s r l ih =>
      unfold Stage.executeBatch
      by_cases hl : l.isEmpty
      · rw [if_pos hl]; exact ih
      · rw [if_neg hl]
        simp only [List.filterMap_append, ih]
    | @rollback s s' r target h hn ih =>
      unfold Stage.rollback at h
      by_cases h1 : target > s.txs.length
      · rw [if_pos h1] at h; cases h
      · rw [if_neg h1] at h
        by_cases h2 : target = s.txs.length
        · rw [if_pos h2] at h; cases h; exact ih
        · rw [if_neg h2] at h
          cases h
          show (s.txs.take target).filterMap Tx.added = s.classes
          rw [← ih]
          conv => rhs; rw [← List.take_append_drop target s.txs, List.filterMap_append,
            filterMap_added_none hn, List.append_nil]
  show (s.txs.filterMap Tx.added).map _ = s.classes.map _
  rw [key]

def sampleCls : Cls := { hash := 90, casmV2 := 9, sierra := 91, casm := 92 }

/-- A declaration that is kept, a transfer that is rolled back. -/
example : ∃ s, StageRun s ∧ s.finalize = ([(90, 9)], [sampleCls]) := by
  refine ⟨_, .rollback (s' := { txs := [⟨some sampleCls, false⟩], classes := [sampleCls] })
    (.batch .start [⟨some sampleCls, false⟩, ⟨none, false⟩]) 1 rfl ?_, rfl⟩
  intro t ht
  simp [Stage.executeBatch] at ht
  subst ht
  exact .inl rfl

/-- A proposal declares a class and ends with the count of executed transactions before the
declaration: the block declares nothing, yet carries the definition, and an execution on top of it
takes the class for declared. -/
theorem C76_rollback_violated : ∃ (s s' : Stage) (b : Blk),
    StageRun s ∧ s.rollback 0 = some s' ∧
    b = { emptyBlk with declared := s'.finalize.1, classes := s'.finalize.2 } ∧
    OnTop [b] 0 { blocks := [], defs := noDefs } [(0, b)] ∧
    (¬ ∃ b' ∈ [b].take 1, Declares b' 90) ∧
    (nonCached { blocks := [], defs := noDefs } [(0, b)] (some 0) false 90).runnable =
      .runs 91 (some 92) := by
  refine ⟨Stage.executeBatch { txs := [], classes := [] } [⟨some sampleCls, false⟩],
    { txs := [], classes := [sampleCls] }, { emptyBlk with classes := [sampleCls] },
    .batch .start _, rfl, rfl, ?_, ?_, by decide +kernel⟩
  · constructor
    · decide
    · rfl
    · simp
    · intro p hp; simp at hp; subst hp; rfl
    · intro m hm
      match m with
      | 0 => exact .inr ⟨_, List.mem_cons_self⟩
    · intro p hp m h1 h2; omega
  · rintro ⟨b', hb', hx⟩
    simp at hb'
    subst hb'
    rcases hx with hx | ⟨c, hx⟩ | ⟨q, hq, _⟩
    · simp [emptyBlk] at hx
    · simp [emptyBlk] at hx
    · simp [emptyBlk] at hq

/-! ### The hash of ten blocks ago -/

theorem reach_decided (agreed : Nat → Blk) (k : Nat) : ∃ s, Reach agreed s ∧ s.blocks = [] ∧
    s.confirmed = 0 ∧ s.decided = (List.range k).map fun m => (m, agreed m) := by
  induction k with
  | zero => exact ⟨_, .fresh 0, rfl, rfl, rfl⟩
  | succ k ih =>
    obtain ⟨s, hr, hb, hc, hd⟩ := ih
    have hmem : ∀ m b, (m, b) ∈ s.decided ↔ m < k ∧ b = agreed m := by
      intro m b
      rw [hd]
      simp only [List.mem_map, List.mem_range, Prod.mk.injEq]
      constructor
      · rintro ⟨x, hx, rfl, rfl⟩; exact ⟨hx, rfl⟩
      · rintro ⟨hx, rfl⟩; exact ⟨m, hx, rfl, rfl⟩
    refine ⟨_, hr.step (.decide s k ?_ ?_ ?_), hb, hc, ?_⟩
    · intro b h
      have := (hmem k b).mp h
      omega
    · rw [hb]; exact Nat.zero_le _
    · cases k with
      | zero => exact .inl rfl
      | succ k => exact .inr (.inr ⟨agreed k, (hmem k _).mpr ⟨by omega, rfl⟩⟩)
    · show insertDecided s.decided k (agreed k) = _
      unfold insertDecided
      have e1 : s.decided.filter (fun p => decide (p.1 < k)) = s.decided := by
        rw [List.filter_eq_self]
        rintro ⟨x, b⟩ hx
        exact decide_eq_true ((hmem x b).mp hx).1
      have e2 : s.decided.filter (fun p => decide (k < p.1)) = [] := by
        rw [List.filter_eq_nil_iff]
        rintro ⟨x, b⟩ hx
        have := (hmem x b).mp hx
        simp only [decide_eq_true_eq]
        show ¬ k < x
        omega
      rw [e1, e2, hd, List.range_succ, List.map_append]
      rfl

/-- However the blocks look: when consensus is ten blocks ahead of the database, the next proposal
cannot be executed, and the error ends the consensus task. -/
theorem C76_history_violated (agreed : Nat → Blk) (n : Nat) (h : 10 ≤ n) : ∃ s,
    Reach agreed s ∧ s.known (n - 1) ∧
    startExecutor { blocks := s.blocks, defs := noDefs } n = none := by
  obtain ⟨s, hr, hb, _, hd⟩ := reach_decided agreed n
  refine ⟨s, hr, .inr ⟨agreed (n - 1), ?_⟩, ?_⟩
  · rw [hd]
    exact List.mem_map.mpr ⟨n - 1, List.mem_range.mpr (by omega), rfl⟩
  · unfold startExecutor
    rw [if_pos h]
    simp [hb]

/-! ### The classes of a finished block -/

/-- What a finished block has to say about classes. `before` is the class of a contract before the
block, `migrated` lists the migrated classes with their new and old compiled class hash. -/
structure RightDiff (before : Nat → Nat) (classes declared : List (Nat × Nat))
    (migrated : List (Nat × Nat × Nat)) (r : ClassDiff) : Prop where
  deployed : ∀ a c, (a, c) ∈ r.deployed ↔ (a, c) ∈ classes ∧ before a = 0
  replaced : ∀ a c, (a, c) ∈ r.replaced ↔ (a, c) ∈ classes ∧ before a ≠ 0
  declared : ∀ h c, (h, c) ∈ r.declared ↔ (h, c) ∈ declared
  migrated : ∀ h c, (h, c) ∈ r.migrated ↔ ∃ old, (h, c, old) ∈ migrated

/-- What the library hands over for such a block: migrated classes are among those whose compiled
class hash changed, and are listed by their new and old hash. -/
def summaryOf (classes declared : List (Nat × Nat)) (migrated : List (Nat × Nat × Nat)) : Summary where
  classes := classes
  compiled := declared ++ migrated.map fun p => (p.1, p.2.1)
  migration := migrated.map fun p => (p.2.1, p.2.2)

/-- The class parts of a finished block are right if no contract changes an existing class and no
class is migrated. Missing: the other blocks, see `C76_replaced_violated` and
`C76_migration_violated`. -/
theorem C76_close_partial (before : Nat → Nat) (classes declared : List (Nat × Nat))
    (h : ∀ p ∈ classes, before p.1 = 0) :
    RightDiff before classes declared [] (convertDiff (summaryOf classes declared [])) := by
  constructor
  · intro a c
    exact ⟨fun hm => ⟨hm, h _ hm⟩, fun hm => hm.1⟩
  · intro a c
    constructor
    · intro hm; cases hm
    · rintro ⟨hm, hb⟩; exact absurd (h _ hm) hb
  · intro h c
    simp [convertDiff, summaryOf]
  · intro h c
    simp [convertDiff, summaryOf]

example : RightDiff (fun _ => 0) [(7, 70)] [(70, 5)] [] (convertDiff (summaryOf [(7, 70)] [(70, 5)] [])) :=
  C76_close_partial _ _ _ (by intro p _; rfl)

/-- A contract that replaces its class is recorded as deployed, in every block. -/
theorem C76_replaced_violated (before : Nat → Nat) (classes declared : List (Nat × Nat))
    (migrated : List (Nat × Nat × Nat)) (h : ∃ p ∈ classes, before p.1 ≠ 0) :
    ¬ RightDiff before classes declared migrated
        (convertDiff (summaryOf classes declared migrated)) ∧
    ∃ p ∈ classes, before p.1 ≠ 0 ∧
      p ∈ (convertDiff (summaryOf classes declared migrated)).deployed := by
  obtain ⟨⟨a, c⟩, hp, hb⟩ := h
  refine ⟨?_, (a, c), hp, hb, hp⟩
  intro hr
  have := (hr.replaced a c).mpr ⟨hp, hb⟩
  cases this

/-- A migrated class is recorded as declared, and its entry among the migrated ones is not under its
own hash. -/
theorem C76_migration_violated (before : Nat → Nat) (classes declared : List (Nat × Nat))
    (migrated : List (Nat × Nat × Nat)) (h new old : Nat) (hm : (h, new, old) ∈ migrated)
    (hd : (h, new) ∉ declared) :
    ¬ RightDiff before classes declared migrated
        (convertDiff (summaryOf classes declared migrated)) ∧
    (h, new) ∈ (convertDiff (summaryOf classes declared migrated)).declared ∧
    (new, old) ∈ (convertDiff (summaryOf classes declared migrated)).migrated := by
  have h1 : (h, new) ∈ (convertDiff (summaryOf classes declared migrated)).declared :=
    List.mem_append_right _ (List.mem_map.mpr ⟨_, hm, rfl⟩)
  refine ⟨fun hr => hd ((hr.declared h new).mp h1), h1, ?_⟩
  show (new, old) ∈ (migrated.map fun p => (p.2.1, p.2.2)).map fun p => (p.1, p.2)
  exact List.mem_map.mpr ⟨(new, old), List.mem_map.mpr ⟨_, hm, rfl⟩, rfl⟩

example : ∃ migrated : List (Nat × Nat × Nat), (50, 55, 5) ∈ migrated ∧ (50, 55) ∉ [(60, 6)] :=
  ⟨[(50, 55, 5)], by simp, by simp⟩

/-! ### The cache of compiled classes (C77) -/

theorem declaredAt_append {db : Db} {h m : Nat} (b : Blk) (e : db.declaredAt h = some m) :
    Db.declaredAt { db with blocks := db.blocks ++ [b] } h = some m := by
  unfold Db.declaredAt at *
  simp only [List.findIdx?_append, e, Option.some_or]

theorem nonCached_entry {db : Db} {n : Option Nat} {pending : Bool} {h m df : Nat} {c : Option Nat}
    (e : nonCached db [] n pending h = .found (some m) df c) :
    db.declaredAt h = some m ∧ db.defs h = some (df, c) := by
  cases n with
  | none => cases e
  | some n =>
    cases pending with
    | true =>
      have e : db.classAny h = .found (some m) df c := e
      unfold Db.classAny at e
      cases hd : db.defs h with
      | none => rw [hd] at e; simp only at e; split at e <;> cases e
      | some r =>
        obtain ⟨x, y⟩ := r
        rw [hd] at e
        simp only [ClassRes.found.injEq] at e
        obtain ⟨e1, rfl, rfl⟩ := e
        exact ⟨e1, rfl⟩
    | false =>
      have e : db.classAt n h = .found (some m) df c := e
      unfold Db.classAt at e
      cases hm : db.declaredAt h with
      | none => rw [hm] at e; cases e
      | some k =>
        rw [hm] at e
        simp only at e
        by_cases hk : k ≤ n
        · rw [if_pos hk] at e
          cases hd : db.defs h with
          | none => rw [hd] at e; cases e
          | some r =>
            obtain ⟨x, y⟩ := r
            rw [hd] at e
            simp only [ClassRes.found.injEq, Option.some.injEq] at e
            obtain ⟨rfl, rfl, rfl⟩ := e
            exact ⟨rfl, rfl⟩
        · rw [if_neg hk] at e; cases e

/-- Cache entries say what the database says. -/
def CacheInv (s : Cached) : Prop :=
  ∀ h df c m, s.cache h = some ((df, c), m) → s.db.declaredAt h = some m ∧ s.db.defs h = some (df, c)

theorem cacheInv_look {s : Cached} (hi : CacheInv s) (n : Option Nat) (pending : Bool) (h : Nat) :
    CacheInv { s with cache := (getCompiledClass s.cache s.db [] n pending h).2 } := by
  unfold getCompiledClass
  cases s.cache.hit n h with
  | some r => exact hi
  | none =>
    cases e : nonCached s.db [] n pending h with
    | found m df c =>
      cases m with
      | none => exact hi
      | some m =>
        intro h' df' c' m' he
        simp only [Cache.set] at he
        by_cases hh : h' = h
        · rw [if_pos hh] at he
          simp only [Option.some.injEq, Prod.mk.injEq] at he
          obtain ⟨⟨rfl, rfl⟩, rfl⟩ := he
          subst hh
          exact nonCached_entry e
        · rw [if_neg hh] at he
          exact hi h' df' c' m' he
    | undeclared => exact hi
    | failed => exact hi

theorem cacheInv_reach {s : Cached} (r : CacheReach s) : CacheInv s := by
  induction r with
  | start db => intro h df c m he; cases he
  | @step s t r h ih =>
    cases h with
    | append b =>
      intro h df c m he
      obtain ⟨h1, h2⟩ := ih h df c m he
      exact ⟨declaredAt_append b h1, h2⟩
    | define k d c new =>
      intro h df c' m he
      obtain ⟨h1, h2⟩ := ih h df c' m he
      refine ⟨h1, ?_⟩
      show (if h = k then some (d, c) else s.db.defs h) = _
      have : h ≠ k := by
        rintro rfl
        rw [new] at h2; cases h2
      rw [if_neg this]; exact h2
    | evict k =>
      intro h df c m he
      refine ih h df c m ?_
      simp only at he
      by_cases hk : h = k
      · rw [if_pos hk] at he; cases he
      · rw [if_neg hk] at he; exact he
    | look n pending h => exact cacheInv_look ih n pending h

/-- As long as no block is removed, an execution gets with the cache exactly the classes it would
get without it, at every block and whatever was looked up, stored and evicted before.
Missing: reorganisations, see `C77_reorg_violated`. -/
theorem C77_cache_partial {s : Cached} (r : CacheReach s) (n : Option Nat) (pending : Bool) (h : Nat) :
    (getCompiledClass s.cache s.db [] n pending h).1 = (nonCached s.db [] n pending h).runnable := by
  have hi := cacheInv_reach r
  unfold getCompiledClass
  cases e : s.cache.hit n h with
  | none =>
    cases e2 : nonCached s.db [] n pending h with
    | found m df c => cases m <;> rfl
    | undeclared => rfl
    | failed => rfl
  | some v =>
    obtain ⟨df, c⟩ := v
    unfold Cache.hit at e
    cases hc : s.cache h with
    | none => rw [hc] at e; cases e
    | some x =>
      obtain ⟨⟨df', c'⟩, m⟩ := x
      rw [hc] at e
      cases n with
      | none => cases e
      | some n =>
        simp only at e
        by_cases hm : m ≤ n
        · rw [if_pos hm] at e
          cases e
          obtain ⟨h1, h2⟩ := hi h df c m hc
          cases pending with
          | true =>
            show Runnable.runs df c = (s.db.classAny h).runnable
            unfold Db.classAny
            rw [h2]; rfl
          | false =>
            show Runnable.runs df c = (s.db.classAt n h).runnable
            unfold Db.classAt
            rw [h1, h2]
            simp only
            rw [if_pos hm]; rfl
        · rw [if_neg hm] at e; cases e

/-- A class is known from the block that declares it on, with or without the cache. -/
theorem C77_declared {s : Cached} (r : CacheReach s) (n h : Nat)
    (hdef : ∀ h, (∃ b ∈ s.db.blocks, Declares b h) → (s.db.defs h).isSome) :
    ((getCompiledClass s.cache s.db [] (some n) false h).1 ≠ .undeclared ↔
      ∃ b ∈ s.db.blocks.take (n + 1), Declares b h) := by
  rw [C77_cache_partial r]
  show (s.db.classAt n h).runnable ≠ _ ↔ _
  unfold Db.classAt
  cases e : s.db.declaredAt h with
  | none =>
    refine ⟨fun hx => absurd rfl hx, ?_⟩
    rintro ⟨b, hb, hx⟩
    obtain ⟨j, hj⟩ := List.mem_iff_getElem?.mp (List.mem_of_mem_take hb)
    obtain ⟨m, hm, _⟩ := declaredAt_le hj ((introduces_iff b h).mpr hx)
    rw [e] at hm; cases hm
  | some m =>
    obtain ⟨b, hb, hi⟩ := declaredAt_some e
    have hd := hdef h ⟨b, List.mem_of_getElem? hb, (introduces_iff b h).mp hi⟩
    simp only
    by_cases hm : m ≤ n
    · rw [if_pos hm]
      cases e3 : s.db.defs h with
      | none => rw [e3] at hd; cases hd
      | some x =>
        refine ⟨fun _ => ⟨b, ?_, (introduces_iff b h).mp hi⟩, fun _ => by simp [ClassRes.runnable]⟩
        exact List.mem_iff_getElem?.mpr ⟨m, by rw [take_getElem?, if_pos (by omega)]; exact hb⟩
    · rw [if_neg hm]
      refine ⟨fun hx => absurd rfl hx, ?_⟩
      rintro ⟨b', hb', hx⟩
      obtain ⟨j, hj⟩ := List.mem_iff_getElem?.mp hb'
      rw [take_getElem?] at hj
      by_cases hjn : j < n + 1
      · rw [if_pos hjn] at hj
        obtain ⟨m', hm', hle⟩ := declaredAt_le hj ((introduces_iff b' h).mpr hx)
        rw [e] at hm'; cases hm'
        omega
      · rw [if_neg hjn] at hj; cases hj

def cacheDb : Db where
  blocks := [emptyBlk, { emptyBlk with declared := [(50, 5)] }]
  defs := fun h => if h = 50 then some (51, some 52) else none

/-- The state after one lookup of class `50` on top of block `1`. -/
def cacheState : Cached where
  db := cacheDb
  cache := (getCompiledClass (fun _ => none) cacheDb [] (some 1) false 50).2

theorem cacheState_reach : CacheReach cacheState := (CacheReach.start cacheDb).step (.look _ (some 1) false 50)

example : (cacheState.cache 50).isSome = true := by decide +kernel
example : (getCompiledClass cacheState.cache cacheState.db [] (some 1) false 50).1 = .runs 51 (some 52) := by
  rw [C77_cache_partial cacheState_reach]; decide +kernel
example : (getCompiledClass cacheState.cache cacheState.db [] (some 0) false 50).1 = .undeclared := by
  rw [C77_cache_partial cacheState_reach]; decide +kernel
example : ((getCompiledClass cacheState.cache cacheState.db [] (some 1) false 50).1 ≠ .undeclared ↔
    ∃ b ∈ cacheState.db.blocks.take 2, Declares b 50) := by
  refine C77_declared cacheState_reach 1 50 ?_
  rintro h ⟨b, hb, hx⟩
  simp only [cacheState, cacheDb, List.mem_cons, List.not_mem_nil, or_false] at hb
  rcases hb with rfl | rfl
  · rcases hx with hx | ⟨c, hx⟩ | ⟨q, hq, _⟩
    · simp [emptyBlk] at hx
    · simp [emptyBlk] at hx
    · simp [emptyBlk] at hq
  · rcases hx with hx | ⟨c, hx⟩ | ⟨q, hq, _⟩
    · simp [emptyBlk] at hx
    · simp at hx; simp [cacheState, cacheDb, hx.1]
    · simp [emptyBlk] at hq

/-- After a reorganisation the cache still hands out a class that no block declares. -/
theorem C77_reorg_violated : ∃ (s : Cached) (n h : Nat), CacheReachReorg s ∧
    (¬ ∃ b ∈ s.db.blocks, Declares b h) ∧ n < s.db.blocks.length ∧
    (getCompiledClass s.cache s.db [] (some n) false h).1 = .runs 51 (some 52) ∧
    (nonCached s.db [] (some n) false h).runnable = .undeclared := by
  have h1 : CacheReachReorg cacheState :=
    (CacheReachReorg.start cacheDb).step (.base (.look _ (some 1) false 50))
  have h2 := h1.step (.reorg cacheState 1)
  have h3 := h2.step (.base (.append _ emptyBlk))
  refine ⟨_, 1, 50, h3, ?_, by decide, by decide +kernel, by decide +kernel⟩
  rintro ⟨b, hb, hx⟩
  simp [cacheState, cacheDb] at hb
  subst hb
  rcases hx with hx | ⟨c, hx⟩ | ⟨q, hq, _⟩
  · simp [emptyBlk] at hx
  · simp [emptyBlk] at hx
  · simp [emptyBlk] at hq

/-! ### The cache shared with consensus -/

/-- Block `m` is the first of the chain that makes class `h` known. -/
def FirstAt (agreed : Nat → Blk) (h m : Nat) : Prop :=
  Declares (agreed m) h ∧ ∀ k, k < m → ¬ Declares (agreed k) h

/-- Decided blocks carry the definitions of classes they are the first to declare. -/
def Carries (agreed : Nat → Blk) (defOf : Nat → Nat × Option Nat) : Prop :=
  ∀ m, ∀ c ∈ (agreed m).classes, FirstAt agreed c.hash m ∧ defOf c.hash = (c.sierra, some c.casm)

theorem findClass_mem {l : List (Nat × Blk)} {h m : Nat} {c : Cls} (e : findClass l h = some (m, c)) :
    ∃ b, (m, b) ∈ l ∧ c ∈ b.classes ∧ c.hash = h := by
  unfold findClass at e
  obtain ⟨p, hp, he⟩ := List.exists_of_findSome?_eq_some e
  obtain ⟨c', hc', he'⟩ := Option.map_eq_some_iff.mp he
  simp only [Prod.mk.injEq] at he'
  obtain ⟨rfl, rfl⟩ := he'
  exact ⟨p.2, hp, List.mem_of_find?_eq_some hc', by simpa using List.find?_some hc'⟩

structure SharedInv (agreed : Nat → Blk) (defOf : Nat → Nat × Option Nat) (s : Cached) : Prop where
  blocks : ∀ m, m < s.db.blocks.length → s.db.blocks[m]? = some (agreed m)
  defs : ∀ h v, s.db.defs h = some v → v = defOf h
  cache : ∀ h v m, s.cache h = some (v, m) → v = defOf h ∧ FirstAt agreed h m

theorem firstAt_of_declaredAt {agreed : Nat → Blk} {db : Db}
    (hb : ∀ m, m < db.blocks.length → db.blocks[m]? = some (agreed m)) {h m : Nat}
    (e : db.declaredAt h = some m) : FirstAt agreed h m ∧ m < db.blocks.length := by
  obtain ⟨b, hm, hi⟩ := declaredAt_some e
  have hlt : m < db.blocks.length := by
    rcases Nat.lt_or_ge m db.blocks.length with h' | h'
    · exact h'
    · rw [List.getElem?_eq_none h'] at hm; cases hm
  rw [hb m hlt] at hm
  cases hm
  refine ⟨⟨(introduces_iff _ h).mp hi, ?_⟩, hlt⟩
  intro k hk hd
  obtain ⟨m', hm', hle⟩ := declaredAt_le (hb k (by omega)) ((introduces_iff _ h).mpr hd)
  rw [e] at hm'; cases hm'
  omega

theorem declaredAt_of_firstAt {agreed : Nat → Blk} {db : Db}
    (hb : ∀ m, m < db.blocks.length → db.blocks[m]? = some (agreed m)) {h m : Nat}
    (hf : FirstAt agreed h m) (hlt : m < db.blocks.length) : db.declaredAt h = some m := by
  obtain ⟨m', hm', hle⟩ := declaredAt_le (hb m hlt) ((introduces_iff _ h).mpr hf.1)
  obtain ⟨hf', _⟩ := firstAt_of_declaredAt hb hm'
  rcases Nat.lt_or_ge m' m with h' | h'
  · exact absurd hf'.1 (hf.2 m' h')
  · rw [hm', Nat.le_antisymm hle h']

theorem nonCached_shared {agreed : Nat → Blk} {defOf : Nat → Nat × Option Nat}
    (hc : Carries agreed defOf) {s : Cached} (hi : SharedInv agreed defOf s) {d : Decided}
    (hd : ∀ p ∈ d, p.2 = agreed p.1) {n : Option Nat} {pending : Bool} {h m df : Nat} {c : Option Nat}
    (e : nonCached s.db d n pending h = .found (some m) df c) :
    (df, c) = defOf h ∧ FirstAt agreed h m := by
  have over : ∀ l : List (Nat × Blk), (∀ p ∈ l, p ∈ d) → ∀ k c', findClass l h = some (k, c') →
      (c'.sierra, some c'.casm) = defOf h ∧ FirstAt agreed h k := by
    intro l hl k c' he
    obtain ⟨b, hb, hcm, rfl⟩ := findClass_mem he
    have := hd _ (hl _ hb)
    simp only at this
    subst this
    exact ⟨(hc k c' hcm).2.symm, (hc k c' hcm).1⟩
  have atDb : ∀ n, s.db.classAt n h = .found (some m) df c → (df, c) = defOf h ∧ FirstAt agreed h m := by
    intro n e
    obtain ⟨h1, h2⟩ := nonCached_entry (n := some n) (pending := false) (show nonCached s.db [] _ _ h = _ from e)
    exact ⟨hi.defs h _ h2, (firstAt_of_declaredAt hi.blocks h1).1⟩
  cases n with
  | none => cases e
  | some n =>
    cases pending with
    | true =>
      simp only [nonCached, if_true] at e
      cases hf : findClass d h with
      | some r =>
        obtain ⟨k, c'⟩ := r
        rw [hf] at e
        simp only [ClassRes.found.injEq, Option.some.injEq] at e
        obtain ⟨rfl, rfl, rfl⟩ := e
        exact over d (fun p hp => hp) _ _ hf
      | none =>
        rw [hf] at e
        obtain ⟨h1, h2⟩ := nonCached_entry (n := some n) (pending := true)
          (show nonCached s.db [] _ _ h = _ from e)
        exact ⟨hi.defs h _ h2, (firstAt_of_declaredAt hi.blocks h1).1⟩
    | false =>
      have e : classAt s.db d n h = .found (some m) df c := e
      unfold classAt at e
      cases hf : findClass (revBlocks d n) h with
      | some r =>
        obtain ⟨k, c'⟩ := r
        rw [hf] at e
        simp only [ClassRes.found.injEq, Option.some.injEq] at e
        obtain ⟨rfl, rfl, rfl⟩ := e
        exact over _ (fun p hp => (mem_revBlocks.mp hp).1) _ _ hf
      | none =>
        rw [hf] at e
        exact atDb n e

theorem sharedInv_reach {agreed : Nat → Blk} {defOf : Nat → Nat × Option Nat}
    (hc : Carries agreed defOf) {s : Cached} (r : SharedReach agreed defOf s) :
    SharedInv agreed defOf s := by
  induction r with
  | start =>
    exact ⟨fun m hm => absurd hm (Nat.not_lt_zero m), fun h v e => (by cases e), fun h v m e => (by cases e)⟩
  | @step s t r h ih =>
    cases h with
    | append =>
      refine ⟨?_, ih.defs, ih.cache⟩
      intro m hm
      simp only [List.length_append, List.length_cons, List.length_nil] at hm
      show (s.db.blocks ++ [agreed s.db.blocks.length])[m]? = _
      rcases Nat.lt_or_ge m s.db.blocks.length with h' | h'
      · rw [List.getElem?_append_left h']; exact ih.blocks m h'
      · have : m = s.db.blocks.length := by omega
        subst this
        simp
    | define k =>
      refine ⟨ih.blocks, ?_, ih.cache⟩
      intro h v e
      simp only at e
      by_cases hk : h = k
      · rw [if_pos hk] at e; cases e; rw [hk]
      · rw [if_neg hk] at e; exact ih.defs h v e
    | evict k =>
      refine ⟨ih.blocks, ih.defs, ?_⟩
      intro h v m e
      simp only at e
      by_cases hk : h = k
      · rw [if_pos hk] at e; cases e
      · rw [if_neg hk] at e; exact ih.cache h v m e
    | look d hd n pending k =>
      refine ⟨ih.blocks, ih.defs, ?_⟩
      show ∀ h v m, (getCompiledClass s.cache s.db d n pending k).2 h = some (v, m) → _
      unfold getCompiledClass
      cases s.cache.hit n k with
      | some r => exact ih.cache
      | none =>
        cases e : nonCached s.db d n pending k with
        | found m df c =>
          cases m with
          | none => exact ih.cache
          | some m =>
            intro h' v' m' he
            simp only [Cache.set] at he
            by_cases hh : h' = k
            · rw [if_pos hh] at he
              simp only [Option.some.injEq, Prod.mk.injEq] at he
              obtain ⟨rfl, rfl⟩ := he
              subst hh
              exact nonCached_shared hc ih hd e
            · rw [if_neg hh] at he
              exact ih.cache h' v' m' he
        | undeclared => exact ih.cache
        | failed => exact ih.cache

/-- Executions of proposals on top of decided blocks fill the same cache. A reader of a committed
block still gets what it would get without the cache, if decided blocks carry exactly the classes
they declare. Missing: rolled back declarations (`C77_rollback_violated`) and reorganisations
(`C77_reorg_violated`). -/
theorem C77_shared_partial {agreed : Nat → Blk} {defOf : Nat → Nat × Option Nat}
    (hc : Carries agreed defOf) {s : Cached} (r : SharedReach agreed defOf s)
    (hdef : ∀ h, (∃ b ∈ s.db.blocks, Declares b h) → (s.db.defs h).isSome)
    (n : Nat) (hn : n < s.db.blocks.length) (pending : Bool) (h : Nat) :
    (getCompiledClass s.cache s.db [] (some n) pending h).1 =
      (nonCached s.db [] (some n) pending h).runnable := by
  have hi := sharedInv_reach hc r
  unfold getCompiledClass
  cases e : s.cache.hit (some n) h with
  | none =>
    cases e2 : nonCached s.db [] (some n) pending h with
    | found m df c => cases m <;> rfl
    | undeclared => rfl
    | failed => rfl
  | some v =>
    unfold Cache.hit at e
    cases hx : s.cache h with
    | none => rw [hx] at e; cases e
    | some x =>
      obtain ⟨v', m⟩ := x
      rw [hx] at e
      simp only at e
      by_cases hm : m ≤ n
      · rw [if_pos hm] at e
        cases e
        obtain ⟨hv, hf⟩ := hi.cache h v m hx
        have h1 := declaredAt_of_firstAt hi.blocks hf (by omega)
        have h2 := hdef h ⟨_, List.mem_of_getElem? (hi.blocks m (by omega)), hf.1⟩
        obtain ⟨w, hw⟩ := Option.isSome_iff_exists.mp h2
        have hwv : w = v := by rw [hi.defs h w hw, hv]
        subst hwv
        obtain ⟨df, c⟩ := w
        cases pending with
        | true =>
          show Runnable.runs df c = (s.db.classAny h).runnable
          unfold Db.classAny
          rw [hw]; rfl
        | false =>
          show Runnable.runs df c = (s.db.classAt n h).runnable
          unfold Db.classAt
          rw [h1, hw]
          simp only
          rw [if_pos hm]; rfl
      · rw [if_neg hm] at e; cases e

/-- One block that declares class `90` and carries its definition. -/
def sharedAgreed : Nat → Blk
  | 0 => { emptyBlk with declared := [(90, 9)], classes := [sampleCls] }
  | _ + 1 => emptyBlk

theorem shared_carries : Carries sharedAgreed (fun _ => (91, some 92)) := by
  intro m c hc
  match m with
  | 0 =>
    simp [sharedAgreed] at hc
    subst hc
    exact ⟨⟨.inr (.inl ⟨9, List.mem_cons_self⟩), fun k hk => absurd hk (Nat.not_lt_zero k)⟩, rfl⟩
  | m + 1 => simp [sharedAgreed, emptyBlk] at hc

/-- The class is looked up while its block is decided, and read by others once it is stored. -/
example : ∃ s, SharedReach sharedAgreed (fun _ => (91, some 92)) s ∧ s.db.blocks.length = 1 ∧
    (s.cache 90).isSome = true ∧ (∀ h, (∃ b ∈ s.db.blocks, Declares b h) → (s.db.defs h).isSome) := by
  have h1 := (SharedReach.start (agreed := sharedAgreed) (defOf := fun _ => (91, some 92))).step
    (.look _ [(0, sharedAgreed 0)] (by simp) (some 0) false 90)
  have h2 := (h1.step (.define _ 90)).step (.append _)
  refine ⟨_, h2, rfl, by decide +kernel, ?_⟩
  rintro h ⟨b, hb, hx⟩
  simp [sharedAgreed] at hb
  subst hb
  rcases hx with hx | ⟨c, hx⟩ | ⟨q, hq, _⟩
  · simp [emptyBlk] at hx
  · simp at hx; simp [hx.1]
  · simp [emptyBlk] at hq

/-- A class whose declaration was rolled back (as in `C76_rollback_violated`) gets into the cache
when a later proposal looks it up, and is then handed to every reader, though no block declares it. -/
theorem C77_rollback_violated : ∃ (agreed : Nat → Blk) (defOf : Nat → Nat × Option Nat) (s : Cached),
    SharedReach agreed defOf s ∧ s.db.blocks.length = 1 ∧ (∀ m, ¬ Declares (agreed m) 90) ∧
    (getCompiledClass s.cache s.db [] (some 0) false 90).1 = .runs 91 (some 92) ∧
    (nonCached s.db [] (some 0) false 90).runnable = .undeclared := by
  refine ⟨fun _ => { emptyBlk with classes := [sampleCls] }, fun _ => (0, none), _,
    (SharedReach.start.step
      (.look _ [(0, { emptyBlk with classes := [sampleCls] })] (by simp) (some 0) false 90)).step
      (.append _), rfl, ?_, by decide +kernel, by decide +kernel⟩
  intro m hx
  rcases hx with hx | ⟨c, hx⟩ | ⟨q, hq, _⟩
  · simp [emptyBlk] at hx
  · simp [emptyBlk] at hx
  · simp [emptyBlk] at hq

end Verif.Exec
