import Verif.Pend.Agg
/-!
# C85: queries about pending blocks, state

The answers about nonces, storage and classes with the tag `pre_confirmed` are those of the chain with the pending blocks on top, for every
history of the database and every reply of the gateway. A contract that is deployed and replaced by the pending blocks is not found by two of
the three queries, which violates the property.
-/
namespace Verif.Pend
open State (Op OpsOk Track run)

variable (ops : List Op) (hw : OpsOk ops) (hc : (Track.run ops).chain ≠ []) {g : GBlock} {n : Nat} {pl : Option GLatest} {w : Data}
  (h : convert g n pl = .ok w) (hg : ∀ d ∈ allDiffs g pl, d.Ok) (root : Nat) (v9 : Bool)

/-- The differences that count on the chain that the database holds. -/
abbrev ds (ops : List Op) (g : GBlock) (n : Nat) (pl : Option GLatest) (v9 : Bool) : List GDiff :=
  pendingDiffs v9 (Track.run ops).chain.length g n pl

include hw hc h hg in
theorem data_agg (hl : Lawful (Track.run ops).updates (ds ops g n pl v9)) :
    ∃ d, get ((State.head (run ops)).getD 0) root v9 w = .ok d ∧ AggOk (ds ops g n pl v9) d.agg := by
  have hh := (db_reads ops hw hc 0 0).1
  have hpos : (Track.run ops).chain.length ≠ 0 := fun e => hc (List.eq_nil_of_length_eq_zero e)
  have e : (Track.run ops).chain.length - 1 + 1 = (Track.run ops).chain.length := by omega
  have := get_agg h hg v9 ((Track.run ops).chain.length - 1) root (by rw [e]; exact hl.freshDs)
  rw [e] at this
  rw [hh]
  exact this

include hw hc h hg in
/-- C85. The class of a contract is the one after the chain and the pending blocks on top. -/
theorem C85_class (hl : Lawful (Track.run ops).updates (ds ops g n pl v9)) (a : Nat) :
    getClassHash (run ops) root v9 w a = rightClass (Track.run ops).updates (ds ops g n pl v9) a := by
  obtain ⟨d, hd, ha⟩ := data_agg ops hw hc h hg root v9 hl
  obtain ⟨hh, -, hcl, -, -⟩ := db_reads ops hw hc a 0
  unfold getClassHash rightClass classAt says
  rw [hd]
  simp only
  rw [class_view, ha.cls]
  cases lastSays (·.classOf a) (ds ops g n pl v9) with
  | some c => rfl
  | none =>
    simp only [Option.none_or]
    unfold dbClass
    rw [hh, hcl]
    rfl

include hw hc h hg in
/-- C85, nonces: the nonce of a contract is the one after the chain and the pending blocks on top, and zero for a contract that exists
and has none, unless the pending blocks both deploy and replace the contract and set no nonce. -/
theorem C85_nonce_partial (hl : Lawful (Track.run ops).updates (ds ops g n pl v9)) (a : Nat)
    (hx : ¬ DeployedAndReplaced (ds ops g n pl v9) a ∨ ∃ d ∈ ds ops g n pl v9, d.nonceOf a ≠ none) :
    getNonce (run ops) root v9 w a = rightNonce (Track.run ops).updates (ds ops g n pl v9) a := by
  obtain ⟨d, hd, ha⟩ := data_agg ops hw hc h hg root v9 hl
  obtain ⟨hh, hno, -, -, hex⟩ := db_reads ops hw hc a 0
  unfold getNonce rightNonce classAt says
  rw [hd]
  simp only
  rw [nonce_view, ha.nonce, ha.zero]
  cases hn : lastSays (·.nonceOf a) (ds ops g n pl v9) with
  | some x => rfl
  | none =>
    have hx' : ¬ DeployedAndReplaced (ds ops g n pl v9) a := by
      rcases hx with hx | ⟨d, hd, hne⟩
      · exact hx
      · exact absurd ((lastSays_none _ _).1 hn d hd) hne
    simp only [Option.none_or]
    by_cases hdep : lastSays (·.deploys a) (ds ops g n pl v9) = none
    · have hneg : ¬ (lastSays (·.deploys a) (ds ops g n pl v9) ≠ none ∧ lastSays (·.replaces a) (ds ops g n pl v9) = none) :=
        fun hh => hh.1 hdep
      rw [if_neg hneg]
      simp only
      unfold dbNonce
      rw [hh, hno, hex]
      cases lastSays (·.nonceOf a) (Track.run ops).updates with
      | some x => rfl
      | none =>
        simp only [Option.isNone_some, Bool.false_eq_true, if_false]
        cases hcl : lastSays (·.classOf a) (ds ops g n pl v9) with
        | none => rfl
        | some c =>
          have hk := known_chain hl a hdep (by rw [hcl]; simp)
          cases hcu : lastSays (·.classOf a) (Track.run ops).updates with
          | none => exact absurd hcu hk
          | some y => rfl
    · obtain ⟨h1, h2, h3⟩ := hl.silent hdep
      have hrep : lastSays (·.replaces a) (ds ops g n pl v9) = none := by
        rw [lastSays_none]
        intro e he
        apply Classical.byContradiction
        intro hne
        exact hx' ⟨deployed_mem hdep, e, he, hne⟩
      rw [if_pos ⟨hdep, hrep⟩, h1]
      simp only
      rw [fresh_class _ hl.freshDs, hrep, Option.none_or]
      cases hy : lastSays (·.deploys a) (ds ops g n pl v9) with
      | none => exact absurd hy hdep
      | some y => rfl

include hw hc h hg in
/-- C85 is violated for nonces: whenever the pending blocks deploy and replace a contract and set no nonce, the contract is not found although
its nonce is zero. (The query for its class does find it.) -/
theorem C85_nonce_violated (hl : Lawful (Track.run ops).updates (ds ops g n pl v9)) (a : Nat)
    (hx : DeployedAndReplaced (ds ops g n pl v9) a) (hno : ∀ d ∈ ds ops g n pl v9, d.nonceOf a = none) :
    getNonce (run ops) root v9 w a = .contractNotFound ∧ rightNonce (Track.run ops).updates (ds ops g n pl v9) a = .ok 0 ∧
    ∃ c, getClassHash (run ops) root v9 w a = .ok c := by
  obtain ⟨d, hd, ha⟩ := data_agg ops hw hc h hg root v9 hl
  obtain ⟨hh, hnd, -, -, hex⟩ := db_reads ops hw hc a 0
  have hn : lastSays (·.nonceOf a) (ds ops g n pl v9) = none := (lastSays_none _ _).2 hno
  have hdep : lastSays (·.deploys a) (ds ops g n pl v9) ≠ none := by
    obtain ⟨⟨e, he, hne⟩, _⟩ := hx
    exact fun hnone => hne ((lastSays_none _ _).1 hnone e he)
  have hrep : lastSays (·.replaces a) (ds ops g n pl v9) ≠ none := by
    obtain ⟨_, ⟨e, he, hne⟩⟩ := hx
    exact fun hnone => hne ((lastSays_none _ _).1 hnone e he)
  obtain ⟨h1, h2, h3⟩ := hl.silent hdep
  have hcls : ∃ c, lastSays (·.classOf a) (ds ops g n pl v9) = some c := by
    rw [fresh_class _ hl.freshDs]
    cases hr : lastSays (·.replaces a) (ds ops g n pl v9) with
    | none => exact absurd hr hrep
    | some c => exact ⟨c, rfl⟩
  obtain ⟨c, hcls⟩ := hcls
  refine ⟨?_, ?_, c, ?_⟩
  · unfold getNonce
    rw [hd]
    simp only
    rw [nonce_view, ha.nonce, ha.zero, hn, if_neg fun hh => hrep hh.2]
    simp only [Option.none_or]
    unfold dbNonce
    rw [hh, hnd, hex, h1, h2]
    rfl
  · unfold rightNonce classAt says
    rw [hn, h1, hcls]
    rfl
  · rw [C85_class ops hw hc h hg root v9 hl a]
    unfold rightClass classAt says
    rw [hcls]
    rfl

/-- The value of an answer about storage. -/
def Ans.val : Ans (Nat × Nat) → Ans Nat
  | .ok p => .ok p.1
  | .blockNotFound => .blockNotFound
  | .contractNotFound => .contractNotFound
  | .panic => .panic

/-- What is found in the merged update, for a lawful list of differences. -/
theorem storage_found {l : List GDiff} {u : Diff.SU} (ha : AggOk l u) (a k : Nat) :
    Diff.storageValue u a k = ((lastSays (·.storageOf a k) l).map Diff.Found.set).or
      (if State.isSystem a = false ∧ lastSays (·.deploys a) l ≠ none ∧ lastSays (·.replaces a) l = none then some .zero else none) := by
  rw [storage_view]
  cases hs : State.isSystem a with
  | false =>
    obtain ⟨h1, h2⟩ := ha.user a k hs
    rw [h1, h2, ha.zero]
    simp only [Option.map_none, Option.or_none, true_and]
    congr 1
    split <;> rfl
  | true =>
    obtain ⟨h1, h2, h3⟩ := ha.system a k hs
    rw [h1, h2, h3]
    simp [zeroIf]

theorem system_not_deployed {l : List GDiff} (hok : ∀ d ∈ l, d.Ok) {a : Nat} (hs : State.isSystem a = true) :
    lastSays (·.deploys a) l = none := by
  rw [lastSays_none]
  intro d hd
  have := ((hok d hd).system a hs).2
  unfold GDiff.classOf at this
  exact (Option.or_eq_none_iff.1 this).2

theorem pendingDiffs_ok {g : GBlock} {n : Nat} {pl : Option GLatest} (hg : ∀ d ∈ allDiffs g pl, d.Ok) (v9 : Bool) (len : Nat) :
    ∀ d ∈ pendingDiffs v9 len g n pl, d.Ok := by
  intro d hd
  apply hg
  unfold pendingDiffs at hd
  split at hd
  · rw [List.mem_flatMap] at hd
    obtain ⟨b, hb, hdb⟩ := hd
    have hb' : b ∈ pendingBlocks g n pl := by
      unfold above at hb
      simp only at hb
      split at hb
      · exact (List.mem_filter.1 hb).1
      · cases hb
    unfold pendingBlocks at hb'
    unfold allDiffs
    rcases List.mem_append.1 hb' with hb' | hb'
    · cases pl with
      | none => cases hb'
      | some p =>
        simp only [Option.map_some, Option.toList_some, List.mem_singleton] at hb'
        subst hb'
        simp only [List.mem_singleton] at hdb
        subst hdb
        simp
    · simp only [List.mem_singleton] at hb'
      subst hb'
      exact List.mem_append_right _ hdb
  · cases hd

include hw hc h hg in
/-- C85, storage: the value of a cell is the one after the chain and the pending blocks on top, and zero for a cell of a contract that exists
and was not written, unless the pending blocks both deploy and replace the contract and do not write the cell. -/
theorem C85_storage_partial (hl : Lawful (Track.run ops).updates (ds ops g n pl v9)) (a k : Nat)
    (hx : ¬ DeployedAndReplaced (ds ops g n pl v9) a ∨ ∃ d ∈ ds ops g n pl v9, d.storageOf a k ≠ none) :
    (getStorage (run ops) root v9 w a k).val = rightStorage (Track.run ops).updates (ds ops g n pl v9) a k := by
  obtain ⟨d, hd, ha⟩ := data_agg ops hw hc h hg root v9 hl
  obtain ⟨hh, -, -, hst, hex⟩ := db_reads ops hw hc a k
  unfold getStorage rightStorage classAt says
  rw [hd]
  simp only
  rw [storage_found ha]
  cases hn : lastSays (·.storageOf a k) (ds ops g n pl v9) with
  | some x => rfl
  | none =>
    have hx' : ¬ DeployedAndReplaced (ds ops g n pl v9) a := by
      rcases hx with hx | ⟨d, hd, hne⟩
      · exact hx
      · exact absurd ((lastSays_none _ _).1 hn d hd) hne
    simp only [Option.none_or, Option.map_none]
    by_cases hdep : lastSays (·.deploys a) (ds ops g n pl v9) = none
    · have hneg : ¬ (State.isSystem a = false ∧ lastSays (·.deploys a) (ds ops g n pl v9) ≠ none ∧
          lastSays (·.replaces a) (ds ops g n pl v9) = none) := fun hh => hh.2.1 hdep
      rw [if_neg hneg]
      simp only
      unfold dbStorage
      rw [hh, hex, ← hst]
      simp only [Option.isNone_some, Bool.false_eq_true, if_false]
      cases State.storageValueWithBlock (run ops) .latest a k with
      | some x => rfl
      | none =>
        simp only [Option.map_none]
        cases hcl : lastSays (·.classOf a) (ds ops g n pl v9) with
        | none =>
          simp only [Option.none_or]
          cases lastSays (·.classOf a) (Track.run ops).updates <;> rfl
        | some c =>
          have hk := known_chain hl a hdep (by rw [hcl]; simp)
          cases hcu : lastSays (·.classOf a) (Track.run ops).updates with
          | none => exact absurd hcu hk
          | some y => rfl
    · obtain ⟨h1, h2, h3⟩ := hl.silent hdep
      have hsys : State.isSystem a = false := by
        cases hs : State.isSystem a with
        | false => rfl
        | true => exact absurd (system_not_deployed (pendingDiffs_ok hg v9 _) hs) hdep
      have hrep : lastSays (·.replaces a) (ds ops g n pl v9) = none := by
        rw [lastSays_none]
        intro e he
        apply Classical.byContradiction
        intro hne
        exact hx' ⟨deployed_mem hdep, e, he, hne⟩
      rw [if_pos ⟨hsys, hdep, hrep⟩, h3 k]
      simp only
      rw [fresh_class _ hl.freshDs, hrep, Option.none_or]
      cases hy : lastSays (·.deploys a) (ds ops g n pl v9) with
      | none => exact absurd hy hdep
      | some y => rfl

include hw hc h hg in
/-- C85 is violated for storage in the same way. -/
theorem C85_storage_violated (hl : Lawful (Track.run ops).updates (ds ops g n pl v9)) (a k : Nat)
    (hx : DeployedAndReplaced (ds ops g n pl v9) a) (hno : ∀ d ∈ ds ops g n pl v9, d.storageOf a k = none) :
    getStorage (run ops) root v9 w a k = .contractNotFound ∧ rightStorage (Track.run ops).updates (ds ops g n pl v9) a k = .ok 0 := by
  obtain ⟨d, hd, ha⟩ := data_agg ops hw hc h hg root v9 hl
  obtain ⟨hh, -, -, hst, hex⟩ := db_reads ops hw hc a k
  have hn : lastSays (·.storageOf a k) (ds ops g n pl v9) = none := (lastSays_none _ _).2 hno
  have hdep : lastSays (·.deploys a) (ds ops g n pl v9) ≠ none := by
    obtain ⟨⟨e, he, hne⟩, _⟩ := hx
    exact fun hnone => hne ((lastSays_none _ _).1 hnone e he)
  have hrep : lastSays (·.replaces a) (ds ops g n pl v9) ≠ none := by
    obtain ⟨_, ⟨e, he, hne⟩⟩ := hx
    exact fun hnone => hne ((lastSays_none _ _).1 hnone e he)
  obtain ⟨h1, h2, h3⟩ := hl.silent hdep
  constructor
  · unfold getStorage
    rw [hd]
    simp only
    rw [storage_found ha, hn, if_neg fun hh => hrep hh.2.2]
    simp only [Option.none_or, Option.map_none]
    unfold dbStorage
    rw [h3 k] at hst
    rw [hh, hex, h2, Option.map_eq_none_iff.1 hst]
    rfl
  · unfold rightStorage classAt says
    rw [hn, h3 k, fresh_class _ hl.freshDs]
    cases hr : lastSays (·.replaces a) (ds ops g n pl v9) with
    | none => exact absurd hr hrep
    | some c => rfl

/-! ## The block of the last update -/

include hw hc h hg in
/-- C85: a cell that the pending blocks write is reported with the number of the pre-confirmed block as the block of its last update. -/
theorem last_update (hl : Lawful (Track.run ops).updates (ds ops g n pl v9)) (a k v : Nat)
    (hv : lastSays (·.storageOf a k) (ds ops g n pl v9) = some v) : getStorage (run ops) root v9 w a k = .ok (v, n) := by
  obtain ⟨d, hd, ha⟩ := data_agg ops hw hc h hg root v9 hl
  unfold getStorage
  rw [hd]
  simp only
  rw [storage_found ha, hv]
  have hne : ds ops g n pl v9 ≠ [] := by
    intro e
    rw [e] at hv
    cases hv
  have : d.number = n := by
    obtain ⟨-, hp, rfl⟩ := convert_ok h
    have hh := (db_reads ops hw hc a k).1
    have hpos : (Track.run ops).chain.length ≠ 0 := fun e => hc (List.eq_nil_of_length_eq_zero e)
    rw [hh] at hd
    simp only [Option.getD_some] at hd
    have hemp : ∀ x : List (Nat × List GDiff), x.head?.map (·.1) ≠ some (Track.run ops).chain.length →
        (if x.head?.map (·.1) = some (Track.run ops).chain.length then x else []).flatMap (·.2) = [] := by
      intro x hx
      rw [if_neg hx]
      rfl
    cases v9 with
    | false => exact absurd rfl hne
    | true =>
      cases pl with
      | none =>
        simp only [get, Option.map_none, if_true] at hd
        split at hd
        · cases hd; rfl
        · rename_i hn
          exfalso
          apply hne
          unfold ds pendingDiffs above pendingBlocks
          simp only [if_true, Option.map_none, Option.toList_none, List.nil_append]
          apply hemp
          by_cases hle : (Track.run ops).chain.length ≤ n
          · simp [hle]; omega
          · simp [hle]
      | some p =>
        have hpn := hp p rfl
        simp only [get, Option.map_some, if_true, preLatest] at hd
        split at hd
        · cases hd; rfl
        · split at hd
          · cases hd; rfl
          · exfalso
            apply hne
            unfold ds pendingDiffs above pendingBlocks
            simp only [if_true, Option.map_some, Option.toList_some, List.singleton_append]
            apply hemp
            by_cases hle : (Track.run ops).chain.length ≤ p.number
            · have : (Track.run ops).chain.length ≤ n := by omega
              simp [List.filter_cons, hle]; omega
            · have : ¬ (Track.run ops).chain.length ≤ n := by omega
              simp [hle, this]
  rw [this]
  rfl

include hw hc h hg in
/-- C85, block of the last update: right for every cell that the pre-confirmed block writes. -/
theorem C85_last_update_partial (hl : Lawful (Track.run ops).updates (ds ops g n pl v9)) (a k v : Nat)
    (hin : ∃ r, ds ops g n pl v9 = r ++ txDiffs g) (hv : lastSays (·.storageOf a k) (txDiffs g) = some v) :
    getStorage (run ops) root v9 w a k = .ok (v, n) := by
  obtain ⟨r, e⟩ := hin
  exact last_update ops hw hc h hg root v9 hl a k v (by rw [e, lastSays_append, hv]; rfl)

include hw hc h hg in
/-- C85 is violated for the block of the last update: a cell that only the pre-latest block writes is reported as updated by the block after
it. -/
theorem C85_last_update_violated {p : GLatest} (hp : pl = some p) (hl : Lawful (Track.run ops).updates (ds ops g n pl true))
    (hat : p.number = (Track.run ops).chain.length) (a k v : Nat) (hv : p.diff.storageOf a k = some v)
    (hno : ∀ d ∈ txDiffs g, d.storageOf a k = none) :
    getStorage (run ops) root true w a k = .ok (v, p.number + 1) := by
  have hn := (convert_ok h).2.1 p hp
  rw [hn]
  refine last_update ops hw hc h hg root true hl a k v ?_
  have : ds ops g n pl true = p.diff :: txDiffs g := by
    unfold ds pendingDiffs above pendingBlocks
    have : (Track.run ops).chain.length ≤ n := by omega
    simp [hp, hat, this]
  rw [this, show p.diff :: txDiffs g = [p.diff] ++ txDiffs g from rfl, lastSays_append, (lastSays_none _ _).2 hno]
  simp [lastSays, hv]

/-! ## An example -/

/-- A chain of one block that deploys contract 10. -/
def exUpdate : State.Update := { contracts := [(10, { storage := [(1, 5), (3, 8)], nonce := some 3, cls := some (.deploy 100) })] }

/-- The history of that chain. -/
def exOps : List Op := [.block 0 exUpdate]

/-- The pre-latest block 1 deploys contract 20 and writes a cell of contract 10. -/
def exLatest : GLatest := ⟨1, 77, [⟨500, 0⟩], [⟨500, 0, 0⟩], { storage := [(10, [(2, 6)])], deployed := [(20, 200)] }⟩

/-- The pre-confirmed block 2 replaces both classes and increases the nonce of contract 10 and writes a cell of it; its last transaction is a candidate. -/
def exBlock : GBlock := ⟨[⟨600, 0⟩, ⟨601, 0⟩, ⟨602, 0⟩], [some ⟨600, 0, 0⟩, some ⟨601, 1, 0⟩, none],
  [some { replaced := [(20, 201)] }, some { storage := [(10, [(1, 7)])], replaced := [(10, 101)], nonces := [(10, 4)] }, none]⟩

theorem exOpsOk : OpsOk exOps := by
  intro h u hu
  simp only [exOps, List.mem_singleton, State.Op.block.injEq] at hu
  obtain ⟨-, rfl⟩ := hu
  constructor <;> decide

theorem exChain : (Track.run exOps).chain ≠ [] := by decide

theorem exUpdates : (Track.run exOps).updates = [exUpdate] := by decide

theorem exDs : ds exOps exBlock 2 (some exLatest) true =
    [exLatest.diff, { replaced := [(20, 201)] }, { storage := [(10, [(1, 7)])], replaced := [(10, 101)], nonces := [(10, 4)] }] := by decide

theorem exDiffsOk : ∀ d ∈ allDiffs exBlock (some exLatest), d.Ok := by
  intro d hd
  have : d = exLatest.diff ∨ d = { replaced := [(20, 201)] } ∨ d = { storage := [(10, [(1, 7)])], replaced := [(10, 101)], nonces := [(10, 4)] } := by
    simpa [allDiffs, txDiffs, exBlock] using hd
  have hs : ∀ a, State.isSystem a = true → a = 1 ∨ a = 2 := by
    intro a ha
    simpa [State.isSystem] using ha
  rcases this with rfl | rfl | rfl
  all_goals
    refine ⟨by decide, by decide, fun a ha => ?_⟩
    rcases hs a ha with rfl | rfl <;> decide

theorem exLawful : Lawful (Track.run exOps).updates (ds exOps exBlock 2 (some exLatest) true) := by
  rw [exUpdates, exDs]
  constructor
  · intro l d r e a ha
    match l with
    | [] =>
      obtain ⟨rfl, -⟩ := List.cons.inj e
      have : a = 20 := by
        simp only [GDiff.deploys, exLatest, List.reverse_cons, List.reverse_nil, List.nil_append, List.lookup_cons, List.lookup_nil] at ha
        cases hb : a == 20 <;> simp_all
      subst this
      refine ⟨?_, fun _ h => by cases h⟩
      rintro ⟨u, hu, hh⟩
      simp only [List.mem_singleton] at hu
      subst hu
      rcases hh with hh | hh | ⟨k, hh⟩
      · exact hh (by decide)
      · exact hh (by decide)
      · exact hh rfl
    | [x] =>
      obtain ⟨rfl, -⟩ := List.cons.inj (List.cons.inj e).2
      exact absurd rfl ha
    | [x, y] =>
      obtain ⟨rfl, -⟩ := List.cons.inj (List.cons.inj (List.cons.inj e).2).2
      exact absurd rfl ha
    | x :: y :: z :: l => simp at e
  · intro l d r e a ha
    match l with
    | [] =>
      obtain ⟨rfl, -⟩ := List.cons.inj e
      exact absurd rfl ha
    | [x] =>
      obtain ⟨rfl, e1⟩ := List.cons.inj e
      obtain ⟨rfl, -⟩ := List.cons.inj e1
      have : a = 20 := by
        simp only [GDiff.replaces, List.reverse_cons, List.reverse_nil, List.nil_append, List.lookup_cons, List.lookup_nil] at ha
        cases hb : a == 20 <;> simp_all
      subst this
      exact .inr (by decide)
    | [x, y] =>
      obtain ⟨rfl, e1⟩ := List.cons.inj e
      obtain ⟨rfl, e2⟩ := List.cons.inj e1
      obtain ⟨rfl, -⟩ := List.cons.inj e2
      have : a = 10 := by
        simp only [GDiff.replaces, List.reverse_cons, List.reverse_nil, List.nil_append, List.lookup_cons, List.lookup_nil] at ha
        cases hb : a == 10 <;> simp_all
      subst this
      exact .inr (by decide)
    | x :: y :: z :: l => simp at e

/-- The hypotheses of all theorems of this file are met, with a contract of the chain that the pending blocks change and one that they deploy
and replace. -/
example : ∃ w, convert exBlock 2 (some exLatest) = .ok w ∧ OpsOk exOps ∧ (Track.run exOps).chain ≠ [] ∧
    (∀ d ∈ allDiffs exBlock (some exLatest), d.Ok) ∧ Lawful (Track.run exOps).updates (ds exOps exBlock 2 (some exLatest) true) ∧
    getNonce (run exOps) 9 true w 10 = .ok 4 ∧ getClassHash (run exOps) 9 true w 10 = .ok 101 ∧
    getStorage (run exOps) 9 true w 10 1 = .ok (7, 2) ∧ getStorage (run exOps) 9 true w 10 3 = .ok (8, 0) ∧ getStorage (run exOps) 9 true w 10 2 = .ok (6, 2) ∧
    getClassHash (run exOps) 9 true w 20 = .ok 201 ∧ getNonce (run exOps) 9 true w 20 = .contractNotFound ∧
    getStorage (run exOps) 9 true w 20 1 = .contractNotFound :=
  ⟨_, rfl, exOpsOk, exChain, exDiffsOk, exLawful, by decide, by decide, by decide, by decide, by decide, by decide, by decide, by decide⟩

example : DeployedAndReplaced (ds exOps exBlock 2 (some exLatest) true) 20 ∧ ¬ DeployedAndReplaced (ds exOps exBlock 2 (some exLatest) true) 10 ∧
    (∀ d ∈ ds exOps exBlock 2 (some exLatest) true, d.nonceOf 20 = none) ∧
    (∀ d ∈ ds exOps exBlock 2 (some exLatest) true, d.storageOf 20 1 = none) ∧
    exLatest.number = (Track.run exOps).chain.length ∧ exLatest.diff.storageOf 10 2 = some 6 ∧
    (∀ d ∈ txDiffs exBlock, d.storageOf 10 2 = none) ∧ lastSays (·.storageOf 10 1) (txDiffs exBlock) = some 7 ∧
    ∃ r, ds exOps exBlock 2 (some exLatest) true = r ++ txDiffs exBlock := by
  refine ⟨⟨by decide, by decide⟩, ?_, by decide, by decide, by decide, by decide, by decide, by decide, [exLatest.diff], by decide⟩
  rintro ⟨h, -⟩
  revert h
  decide

end Verif.Pend
