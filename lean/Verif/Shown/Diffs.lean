import Verif.Shown.Receipts
/-!
# Lemmas on blocks and state updates
-/
namespace Verif.Shown
open Verif.Shown.Spec
open Verif.Block (F P Txn Bound V3 Msg Event Header Hashes)
open Verif.Diff (SU CUpd ClassUpd)

/-! ## Blocks -/

theorem header_names (v : Ver) (b : Header) (k : String) (hk : k = "transactions" ∨ k = "status") : last k (flat (showHeader v b)) = none := by
  simp only [showHeader, last_flat, last_append]
  cases v.ge .v07 <;> cases v.ge .v08 <;> cases v.ge .v10 <;> cases Verif.Block.before b.version Verif.Block.v0132 <;>
    rcases hk with rfl | rfl <;> simp [last]

theorem within_block (v : Ver) (b : Header) (pre post : List (String × J)) (h1 : ∀ k, k ≠ "transactions" → k ≠ "status" → last k post = none) :
    Within (pre ++ flat (showHeader v b) ++ post) (flat (showHeader v b)) := by
  intro k hk
  have ht : k ≠ "transactions" := by rintro rfl; rw [header_names v b _ (.inl rfl)] at hk; cases hk
  have hs : k ≠ "status" := by rintro rfl; rw [header_names v b _ (.inr rfl)] at hk; cases hk
  rw [last_append, last_append, h1 k ht hs, Option.none_or]
  cases e : last k (flat (showHeader v b)) with
  | none => rw [e] at hk; cases hk
  | some x => rfl

theorem blockTxs_header (v : Ver) (pf l1 : Bool) (b : Header) (body : Body) (hb : b.Ok) (hv : v.ge .v10 = true)
    (hver : Verif.Block.before b.version Verif.Block.v0132 = false) : header (showBlockTxs v pf l1 b body) = some b := by
  unfold showBlockTxs
  refine header_read v b hb hv hver _ ?_
  have := within_block v b [] [("transactions", Shown.list (fun x => showTxHash v pf x.1 x.2.1) body),
    ("status", text (if l1 then "ACCEPTED_ON_L1" else "ACCEPTED_ON_L2"))] (by
      intro k h1 h2
      simp [last, Ne.symm h1, Ne.symm h2])
  rw [List.nil_append] at this
  exact this

theorem blockReceipts_header (h : Hashes) (v : Ver) (pf l1 : Bool) (b : Header) (body : Body) (hb : b.Ok) (hv : v.ge .v10 = true)
    (hver : Verif.Block.before b.version Verif.Block.v0132 = false) : header (showBlockReceipts h v pf l1 b body) = some b := by
  unfold showBlockReceipts
  refine header_read v b hb hv hver _ ?_
  exact within_block v b _ _ (by
    intro k h1 h2
    simp [last, Ne.symm h1])

theorem status_words (l1 : Bool) : finality (text (if l1 then "ACCEPTED_ON_L1" else "ACCEPTED_ON_L2")) =
    some (if l1 then .acceptedOnL1 else .acceptedOnL2) := by cases l1 <;> decide

theorem txHash_read (v : Ver) (pf : Bool) (hash : F) (t : Txn) (h : TxFits t) :
    Spec.tx (showTxHash v pf hash t) = some (seenTx v pf t) ∧ (Spec.get "transaction_hash" (showTxHash v pf hash t)).bind elem = some hash := by
  constructor
  · exact tx_read v pf t h [("transaction_hash", hexF hash)] (by intro k hk; simp [last, Ne.symm hk])
  · have : last "transaction_hash" (flat (showTx v pf t)) = none := by
      cases t with
      | invokeV3 t => simp only [showTx, last_flat, last_append]; split <;> simp [last]
      | _ => simp [showTx, last_flat, last]
    simp [showTxHash, get_mk, last_append, this, last, elem_hexF]

theorem tx_plain (v : Ver) (pf : Bool) (t : Txn) (h : TxFits t) : Spec.tx (showTx v pf t) = some (seenTx v pf t) := by
  have e : ∀ l, Spec.tx (mk ([] ++ flat (mk l))) = Spec.tx (mk l) := by
    intro l
    have g : ∀ k, last k ([] ++ flat (mk l)) = last k l := fun k => by rw [List.nil_append, last_flat]
    have gg : ∀ k, Spec.get k (mk ([] ++ flat (mk l))) = Spec.get k (mk l) := fun k => by rw [get_mk, get_mk, g]
    have go : ∀ {α : Type} k (f : J → Option α), opt k f (mk ([] ++ flat (mk l))) = opt k f (mk l) := fun k f => by
      rw [opt_mk, opt_mk, g]
    have gv : Spec.v3 (mk ([] ++ flat (mk l))) = Spec.v3 (mk l) := by simp only [Spec.v3, gg]
    have gr : ∀ r ∈ readers, r.2.2 (mk ([] ++ flat (mk l))) = r.2.2 (mk l) := by
      intro r hr
      simp only [readers, List.mem_cons, List.not_mem_nil, or_false] at hr
      rcases hr with rfl | rfl | rfl | rfl | rfl | rfl | rfl | rfl | rfl | rfl | rfl | rfl
      · simp only [Spec.declareV0, gg]
      · simp only [Spec.declareV1, gg]
      · simp only [Spec.declareV2, gg]
      · simp only [Spec.declareV3, gg, gv]
      · simp only [Spec.deployV0, gg]
      · simp only [Spec.deployV1, gg]
      · simp only [Spec.deployAccountV1, gg]
      · simp only [Spec.deployAccountV3, gg, gv]
      · simp only [Spec.invokeV0, gg]
      · simp only [Spec.invokeV1, gg]
      · simp only [Spec.invokeV3, gg, gv, go]
      · simp only [Spec.l1Handler, gg]
    simp only [Spec.tx, gg]
    cases (Spec.get "type" (mk l)).bind str with
    | none => rfl
    | some k =>
      cases (Spec.get "version" (mk l)).bind hex with
      | none => rfl
      | some n =>
        show ((readers.find? _).bind _) = ((readers.find? _).bind _)
        cases hf : readers.find? fun r => decide (r.1.toList = k ∧ r.2.1 = n) with
        | none => rfl
        | some r => exact gr r (List.mem_of_find?_eq_some hf)
  have := tx_read v pf t h [] (by intro k _; rfl)
  have hm : ∃ l, showTx v pf t = mk l := by cases t <;> exact ⟨_, rfl⟩
  obtain ⟨l, hl⟩ := hm
  rw [hl] at this ⊢
  rw [← e l]
  exact this

theorem receipt_plain (h : Hashes) (hh : ∀ b, h.keccak b < 2 ^ 256) (v : Ver) (hash : F) (t : Txn) (r : Rcpt) (es : List Event) (f : Finality) :
    receipt (showReceipt h v hash t r es f) = some (seenReceipt h hash t r es f) := by
  have g := receipt_read h hh v hash t r es f [] (by intros; rfl)
  rw [showReceipt_fields] at g ⊢
  rw [List.append_nil] at g
  rw [← g]
  have l1 : ∀ k, Spec.get k (mk (flat (mk (receiptFields h v hash t r es f)))) = Spec.get k (mk (receiptFields h v hash t r es f)) :=
    fun k => by rw [get_mk, get_mk, last_flat]
  have l2 : ∀ {α : Type} k (f' : J → Option α), opt k f' (mk (flat (mk (receiptFields h v hash t r es f)))) =
      opt k f' (mk (receiptFields h v hash t r es f)) := fun k f' => by rw [opt_mk, opt_mk, last_flat]
  simp only [receipt, Spec.status, l1, l2]

theorem blockTxs_read (v : Ver) (pf l1 : Bool) (b : Header) (body : Body) (h : ∀ x ∈ body, TxFits x.2.1) :
    blockTxs (showBlockTxs v pf l1 b body) =
      some (body.map fun x => (x.1, seenTx v pf x.2.1), if l1 then .acceptedOnL1 else .acceptedOnL2) := by
  have e := list_map (fun x => do return (← (Spec.get "transaction_hash" x).bind elem, ← Spec.tx x)) (fun x => showTxHash v pf x.1 x.2.1)
    (fun x => (x.1, seenTx v pf x.2.1)) body (by
      intro x hx
      obtain ⟨h1, h2⟩ := txHash_read v pf x.1 x.2.1 (h x hx)
      simp only [h1, h2]
      rfl)
  simp only [blockTxs, showBlockTxs, get_mk, last_append, last, if_true, Option.some_or, Option.bind_some]
  simp only [String.reduceEq, if_false, Option.none_or, Option.or_none, Option.some_or, Option.bind_some, status_words]
  rw [e]
  rfl

theorem blockReceipts_read (h : Hashes) (hh : ∀ b, h.keccak b < 2 ^ 256) (v : Ver) (pf l1 : Bool) (b : Header) (body : Body)
    (hf : ∀ x ∈ body, TxFits x.2.1) :
    blockReceipts (showBlockReceipts h v pf l1 b body) =
      some (body.map fun x => (seenTx v pf x.2.1, seenReceipt h x.1 x.2.1 x.2.2.1 x.2.2.2 (if l1 then .acceptedOnL1 else .acceptedOnL2)),
        if l1 then .acceptedOnL1 else .acceptedOnL2) := by
  have e := list_map (fun x => do return (← (Spec.get "transaction" x).bind Spec.tx, ← (Spec.get "receipt" x).bind receipt))
    (showTxReceipt h v pf (if l1 then .acceptedOnL1 else .acceptedOnL2))
    (fun x => (seenTx v pf x.2.1, seenReceipt h x.1 x.2.1 x.2.2.1 x.2.2.2 (if l1 then .acceptedOnL1 else .acceptedOnL2))) body (by
      intro x hx
      have h1 := (txHash_read v pf x.1 x.2.1 (hf x hx)).1
      have h2 := tx_plain v pf x.2.1 (hf x hx)
      have h3 := receipt_plain h hh v x.1 x.2.1 x.2.2.1 x.2.2.2 (if l1 then .acceptedOnL1 else .acceptedOnL2)
      have e1 : (Spec.get "transaction" (showTxReceipt h v pf (if l1 then .acceptedOnL1 else .acceptedOnL2) x)).bind Spec.tx =
          some (seenTx v pf x.2.1) := by
        simp only [showTxReceipt, get_mk, last, if_true, String.reduceEq, if_false, Option.none_or, Option.bind_some]
        split
        · exact h1
        · exact h2
      have e2 : (Spec.get "receipt" (showTxReceipt h v pf (if l1 then .acceptedOnL1 else .acceptedOnL2) x)).bind receipt =
          some (seenReceipt h x.1 x.2.1 x.2.2.1 x.2.2.2 (if l1 then .acceptedOnL1 else .acceptedOnL2)) := by
        simp only [showTxReceipt, get_mk, last, if_true, Option.none_or, Option.some_or, Option.bind_some]
        exact h3
      rw [e1, e2]
      rfl)
  have hn := header_names v b "status" (.inr rfl)
  simp only [blockReceipts, showBlockReceipts, get_mk, last_append, last, if_true, Option.some_or, Option.none_or, Option.bind_some, hn,
    String.reduceEq, if_false, status_words]
  rw [e]
  rfl

/-! ## State updates -/

theorem pair_show (k k' : String) (hk : k ≠ k') (x : Nat × Nat) (h : x.1 < P ∧ x.2 < P) : pair k k' (showPair k k' x) = some x := by
  have h1 := hex_hexN h.1
  have h2 := hex_hexN h.2
  simp [pair, showPair, get_mk, last, Ne.symm hk, h1, h2]

theorem storage_show (x : Nat × List (Nat × Nat)) (h : x.1 < P ∧ ∀ k v, (k, v) ∈ x.2 → k < P ∧ v < P) :
    storageOf (showStorage x) = some (x.2.map fun e => .storage x.1 e.1 e.2) := by
  have h1 := hex_hexN h.1
  have e := list_list (pair "key" "value") (showPair "key" "value") x.2 fun y hy => pair_show "key" "value" (by decide) y (h.2 y.1 y.2 hy)
  have e' : Spec.list (pair "key" "value") (Shown.list (fun e => mk [("key", hexN e.1), ("value", hexN e.2)]) x.2) = some x.2 := e
  simp [storageOf, showStorage, get_mk, last, h1, e']

/-- The storage that is listed. -/
def listedStorage (u : SU) : List (Nat × List (Nat × Nat)) :=
  (u.contracts.filterMap fun x => if x.2.storage.isEmpty then none else some (x.1, x.2.storage)) ++
    u.system.filterMap fun x => if x.2.isEmpty then none else some x

/-- What is read of a state diff. -/
def seenChanges (v : Ver) (u : SU) : List Change :=
  (listedStorage u).flatMap (fun x => x.2.map fun e => .storage x.1 e.1 e.2) ++ u.cairo.map .declareOld ++
    u.sierra.map (fun x => .declare x.1 x.2) ++
    (u.contracts.filterMap fun x => (deployedClass x.2).map fun c => (x.1, c)).map (fun x => .deploy x.1 x.2) ++
    (u.contracts.filterMap fun x => (replacedClass x.2).map fun c => (x.1, c)).map (fun x => .replace x.1 x.2) ++
    (if v.ge .v10 then u.migrated else []).map (fun x => .migrate x.1 x.2) ++
    (u.contracts.filterMap fun x => x.2.nonce.map fun n => (x.1, n)).map (fun x => .nonce x.1 x.2)

theorem listed_mem (u : SU) (a : Nat) (s : List (Nat × Nat)) :
    (a, s) ∈ listedStorage u ↔ s ≠ [] ∧ ((∃ c, (a, c) ∈ u.contracts ∧ c.storage = s) ∨ (a, s) ∈ u.system) := by
  simp only [listedStorage, List.mem_append, List.mem_filterMap]
  constructor
  · rintro (⟨x, hx, h⟩ | ⟨x, hx, h⟩)
    · by_cases he : x.2.storage.isEmpty = true
      · simp [he] at h
      · simp only [he, Bool.false_eq_true, if_false, Option.some.injEq, Prod.mk.injEq] at h
        obtain ⟨rfl, rfl⟩ := h
        exact ⟨by simpa using he, .inl ⟨x.2, hx, rfl⟩⟩
    · by_cases he : x.2.isEmpty = true
      · simp [he] at h
      · simp only [he, Bool.false_eq_true, if_false, Option.some.injEq] at h
        subst h
        exact ⟨by simpa using he, .inr hx⟩
  · rintro ⟨hs, ⟨c, hc, rfl⟩ | h⟩
    · exact .inl ⟨(a, c), hc, by simp [hs]⟩
    · exact .inr ⟨(a, s), h, by simp [hs]⟩

theorem changes_read (v : Ver) (u : SU) (h : InRange u) : changes (showDiff v u) = some (seenChanges v u) := by
  have e1 := list_map storageOf showStorage (fun x => x.2.map fun e => Change.storage x.1 e.1 e.2) (listedStorage u) (by
    rintro ⟨a, s⟩ hx
    obtain ⟨-, ⟨c, hc, rfl⟩ | hs⟩ := (listed_mem u a s).mp hx
    · exact storage_show _ ⟨(h.storage a c hc).1, (h.storage a c hc).2.1⟩
    · exact storage_show _ (h.system a s hs))
  have e2 := list_list hex hexN u.cairo fun c hc => hex_hexN (h.cairo c hc)
  have e3 := list_list (pair "class_hash" "compiled_class_hash") (showPair "class_hash" "compiled_class_hash") u.sierra
    fun x hx => pair_show _ _ (by decide) x (h.sierra x.1 x.2 hx)
  have e4 := list_list (pair "address" "class_hash") (showPair "address" "class_hash")
    (u.contracts.filterMap fun x => (deployedClass x.2).map fun c => (x.1, c)) (by
      intro y hy
      obtain ⟨x, hx, hm⟩ := List.mem_filterMap.mp hy
      simp only [deployedClass, Option.map_eq_some_iff] at hm
      obtain ⟨c, hc, rfl⟩ := hm
      split at hc
      · rename_i c' hc'
        simp only [Option.some.injEq] at hc
        subst hc
        have := h.storage x.1 x.2 hx
        exact pair_show _ _ (by decide) _ ⟨this.1, this.2.2.2 _ hc'⟩
      · cases hc)
  have e5 := list_list (pair "contract_address" "class_hash") (showPair "contract_address" "class_hash")
    (u.contracts.filterMap fun x => (replacedClass x.2).map fun c => (x.1, c)) (by
      intro y hy
      obtain ⟨x, hx, hm⟩ := List.mem_filterMap.mp hy
      simp only [replacedClass, Option.map_eq_some_iff] at hm
      obtain ⟨c, hc, rfl⟩ := hm
      split at hc
      · rename_i c' hc'
        simp only [Option.some.injEq] at hc
        subst hc
        have := h.storage x.1 x.2 hx
        exact pair_show _ _ (by decide) _ ⟨this.1, this.2.2.2 _ hc'⟩
      · cases hc)
  have e6 := list_list (pair "class_hash" "compiled_class_hash") (showPair "class_hash" "compiled_class_hash") u.migrated
    fun x hx => pair_show _ _ (by decide) x (h.migrated x.1 x.2 hx)
  have e7 := list_list (pair "contract_address" "nonce") (showPair "contract_address" "nonce")
    (u.contracts.filterMap fun x => x.2.nonce.map fun n => (x.1, n)) (by
      intro y hy
      obtain ⟨x, hx, hm⟩ := List.mem_filterMap.mp hy
      simp only [Option.map_eq_some_iff] at hm
      obtain ⟨c, hc, rfl⟩ := hm
      have := h.storage x.1 x.2 hx
      exact pair_show _ _ (by decide) _ ⟨this.1, this.2.2.1 c hc⟩)
  have ef : ((listedStorage u).map fun x => x.2.map fun e => Change.storage x.1 e.1 e.2).flatten =
      (listedStorage u).flatMap fun x => x.2.map fun e => Change.storage x.1 e.1 e.2 := rfl
  have hl : ∀ k x, last k [("storage_diffs", Shown.list showStorage (listedStorage u)), ("deprecated_declared_classes", Shown.list hexN u.cairo),
      ("declared_classes", Shown.list (showPair "class_hash" "compiled_class_hash") u.sierra),
      ("deployed_contracts", Shown.list (showPair "address" "class_hash")
        (u.contracts.filterMap fun x => (deployedClass x.2).map fun c => (x.1, c))),
      ("replaced_classes", Shown.list (showPair "contract_address" "class_hash")
        (u.contracts.filterMap fun x => (replacedClass x.2).map fun c => (x.1, c)))] = some x →
      k ≠ "migrated_compiled_classes" → k ≠ "nonces" → Spec.get k (showDiff v u) = some x := by
    intro k x hx h1 h2
    rw [showDiff, get_mk, last_append, last_append]
    have : last k (if v.ge .v10 then [("migrated_compiled_classes", Shown.list (showPair "class_hash" "compiled_class_hash") u.migrated)] else []) = none := by
      split <;> simp [last, Ne.symm h1]
    rw [this]
    simp only [last, Ne.symm h2, if_false, Option.none_or]
    exact hx
  have g1 := hl "storage_diffs" _ (by simp [last]; rfl) (by decide) (by decide)
  have g2 := hl "deprecated_declared_classes" _ (by simp [last]; rfl) (by decide) (by decide)
  have g3 := hl "declared_classes" _ (by simp [last]; rfl) (by decide) (by decide)
  have g4 := hl "deployed_contracts" _ (by simp [last]; rfl) (by decide) (by decide)
  have g5 := hl "replaced_classes" _ (by simp [last]; rfl) (by decide) (by decide)
  have g6 : (opt "migrated_compiled_classes" (Spec.list (pair "class_hash" "compiled_class_hash")) (showDiff v u)).map (·.getD []) =
      some (if v.ge .v10 then u.migrated else []) := by
    rw [showDiff, opt_mk, last_append, last_append]
    cases v.ge .v10 <;> simp [last, e6]
  have g7 : Spec.get "nonces" (showDiff v u) = some (Shown.list (showPair "contract_address" "nonce")
      (u.contracts.filterMap fun x => x.2.nonce.map fun n => (x.1, n))) := by
    rw [showDiff, get_mk, last_append]
    simp [last]
  obtain ⟨m, hm, hm'⟩ := Option.map_eq_some_iff.mp g6
  simp only [changes, g1, g2, g3, g4, g5, g7, Option.bind_some, e1, e2, e3, e4, e5, e7, hm]
  rw [seenChanges, ← hm', ← ef]
  rfl

theorem mem_changes (v : Ver) (u : SU) (c : Change) :
    c ∈ seenChanges v u ↔ Changes u c ∧ (v.ge .v10 = false → ∀ a b, c ≠ .migrate a b) := by
  simp only [seenChanges, List.mem_append, List.mem_flatMap, List.mem_map, List.mem_filterMap]
  cases c with
  | storage a k x =>
    simp only [reduceCtorEq, and_false, exists_false, or_false, Change.storage.injEq, ne_eq, not_false_eq_true, implies_true, and_true, Changes]
    constructor
    · rintro ⟨⟨a', s⟩, hs, ⟨k', x'⟩, he, rfl, rfl, rfl⟩
      obtain ⟨-, ⟨c, hc, rfl⟩ | h⟩ := (listed_mem u _ _).mp hs
      · exact .inl ⟨c, hc, he⟩
      · exact .inr ⟨s, h, he⟩
    · rintro (⟨c, hc, he⟩ | ⟨s, hs, he⟩)
      · exact ⟨(a, c.storage), (listed_mem u _ _).mpr ⟨List.ne_nil_of_mem he, .inl ⟨c, hc, rfl⟩⟩, (k, x), he, rfl, rfl, rfl⟩
      · exact ⟨(a, s), (listed_mem u _ _).mpr ⟨List.ne_nil_of_mem he, .inr hs⟩, (k, x), he, rfl, rfl, rfl⟩
  | deploy a x =>
    simp only [reduceCtorEq, and_false, exists_false, or_false, false_or, Change.deploy.injEq, ne_eq, not_false_eq_true, implies_true, and_true,
      Changes, Option.map_eq_some_iff]
    constructor
    · rintro ⟨_, ⟨y, hy, c, hc, rfl⟩, rfl, rfl⟩
      refine ⟨y.2, hy, ?_⟩
      unfold deployedClass at hc
      split at hc
      · rename_i h; rw [h]; simpa using hc
      · cases hc
    · rintro ⟨y, hy, hc⟩
      exact ⟨(a, x), ⟨(a, y), hy, x, by simp [deployedClass, hc], rfl⟩, rfl, rfl⟩
  | replace a x =>
    simp only [reduceCtorEq, and_false, exists_false, or_false, false_or, Change.replace.injEq, ne_eq, not_false_eq_true, implies_true, and_true,
      Changes, Option.map_eq_some_iff]
    constructor
    · rintro ⟨_, ⟨y, hy, c, hc, rfl⟩, rfl, rfl⟩
      refine ⟨y.2, hy, ?_⟩
      unfold replacedClass at hc
      split at hc
      · rename_i h; rw [h]; simpa using hc
      · cases hc
    · rintro ⟨y, hy, hc⟩
      exact ⟨(a, x), ⟨(a, y), hy, x, by simp [replacedClass, hc], rfl⟩, rfl, rfl⟩
  | nonce a x =>
    simp only [reduceCtorEq, and_false, exists_false, or_false, false_or, Change.nonce.injEq, ne_eq, not_false_eq_true, implies_true, and_true,
      Changes, Option.map_eq_some_iff]
    constructor
    · rintro ⟨_, ⟨y, hy, c, hc, rfl⟩, rfl, rfl⟩
      exact ⟨y.2, hy, hc⟩
    · rintro ⟨y, hy, hc⟩
      exact ⟨(a, x), ⟨(a, y), hy, x, hc, rfl⟩, rfl, rfl⟩
  | declareOld x => simp [Changes]
  | declare a b => simp [Changes]
  | migrate a b =>
    cases hv : v.ge .v10 <;> simp [Changes, hv]

/-! ## Each change once -/

theorem nodup_key {α κ β : Type} (key : α → κ) (f : α → β) (hf : ∀ x y, f x = f y → key x = key y) {l : List α}
    (h : (l.map key).Nodup) : (l.map f).Nodup := by
  unfold List.Nodup at h ⊢
  rw [List.pairwise_map] at h ⊢
  exact h.imp fun hne he => hne (hf _ _ he)

theorem nodup_filterMap_key {α κ β : Type} (key : α → κ) (key' : β → κ) (f : α → Option β) (hf : ∀ x y, f x = some y → key' y = key x)
    {l : List α} (h : (l.map key).Nodup) : ((l.filterMap f).map key').Nodup := by
  unfold List.Nodup at h ⊢
  rw [List.pairwise_map] at h ⊢
  rw [List.pairwise_filterMap]
  exact h.imp fun hne b hb b' hb' he => hne (by rw [← hf _ _ hb, ← hf _ _ hb', he])

theorem nodup_flatMap_key {α κ β : Type} (key : α → κ) (key' : β → κ) (f : α → List β) (hf : ∀ x, ∀ y ∈ f x, key' y = key x) :
    ∀ {l : List α}, (l.map key).Nodup → (∀ x ∈ l, (f x).Nodup) → (l.flatMap f).Nodup
  | [], _, _ => by simp
  | x :: l, h, h2 => by
    rw [List.map_cons, List.nodup_cons] at h
    rw [List.flatMap_cons, List.nodup_append]
    refine ⟨h2 x (by simp), nodup_flatMap_key key key' f hf h.2 fun y hy => h2 y (by simp [hy]), ?_⟩
    rintro a ha b hb rfl
    obtain ⟨y, hy, hb⟩ := List.mem_flatMap.mp hb
    exact h.1 (by rw [← hf x a ha, hf y a hb]; exact List.mem_map_of_mem hy)

theorem listed_keys (u : SU) (h : Maps u) : ((listedStorage u).map Prod.fst).Nodup := by
  unfold listedStorage
  rw [List.map_append, List.nodup_append]
  refine ⟨nodup_filterMap_key Prod.fst Prod.fst _ ?_ h.contracts, nodup_filterMap_key Prod.fst Prod.fst _ ?_ h.system, ?_⟩
  · intro x y hy
    split at hy
    · cases hy
    · simp only [Option.some.injEq] at hy; subst hy; rfl
  · intro x y hy
    split at hy
    · cases hy
    · simp only [Option.some.injEq] at hy; subst hy; rfl
  · rintro a ha b hb rfl
    obtain ⟨y, hy, rfl⟩ := List.mem_map.mp ha
    obtain ⟨z, hz, hza⟩ := List.mem_map.mp hb
    obtain ⟨y', hy', hf⟩ := List.mem_filterMap.mp hy
    obtain ⟨z', hz', hg⟩ := List.mem_filterMap.mp hz
    refine h.apart y'.1 (List.mem_map_of_mem hy') ?_
    split at hf
    · cases hf
    · split at hg
      · cases hg
      · simp only [Option.some.injEq] at hf hg
        subst hf hg
        simp only at hza
        rw [← hza]
        exact List.mem_map_of_mem hz'

/-- What a change is about. -/
def Change.tag : Change → Nat
  | .storage .. => 0 | .declareOld .. => 1 | .declare .. => 2 | .deploy .. => 3 | .replace .. => 4 | .migrate .. => 5 | .nonce .. => 6

def Change.where_ : Change → Nat
  | .storage a _ _ => a | .declareOld a => a | .declare a _ => a | .deploy a _ => a | .replace a _ => a | .migrate a _ => a | .nonce a _ => a

theorem nodup_tag {l m : List Change} (n : Nat) (hl : l.Nodup) (hm : m.Nodup) (h1 : ∀ c ∈ l, Change.tag c < n) (h2 : ∀ c ∈ m, Change.tag c = n) :
    (l ++ m).Nodup := by
  rw [List.nodup_append]
  refine ⟨hl, hm, ?_⟩
  rintro a ha b hb rfl
  have := h1 a ha
  have := h2 a hb
  omega

theorem changes_nodup (v : Ver) (u : SU) (h : Maps u) : (seenChanges v u).Nodup := by
  have c0 : ((listedStorage u).flatMap fun x => x.2.map fun e => Change.storage x.1 e.1 e.2).Nodup := by
    refine nodup_flatMap_key Prod.fst Change.where_ _ ?_ (listed_keys u h) ?_
    · intro x y hy
      obtain ⟨e, -, rfl⟩ := List.mem_map.mp hy
      rfl
    · rintro ⟨a, s⟩ hx
      refine nodup_key Prod.fst _ (by intro x y e; injection e) ?_
      obtain ⟨-, ⟨c, hc, rfl⟩ | hs⟩ := (listed_mem u a s).mp hx
      · exact h.storage a c hc
      · exact h.sysStorage a s hs
  have c1 : (u.cairo.map Change.declareOld).Nodup := nodup_key id _ (by intro x y e; injection e) (by simpa using h.cairo)
  have c2 : (u.sierra.map fun x => Change.declare x.1 x.2).Nodup := nodup_key Prod.fst _ (by intro x y e; injection e) h.sierra
  have c3 : ((u.contracts.filterMap fun x => (deployedClass x.2).map fun c => (x.1, c)).map fun x => Change.deploy x.1 x.2).Nodup :=
    nodup_key Prod.fst _ (by intro x y e; injection e) (nodup_filterMap_key Prod.fst Prod.fst _ (by
      intro x y e
      obtain ⟨c, -, rfl⟩ := Option.map_eq_some_iff.mp e
      rfl) h.contracts)
  have c4 : ((u.contracts.filterMap fun x => (replacedClass x.2).map fun c => (x.1, c)).map fun x => Change.replace x.1 x.2).Nodup :=
    nodup_key Prod.fst _ (by intro x y e; injection e) (nodup_filterMap_key Prod.fst Prod.fst _ (by
      intro x y e
      obtain ⟨c, -, rfl⟩ := Option.map_eq_some_iff.mp e
      rfl) h.contracts)
  have c5 : ((if v.ge .v10 then u.migrated else []).map fun x => Change.migrate x.1 x.2).Nodup := by
    split
    · exact nodup_key Prod.fst _ (by intro x y e; injection e) h.migrated
    · simp
  have c6 : ((u.contracts.filterMap fun x => x.2.nonce.map fun n => (x.1, n)).map fun x => Change.nonce x.1 x.2).Nodup :=
    nodup_key Prod.fst _ (by intro x y e; injection e) (nodup_filterMap_key Prod.fst Prod.fst _ (by
      intro x y e
      obtain ⟨c, -, rfl⟩ := Option.map_eq_some_iff.mp e
      rfl) h.contracts)
  have t0 : ∀ c ∈ (listedStorage u).flatMap (fun x => x.2.map fun e => Change.storage x.1 e.1 e.2), Change.tag c = 0 := by
    intro c hc
    obtain ⟨x, -, hx⟩ := List.mem_flatMap.mp hc
    obtain ⟨e, -, rfl⟩ := List.mem_map.mp hx
    rfl
  have tm : ∀ {α : Type} (l : List α) (f : α → Change) (n : Nat), (∀ x, Change.tag (f x) = n) → ∀ c ∈ l.map f, Change.tag c = n := by
    intro α l f n hf c hc
    obtain ⟨x, -, rfl⟩ := List.mem_map.mp hc
    exact hf x
  have lift : ∀ {l m : List Change} {n k : Nat}, (∀ c ∈ l, Change.tag c < n) → (∀ c ∈ m, Change.tag c = k) → k < n + 1 → n ≤ k →
      ∀ c ∈ l ++ m, Change.tag c < k + 1 := by
    intro l m n k h1 h2 hk hn c hc
    rcases List.mem_append.mp hc with hc | hc
    · have := h1 c hc; omega
    · have := h2 c hc; omega
  have b0 : ∀ c ∈ (listedStorage u).flatMap (fun x => x.2.map fun e => Change.storage x.1 e.1 e.2), Change.tag c < 1 := by
    intro c hc; have := t0 c hc; omega
  have s1 := tm u.cairo Change.declareOld 1 (fun _ => rfl)
  have s2 := tm u.sierra (fun x => Change.declare x.1 x.2) 2 (fun _ => rfl)
  have s3 := tm (u.contracts.filterMap fun x => (deployedClass x.2).map fun c => (x.1, c)) (fun x => Change.deploy x.1 x.2) 3 (fun _ => rfl)
  have s4 := tm (u.contracts.filterMap fun x => (replacedClass x.2).map fun c => (x.1, c)) (fun x => Change.replace x.1 x.2) 4 (fun _ => rfl)
  have s5 := tm (if v.ge .v10 then u.migrated else []) (fun x => Change.migrate x.1 x.2) 5 (fun _ => rfl)
  have s6 := tm (u.contracts.filterMap fun x => x.2.nonce.map fun n => (x.1, n)) (fun x => Change.nonce x.1 x.2) 6 (fun _ => rfl)
  have b1 := lift b0 s1 (by omega) (by omega)
  have b2 := lift b1 s2 (by omega) (by omega)
  have b3 := lift b2 s3 (by omega) (by omega)
  have b4 := lift b3 s4 (by omega) (by omega)
  have b5 := lift b4 s5 (by omega) (by omega)
  have n1 := nodup_tag 1 c0 c1 b0 s1
  have n2 := nodup_tag 2 n1 c2 b1 s2
  have n3 := nodup_tag 3 n2 c3 b2 s3
  have n4 := nodup_tag 4 n3 c4 b3 s4
  have n5 := nodup_tag 5 n4 c5 b4 s5
  exact nodup_tag 6 n5 c6 b5 s6

end Verif.Shown
