import Verif.Feed.SentLemmas
set_option linter.unusedSimpArgs false
namespace Verif.Feed
open Verif.Block (F P Txn Bound V3 Msg Event felt DeclareOld DeclareV2 DeclareV3 Deploy DeployAccountV1 DeployAccountV3 InvokeV0 InvokeV1 InvokeV3 L1Handler)

theorem keys_iff {l : List (String × J)} {q : String → Prop} {names all : List String}
    (h : ∀ k, k ∈ all ↔ k ∈ names ∨ ¬ q k) : (∀ k, (k ∈ l.map (·.1) ∧ q k) → k ∈ names) ↔ ∀ k ∈ l.map (·.1), k ∈ all := by
  constructor
  · intro hh k hk
    rw [h]
    by_cases hq : q k
    · exact .inl (hh k ⟨hk, hq⟩)
    · exact .inr hq
  · rintro hh k ⟨hk, hq⟩
    rcases (h k).1 (hh k hk) with h' | h'
    · exact h'
    · exact absurd hq h'

/-- A field is there and says this. -/
def On (l : List (String × J)) (k : String) (w : J) : Prop := ∃ v, l.lookup k = some v ∧ Says v w
/-- A field is not there. -/
def Off (l : List (String × J)) (k : String) : Prop := l.lookup k = none

theorem has_on (l : List (String × J)) (k : String) (w : J) : Has (fun k => l.lookup k) k w ↔ On l k w := Iff.rfl
theorem has_value (l : List (String × J)) (k : String) (w : J) :
    Has (fun k => if k = "type" then none else l.lookup k) k w ↔ k ≠ "type" ∧ On l k w := by
  unfold Has On; by_cases h : k = "type" <;> simp [h]
theorem has_drop (l : List (String × J)) (k : String) (w : J) :
    Has (fun k => if k = "version" then none else if k = "type" then none else l.lookup k) k w ↔ k ≠ "version" ∧ k ≠ "type" ∧ On l k w := by
  unfold Has On; by_cases h : k = "type" <;> by_cases h' : k = "version" <;> simp [h, h']
theorem off_eq (l : List (String × J)) (k : String) : (l.lookup k = none) ↔ Off l k := Iff.rfl

theorem there_iff {l : List (String × J)} {t : Txn} (hst : ∀ k v w, Stated t k v w = Says v w) (p : String × J) :
    There l t p ↔ On l p.1 p.2 ∨ (Off l p.1 ∧ p.1 ∈ mayOmit t) := by
  unfold There On Off; simp only [hst]

theorem head_iff {l : List (String × J)} {c : String} {R : Prop} :
    (∃ s, l.lookup "type" = some (.str s) ∧ s = c ∧ R) ↔ On l "type" (.str c) ∧ R := by
  constructor
  · rintro ⟨s, h, rfl, r⟩; exact ⟨⟨_, h, .same _⟩, r⟩
  · rintro ⟨⟨v, h, hs⟩, r⟩; cases hs; exact ⟨c, h, rfl, r⟩

theorem val0 : hx (0 : F) = .hex 0 := rfl
theorem val1 : hx (1 : F) = .hex 1 := rfl
theorem val2 : hx (felt 2 : F) = .hex 2 := rfl
theorem val3 : hx (felt 3 : F) = .hex 3 := rfl
theorem one_ne : ((1 : F) = 0) = False := by decide
theorem two_ne' : ((felt 2 : F) = 0) = False := by decide
theorem three_ne' : ((felt 3 : F) = 0) = False := by decide

theorem ite_mem {c : Prop} [Decidable c] {k a : String} : k ∈ (if c then [a] else []) ↔ c ∧ k = a := by
  by_cases h : c <;> simp [h]

theorem iff_declareV0 {l : List (String × J)} (hn : (l.map (·.1)).Nodup) (h : F) (t : DeclareOld) :
    readTx (.obj l) = .ok (h, .declareV0 t) ↔ Sent l h (.declareV0 t) ∧ Fits (.declareV0 t) := by
  rw [readTx_iff hn, sent_iff hn _ _ (fun _ => rfl)]
  have hk := keys_iff (l := l) (q := fun k => k ≠ "type" ∧ k ≠ "version") (names := declare01Names) (all := (document h (.declareV0 t)).map (·.1))
    (by
      intro k
      simp only [document, v3Document, declare01Names, List.cons_append, List.nil_append, List.map_cons, List.map_nil, List.mem_cons, List.mem_append, List.not_mem_nil, or_false]
      grind)
  simp only [Parsed, head_iff, version_iff hn, readDeclare01_iff, keys_drop, get_drop hn, has_on, has_drop, has_value, HasV3, String.reduceEq, if_false, hk, val0, val1, val2, val3, one_ne, two_ne', three_ne', off_eq, ne_eq, not_false_eq_true, true_and,
    and_true, and_false, or_false]
  clear hk
  generalize (∀ k ∈ l.map (·.1), k ∈ (document h (.declareV0 t)).map (·.1)) = K
  simp only [document, v3Document, List.cons_append, List.nil_append, List.forall_mem_cons, there_iff (t := .declareV0 t) (fun _ _ _ => rfl), mayOmit, Fits,
    List.not_mem_nil, false_implies, implies_true, and_true, List.mem_append, List.mem_singleton, ite_mem, String.reduceEq, and_false, or_false, false_or,
    false_and]
  grind

theorem iff_declareV1 {l : List (String × J)} (hn : (l.map (·.1)).Nodup) (h : F) (t : DeclareOld) :
    readTx (.obj l) = .ok (h, .declareV1 t) ↔ Sent l h (.declareV1 t) ∧ Fits (.declareV1 t) := by
  rw [readTx_iff hn, sent_iff hn _ _ (fun _ => rfl)]
  have hk := keys_iff (l := l) (q := fun k => k ≠ "type" ∧ k ≠ "version") (names := declare01Names) (all := (document h (.declareV1 t)).map (·.1))
    (by
      intro k
      simp only [document, v3Document, declare01Names, List.cons_append, List.nil_append, List.map_cons, List.map_nil, List.mem_cons, List.mem_append, List.not_mem_nil, or_false]
      grind)
  simp only [Parsed, head_iff, version_iff hn, readDeclare01_iff, keys_drop, get_drop hn, has_on, has_drop, has_value, HasV3, String.reduceEq, if_false, hk, val0, val1, val2, val3, one_ne, two_ne', three_ne', off_eq, ne_eq, not_false_eq_true, true_and,
    and_true, and_false, or_false]
  clear hk
  generalize (∀ k ∈ l.map (·.1), k ∈ (document h (.declareV1 t)).map (·.1)) = K
  simp only [document, v3Document, List.cons_append, List.nil_append, List.forall_mem_cons, there_iff (t := .declareV1 t) (fun _ _ _ => rfl), mayOmit, Fits,
    List.not_mem_nil, false_implies, implies_true, and_true, List.mem_append, List.mem_singleton, ite_mem, String.reduceEq, and_false, or_false, false_or,
    false_and]
  grind

theorem iff_declareV2 {l : List (String × J)} (hn : (l.map (·.1)).Nodup) (h : F) (t : DeclareV2) :
    readTx (.obj l) = .ok (h, .declareV2 t) ↔ Sent l h (.declareV2 t) ∧ Fits (.declareV2 t) := by
  rw [readTx_iff hn, sent_iff hn _ _ (fun _ => rfl)]
  have hk := keys_iff (l := l) (q := fun k => k ≠ "type" ∧ k ≠ "version") (names := declare2Names) (all := (document h (.declareV2 t)).map (·.1))
    (by
      intro k
      simp only [document, v3Document, declare2Names, List.cons_append, List.nil_append, List.map_cons, List.map_nil, List.mem_cons, List.mem_append, List.not_mem_nil, or_false]
      grind)
  simp only [Parsed, head_iff, version_iff hn, readDeclare2_iff, keys_drop, get_drop hn, has_on, has_drop, has_value, HasV3, String.reduceEq, if_false, hk, val0, val1, val2, val3, one_ne, two_ne', three_ne', off_eq, ne_eq, not_false_eq_true, true_and,
    and_true, and_false, or_false]
  clear hk
  generalize (∀ k ∈ l.map (·.1), k ∈ (document h (.declareV2 t)).map (·.1)) = K
  simp only [document, v3Document, List.cons_append, List.nil_append, List.forall_mem_cons, there_iff (t := .declareV2 t) (fun _ _ _ => rfl), mayOmit, Fits,
    List.not_mem_nil, false_implies, implies_true, and_true, List.mem_append, List.mem_singleton, ite_mem, String.reduceEq, and_false, or_false, false_or,
    false_and]
  grind

theorem iff_declareV3 {l : List (String × J)} (hn : (l.map (·.1)).Nodup) (h : F) (t : DeclareV3) :
    readTx (.obj l) = .ok (h, .declareV3 t) ↔ Sent l h (.declareV3 t) ∧ Fits (.declareV3 t) := by
  rw [readTx_iff hn, sent_iff hn _ _ (fun _ => rfl)]
  have hk := keys_iff (l := l) (q := fun k => k ≠ "type" ∧ k ≠ "version") (names := declare3Names) (all := (document h (.declareV3 t)).map (·.1))
    (by
      intro k
      simp only [document, v3Document, declare3Names, List.cons_append, List.nil_append, List.map_cons, List.map_nil, List.mem_cons, List.mem_append, List.not_mem_nil, or_false]
      grind)
  simp only [Parsed, head_iff, version_iff hn, readDeclare3_iff, keys_drop, get_drop hn, has_on, has_drop, has_value, HasV3, String.reduceEq, if_false, hk, val0, val1, val2, val3, one_ne, two_ne', three_ne', off_eq, ne_eq, not_false_eq_true, true_and,
    and_true, and_false, or_false]
  clear hk
  generalize (∀ k ∈ l.map (·.1), k ∈ (document h (.declareV3 t)).map (·.1)) = K
  simp only [document, v3Document, List.cons_append, List.nil_append, List.forall_mem_cons, there_iff (t := .declareV3 t) (fun _ _ _ => rfl), mayOmit, Fits,
    List.not_mem_nil, false_implies, implies_true, and_true, List.mem_append, List.mem_singleton, ite_mem, String.reduceEq, and_false, or_false, false_or,
    false_and]
  grind

theorem iff_deployV0 {l : List (String × J)} (hn : (l.map (·.1)).Nodup) (h : F) (t : Deploy) :
    readTx (.obj l) = .ok (h, .deployV0 t) ↔ Sent l h (.deployV0 t) ∧ Fits (.deployV0 t) := by
  rw [readTx_iff hn, sent_iff hn _ _ (fun _ => rfl)]
  have hk := keys_iff (l := l) (q := fun k => k ≠ "type") (names := deployNames) (all := (document h (.deployV0 t)).map (·.1))
    (by
      intro k
      simp only [document, v3Document, deployNames, List.cons_append, List.nil_append, List.map_cons, List.map_nil, List.mem_cons, List.mem_append, List.not_mem_nil, or_false]
      grind)
  simp only [Parsed, head_iff, version_iff hn, readDeploy_iff, direct_eq hn, Option.bind_some, keys_value, get_value hn, has_on, has_drop, has_value, HasV3, String.reduceEq, if_false, hk, val0, val1, val2, val3, one_ne, two_ne', three_ne', off_eq, ne_eq, not_false_eq_true, true_and,
    and_true, and_false, or_false]
  clear hk
  generalize (∀ k ∈ l.map (·.1), k ∈ (document h (.deployV0 t)).map (·.1)) = K
  simp only [document, v3Document, List.cons_append, List.nil_append, List.forall_mem_cons, there_iff (t := .deployV0 t) (fun _ _ _ => rfl), mayOmit, Fits,
    List.not_mem_nil, false_implies, implies_true, and_true, List.mem_append, List.mem_singleton, ite_mem, String.reduceEq, and_false, or_false, false_or,
    false_and]
  grind

theorem iff_deployV1 {l : List (String × J)} (hn : (l.map (·.1)).Nodup) (h : F) (t : Deploy) :
    readTx (.obj l) = .ok (h, .deployV1 t) ↔ Sent l h (.deployV1 t) ∧ Fits (.deployV1 t) := by
  rw [readTx_iff hn, sent_iff hn _ _ (fun _ => rfl)]
  have hk := keys_iff (l := l) (q := fun k => k ≠ "type") (names := deployNames) (all := (document h (.deployV1 t)).map (·.1))
    (by
      intro k
      simp only [document, v3Document, deployNames, List.cons_append, List.nil_append, List.map_cons, List.map_nil, List.mem_cons, List.mem_append, List.not_mem_nil, or_false]
      grind)
  simp only [Parsed, head_iff, version_iff hn, readDeploy_iff, direct_eq hn, Option.bind_some, keys_value, get_value hn, has_on, has_drop, has_value, HasV3, String.reduceEq, if_false, hk, val0, val1, val2, val3, one_ne, two_ne', three_ne', off_eq, ne_eq, not_false_eq_true, true_and,
    and_true, and_false, or_false]
  clear hk
  generalize (∀ k ∈ l.map (·.1), k ∈ (document h (.deployV1 t)).map (·.1)) = K
  simp only [document, v3Document, List.cons_append, List.nil_append, List.forall_mem_cons, there_iff (t := .deployV1 t) (fun _ _ _ => rfl), mayOmit, Fits,
    List.not_mem_nil, false_implies, implies_true, and_true, List.mem_append, List.mem_singleton, ite_mem, String.reduceEq, and_false, or_false, false_or,
    false_and]
  grind

theorem iff_deployAccountV1 {l : List (String × J)} (hn : (l.map (·.1)).Nodup) (h : F) (t : DeployAccountV1) :
    readTx (.obj l) = .ok (h, .deployAccountV1 t) ↔ Sent l h (.deployAccountV1 t) ∧ Fits (.deployAccountV1 t) := by
  rw [readTx_iff hn, sent_iff hn _ _ (fun _ => rfl)]
  have hk := keys_iff (l := l) (q := fun k => k ≠ "type") (names := deployAccount01Names) (all := (document h (.deployAccountV1 t)).map (·.1))
    (by
      intro k
      simp only [document, v3Document, deployAccount01Names, List.cons_append, List.nil_append, List.map_cons, List.map_nil, List.mem_cons, List.mem_append, List.not_mem_nil, or_false]
      grind)
  simp only [Parsed, head_iff, version_iff hn, readDeployAccount01_iff, keys_value, get_value hn, has_on, has_drop, has_value, HasV3, String.reduceEq, if_false, hk, val0, val1, val2, val3, one_ne, two_ne', three_ne', off_eq, ne_eq, not_false_eq_true, true_and,
    and_true, and_false, or_false]
  clear hk
  generalize (∀ k ∈ l.map (·.1), k ∈ (document h (.deployAccountV1 t)).map (·.1)) = K
  simp only [document, v3Document, List.cons_append, List.nil_append, List.forall_mem_cons, there_iff (t := .deployAccountV1 t) (fun _ _ _ => rfl), mayOmit, Fits,
    List.not_mem_nil, false_implies, implies_true, and_true, List.mem_append, List.mem_singleton, ite_mem, String.reduceEq, and_false, or_false, false_or,
    false_and]
  grind

theorem iff_deployAccountV3 {l : List (String × J)} (hn : (l.map (·.1)).Nodup) (h : F) (t : DeployAccountV3) :
    readTx (.obj l) = .ok (h, .deployAccountV3 t) ↔ Sent l h (.deployAccountV3 t) ∧ Fits (.deployAccountV3 t) := by
  rw [readTx_iff hn, sent_iff hn _ _ (fun _ => rfl)]
  have hk := keys_iff (l := l) (q := fun k => k ≠ "type") (names := deployAccount3Names) (all := (document h (.deployAccountV3 t)).map (·.1))
    (by
      intro k
      simp only [document, v3Document, deployAccount3Names, List.cons_append, List.nil_append, List.map_cons, List.map_nil, List.mem_cons, List.mem_append, List.not_mem_nil, or_false]
      grind)
  simp only [Parsed, head_iff, version_iff hn, readDeployAccount3_iff, keys_value, get_value hn, has_on, has_drop, has_value, HasV3, String.reduceEq, if_false, hk, val0, val1, val2, val3, one_ne, two_ne', three_ne', off_eq, ne_eq, not_false_eq_true, true_and,
    and_true, and_false, or_false]
  clear hk
  generalize (∀ k ∈ l.map (·.1), k ∈ (document h (.deployAccountV3 t)).map (·.1)) = K
  simp only [document, v3Document, List.cons_append, List.nil_append, List.forall_mem_cons, there_iff (t := .deployAccountV3 t) (fun _ _ _ => rfl), mayOmit, Fits,
    List.not_mem_nil, false_implies, implies_true, and_true, List.mem_append, List.mem_singleton, ite_mem, String.reduceEq, and_false, or_false, false_or,
    false_and]
  have hv : On l "version" (.hex 3) → ∃ v : F, On l "version" (hx v) := fun h => ⟨felt 3, h⟩
  grind

theorem iff_invokeV1 {l : List (String × J)} (hn : (l.map (·.1)).Nodup) (h : F) (t : InvokeV1) :
    readTx (.obj l) = .ok (h, .invokeV1 t) ↔ Sent l h (.invokeV1 t) ∧ Fits (.invokeV1 t) := by
  rw [readTx_iff hn, sent_iff hn _ _ (fun _ => rfl)]
  have hk := keys_iff (l := l) (q := fun k => k ≠ "type" ∧ k ≠ "version") (names := invoke1Names) (all := (document h (.invokeV1 t)).map (·.1))
    (by
      intro k
      simp only [document, v3Document, invoke1Names, List.cons_append, List.nil_append, List.map_cons, List.map_nil, List.mem_cons, List.mem_append, List.not_mem_nil, or_false]
      grind)
  simp only [Parsed, head_iff, version_iff hn, readInvoke1_iff, keys_drop, get_drop hn, has_on, has_drop, has_value, HasV3, String.reduceEq, if_false, hk, val0, val1, val2, val3, one_ne, two_ne', three_ne', off_eq, ne_eq, not_false_eq_true, true_and,
    and_true, and_false, or_false]
  clear hk
  generalize (∀ k ∈ l.map (·.1), k ∈ (document h (.invokeV1 t)).map (·.1)) = K
  simp only [document, v3Document, List.cons_append, List.nil_append, List.forall_mem_cons, there_iff (t := .invokeV1 t) (fun _ _ _ => rfl), mayOmit, Fits,
    List.not_mem_nil, false_implies, implies_true, and_true, List.mem_append, List.mem_singleton, ite_mem, String.reduceEq, and_false, or_false, false_or,
    false_and]
  grind

theorem iff_invokeV3 {l : List (String × J)} (hn : (l.map (·.1)).Nodup) (h : F) (t : InvokeV3) :
    readTx (.obj l) = .ok (h, .invokeV3 t) ↔ Sent l h (.invokeV3 t) ∧ Fits (.invokeV3 t) := by
  rw [readTx_iff hn, sent_iff hn _ _ (fun _ => rfl)]
  have hk := keys_iff (l := l) (q := fun k => k ≠ "type" ∧ k ≠ "version") (names := invoke3Names) (all := (document h (.invokeV3 t)).map (·.1))
    (by
      intro k
      simp only [document, v3Document, invoke3Names, List.cons_append, List.nil_append, List.map_cons, List.map_nil, List.mem_cons, List.mem_append, List.not_mem_nil, or_false]
      grind)
  simp only [Parsed, head_iff, version_iff hn, readInvoke3_iff, keys_drop, get_drop hn, has_on, has_drop, has_value, HasV3, String.reduceEq, if_false, hk, val0, val1, val2, val3, one_ne, two_ne', three_ne', off_eq, ne_eq, not_false_eq_true, true_and,
    and_true, and_false, or_false]
  clear hk
  generalize (∀ k ∈ l.map (·.1), k ∈ (document h (.invokeV3 t)).map (·.1)) = K
  simp only [document, v3Document, List.cons_append, List.nil_append, List.forall_mem_cons, there_iff (t := .invokeV3 t) (fun _ _ _ => rfl), mayOmit, Fits,
    List.not_mem_nil, false_implies, implies_true, and_true, List.mem_append, List.mem_singleton, ite_mem, String.reduceEq, and_false, or_false, false_or,
    false_and]
  grind

theorem sent_invokeV0 {l : List (String × J)} (hn : (l.map (·.1)).Nodup) (h : F) (t : InvokeV0) :
    Sent l h (.invokeV0 t) ↔ (∀ k ∈ l.map (·.1), k ∈ "contract_address" :: (document h (.invokeV0 t)).map (·.1)) ∧
      (Off l "sender_address" ∨ Off l "contract_address") ∧ (On l "sender_address" (hx t.sender) ∨ On l "contract_address" (hx t.sender)) ∧
      ∀ p ∈ document h (.invokeV0 t), p.1 ≠ "sender_address" → There l (.invokeV0 t) p := by
  have hne : ∀ p ∈ document h (.invokeV0 t), p.1 ≠ "contract_address" := by
    simp only [document, List.forall_mem_cons, String.reduceEq, ne_eq, not_false_eq_true, true_and, List.not_mem_nil, false_implies, implies_true]
  have name : ∀ k : String, nameNow (.invokeV0 t) k = if k = "contract_address" then "sender_address" else k := fun _ => rfl
  have on : ∀ k w, On l k w ↔ ∃ q ∈ l, q.1 = k ∧ Says q.2 w := by
    intro k w
    constructor
    · rintro ⟨v, hv, hs⟩; exact ⟨_, (lookup_iff hn _ _).1 hv, rfl, hs⟩
    · rintro ⟨⟨k', v⟩, hq, rfl, hs⟩; exact ⟨v, (lookup_iff hn _ _).2 hq, hs⟩
  have off : ∀ k, Off l k ↔ ∀ q ∈ l, q.1 ≠ k := fun k => lookup_none k
  have other : ∀ p ∈ document h (.invokeV0 t), p.1 ≠ "sender_address" → (There l (.invokeV0 t) p ↔
      (∃ q ∈ l, nameNow (.invokeV0 t) q.1 = p.1 ∧ Stated (.invokeV0 t) p.1 q.2 p.2) ∨ ((∀ q ∈ l, nameNow (.invokeV0 t) q.1 ≠ p.1) ∧ p.1 ∈ mayOmit (.invokeV0 t))) := by
    intro p hp hs
    have hc := hne p hp
    have e : ∀ k : String, nameNow (.invokeV0 t) k = p.1 ↔ k = p.1 := by intro k; rw [name]; grind
    rw [there_iff (fun _ _ _ => rfl), on, off]
    simp only [e, ne_eq]
    rfl
  have sender : ∀ q : String × J, nameNow (.invokeV0 t) q.1 = "sender_address" ↔ q.1 = "sender_address" ∨ q.1 = "contract_address" := by
    intro q; rw [name]; grind
  have once : (l.map fun q => nameNow (.invokeV0 t) q.1).Nodup ↔ (Off l "sender_address" ∨ Off l "contract_address") := by
    rw [off, off]
    unfold List.Nodup
    rw [List.pairwise_map]
    constructor
    · intro hp
      by_cases ha : ∃ q ∈ l, q.1 = "sender_address"
      · obtain ⟨q, hq, ha⟩ := ha
        refine .inr fun r hr hc => ?_
        have hqr : q ≠ r := by rintro rfl; rw [ha] at hc; exact absurd hc (by decide)
        obtain ⟨i, hi, rfl⟩ := List.getElem_of_mem hq
        obtain ⟨j, hj, rfl⟩ := List.getElem_of_mem hr
        have hp' := List.pairwise_iff_getElem.1 hp
        have he : nameNow (.invokeV0 t) l[i].1 = nameNow (.invokeV0 t) l[j].1 := by rw [name, name, ha, hc]; decide
        rcases Nat.lt_trichotomy i j with hij | hij | hij
        · exact hp' i j hi hj hij he
        · subst hij; exact hqr rfl
        · exact hp' j i hj hi hij he.symm
      · exact .inl fun q hq e => ha ⟨q, hq, e⟩
    · intro ho
      refine (List.pairwise_map.1 hn).imp_of_mem fun {a b} ha hb hne => ?_
      rw [name, name]
      rcases ho with ho | ho
      · have := ho _ ha; have := ho _ hb; grind
      · have := ho _ ha; have := ho _ hb; grind
  have only : (∀ q ∈ l, nameNow (.invokeV0 t) q.1 ∈ (document h (.invokeV0 t)).map (·.1)) ↔
      ∀ k ∈ l.map (·.1), k ∈ "contract_address" :: (document h (.invokeV0 t)).map (·.1) := by
    simp only [List.forall_mem_map]
    refine forall_congr' fun q => forall_congr' fun _ => ?_
    rw [name]
    simp only [document, List.map_cons, List.map_nil, List.mem_cons, List.not_mem_nil, or_false]
    grind
  have there : (∀ p ∈ document h (.invokeV0 t), (∃ q ∈ l, nameNow (.invokeV0 t) q.1 = p.1 ∧ Stated (.invokeV0 t) p.1 q.2 p.2) ∨
      ((∀ q ∈ l, nameNow (.invokeV0 t) q.1 ≠ p.1) ∧ p.1 ∈ mayOmit (.invokeV0 t))) ↔
      (On l "sender_address" (hx t.sender) ∨ On l "contract_address" (hx t.sender)) ∧
      ∀ p ∈ document h (.invokeV0 t), p.1 ≠ "sender_address" → There l (.invokeV0 t) p := by
    constructor
    · intro hh
      refine ⟨?_, fun p hp hs => (other p hp hs).2 (hh p hp)⟩
      have := hh ("sender_address", hx t.sender) (by simp [document])
      rcases this with ⟨q, hq, hn', hs⟩ | ⟨_, hm⟩
      · rcases (sender q).1 hn' with e | e
        · exact .inl ((on _ _).2 ⟨q, hq, e, hs⟩)
        · exact .inr ((on _ _).2 ⟨q, hq, e, hs⟩)
      · simp [mayOmit] at hm
    · rintro ⟨h1, h2⟩ p hp
      by_cases hs : p.1 = "sender_address"
      · have hp' : p = ("sender_address", hx t.sender) := by
          simp only [document, List.mem_cons, List.not_mem_nil, or_false] at hp
          rcases hp with rfl | rfl | rfl | rfl | rfl | rfl | rfl | rfl <;> first | rfl | (simp at hs)
        subst hp'
        left
        rcases h1 with h1 | h1
        · obtain ⟨q, hq, e, hs'⟩ := (on _ _).1 h1
          exact ⟨q, hq, (sender q).2 (.inl e), hs'⟩
        · obtain ⟨q, hq, e, hs'⟩ := (on _ _).1 h1
          exact ⟨q, hq, (sender q).2 (.inr e), hs'⟩
      · exact (other p hp hs).1 (h2 p hp hs)
  rw [← there, ← once, ← only]
  exact ⟨fun s => ⟨s.2, s.1, s.3⟩, fun ⟨a, b, c⟩ => ⟨b, a, c⟩⟩

theorem on_off {l : List (String × J)} {k : String} {w : J} (h : On l k w) : ¬ Off l k := by
  obtain ⟨v, hv, _⟩ := h
  unfold Off
  rw [hv]
  exact nofun

theorem iff_invokeV0 {l : List (String × J)} (hn : (l.map (·.1)).Nodup) (h : F) (t : InvokeV0) :
    readTx (.obj l) = .ok (h, .invokeV0 t) ↔ Sent l h (.invokeV0 t) ∧ Fits (.invokeV0 t) := by
  rw [readTx_iff hn, sent_invokeV0 hn]
  have hk := keys_iff (l := l) (q := fun k => k ≠ "type" ∧ k ≠ "version") (names := invoke0Names)
    (all := "contract_address" :: (document h (.invokeV0 t)).map (·.1))
    (by
      intro k
      simp only [document, invoke0Names, List.map_cons, List.map_nil, List.mem_cons, List.not_mem_nil, or_false]
      grind)
  have h1 := @on_off l "sender_address" (hx t.sender)
  have h2 := @on_off l "contract_address" (hx t.sender)
  simp only [Parsed, head_iff, version_iff hn, readInvoke0_iff, keys_drop, get_drop hn, HasSender, has_on, has_drop, String.reduceEq, if_false, hk, val0,
    off_eq, ne_eq, not_false_eq_true, true_and, and_true, and_false, or_false]
  clear hk
  generalize (∀ k ∈ l.map (·.1), k ∈ "contract_address" :: (document h (.invokeV0 t)).map (·.1)) = K
  simp only [document, List.forall_mem_cons, there_iff (t := .invokeV0 t) (fun _ _ _ => rfl), mayOmit, Fits, ne_eq, not_false_eq_true, not_true,
    List.not_mem_nil, false_implies, implies_true, and_true, List.mem_append, List.mem_singleton, String.reduceEq, and_false, or_false, false_or,
    false_and, true_implies, true_and]
  grind

theorem iff_l1Handler {l : List (String × J)} (hn : (l.map (·.1)).Nodup) (h : F) (t : L1Handler) :
    readTx (.obj l) = .ok (h, .l1Handler t) ↔ Sent l h (.l1Handler t) ∧ Fits (.l1Handler t) := by
  rw [readTx_iff hn, sent_iff hn _ _ (fun _ => rfl)]
  have hk := keys_iff (l := l) (q := fun k => k ≠ "type") (names := l1HandlerNames) (all := (document h (.l1Handler t)).map (·.1))
    (by
      intro k
      simp only [document, l1HandlerNames, List.map_cons, List.map_nil, List.mem_cons, List.not_mem_nil, or_false]
      grind)
  have hv : There l (.l1Handler t) ("version", .hex 0) ↔ ∃ x : F, On l "version" (hx x) := by
    unfold There On
    simp only [mayOmit, Stated, ite_mem, String.reduceEq, and_false, or_false, true_and]
    constructor
    · rintro ⟨v, hv, hs | ⟨x, rfl⟩⟩
      · exact ⟨0, v, hv, hs⟩
      · exact ⟨x, _, hv, .same _⟩
    · rintro ⟨x, v, hv, hs⟩
      cases hs
      exact ⟨_, hv, .inr ⟨x, rfl⟩⟩
  have ho : ∀ p : String × J, p.1 ≠ "version" → (There l (.l1Handler t) p ↔ On l p.1 p.2 ∨ (Off l p.1 ∧ t.nonce = 0 ∧ p.1 = "nonce")) := by
    intro p hp
    unfold There On Off
    simp only [mayOmit, Stated, ite_mem, hp, false_and, or_false]
  have e1 := ho ("type", .str "L1_HANDLER") (by simp only [ne_eq, String.reduceEq, not_false_eq_true])
  have e2 := ho ("transaction_hash", hx h) (by simp only [ne_eq, String.reduceEq, not_false_eq_true])
  have e3 := ho ("contract_address", hx t.address) (by simp only [ne_eq, String.reduceEq, not_false_eq_true])
  have e4 := ho ("entry_point_selector", hx t.selector) (by simp only [ne_eq, String.reduceEq, not_false_eq_true])
  have e5 := ho ("nonce", hx t.nonce) (by simp only [ne_eq, String.reduceEq, not_false_eq_true])
  have e6 := ho ("calldata", hxs t.calldata) (by simp only [ne_eq, String.reduceEq, not_false_eq_true])
  simp only [Parsed, head_iff, readL1Handler_iff, direct_eq hn, Option.bind_some, keys_value, get_value hn, has_on, has_value, String.reduceEq, if_false, hk,
    off_eq, ne_eq, not_false_eq_true, true_and, and_true, and_false, or_false, exists_and_left, exists_and_right]
  clear hk
  generalize (∀ k ∈ l.map (·.1), k ∈ (document h (.l1Handler t)).map (·.1)) = K
  simp only [document, List.forall_mem_cons, hv, e1, e2, e3, e4, e5, e6, Fits, List.not_mem_nil, false_implies, implies_true, and_true, String.reduceEq,
    and_false, or_false]
  grind

/-- What is read of an object, whatever the transaction. -/
theorem readTx_sent {l : List (String × J)} (hn : (l.map (·.1)).Nodup) (h : F) (t : Txn) :
    readTx (.obj l) = .ok (h, t) ↔ Sent l h t ∧ Fits t := by
  cases t
  · exact iff_declareV0 hn h _
  · exact iff_declareV1 hn h _
  · exact iff_declareV2 hn h _
  · exact iff_declareV3 hn h _
  · exact iff_deployV0 hn h _
  · exact iff_deployV1 hn h _
  · exact iff_deployAccountV1 hn h _
  · exact iff_deployAccountV3 hn h _
  · exact iff_invokeV0 hn h _
  · exact iff_invokeV1 hn h _
  · exact iff_invokeV3 hn h _
  · exact iff_l1Handler hn h _

end Verif.Feed
