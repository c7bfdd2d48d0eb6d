import Verif.Cons.WalSpec
/-! Lemmas about the log. -/
namespace Verif.Cons

open Verif.Events.TokenText

variable {E : Type} {V A S : Type}

/-! ### Lines -/

theorem linesFrom_append {a : Bytes} (ha : (10 : UInt8) ∉ a) : ∀ cur rest, linesFrom cur (a ++ rest) = linesFrom (cur ++ a) rest := by
  induction a with
  | nil => intro cur rest; simp
  | cons b a ih =>
    intro cur rest
    have hb : b ≠ 10 := fun h => ha (h ▸ List.mem_cons_self)
    rw [List.cons_append, linesFrom, if_neg hb, ih (fun h => ha (List.mem_cons_of_mem _ h)), List.append_assoc]
    rfl

theorem linesFrom_nil_newline {a : Bytes} (ha : (10 : UInt8) ∉ a) (rest : Bytes) :
    linesFrom [] (a ++ [10] ++ rest) = stripCr a :: linesFrom [] rest := by
  rw [List.append_assoc, linesFrom_append ha, List.nil_append, List.singleton_append, linesFrom, if_pos rfl]

theorem linesFrom_nil_tail {a : Bytes} (ha : (10 : UInt8) ∉ a) : linesFrom [] a = if a = [] then [] else [a] := by
  have := linesFrom_append ha [] []
  rw [List.append_nil, List.nil_append] at this
  rw [this, linesFrom]

theorem lines_file {c : Codec E} (hc : c.Lawful) (es : List E) (tail : Bytes) :
    linesFrom [] (fileOf c es ++ tail) = es.map c.ser ++ linesFrom [] tail := by
  induction es with
  | nil => rfl
  | cons e es ih =>
    rw [fileOf, List.flatMap_cons, List.append_assoc, appendBytes, linesFrom_nil_newline (hc.newline e), ← fileOf, ih, stripCr,
      if_neg (hc.cr e)]
    rfl

/-! ### Entries -/

theorem parseLines_append (c : Codec E) (a b : List Bytes) :
    parseLines c (a ++ b) = (parseLines c a).bind fun x => (parseLines c b).map (x ++ ·) := by
  induction a with
  | nil =>
    show parseLines c b = (parseLines c b).map _
    cases parseLines c b <;> rfl
  | cons l a ih =>
    rw [List.cons_append, parseLines, parseLines, ih]
    split
    · rfl
    · cases c.de l with
      | none => rfl
      | some e =>
        cases parseLines c a with
        | none => rfl
        | some x => cases parseLines c b <;> rfl

theorem parseLines_ser {c : Codec E} (hc : c.Lawful) (es : List E) : parseLines c (es.map c.ser) = some es := by
  induction es with
  | nil => rfl
  | cons e es ih =>
    rw [List.map_cons, parseLines, hc.not_blank e _ (hc.nonempty e) (List.prefix_refl _), if_neg (by simp), hc.back, ih]
    rfl

theorem readEntries_file {c : Codec E} (hc : c.Lawful) (es : List E) (tail : Bytes) :
    readEntries c (fileOf c es ++ tail) = (readEntries c tail).map (es ++ ·) := by
  rw [readEntries, lines_file hc, parseLines_append, parseLines_ser hc]
  rfl

theorem readEntries_line {c : Codec E} {l : Bytes} (h : (10 : UInt8) ∉ l) (hl : l ≠ []) (hb : c.blank l = false) :
    readEntries c l = (c.de l).map fun e => [e] := by
  rw [readEntries, linesFrom_nil_tail h, if_neg hl, parseLines, hb, if_neg (by simp), parseLines]
  cases c.de l <;> rfl

theorem fileOf_append (c : Codec E) (a b : List E) : fileOf c (a ++ b) = fileOf c a ++ fileOf c b := List.flatMap_append

theorem readEntries_complete {c : Codec E} (hc : c.Lawful) (es : List E) : readEntries c (fileOf c es) = some es := by
  have := readEntries_file hc es []
  rw [List.append_nil] at this
  rw [this]
  show some (es ++ []) = _
  rw [List.append_nil]

/-! ### Names -/

theorem splitDash_append {a : List Char} (ha : '-' ∉ a) (b : List Char) : splitDash (a ++ '-' :: b) = a :: splitDash b := by
  induction a with
  | nil => simp [splitDash]
  | cons x a ih =>
    have hx : x ≠ '-' := fun h => ha (h ▸ List.mem_cons_self)
    rw [List.cons_append, splitDash, if_neg hx, ih (fun h => ha (List.mem_cons_of_mem _ h))]

theorem splitDash_none {a : List Char} (ha : '-' ∉ a) : splitDash a = [a] := by
  induction a with
  | nil => rfl
  | cons x a ih =>
    have hx : x ≠ '-' := fun h => ha (h ▸ List.mem_cons_self)
    rw [splitDash, if_neg hx, ih (fun h => ha (List.mem_cons_of_mem _ h))]

theorem showNat_dash (n : Nat) : '-' ∉ showNat n := fun h => absurd (showNat_digits n _ h).1 (by decide)

theorem stripPrefix_append (p s : List Char) : stripPrefix p (p ++ s) = some s := by
  rw [stripPrefix, if_pos (by simp)]
  simp

theorem stripSuffix_append (p s : List Char) : stripSuffix p (s ++ p) = some s := by
  rw [stripSuffix, if_pos (by simp)]
  simp

theorem filename_eq (a : List Char) (h : Nat) :
    filename a h = ['w', 'a', 'l', '-'] ++ ((a ++ '-' :: showNat h) ++ ['.', 'j', 's', 'o', 'n']) := by
  simp [filename]

theorem extractHeight_filename {a : List Char} (ha : '-' ∉ a) {h : Nat} (hh : h < 2 ^ 64) : extractHeight (filename a h) = h := by
  rw [extractHeight, filename_eq, stripPrefix_append, Option.bind_some, stripSuffix_append, Option.bind_some, splitDash_append ha,
    splitDash_none (showNat_dash h)]
  show ((readNat (2 ^ 64) (showNat h))).getD 0 = h
  rw [readNat_show _ _ hh]
  rfl

theorem isWalName_filename (a : List Char) (h : Nat) : isWalName (filename a h) = true := by
  rw [filename_eq, isWalName, Bool.and_eq_true]
  refine ⟨?_, ?_⟩
  · rw [List.isSuffixOf_iff_suffix, ← List.append_assoc]
    exact List.suffix_append _ _
  · rw [List.isPrefixOf_iff_prefix]
    exact List.prefix_append _ _

/-! ### Sorting -/

theorem mem_insertByHeight {α : Type} {x y : Nat × α} {l : List (Nat × α)} : y ∈ insertByHeight x l ↔ y = x ∨ y ∈ l := by
  induction l with
  | nil => simp [insertByHeight]
  | cons z l ih =>
    rw [insertByHeight]
    split
    · simp
    · simp only [List.mem_cons, ih]
      grind

theorem sorted_insertByHeight {α : Type} {x : Nat × α} {l : List (Nat × α)} (h : l.Pairwise fun a b => a.1 ≤ b.1) :
    (insertByHeight x l).Pairwise fun a b => a.1 ≤ b.1 := by
  induction l with
  | nil => simp [insertByHeight]
  | cons z l ih =>
    rw [List.pairwise_cons] at h
    rw [insertByHeight]
    split
    · refine List.pairwise_cons.2 ⟨fun y hy => ?_, List.pairwise_cons.2 h⟩
      rcases List.mem_cons.1 hy with rfl | hy
      · omega
      · have := h.1 y hy; omega
    · refine List.pairwise_cons.2 ⟨fun y hy => ?_, ih h.2⟩
      rcases mem_insertByHeight.1 hy with rfl | hy
      · omega
      · exact h.1 y hy

theorem foldl_insert {α : Type} (l acc : List (Nat × α)) (h : acc.Pairwise fun a b => a.1 ≤ b.1) :
    (l.foldl (fun acc x => insertByHeight x acc) acc).Pairwise (fun a b => a.1 ≤ b.1) ∧
      ∀ y, y ∈ l.foldl (fun acc x => insertByHeight x acc) acc ↔ y ∈ l ∨ y ∈ acc := by
  induction l generalizing acc with
  | nil => simp [h]
  | cons x l ih =>
    obtain ⟨h1, h2⟩ := ih (insertByHeight x acc) (sorted_insertByHeight h)
    refine ⟨h1, fun y => ?_⟩
    rw [List.foldl_cons, h2, mem_insertByHeight, List.mem_cons]
    grind

theorem mem_collectFiles {dir : List (Name × Bytes)} {x : Nat × Bytes} :
    x ∈ collectFiles dir ↔ ∃ f ∈ dir, isWalName f.1 = true ∧ extractHeight f.1 = x.1 ∧ f.2 = x.2 := by
  rw [collectFiles, sortByHeight, (foldl_insert _ [] List.Pairwise.nil).2]
  simp only [List.mem_map, List.mem_filter, List.not_mem_nil, or_false]
  constructor
  · rintro ⟨f, ⟨hf, hw⟩, rfl⟩
    exact ⟨f, hf, hw, rfl, rfl⟩
  · rintro ⟨f, hf, hw, h1, h2⟩
    exact ⟨f, ⟨hf, hw⟩, by rw [h1, h2]⟩

theorem sorted_collectFiles (dir : List (Name × Bytes)) : (collectFiles dir).Pairwise fun a b => a.1 ≤ b.1 :=
  (foldl_insert _ [] List.Pairwise.nil).1

/-! ### The loop -/

theorem recoverFiles_unreadable (c : Codec (Entry V A S)) (committed : Option Nat) {fs : List (Nat × Bytes)}
    (h : ∃ f ∈ fs, readEntries c f.2 = none) : ∀ r, recoverFiles c committed r fs = none := by
  induction fs with
  | nil => obtain ⟨f, hf, _⟩ := h; cases hf
  | cons g fs ih =>
    intro r
    rw [recoverFiles]
    obtain ⟨f, hf, hn⟩ := h
    rcases List.mem_cons.1 hf with rfl | hf
    · rw [hn]; rfl
    · cases readEntries c g.2 with
      | none => rfl
      | some es => exact ih ⟨f, hf, hn⟩ _

theorem recoverFiles_readable (c : Codec (Entry V A S)) (committed : Option Nat) {fs : List (Nat × Bytes)} :
    ∀ {xs : List (Nat × List (Entry V A S))}, (fs.map fun f => (f.1, readEntries c f.2)) = (xs.map fun x => (x.1, some x.2)) → ∀ r,
    recoverFiles c committed r fs = some
      { incomplete := r.incomplete ++ xs.filter fun x => !isFinalized committed x.1 x.2
        finalized := r.finalized ++ xs.filter fun x => isFinalized committed x.1 x.2
        highestDecision := (xs.flatMap (·.2)).foldl maxDecision r.highestDecision } := by
  induction fs with
  | nil =>
    intro xs h r
    cases xs with
    | nil => simp [recoverFiles]
    | cons x xs => simp at h
  | cons f fs ih =>
    intro xs h r
    cases xs with
    | nil => simp at h
    | cons x xs =>
      simp only [List.map_cons, List.cons.injEq, Prod.mk.injEq] at h
      rw [recoverFiles, h.1.2, Option.bind_some, ih h.2, h.1.1, List.flatMap_cons, List.foldl_append]
      unfold classify
      cases hf : isFinalized committed x.1 x.2 <;> simp [hf]

theorem exists_entries {c : Codec (Entry V A S)} {fs : List (Nat × Bytes)} (h : ∀ f ∈ fs, ∃ es, readEntries c f.2 = some es) :
    ∃ xs : List (Nat × List (Entry V A S)), (fs.map fun f => (f.1, readEntries c f.2)) = (xs.map fun x => (x.1, some x.2)) := by
  induction fs with
  | nil => exact ⟨[], rfl⟩
  | cons f fs ih =>
    obtain ⟨es, he⟩ := h f List.mem_cons_self
    obtain ⟨xs, hx⟩ := ih fun g hg => h g (List.mem_cons_of_mem _ hg)
    exact ⟨(f.1, es) :: xs, by rw [List.map_cons, List.map_cons, hx, he]⟩

/-! ### The highest decision -/

theorem foldl_maxDecision (es : List (Entry V A S)) (acc : Option Nat) :
    (∀ m, acc = some m → ∃ k, es.foldl maxDecision acc = some k ∧ m ≤ k) ∧
    (∀ h v, .decision h v ∈ es → ∃ k, es.foldl maxDecision acc = some k ∧ h ≤ k) ∧
    (∀ k, es.foldl maxDecision acc = some k → acc = some k ∨ ∃ v, .decision k v ∈ es) := by
  induction es generalizing acc with
  | nil =>
    refine ⟨fun m hm => ⟨m, hm, Nat.le_refl _⟩, ?_, fun k hk => .inl hk⟩
    intro h v hm
    cases hm
  | cons e es ih =>
    obtain ⟨i1, i2, i3⟩ := ih (maxDecision acc e)
    have hstep : ∀ m, acc = some m → ∃ k, maxDecision acc e = some k ∧ m ≤ k := by
      rintro m rfl
      cases e <;> simp [maxDecision] <;> omega
    refine ⟨?_, ?_, ?_⟩
    · intro m hm
      obtain ⟨k, hk, hle⟩ := hstep m hm
      obtain ⟨k', hk', hle'⟩ := i1 k hk
      exact ⟨k', hk', by omega⟩
    · intro h v hm
      rcases List.mem_cons.1 hm with he | hm
      · subst he
        have : ∃ k, maxDecision (A := A) (S := S) acc (.decision h v) = some k ∧ h ≤ k := by
          cases acc with
          | none => exact ⟨h, rfl, Nat.le_refl _⟩
          | some m => exact ⟨max m h, rfl, by omega⟩
        obtain ⟨k, hk, hle⟩ := this
        obtain ⟨k', hk', hle'⟩ := i1 k hk
        exact ⟨k', hk', by omega⟩
      · exact i2 h v hm
    · intro k hk
      rcases i3 k hk with hm | ⟨v, hv⟩
      · cases e with
        | decision h v =>
          cases acc with
          | none =>
            simp only [maxDecision, Option.some.injEq] at hm
            exact .inr ⟨v, hm ▸ List.mem_cons_self⟩
          | some m =>
            simp only [maxDecision, Option.some.injEq] at hm
            by_cases hmh : m ≤ h
            · exact .inr ⟨v, by rw [show k = h by omega]; exact List.mem_cons_self⟩
            · exact .inl (by rw [show k = m by omega])
        | _ => exact .inl hm
      · exact .inr ⟨v, List.mem_cons_of_mem _ hv⟩

end Verif.Cons
