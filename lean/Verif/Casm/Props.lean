import Verif.Casm.Lemmas

/-!
# Compiled classes: properties (C112)
-/

namespace Verif.Casm

def exEntry (s : Nat) : J := .obj [("selector", .hex s), ("offset", .num 3),
  ("builtins", .arr [.str "range_check"])]

def exClass (seg : List (String × J)) : J := .obj ([("bytecode", .arr [.hex 5, .hex 6, .hex 7])] ++ seg ++
  [("compiler_version", .str "2.1.0"), ("hints", .arr [.arr [.num 2, .arr []]]),
    ("entry_points_by_type", .obj [("CONSTRUCTOR", .arr []), ("EXTERNAL", .arr [exEntry 8, exEntry 9]),
      ("L1_HANDLER", .arr [exEntry 10])]),
    ("prime", .hex P), ("pythonic_hints", .null)])

def exSeg : J := .arr [.num 1, .arr [.num 1, .arr [.num 1]]]

theorem exEntry_is (s : Nat) (h : s < P) : IsEntry (exEntry s) :=
  ⟨_, s, 3, [.str "range_check"], rfl, by simp [Once], rfl, h, rfl, by decide, rfl,
    by intro b hb; simp at hb; exact ⟨_, hb⟩⟩

theorem exSeg_is : IsLengths exSeg := by
  refine .arr _ fun j hj => ?_
  simp only [List.mem_cons, List.not_mem_nil, or_false] at hj
  rcases hj with rfl | rfl
  · exact .num 1 (by decide)
  · refine .arr _ fun j hj => ?_
    simp only [List.mem_cons, List.not_mem_nil, or_false] at hj
    rcases hj with rfl | rfl
    · exact .num 1 (by decide)
    · refine .arr _ fun j hj => ?_
      simp only [List.mem_cons, List.not_mem_nil, or_false] at hj
      subst hj
      exact .num 1 (by decide)

theorem exClass_is : IsClass (exClass [("bytecode_segment_lengths", exSeg)]) := by
  refine ⟨_, [.hex 5, .hex 6, .hex 7], "2.1.0", .arr [.arr [.num 2, .arr []]], _, P, rfl,
    by unfold Once; decide, rfl, ?_, ?_, rfl, rfl, rfl, ?_, rfl⟩
  · intro b hb
    simp only [List.mem_cons, List.not_mem_nil, or_false] at hb
    rcases hb with rfl | rfl | rfl
    · exact ⟨5, rfl, by decide⟩
    · exact ⟨6, rfl, by decide⟩
    · exact ⟨7, rfl, by decide⟩
  · intro s hs
    have e : s = exSeg := by
      have : some exSeg = some s := hs
      cases this; rfl
    rw [e]; exact exSeg_is
  · refine ⟨_, rfl, by unfold Once; decide, ?_⟩
    intro k hk
    simp only [List.mem_cons, List.not_mem_nil, or_false] at hk
    rcases hk with rfl | rfl | rfl
    · refine ⟨[exEntry 8, exEntry 9], rfl, fun e he => ?_⟩
      simp only [List.mem_cons, List.not_mem_nil, or_false] at he
      rcases he with rfl | rfl
      · exact exEntry_is 8 (by decide)
      · exact exEntry_is 9 (by decide)
    · refine ⟨[exEntry 10], rfl, fun e he => ?_⟩
      simp only [List.mem_cons, List.not_mem_nil, or_false] at he
      subst he
      exact exEntry_is 10 (by decide)
    · exact ⟨[], rfl, fun e he => by simp at he⟩

/-- **C112**: what is answered agrees with what is stored in all documented fields. -/
theorem C112_shown (j a : J) (h : getCompiledCasm (some j) = .casm a) : Same j a := by
  simp only [getCompiledCasm] at h
  split at h
  · cases h
  · cases h
    rename_i c hc
    cases j <;> simp only [read, reduceCtorEq] at hc
    rename_i fs
    simp only [Option.bind_eq_some_iff, Option.map_eq_some_iff] at hc
    obtain ⟨b, hb, s, hs, v, hv, hi, hhi, e, he, p, hp, rfl⟩ := hc
    obtain ⟨jb, gb, rb⟩ := required_some hb
    obtain ⟨jv, gv, rv⟩ := required_some hv
    obtain ⟨jh, gh, rh⟩ := required_some hhi
    obtain ⟨je, ge, re⟩ := required_some he
    obtain ⟨jp, gp, rp⟩ := required_some hp
    have eb := readVec_inv readFelt J.hex readFelt_inv _ _ rb
    have ev := readStr_inv _ _ rv
    have ep := readBig_inv _ _ rp
    cases rh
    subst eb ev ep
    refine ⟨?_, ?_, je, showEntries e, ge, ?_, sameEntries_of_read _ _ re⟩
    · intro k hk
      simp only [List.mem_cons, List.not_mem_nil, or_false] at hk
      rcases hk with rfl | rfl | rfl | rfl
      · exact ⟨_, gb, rfl⟩
      · refine ⟨_, gv, ?_⟩; cases s <;> rfl
      · refine ⟨_, gh, ?_⟩; cases s <;> rfl
      · refine ⟨_, gp, ?_⟩; cases s <;> rfl
    · rcases optional_some hs with ⟨g, rfl⟩ | ⟨g, rfl⟩ | ⟨j, y, g, r, rfl⟩
      · left; rw [g]; rfl
      · right; exact ⟨g, rfl⟩
      · left
        rw [g, ← readNested_inv _ _ r]; rfl
    · cases s <;> rfl

/-- **C112**: every class in the form that is documented, with lengths of segments nested to any
depth, is answered. -/
theorem C112_served (j : J) (h : IsClass j) : ∃ a, getCompiledCasm (some j) = .casm a := by
  obtain ⟨fs, bs, v, hi, e, p, rfl, hn, gb, hb, hs, gv, gh, ge, he, gp⟩ := h
  obtain ⟨xs, hxs⟩ := readAll_some readFelt bs (fun b hm => by
    obtain ⟨n, rfl, hn⟩ := hb b hm; exact ⟨n, by simp [readFelt, hn]⟩)
  obtain ⟨en, hen⟩ := isEntries_read e he
  have r1 := required_of (f := readVec readFelt) (x := xs) hn gb (by simp [readVec, hxs])
  have r2 := required_of (f := readStr) (x := v) hn gv rfl
  have r3 := required_of (f := some) (x := hi) hn gh rfl
  have r4 := required_of (f := readEntries) (x := en) hn ge hen
  have r5 := required_of (f := readBig) (x := p) hn gp rfl
  have r6 : ∃ s, optional fs "bytecode_segment_lengths" readNested = some s := by
    unfold optional
    rw [fieldOf_once _ _ hn]
    cases hl : fs.lookup "bytecode_segment_lengths" with
    | none => exact ⟨none, rfl⟩
    | some s =>
      have hs' := hs s hl
      obtain ⟨n, hn'⟩ := isLengths_read s hs'
      refine ⟨some n, ?_⟩
      cases hs' <;> simp [hn']
  obtain ⟨s, r6⟩ := r6
  refine ⟨«show» ⟨xs, s, v, hi, en, p⟩, ?_⟩
  simp [getCompiledCasm, read, r1, r2, r3, r4, r5, r6]

example : ∃ a, getCompiledCasm (some (exClass [("bytecode_segment_lengths", exSeg)])) = .casm a ∧
    Same (exClass [("bytecode_segment_lengths", exSeg)]) a := by
  obtain ⟨a, h⟩ := C112_served _ exClass_is
  exact ⟨a, h, C112_shown _ _ h⟩

/-- **C112**: a client that reads the answer as a node does has the class that was written. -/
theorem C112_roundtrip (c : Casm) (h : Valid c) : read («show» c) = some c := by
  obtain ⟨hb, hs, h1, h2, h3⟩ := h
  obtain ⟨b, s, v, hi, e, p⟩ := c
  have rb : readAll readFelt (b.map .hex) = some b :=
    readAll_map _ _ _ (fun x hx => by simp [readFelt, hb x hx])
  have re := showEntries_read e h1 h2 h3
  cases s with
  | none =>
    simp [«show», read, required, optional, fieldOf, readVec, rb, readStr, re, readBig]
  | some s =>
    have rs := showNested_read s (hs s rfl)
    have hnn : showNested s ≠ .null := by cases s <;> simp [showNested]
    simp [«show», read, required, optional, fieldOf, readVec, rb, readStr, re, readBig, rs]

example : Valid ⟨[5, 6, 7], some (.node [.leaf 1, .node [.leaf 2]]), "2.1.0", .arr [],
    ⟨[⟨8, 3, ["range_check"]⟩], [], [⟨9, 4, []⟩]⟩, P⟩ := by
  refine ⟨by decide, ?_, ?_, ?_, ?_⟩
  · intro s hs
    cases hs
    refine .node _ fun n hn => ?_
    simp only [List.mem_cons, List.not_mem_nil, or_false] at hn
    rcases hn with rfl | rfl
    · exact .leaf 1 (by decide)
    · refine .node _ fun n hn => ?_
      simp only [List.mem_cons, List.not_mem_nil, or_false] at hn
      subst hn; exact .leaf 2 (by decide)
  all_goals (unfold ValidEntry; decide)

/-- **C112**: a node that stores an answer gives the same answer. -/
theorem C112_stable (j a : J) (h : getCompiledCasm (some j) = .casm a) :
    getCompiledCasm (some a) = .casm a := by
  simp only [getCompiledCasm] at h
  split at h
  · cases h
  · cases h
    rename_i c hc
    simp [getCompiledCasm, C112_roundtrip c (read_valid j c hc)]

example : ∃ a, getCompiledCasm (some (exClass [("bytecode_segment_lengths", exSeg)])) = .casm a ∧
    getCompiledCasm (some a) = .casm a := by
  obtain ⟨a, h⟩ := C112_served _ exClass_is
  exact ⟨a, h, C112_stable _ _ h⟩

/-- **C112**: "class hash not found" is answered exactly if there is no compiled class. -/
theorem C112_absent (o : Option J) : getCompiledCasm o = .classHashNotFound ↔ o = none := by
  cases o with
  | none => simp [getCompiledCasm]
  | some j =>
    simp only [getCompiledCasm]
    cases read j <;> simp

/-- **C112**: the answer has no field that is not documented, and none twice. -/
theorem C112_fields (o : Option J) (a : J) (h : getCompiledCasm o = .casm a) :
    ∃ fs, a = .obj fs ∧ Once fs ∧ ∀ f ∈ fs, f.1 ∈ ["bytecode", "bytecode_segment_lengths",
      "compiler_version", "hints", "entry_points_by_type", "prime"] := by
  unfold getCompiledCasm at h
  split at h
  · cases h
  · split at h
    · cases h
    · rename_i c _
      cases h
      refine ⟨_, rfl, ?_, ?_⟩
      · cases c.segments <;> (simp [Once])
      · cases c.segments <;> simp

/-- A documented list of lengths: integers only (`bytecode_segment_lengths` of the schema). -/
def Flat (j : J) : Prop := ∃ l, j = .arr l ∧ ∀ x ∈ l, ∃ n, x = .num n

/-- **C112, violated**: where lengths of segments are nested in what is stored the answer has them
nested, although the schema has a list of integers. -/
theorem C112_flat_violated (j a s : J) (h : getCompiledCasm (some j) = .casm a)
    (hs : j.get "bytecode_segment_lengths" = some s) (hn : s ≠ .null) (hf : ¬ Flat s) :
    ∃ t, a.get "bytecode_segment_lengths" = some t ∧ ¬ Flat t := by
  rcases (C112_shown j a h).2.1 with e | ⟨e, _⟩
  · exact ⟨s, by rw [← e, hs], hf⟩
  · rw [hs] at e; cases e; exact absurd rfl hn

example : ¬ Flat exSeg := by
  rintro ⟨l, hl, h⟩
  cases hl
  obtain ⟨n, hn⟩ := h (.arr [.num 1, .arr [.num 1]]) (by simp)
  cases hn

end Verif.Casm
