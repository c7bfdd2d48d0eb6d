import Verif.Casm.Spec

/-!
# Compiled classes: lemmas
-/

namespace Verif.Casm

theorem filter_key_nil (fs : List (String × J)) (k : String) :
    (fs.filter fun f => f.1 == k) = [] ↔ fs.lookup k = none := by
  induction fs with
  | nil => simp
  | cons f fs ih =>
    rcases f with ⟨a, j⟩
    by_cases h : a = k
    · subst h; simp
    · have h' : ¬ k = a := fun e => h e.symm
      have hb : (k == a) = false := by simpa using h'
      simp only [List.filter_cons, beq_iff_eq, h, if_false, List.lookup, hb]
      exact ih

theorem fieldOf_lookup (fs : List (String × J)) (k : String) (o : Option J)
    (h : fieldOf fs k = some o) : fs.lookup k = o := by
  induction fs with
  | nil => simp [fieldOf] at h; simp [← h]
  | cons f fs ih =>
    rcases f with ⟨a, j⟩
    by_cases e : a = k
    · subst e
      simp only [fieldOf, List.filter_cons, beq_self_eq_true, if_true] at h
      simp only [List.lookup, beq_self_eq_true]
      cases hq : fs.filter fun f => f.1 == a with
      | nil => rw [hq] at h; simpa using h
      | cons x xs => rw [hq] at h; simp at h
    · have h' : ¬ k = a := fun e' => e e'.symm
      have hb : (k == a) = false := by simpa using h'
      simp only [List.lookup, hb]
      apply ih
      simpa [fieldOf, List.filter_cons, e] using h

theorem fieldOf_once (fs : List (String × J)) (k : String) (h : Once fs) :
    fieldOf fs k = some (fs.lookup k) := by
  induction fs with
  | nil => simp [fieldOf]
  | cons f fs ih =>
    rcases f with ⟨a, j⟩
    have hn : a ∉ fs.map Prod.fst := (List.nodup_cons.mp h).1
    have ht : Once fs := (List.nodup_cons.mp h).2
    by_cases e : a = k
    · subst e
      have hf : (fs.filter fun f => f.1 == a) = [] := by
        rw [List.filter_eq_nil_iff]
        intro x hx hxa
        exact hn (List.mem_map.mpr ⟨x, hx, by simpa using hxa⟩)
      simp [fieldOf, hf, List.lookup]
    · have h' : ¬ k = a := fun e' => e e'.symm
      have hb : (k == a) = false := by simpa using h'
      have := ih ht
      simpa [fieldOf, List.filter_cons, e, List.lookup, hb] using this

theorem required_some {α : Type} {fs : List (String × J)} {k : String} {f : J → Option α} {x : α}
    (h : required fs k f = some x) : ∃ j, (J.obj fs).get k = some j ∧ f j = some x := by
  unfold required at h
  cases ho : fieldOf fs k with
  | none => rw [ho] at h; simp at h
  | some o =>
    rw [ho] at h
    cases o with
    | none => simp at h
    | some j => exact ⟨j, fieldOf_lookup _ _ _ ho, by simpa using h⟩

theorem required_of {α : Type} {fs : List (String × J)} {k : String} {f : J → Option α} {j : J} {x : α}
    (hn : Once fs) (hg : (J.obj fs).get k = some j) (h : f j = some x) : required fs k f = some x := by
  unfold required
  have hg' : fs.lookup k = some j := hg
  rw [fieldOf_once _ _ hn, hg']
  simpa using h

theorem readAll_map {α : Type} (f : J → Option α) (g : α → J) (l : List α)
    (h : ∀ x ∈ l, f (g x) = some x) : readAll f (l.map g) = some l := by
  induction l with
  | nil => rfl
  | cons x xs ih =>
    simp [readAll, h x (by simp), ih (fun y hy => h y (by simp [hy]))]

theorem readAll_some {α : Type} (f : J → Option α) (l : List J)
    (h : ∀ j ∈ l, ∃ x, f j = some x) : ∃ xs, readAll f l = some xs := by
  induction l with
  | nil => exact ⟨[], rfl⟩
  | cons j js ih =>
    obtain ⟨x, hx⟩ := h j (by simp)
    obtain ⟨xs, hxs⟩ := ih (fun y hy => h y (by simp [hy]))
    exact ⟨x :: xs, by simp [readAll, hx, hxs]⟩

/-- Writing gives back what was read, for values that are read without loss. -/
theorem readAll_inv {α : Type} (f : J → Option α) (g : α → J)
    (hfg : ∀ j x, f j = some x → g x = j) (l : List J) (xs : List α)
    (h : readAll f l = some xs) : xs.map g = l := by
  induction l generalizing xs with
  | nil => simp [readAll] at h; simp [← h]
  | cons j js ih =>
    simp only [readAll, Option.bind_eq_some_iff, Option.map_eq_some_iff] at h
    obtain ⟨x, hx, ys, hys, rfl⟩ := h
    simp [hfg j x hx, ih ys hys]

theorem readFelt_inv (j : J) (x : Nat) (h : readFelt j = some x) : J.hex x = j := by
  cases j <;> simp_all [readFelt]

theorem readBig_inv (j : J) (x : Nat) (h : readBig j = some x) : J.hex x = j := by
  cases j <;> simp_all [readBig]

theorem readSize_inv (j : J) (x : Nat) (h : readSize j = some x) : J.num x = j := by
  cases j <;> simp_all [readSize]

theorem readStr_inv (j : J) (x : String) (h : readStr j = some x) : J.str x = j := by
  cases j <;> simp_all [readStr]

theorem readVec_inv {α : Type} (f : J → Option α) (g : α → J)
    (hfg : ∀ j x, f j = some x → g x = j) (j : J) (xs : List α)
    (h : readVec f j = some xs) : J.arr (xs.map g) = j := by
  cases j <;> simp [readVec] at h
  rw [readAll_inv f g hfg _ _ h]

mutual

theorem readNested_inv : ∀ (j : J) (n : Nested), readNested j = some n → showNested n = j
  | .num k, n, h => by
    simp only [readNested] at h
    split at h
    · cases h; rfl
    · cases h
  | .arr l, n, h => by
    simp only [readNested, Option.map_eq_some_iff] at h
    obtain ⟨ns, hns, rfl⟩ := h
    simp only [showNested, readNesteds_inv l ns hns]
  | .null, n, h => by simp [readNested] at h
  | .bool _, n, h => by simp [readNested] at h
  | .hex _, n, h => by simp [readNested] at h
  | .str _, n, h => by simp [readNested] at h
  | .obj _, n, h => by simp [readNested] at h

theorem readNesteds_inv : ∀ (l : List J) (ns : List Nested), readNesteds l = some ns → showNesteds ns = l
  | [], ns, h => by simp only [readNesteds, Option.some.injEq] at h; subst h; rfl
  | j :: js, ns, h => by
    simp only [readNesteds, Option.bind_eq_some_iff, Option.map_eq_some_iff] at h
    obtain ⟨n, hn, ms, hms, rfl⟩ := h
    simp only [showNesteds, readNested_inv j n hn, readNesteds_inv js ms hms]

end

mutual

theorem showNested_read : ∀ (n : Nested), ValidNested n → readNested (showNested n) = some n
  | .leaf k, h => by cases h with | leaf _ h => simp [showNested, readNested, h]
  | .node l, h => by
    cases h with
    | node _ h => simp [showNested, readNested, showNesteds_read l h]

theorem showNesteds_read : ∀ (l : List Nested), (∀ n ∈ l, ValidNested n) →
    readNesteds (showNesteds l) = some l
  | [], _ => rfl
  | n :: ns, h => by
    simp [showNesteds, readNesteds, showNested_read n (h n (by simp)),
      showNesteds_read ns (fun m hm => h m (by simp [hm]))]

end

theorem readNesteds_some (l : List J) (h : ∀ j ∈ l, ∃ n, readNested j = some n) :
    ∃ ns, readNesteds l = some ns := by
  induction l with
  | nil => exact ⟨[], rfl⟩
  | cons j js ih =>
    obtain ⟨x, hx⟩ := h j (by simp)
    obtain ⟨xs, hxs⟩ := ih (fun y hy => h y (by simp [hy]))
    exact ⟨x :: xs, by simp [readNesteds, hx, hxs]⟩

theorem isLengths_read (j : J) (h : IsLengths j) : ∃ n, readNested j = some n := by
  induction h with
  | num n h => exact ⟨.leaf n, by simp [readNested, h]⟩
  | arr l _ ih =>
    obtain ⟨ns, hns⟩ := readNesteds_some l ih
    exact ⟨.node ns, by simp [readNested, hns]⟩

theorem showEntry_read (e : Entry) (h : ValidEntry e) : readEntry (showEntry e) = some e := by
  obtain ⟨h1, h2⟩ := h
  have hb : readAll readStr (e.builtins.map .str) = some e.builtins :=
    readAll_map _ _ _ (fun x _ => rfl)
  simp [showEntry, readEntry, required, fieldOf, readFelt, readSize, readVec, h1, h2, hb]

theorem showEntries_read (e : Entries) (h1 : ∀ x ∈ e.external, ValidEntry x)
    (h2 : ∀ x ∈ e.l1Handler, ValidEntry x) (h3 : ∀ x ∈ e.constructor, ValidEntry x) :
    readEntries (showEntries e) = some e := by
  have a1 := readAll_map readEntry showEntry e.external (fun x hx => showEntry_read x (h1 x hx))
  have a2 := readAll_map readEntry showEntry e.l1Handler (fun x hx => showEntry_read x (h2 x hx))
  have a3 := readAll_map readEntry showEntry e.constructor (fun x hx => showEntry_read x (h3 x hx))
  simp [showEntries, readEntries, required, fieldOf, readVec, a1, a2, a3]

theorem sameEntry_of_read (j : J) (e : Entry) (h : readEntry j = some e) : SameEntry j (showEntry e) := by
  cases j <;> simp only [readEntry, reduceCtorEq] at h
  rename_i fs
  simp only [Option.bind_eq_some_iff, Option.map_eq_some_iff] at h
  obtain ⟨s, hs, o, ho, b, hb, rfl⟩ := h
  obtain ⟨js, gs, rs⟩ := required_some hs
  obtain ⟨jo, go, ro⟩ := required_some ho
  obtain ⟨jb, gb, rb⟩ := required_some hb
  have es := readFelt_inv _ _ rs
  have eo := readSize_inv _ _ ro
  have eb := readVec_inv readStr J.str readStr_inv _ _ rb
  subst es eo eb
  intro k hk
  simp only [List.mem_cons, List.not_mem_nil, or_false] at hk
  rcases hk with rfl | rfl | rfl
  · exact ⟨_, gs, rfl⟩
  · exact ⟨_, go, rfl⟩
  · exact ⟨_, gb, rfl⟩

theorem sameList_of_read (l : List J) (es : List Entry) (h : readAll readEntry l = some es) :
    SameList l (es.map showEntry) := by
  induction l generalizing es with
  | nil => simp [readAll] at h; subst h; exact .nil
  | cons j js ih =>
    simp only [readAll, Option.bind_eq_some_iff, Option.map_eq_some_iff] at h
    obtain ⟨x, hx, ys, hys, rfl⟩ := h
    exact .cons (sameEntry_of_read j x hx) (ih ys hys)

theorem sameVec_of_read (j : J) (es : List Entry) (h : readVec readEntry j = some es) :
    ∃ l, j = .arr l ∧ SameList l (es.map showEntry) := by
  cases j <;> simp [readVec] at h
  exact ⟨_, rfl, sameList_of_read _ _ h⟩

theorem sameEntries_of_read (j : J) (e : Entries) (h : readEntries j = some e) :
    ∀ k ∈ ["EXTERNAL", "L1_HANDLER", "CONSTRUCTOR"], ∃ la lb,
      j.get k = some (.arr la) ∧ (showEntries e).get k = some (.arr lb) ∧ SameList la lb := by
  cases j <;> simp only [readEntries, reduceCtorEq] at h
  rename_i fs
  simp only [Option.bind_eq_some_iff, Option.map_eq_some_iff] at h
  obtain ⟨x, hx, l, hl, c, hc, rfl⟩ := h
  obtain ⟨jx, gx, rx⟩ := required_some hx
  obtain ⟨jl, gl, rl⟩ := required_some hl
  obtain ⟨jc, gc, rc⟩ := required_some hc
  obtain ⟨_, rfl, sx⟩ := sameVec_of_read _ _ rx
  obtain ⟨_, rfl, sl⟩ := sameVec_of_read _ _ rl
  obtain ⟨_, rfl, sc⟩ := sameVec_of_read _ _ rc
  intro k hk
  simp only [List.mem_cons, List.not_mem_nil, or_false] at hk
  rcases hk with rfl | rfl | rfl
  · exact ⟨_, _, gx, rfl, sx⟩
  · exact ⟨_, _, gl, rfl, sl⟩
  · exact ⟨_, _, gc, rfl, sc⟩

theorem isEntry_read (j : J) (h : IsEntry j) : ∃ e, readEntry j = some e := by
  obtain ⟨fs, s, o, bs, rfl, hn, hs, ls, ho, lo, hb, hbs⟩ := h
  obtain ⟨xs, hxs⟩ := readAll_some readStr bs (fun b hb => by
    obtain ⟨t, rfl⟩ := hbs b hb; exact ⟨t, rfl⟩)
  have r1 := required_of (f := readFelt) (x := s) hn hs (by simp [readFelt, ls])
  have r2 := required_of (f := readSize) (x := o) hn ho (by simp [readSize, lo])
  have r3 := required_of (f := readVec readStr) (x := xs) hn hb (by simp [readVec, hxs])
  exact ⟨⟨s, o, xs⟩, by simp [readEntry, r1, r2, r3]⟩

theorem isEntries_read (j : J) (h : IsEntries j) : ∃ e, readEntries j = some e := by
  obtain ⟨fs, rfl, hn, hk⟩ := h
  have get : ∀ k ∈ ["EXTERNAL", "L1_HANDLER", "CONSTRUCTOR"], ∃ es,
      required fs k (readVec readEntry) = some es := by
    intro k hkm
    obtain ⟨es, g, he⟩ := hk k hkm
    obtain ⟨xs, hxs⟩ := readAll_some readEntry es (fun e h => isEntry_read e (he e h))
    exact ⟨xs, required_of hn g (by simp [readVec, hxs])⟩
  obtain ⟨a, ha⟩ := get "EXTERNAL" (by simp)
  obtain ⟨b, hb⟩ := get "L1_HANDLER" (by simp)
  obtain ⟨c, hc⟩ := get "CONSTRUCTOR" (by simp)
  exact ⟨⟨a, b, c⟩, by simp [readEntries, ha, hb, hc]⟩

theorem optional_some {α : Type} {fs : List (String × J)} {k : String} {f : J → Option α} {x : Option α}
    (h : optional fs k f = some x) :
    ((J.obj fs).get k = none ∧ x = none) ∨ ((J.obj fs).get k = some .null ∧ x = none) ∨
    ∃ j y, (J.obj fs).get k = some j ∧ f j = some y ∧ x = some y := by
  unfold optional at h
  cases ho : fieldOf fs k with
  | none => rw [ho] at h; simp at h
  | some o =>
    have hl := fieldOf_lookup _ _ _ ho
    rw [ho] at h
    simp only [Option.bind_some] at h
    split at h
    · left; exact ⟨hl, by simpa using h.symm⟩
    · right; left; exact ⟨hl, by simpa using h.symm⟩
    · rename_i j hj
      right; right
      simp only [Option.map_eq_some_iff] at h
      obtain ⟨y, hy, rfl⟩ := h
      exact ⟨_, y, hl, hy, rfl⟩

theorem readAll_all {α : Type} (f : J → Option α) (Q : α → Prop) (hq : ∀ j x, f j = some x → Q x)
    (l : List J) (xs : List α) (h : readAll f l = some xs) : ∀ x ∈ xs, Q x := by
  induction l generalizing xs with
  | nil => simp [readAll] at h; simp [h]
  | cons j js ih =>
    simp only [readAll, Option.bind_eq_some_iff, Option.map_eq_some_iff] at h
    obtain ⟨x, hx, ys, hys, rfl⟩ := h
    intro y hy
    rcases List.mem_cons.mp hy with e | hy
    · rw [e]; exact hq j x hx
    · exact ih ys hys y hy

theorem readVec_all {α : Type} (f : J → Option α) (Q : α → Prop) (hq : ∀ j x, f j = some x → Q x)
    (j : J) (xs : List α) (h : readVec f j = some xs) : ∀ x ∈ xs, Q x := by
  cases j <;> simp only [readVec, reduceCtorEq] at h
  exact readAll_all f Q hq _ _ h

mutual

theorem readNested_valid : ∀ (j : J) (n : Nested), readNested j = some n → ValidNested n
  | .num k, n, h => by
    simp only [readNested] at h
    split at h
    · cases h; exact .leaf _ (by assumption)
    · cases h
  | .arr l, n, h => by
    simp only [readNested, Option.map_eq_some_iff] at h
    obtain ⟨ns, hns, rfl⟩ := h
    exact .node _ (readNesteds_valid l ns hns)
  | .null, n, h => by simp [readNested] at h
  | .bool _, n, h => by simp [readNested] at h
  | .hex _, n, h => by simp [readNested] at h
  | .str _, n, h => by simp [readNested] at h
  | .obj _, n, h => by simp [readNested] at h

theorem readNesteds_valid : ∀ (l : List J) (ns : List Nested), readNesteds l = some ns →
    ∀ n ∈ ns, ValidNested n
  | [], ns, h => by simp only [readNesteds, Option.some.injEq] at h; subst h; simp
  | j :: js, ns, h => by
    simp only [readNesteds, Option.bind_eq_some_iff, Option.map_eq_some_iff] at h
    obtain ⟨n, hn, ms, hms, rfl⟩ := h
    intro m hm
    rcases List.mem_cons.mp hm with e | hm
    · rw [e]; exact readNested_valid j n hn
    · exact readNesteds_valid js ms hms m hm

end

theorem readFelt_lt (j : J) (x : Nat) (h : readFelt j = some x) : x < P := by
  cases j <;> simp only [readFelt, reduceCtorEq] at h
  split at h
  · cases h; assumption
  · cases h

theorem readSize_lt (j : J) (x : Nat) (h : readSize j = some x) : x < 2 ^ 64 := by
  cases j <;> simp only [readSize, reduceCtorEq] at h
  split at h
  · cases h; assumption
  · cases h

theorem readEntry_valid (j : J) (e : Entry) (h : readEntry j = some e) : ValidEntry e := by
  cases j <;> simp only [readEntry, reduceCtorEq] at h
  simp only [Option.bind_eq_some_iff, Option.map_eq_some_iff] at h
  obtain ⟨s, hs, o, ho, b, hb, rfl⟩ := h
  obtain ⟨_, _, rs⟩ := required_some hs
  obtain ⟨_, _, ro⟩ := required_some ho
  exact ⟨readFelt_lt _ _ rs, readSize_lt _ _ ro⟩

theorem read_valid (j : J) (c : Casm) (h : read j = some c) : Valid c := by
  cases j <;> simp only [read, reduceCtorEq] at h
  simp only [Option.bind_eq_some_iff, Option.map_eq_some_iff] at h
  obtain ⟨b, hb, s, hs, v, hv, hi, hhi, e, he, p, hp, rfl⟩ := h
  obtain ⟨_, _, rb⟩ := required_some hb
  obtain ⟨je, _, re⟩ := required_some he
  cases je <;> simp only [readEntries, reduceCtorEq] at re
  simp only [Option.bind_eq_some_iff, Option.map_eq_some_iff] at re
  obtain ⟨x, hx, l, hl, k, hk, rfl⟩ := re
  obtain ⟨_, _, rx⟩ := required_some hx
  obtain ⟨_, _, rl⟩ := required_some hl
  obtain ⟨_, _, rk⟩ := required_some hk
  refine ⟨readVec_all _ _ readFelt_lt _ _ rb, ?_, readVec_all _ _ readEntry_valid _ _ rx,
    readVec_all _ _ readEntry_valid _ _ rl, readVec_all _ _ readEntry_valid _ _ rk⟩
  intro t ht
  simp only at ht
  rcases optional_some hs with ⟨_, rfl⟩ | ⟨_, rfl⟩ | ⟨_, y, _, r, rfl⟩
  · cases ht
  · cases ht
  · cases ht; exact readNested_valid _ _ r

end Verif.Casm
