import Verif.Cons.WalLemmas
/-! # C44: recovery of the consensus log -/
namespace Verif.Cons

variable {E : Type} {V A S : Type}

/-! ## One file -/

/-- Every crash point of an append. Before the first byte the log reads as before; once the text is written, with or without the
newline, the new entry is read too; in between the log cannot be read at all. -/
theorem C44_crash {c : Codec E} (hc : c.Lawful) (es : List E) (e : E) {p : Bytes} (hp : p <+: c.ser e ++ [10]) :
    readEntries c (fileOf c es ++ p) = if p = [] then some es else if c.ser e <+: p then some (es ++ [e]) else none := by
  by_cases h0 : p = []
  · subst h0
    rw [if_pos rfl, List.append_nil]
    exact readEntries_complete hc es
  rw [if_neg h0, readEntries_file hc]
  by_cases h1 : p <+: c.ser e
  · have hn : (10 : UInt8) ∉ p := fun h => hc.newline e (h1.subset h)
    rw [readEntries_line hn h0 (hc.not_blank e p h0 h1)]
    by_cases h2 : p = c.ser e
    · rw [h2, hc.back, if_pos (List.prefix_refl _)]
      rfl
    · rw [hc.torn e p h1 h2, if_neg (fun h => h2 (h1.eq_of_length_le h.length_le))]
      rfl
  · have h2 : p = c.ser e ++ [10] := by
      refine hp.eq_of_length_le ?_
      rw [List.length_append, List.length_singleton]
      refine Nat.lt_of_not_le fun hle => h1 ?_
      exact List.prefix_of_prefix_length_le hp (List.prefix_append _ _) hle
    rw [if_pos (h2 ▸ List.prefix_append _ _), h2]
    have := readEntries_complete hc [e]
    rw [fileOf, List.flatMap_singleton, appendBytes] at this
    rw [this]
    rfl

/-- What was written completely is read back, in order. -/
theorem C44_round_trip {c : Codec E} (hc : c.Lawful) (es : List E) : readEntries c (fileOf c es) = some es :=
  readEntries_complete hc es

/-- A crash between the text and its newline goes unnoticed at the next start, but the next entry then makes the log unreadable. -/
theorem C44_glued_violated {c : Codec E} (hc : c.Lawful) (es : List E) (e e' : E) (more : List E) :
    readEntries c (fileOf c es ++ c.ser e) = some (es ++ [e]) ∧
    readEntries c (fileOf c es ++ c.ser e ++ fileOf c (e' :: more)) = none := by
  refine ⟨?_, ?_⟩
  · rw [C44_crash hc es e (List.prefix_append _ _), if_neg (hc.nonempty e), if_pos (List.prefix_refl _)]
  · have hn : (10 : UInt8) ∉ c.ser e ++ c.ser e' := by
      rw [List.mem_append]
      rintro (h | h)
      · exact hc.newline e h
      · exact hc.newline e' h
    have hcr : (c.ser e ++ c.ser e').getLast? ≠ some 13 := by
      rw [List.getLast?_append]
      cases hl : (c.ser e').getLast? with
      | none => exact absurd (List.getLast?_eq_none_iff.1 hl) (hc.nonempty e')
      | some b => intro h; exact hc.cr e' (hl.trans h)
    rw [List.append_assoc, readEntries_file hc, fileOf, List.flatMap_cons, ← List.append_assoc, appendBytes, ← List.append_assoc,
      readEntries, linesFrom_nil_newline hn, stripCr, if_neg hcr, parseLines, (hc.glued e e').2, if_neg (by simp), (hc.glued e e').1]
    rfl

/-! ## The directory -/

/-- The height is read back from the name of a log. -/
theorem C44_name {a : List Char} (ha : '-' ∉ a) {h : Nat} (hh : h < 2 ^ 64) :
    isWalName (filename a h) = true ∧ extractHeight (filename a h) = h :=
  ⟨isWalName_filename a h, extractHeight_filename ha hh⟩

/-- With a dash in the address the height is lost. -/
theorem C44_name_violated : ∃ a h, h < 2 ^ 64 ∧ extractHeight (filename a h) ≠ h :=
  ⟨['a', '-', 'b'], 7, by decide, by
    rw [filename, show Verif.Events.TokenText.showNat 7 = ['7'] by rw [Verif.Events.TokenText.showNat]; rfl]
    decide⟩

/-- If no log is torn, recovery returns every log with its entries, in order of height, the finished heights apart from the others,
and the highest decision. Missing: torn logs (`C44_torn_violated`), and a committed height with an empty log is not
returned as finished (`C44_empty_violated`). -/
theorem C44_recover_partial {c : Codec (Entry V A S)} (hc : c.Lawful) {address : List Char} (ha : '-' ∉ address) (committed : Option Nat)
    {dir : List (Name × Bytes)}
    (hd : ∀ f ∈ dir, isWalName f.1 = true → ∃ h es, h < 2 ^ 64 ∧ f = (filename address h, fileOf c es)) :
    ∃ r, recoverIncomplete c committed dir = some r ∧
      (∀ h es, (h, es) ∈ r.finalized ↔ Holds c address dir h es ∧ es ≠ [] ∧ Finished committed h es) ∧
      (∀ h es, (h, es) ∈ r.incomplete ↔ Holds c address dir h es ∧ (es = [] ∨ ¬ Finished committed h es)) ∧
      r.finalized.Pairwise (fun a b => a.1 ≤ b.1) ∧ r.incomplete.Pairwise (fun a b => a.1 ≤ b.1) ∧
      (∀ h es dh v, Holds c address dir h es → .decision dh v ∈ es → ∃ k, r.highestDecision = some k ∧ dh ≤ k) ∧
      (∀ k, r.highestDecision = some k → ∃ h es v, Holds c address dir h es ∧ .decision k v ∈ es) := by
  have hread : ∀ f ∈ collectFiles dir, ∃ es, readEntries c f.2 = some es := by
    intro f hf
    obtain ⟨g, hg, hw, _, h2⟩ := mem_collectFiles.1 hf
    obtain ⟨h, es, _, rfl⟩ := hd g hg hw
    exact ⟨es, by rw [← h2]; exact readEntries_complete hc es⟩
  obtain ⟨xs, hxs⟩ := exists_entries hread
  have hmem : ∀ h es, (h, es) ∈ xs ↔ Holds c address dir h es := by
    intro h es
    have key : (h, es) ∈ xs ↔ ∃ f ∈ collectFiles dir, f.1 = h ∧ readEntries c f.2 = some es := by
      have : (h, some es) ∈ (xs.map fun x => (x.1, some x.2)) ↔ (h, es) ∈ xs := by
        rw [List.mem_map]
        constructor
        · rintro ⟨x, hx, he⟩
          simp only [Prod.mk.injEq, Option.some.injEq] at he
          rw [← he.1, ← he.2]
          exact hx
        · exact fun hx => ⟨_, hx, rfl⟩
      rw [← this, ← hxs, List.mem_map]
      constructor
      · rintro ⟨f, hf, he⟩
        simp only [Prod.mk.injEq] at he
        exact ⟨f, hf, he⟩
      · rintro ⟨f, hf, h1, h2⟩
        exact ⟨f, hf, by rw [h1, h2]⟩
    rw [key]
    constructor
    · rintro ⟨f, hf, h1, h2⟩
      obtain ⟨g, hg, hw, g1, g2⟩ := mem_collectFiles.1 hf
      obtain ⟨h', es', hh', rfl⟩ := hd g hg hw
      rw [extractHeight_filename ha hh'] at g1
      rw [← g2, readEntries_complete hc] at h2
      cases h2
      rw [h1] at g1
      subst g1
      exact ⟨hh', hg⟩
    · rintro ⟨hh, hm⟩
      refine ⟨(h, fileOf c es), mem_collectFiles.2 ⟨_, hm, isWalName_filename _ _, extractHeight_filename ha hh, rfl⟩, rfl,
        readEntries_complete hc es⟩
  have hfin : ∀ h (es : List (Entry V A S)), isFinalized committed h es = true ↔ es ≠ [] ∧ Finished committed h es := by
    intro h es
    rw [isFinalized, List.any_eq_true]
    constructor
    · rintro ⟨e, he, hb⟩
      refine ⟨List.ne_nil_of_mem he, ?_⟩
      rw [Bool.or_eq_true] at hb
      rcases hb with hb | hb
      · cases e with
        | decision dh v => exact .inl ⟨dh, v, he⟩
        | _ => cases hb
      · cases committed with
        | none => cases hb
        | some n => exact .inr ⟨n, rfl, of_decide_eq_true hb⟩
    · rintro ⟨hne, ⟨dh, v, he⟩ | ⟨n, rfl, hle⟩⟩
      · exact ⟨_, he, rfl⟩
      · obtain ⟨e, he⟩ := List.exists_mem_of_ne_nil _ hne
        exact ⟨e, he, by simp [hle]⟩
  have hsort : xs.Pairwise fun a b => a.1 ≤ b.1 := by
    have h1 := (sorted_collectFiles dir)
    have h2 : ((collectFiles dir).map fun f => (f.1, readEntries c f.2)).Pairwise fun a b => a.1 ≤ b.1 := List.pairwise_map.2 h1
    rw [hxs] at h2
    exact (List.pairwise_map (f := fun x : Nat × List (Entry V A S) => (x.1, some x.2))).1 h2
  obtain ⟨_, d2, d3⟩ := foldl_maxDecision (xs.flatMap (·.2)) none
  refine ⟨_, recoverFiles_readable c committed hxs _, ?_, ?_, ?_, ?_, ?_, ?_⟩
  · intro h es
    show (h, es) ∈ [] ++ xs.filter _ ↔ _
    rw [List.nil_append, List.mem_filter, hmem, hfin]
  · intro h es
    show (h, es) ∈ [] ++ xs.filter _ ↔ _
    rw [List.nil_append, List.mem_filter, hmem]
    refine and_congr_right fun _ => ?_
    rw [Bool.not_eq_true', ← Bool.not_eq_true, hfin]
    by_cases hes : es = [] <;> simp [hes]
  · show ([] ++ xs.filter _).Pairwise _
    rw [List.nil_append]
    exact hsort.filter _
  · show ([] ++ xs.filter _).Pairwise _
    rw [List.nil_append]
    exact hsort.filter _
  · intro h es dh v hh he
    exact d2 dh v (List.mem_flatMap.2 ⟨(h, es), (hmem h es).2 hh, he⟩)
  · intro k hk
    rcases d3 k hk with h | ⟨v, hv⟩
    · cases h
    · obtain ⟨⟨h, es⟩, hx, he⟩ := List.mem_flatMap.1 hv
      exact ⟨h, es, v, (hmem h es).1 hx, he⟩

/-- One torn log, of any height, and nothing of any log is recovered, decisions included. -/
theorem C44_torn_violated {c : Codec (Entry V A S)} (hc : c.Lawful) (address : List Char) (committed : Option Nat)
    {dir : List (Name × Bytes)} {h : Nat} {es : List (Entry V A S)} {e : Entry V A S} {p : Bytes}
    (hp : p <+: c.ser e) (h0 : p ≠ []) (h1 : p ≠ c.ser e) (hm : (filename address h, fileOf c es ++ p) ∈ dir) :
    recoverIncomplete c committed dir = none ∧ recoverOrEmpty c committed dir = ⟨[], [], none⟩ := by
  have : recoverIncomplete c committed dir = none := by
    refine recoverFiles_unreadable c committed ⟨(extractHeight (filename address h), fileOf c es ++ p), ?_, ?_⟩ _
    · exact mem_collectFiles.2 ⟨_, hm, isWalName_filename _ _, rfl, rfl⟩
    · show readEntries c (fileOf c es ++ p) = none
      rw [C44_crash hc es e (hp.trans (List.prefix_append _ _)), if_neg h0, if_neg fun h => h1 (hp.eq_of_length_le h.length_le)]
  exact ⟨this, by rw [recoverOrEmpty, this]; rfl⟩

/-- A committed height whose log is still empty is taken for an unfinished one. -/
theorem C44_empty_violated (c : Codec (Entry V A S)) {address : List Char} (ha : '-' ∉ address) {n h : Nat} (hn : h ≤ n) (hh : h < 2 ^ 64) :
    Finished (some n) h ([] : List (Entry V A S)) ∧
    recoverIncomplete c (some n) [(filename address h, fileOf c [])] = some ⟨[(h, [])], [], none⟩ := by
  refine ⟨.inr ⟨n, rfl, hn⟩, ?_⟩
  simp only [recoverIncomplete, collectFiles, List.filter_cons, isWalName_filename, if_true, List.filter_nil, List.map_cons, List.map_nil,
    extractHeight_filename ha hh, sortByHeight, List.foldl_cons, List.foldl_nil, insertByHeight, recoverFiles]
  rfl

/-! ## The hypotheses are met -/

/-- The numbers of an entry. -/
def fieldsOf : Entry Nat Nat Nat → List Nat
  | .proposal h r v p a s => [0, h, r.elim 0 (· + 1), v, p.elim 0 (· + 1), a, s]
  | .vote b h r v a s => [1, b.toNat, h, r.elim 0 (· + 1), v.elim 0 (· + 1), a, s]
  | .timeout k r => [2, k.val, r.elim 0 (· + 1)]
  | .proposedValue h r vr a v b => [3, h, r.elim 0 (· + 1), vr.elim 0 (· + 1), a, v, b.toNat]
  | .decision h v => [4, h, v]

/-- A text form: braces around numbers in unary with commas. -/
def toyText (e : Entry Nat Nat Nat) : Bytes := 123 :: (fieldsOf e).flatMap (fun n => List.replicate n 49 ++ [44]) ++ [125]

theorem elim_inj {a b : Option Nat} (h : a.elim 0 (· + 1) = b.elim 0 (· + 1)) : a = b := by
  cases a <;> cases b <;> simp_all

theorem toNat_inj {a b : Bool} (h : a.toNat = b.toNat) : a = b := by
  cases a <;> cases b <;> simp_all

theorem fieldsOf_inj {a b : Entry Nat Nat Nat} (h : fieldsOf a = fieldsOf b) : a = b := by
  cases a <;> cases b <;> simp [fieldsOf] at h ⊢ <;> grind [elim_inj, toNat_inj, Fin.ext_iff]

theorem unary_inj {a b : List Nat} (h : a.flatMap (fun n => List.replicate n (49 : UInt8) ++ [44]) =
    b.flatMap (fun n => List.replicate n (49 : UInt8) ++ [44])) : a = b := by
  induction a generalizing b with
  | nil =>
    cases b with
    | nil => rfl
    | cons m b => simp at h
  | cons n a ih =>
    cases b with
    | nil => simp at h
    | cons m b =>
      rw [List.flatMap_cons, List.flatMap_cons] at h
      have key : ∀ (n m : Nat) (x y : Bytes), List.replicate n (49 : UInt8) ++ [44] ++ x = List.replicate m 49 ++ [44] ++ y → n = m ∧ x = y := by
        intro n
        induction n with
        | zero =>
          intro m x y h
          cases m with
          | zero => simpa using h
          | succ m => simp [List.replicate_succ] at h
        | succ n ihn =>
          intro m x y h
          cases m with
          | zero => simp [List.replicate_succ] at h
          | succ m =>
            simp only [List.replicate_succ, List.cons_append, List.cons.injEq, true_and] at h
            obtain ⟨h1, h2⟩ := ihn m x y h
            exact ⟨by omega, h2⟩
      obtain ⟨rfl, h2⟩ := key _ _ _ _ h
      rw [ih h2]

theorem toy_body {e : Entry Nat Nat Nat} {b : UInt8} (h : b ∈ (fieldsOf e).flatMap (fun n => List.replicate n (49 : UInt8) ++ [44])) :
    b = 49 ∨ b = 44 := by
  obtain ⟨n, _, h⟩ := List.mem_flatMap.1 h
  rcases List.mem_append.1 h with h | h
  · exact .inl (List.eq_of_mem_replicate h)
  · exact .inr (List.mem_singleton.1 h)

theorem toyText_inj {a b : Entry Nat Nat Nat} (h : toyText a = toyText b) : a = b := by
  simp only [toyText, List.cons_append, List.cons.injEq, true_and] at h
  exact fieldsOf_inj (unary_inj (List.append_cancel_right h))

open Classical in
/-- There is a text form as assumed. -/
theorem codec_exists : ∃ c : Codec (Entry Nat Nat Nat), c.Lawful := by
  have inj := @toyText_inj
  have pre : ∀ e p, p <+: toyText e → p ≠ toyText e → (125 : UInt8) ∉ p := by
    intro e p hp hne hm
    have h1 : p <+: 123 :: (fieldsOf e).flatMap (fun n => List.replicate n (49 : UInt8) ++ [44]) := by
      have : p.length < (toyText e).length := Nat.lt_of_le_of_ne hp.length_le fun h => hne (hp.eq_of_length h)
      refine List.prefix_of_prefix_length_le hp (List.prefix_append _ _) ?_
      simp only [toyText, List.length_append, List.length_singleton] at this
      omega
    rcases List.mem_cons.1 (h1.subset hm) with h | h
    · cases h
    · rcases toy_body h with h | h <;> cases h
  have last : ∀ e, (125 : UInt8) ∈ toyText e := fun e => by simp [toyText]
  refine ⟨⟨toyText, fun b => if h : ∃ e, toyText e = b then some (choose h) else none, fun b => b.isEmpty⟩, ?_⟩
  constructor
  · intro e
    have h : ∃ e', toyText e' = toyText e := ⟨e, rfl⟩
    show (if h : ∃ e', toyText e' = toyText e then some (choose h) else none) = some e
    rw [dif_pos h]
    exact congrArg some (inj (choose_spec h))
  · intro e h
    simp only [toyText, List.cons_append, List.mem_cons, List.mem_append, List.not_mem_nil, or_false] at h
    rcases h with h | h | h
    · cases h
    · rcases toy_body h with h | h <;> cases h
    · cases h
  · intro e h
    rw [show (⟨toyText, _, _⟩ : Codec (Entry Nat Nat Nat)).ser e = toyText e from rfl, toyText, List.getLast?_concat] at h
    cases h
  · rfl
  · intro e h
    cases h
  · intro e p h0 _
    show p.isEmpty = false
    simpa using h0
  · intro e p hp hne
    show (if h : ∃ e', toyText e' = p then some (choose h) else none) = none
    rw [dif_neg]
    rintro ⟨e', rfl⟩
    exact pre e _ hp hne (last e')
  · intro e e'
    refine ⟨?_, rfl⟩
    show (if h : ∃ x, toyText x = toyText e ++ toyText e' then some (choose h) else none) = none
    rw [dif_neg]
    rintro ⟨x, hx⟩
    refine pre x (toyText e) (hx ▸ List.prefix_append _ _) (fun h => ?_) (last e)
    have := congrArg List.length hx
    rw [List.length_append, ← h] at this
    simp [toyText] at this

/-- A directory with a decided height, an undecided one and another file. -/
example (c : Codec (Entry Nat Nat Nat)) : ∀ f ∈ [(filename ['0', 'x', '1'] 6, fileOf c [.timeout 0 (some 1)]),
      (filename ['0', 'x', '1'] 5, fileOf c [.decision 5 9]), (['x'], [1])],
    isWalName f.1 = true → ∃ h es, h < 2 ^ 64 ∧ f = (filename ['0', 'x', '1'] h, fileOf c es) := by
  intro f hf hw
  simp only [List.mem_cons, List.not_mem_nil, or_false] at hf
  rcases hf with rfl | rfl | rfl
  · exact ⟨6, [.timeout 0 (some 1)], by decide, rfl⟩
  · exact ⟨5, [.decision 5 9], by decide, rfl⟩
  · exact absurd hw (by decide)

/-- A torn vote at height 6 hides the decision at height 5. -/
example {c : Codec (Entry Nat Nat Nat)} (hc : c.Lawful) {p : Bytes} (hp : p <+: c.ser (.vote true 6 (some 0) none 1 0)) (h0 : p ≠ [])
    (h1 : p ≠ c.ser (.vote true 6 (some 0) none 1 0)) :
    (recoverOrEmpty c none [(filename ['1'] 5, fileOf c [.decision 5 9]), (filename ['1'] 6, fileOf c [] ++ p)]).highestDecision = none := by
  rw [(C44_torn_violated (h := 6) (es := []) hc ['1'] none hp h0 h1 (by simp)).2]

end Verif.Cons
