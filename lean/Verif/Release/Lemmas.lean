import Verif.Release.Spec

/-!
# The notice of new releases: lemmas
-/

namespace Verif.Release

/-- A comparison that decides a relation. -/
def Decides {α : Type} (c : α → α → Ordering) (lt : α → α → Prop) : Prop :=
  ∀ x y, (c x y = .lt ↔ lt x y) ∧ (c x y = .gt ↔ lt y x)

theorem decides_eq {α : Type} {c : α → α → Ordering} {lt : α → α → Prop} (h : Decides c lt) (x y : α) :
    c x y = .eq ↔ ¬ lt x y ∧ ¬ lt y x := by
  rw [← (h x y).1, ← (h x y).2]
  cases c x y <;> simp

theorem decides_list {α : Type} {c : α → α → Ordering} {lt : α → α → Prop} (h : Decides c lt) :
    Decides (cmpList c) (Before lt) := by
  intro a
  induction a with
  | nil =>
    intro b
    cases b with
    | nil => exact ⟨⟨fun e => by simp [cmpList] at e, fun e => by cases e⟩,
        ⟨fun e => by simp [cmpList] at e, fun e => by cases e⟩⟩
    | cons y ys => exact ⟨⟨fun _ => .more y ys, fun _ => rfl⟩,
        ⟨fun e => by simp [cmpList] at e, fun e => by cases e⟩⟩
  | cons x xs ih =>
    intro b
    cases b with
    | nil => exact ⟨⟨fun e => by simp [cmpList] at e, fun e => by cases e⟩,
        ⟨fun _ => .more x xs, fun _ => rfl⟩⟩
    | cons y ys =>
      have hl := (h x y).1
      have hg := (h x y).2
      have he := decides_eq h x y
      have il := (ih ys).1
      have ig := (ih ys).2
      simp only [cmpList]
      cases hc : c x y with
      | lt =>
        have l := hl.1 hc
        have ng : ¬ lt y x := fun g => by rw [hg.2 g] at hc; cases hc
        refine ⟨⟨fun _ => .here _ _ l, fun _ => rfl⟩, ⟨fun e => by simp [Ordering.then] at e, fun e => ?_⟩⟩
        cases e with
        | here _ _ g => exact absurd g ng
        | next _ g _ => exact absurd l g
      | gt =>
        have l := hg.1 hc
        have ng : ¬ lt x y := fun g => by rw [hl.2 g] at hc; cases hc
        refine ⟨⟨fun e => by simp [Ordering.then] at e, fun e => ?_⟩, ⟨fun _ => .here _ _ l, fun _ => rfl⟩⟩
        cases e with
        | here _ _ g => exact absurd g ng
        | next _ g _ => exact absurd l g
      | eq =>
        obtain ⟨n1, n2⟩ := he.1 hc
        simp only [Ordering.then]
        refine ⟨⟨fun e => .next n1 n2 (il.1 e), fun e => ?_⟩, ⟨fun e => .next n2 n1 (ig.1 e), fun e => ?_⟩⟩
        · cases e with
          | here _ _ g => exact absurd g n1
          | next _ _ t => exact il.2 t
        · cases e with
          | here _ _ g => exact absurd g n2
          | next _ _ t => exact ig.2 t

theorem cmpNat_lt (a b : Nat) : cmpNat a b = .lt ↔ a < b := by
  unfold cmpNat; split
  · simp [*]
  · split <;> simp [*]

theorem cmpNat_gt (a b : Nat) : cmpNat a b = .gt ↔ b < a := by
  unfold cmpNat; split
  · simp; omega
  · split <;> simp [*]

theorem decides_nat : Decides cmpNat (fun a b => a < b) := fun a b => ⟨cmpNat_lt a b, cmpNat_gt a b⟩

theorem char_lt (x y : Char) : x < y ↔ x.toNat < y.toNat := by
  rw [Char.lt_def, UInt32.lt_iff_toNat_lt]; rfl

theorem char_le (x y : Char) : x ≤ y ↔ x.toNat ≤ y.toNat := by
  rw [Char.le_def, UInt32.le_iff_toNat_le]; rfl

theorem decides_text : Decides cmpText (Before fun x y : Char => x < y) := by
  apply decides_list
  intro x y
  show (_ ↔ x < y) ∧ (_ ↔ y < x)
  rw [char_lt, char_lt]
  exact ⟨cmpNat_lt _ _, cmpNat_gt _ _⟩

theorem numeric_iff (t : Text) : t.all digit = true ↔ Numeric t := by
  unfold Numeric
  rw [List.all_eq_true]
  constructor
  · intro h c hc
    have := h c hc
    simp only [digit, Bool.and_eq_true, decide_eq_true_eq] at this
    rw [char_le, char_le]
    exact this
  · intro h c hc
    have := h c hc
    rw [char_le, char_le] at this
    simp only [digit, Bool.and_eq_true, decide_eq_true_eq]
    exact this

theorem value_eq (t : Text) : value t = decimal t := by
  have key : ∀ (t : Text) (n : Nat), t.foldl (fun n c => 10 * n + (c.toNat - 48)) n =
      n * 10 ^ t.length + decimal t := by
    intro t
    induction t with
    | nil => intro n; simp [decimal]
    | cons c cs ih =>
      intro n
      simp only [List.foldl_cons, ih, decimal, List.length_cons]
      have e : '0'.toNat = 48 := rfl
      rw [e, Nat.add_mul, Nat.pow_succ, Nat.add_assoc]
      congr 1
      rw [Nat.mul_comm 10 n, Nat.mul_assoc, Nat.mul_comm 10]
  have h := key t 0
  rw [Nat.zero_mul, Nat.zero_add] at h
  exact h

theorem decides_id : Decides cmpId IdLess := by
  intro a b
  unfold cmpId IdLess
  have ha := numeric_iff a
  have hb := numeric_iff b
  have ht := decides_text a b
  cases ea : a.all digit <;> cases eb : b.all digit <;> simp only [ea, eb] at ha hb ⊢ <;>
    simp only [Bool.false_eq_true, false_iff, true_iff] at ha hb <;>
    simp [ha, hb, ht.1, ht.2, cmpNat_lt, cmpNat_gt, value_eq]

theorem decides_pre : Decides cmpPre PreLess := by
  intro a b
  unfold PreLess
  cases a with
  | nil => cases b <;> simp [cmpPre]
  | cons x xs =>
    cases b with
    | nil => simp [cmpPre]
    | cons y ys =>
      have := decides_list decides_id (x :: xs) (y :: ys)
      simpa [cmpPre] using this

theorem then_lt (o p : Ordering) : o.then p = .lt ↔ o = .lt ∨ (o = .eq ∧ p = .lt) := by
  cases o <;> simp [Ordering.then]

theorem then_gt (o p : Ordering) : o.then p = .gt ↔ o = .gt ∨ (o = .eq ∧ p = .gt) := by
  cases o <;> simp [Ordering.then]

theorem cmpNat_eq (a b : Nat) : cmpNat a b = .eq ↔ a = b := by
  rw [decides_eq decides_nat]; omega

/-- The order of `semver` is precedence, refined by build metadata. -/
theorem cmp_gt (cb : List Text → List Text → Ordering) (a b : Version) :
    cmp cb a b = .gt ↔ Lower b a ∨ (¬ Lower a b ∧ ¬ Lower b a ∧ cb a.build b.build = .gt) := by
  have hp := decides_pre a.pre b.pre
  have he := decides_eq decides_pre a.pre b.pre
  unfold cmp Lower
  rw [then_gt, then_gt, then_gt, then_gt, cmpNat_gt, cmpNat_gt, cmpNat_gt, cmpNat_eq, cmpNat_eq, cmpNat_eq,
    hp.2, he]
  generalize PreLess a.pre b.pre = A
  generalize PreLess b.pre a.pre = B
  generalize (cb a.build b.build = .gt) = C
  by_cases h1 : A <;> by_cases h2 : B <;> by_cases h3 : C <;> simp only [h1, h2, h3] <;> grind

/-! ### Texts -/

theorem splitFirst_none (c : Char) (t : Text) (h : c ∉ t) : splitFirst c t = (t, none) := by
  induction t with
  | nil => rfl
  | cons x xs ih =>
    simp only [List.mem_cons, not_or] at h
    have hx : ¬ x = c := fun e => h.1 e.symm
    simp [splitFirst, ih h.2, hx]

theorem splitFirst_at (c : Char) (t u : Text) (h : c ∉ t) : splitFirst c (t ++ c :: u) = (t, some u) := by
  induction t with
  | nil => simp [splitFirst]
  | cons x xs ih =>
    simp only [List.mem_cons, not_or] at h
    have hx : ¬ x = c := fun e => h.1 e.symm
    simp [splitFirst, ih h.2, hx]

/-- What is found is in the text. -/
theorem splitFirst_spec (c : Char) (t : Text) : c ∉ (splitFirst c t).1 ∧
    t = (splitFirst c t).1 ++ (match (splitFirst c t).2 with | none => [] | some u => c :: u) := by
  induction t with
  | nil => simp [splitFirst]
  | cons x xs ih =>
    by_cases hx : x = c
    · simp [splitFirst, hx]
    · simp only [splitFirst, hx, if_false, List.mem_cons, not_or, List.cons_append]
      exact ⟨⟨fun e => hx e.symm, ih.1⟩, by rw [← ih.2]⟩

theorem splitAll_ne (c : Char) (t : Text) : splitAll c t ≠ [] := by
  cases t with
  | nil => simp [splitAll]
  | cons x xs =>
    simp only [splitAll]
    split
    · simp
    · split <;> simp

theorem splitAll_none (c : Char) (t : Text) (h : c ∉ t) : splitAll c t = [t] := by
  induction t with
  | nil => rfl
  | cons x xs ih =>
    simp only [List.mem_cons, not_or] at h
    have hx : ¬ x = c := fun e => h.1 e.symm
    simp [splitAll, ih h.2, hx]

theorem splitAll_at (c : Char) (t u : Text) (h : c ∉ t) : splitAll c (t ++ c :: u) = t :: splitAll c u := by
  induction t with
  | nil => simp [splitAll]
  | cons x xs ih =>
    simp only [List.mem_cons, not_or] at h
    have hx : ¬ x = c := fun e => h.1 e.symm
    simp [splitAll, ih h.2, hx]

theorem dots_splitAll (t : Text) : dots (splitAll '.' t) = t := by
  induction t with
  | nil => rfl
  | cons x xs ih =>
    simp only [splitAll]
    split
    · rename_i hx
      subst hx
      cases hs : splitAll '.' xs with
      | nil => exact absurd hs (splitAll_ne _ _)
      | cons u us => rw [hs] at ih; simp [dots, ih]
    · cases hs : splitAll '.' xs with
      | nil => exact absurd hs (splitAll_ne _ _)
      | cons u us =>
        rw [hs] at ih
        cases us with
        | nil => simp [dots] at ih ⊢; exact ih
        | cons w ws => simp only [dots] at ih ⊢; rw [← ih]; simp

theorem splitAll_dots (ts : List Text) (hn : ts ≠ []) (h : ∀ t ∈ ts, '.' ∉ t) : splitAll '.' (dots ts) = ts := by
  induction ts with
  | nil => exact absurd rfl hn
  | cons t us ih =>
    cases us with
    | nil => exact splitAll_none _ _ (h t (by simp))
    | cons u us =>
      simp only [dots]
      rw [splitAll_at _ _ _ (h t (by simp)), ih (by simp) (fun x hx => h x (by simp [hx]))]

theorem plain_iff (t : Text) (hn : t ≠ []) : plain t = true ↔ ∀ cs, t = '0' :: cs → cs = [] := by
  cases t with
  | nil => exact absurd rfl hn
  | cons x xs =>
    by_cases hx : x = '0'
    · subst hx
      simp [plain]
    · simp [plain, hx]

theorem number_iff (t : Text) (n : Nat) : number t = some n ↔ WritesNum t n := by
  unfold number WritesNum
  rw [value_eq]
  constructor
  · intro h
    split at h
    · rename_i hc
      cases h
      exact ⟨hc.1, (numeric_iff t).1 hc.2.1, (plain_iff t hc.1).1 hc.2.2.1, rfl, hc.2.2.2⟩
    · cases h
  · rintro ⟨h1, h2, h3, rfl, h5⟩
    rw [if_pos ⟨h1, (numeric_iff t).2 h2, (plain_iff t h1).2 h3, h5⟩]

theorem idChar_iff (c : Char) : idChar c = true ↔
    ('0' ≤ c ∧ c ≤ '9') ∨ ('A' ≤ c ∧ c ≤ 'Z') ∨ ('a' ≤ c ∧ c ≤ 'z') ∨ c = '-' := by
  simp only [idChar, digit, char_le, Bool.or_eq_true, Bool.and_eq_true, decide_eq_true_eq, or_assoc]
  exact Iff.rfl

theorem identifier_iff (t : Text) : buildId t = true ↔ Identifier t := by
  simp only [buildId, Identifier, Bool.and_eq_true, decide_eq_true_eq, List.all_eq_true, idChar_iff]

theorem preId_iff (t : Text) : preId t = true ↔
    Identifier t ∧ (Numeric t → ∀ cs, t = '0' :: cs → cs = []) := by
  have h : preId t = (buildId t && (!t.all digit || plain t)) := rfl
  rw [h, Bool.and_eq_true, identifier_iff]
  constructor
  · rintro ⟨h1, h2⟩
    refine ⟨h1, fun hn => (plain_iff t h1.1).1 ?_⟩
    rw [(numeric_iff t).2 hn] at h2
    simpa using h2
  · rintro ⟨h1, h2⟩
    refine ⟨h1, ?_⟩
    cases hd : t.all digit with
    | false => rfl
    | true => simpa using (plain_iff t h1.1).2 (h2 ((numeric_iff t).1 hd))

theorem identifier_no (c : Char) (hc : idChar c = false) (t : Text) (h : Identifier t) : c ∉ t := by
  intro hm
  rw [(idChar_iff c).2 (h.2 c hm)] at hc
  cases hc

theorem numeric_no (c : Char) (hc : digit c = false) (t : Text) (h : Numeric t) : c ∉ t := by
  intro hm
  have := List.all_eq_true.1 ((numeric_iff t).2 h) c hm
  rw [this] at hc; cases hc

theorem dots_no (c : Char) (hc : c ≠ '.') (ts : List Text) (h : ∀ t ∈ ts, c ∉ t) : c ∉ dots ts := by
  induction ts with
  | nil => simp [dots]
  | cons t us ih =>
    cases us with
    | nil => simpa [dots] using h t (by simp)
    | cons u us =>
      simp only [dots, List.mem_append, List.mem_cons, not_or]
      exact ⟨h t (by simp), hc, ih (fun x hx => h x (by simp [hx]))⟩

/-- The text of a part. -/
def partText (mark : Char) : Option Text → Text
  | none => []
  | some u => mark :: u

theorem idents_iff (mark : Char) (ok : Text → Bool) (Q : Text → Prop) (hok : ∀ t, ok t = true ↔ Q t)
    (hq : ∀ t, Q t → '.' ∉ t) (o : Option Text) (ids : List Text) :
    idents ok o = some ids ↔ WritesPart mark (partText mark o) ids ∧ ∀ i ∈ ids, Q i := by
  cases o with
  | none =>
    constructor
    · intro h; cases h; exact ⟨Or.inl ⟨rfl, rfl⟩, by simp⟩
    · rintro ⟨⟨rfl, _⟩ | ⟨_, h⟩, _⟩
      · rfl
      · simp [partText] at h
  | some u =>
    simp only [idents, partText]
    constructor
    · intro h
      split at h
      · rename_i ha
        cases h
        refine ⟨Or.inr ⟨splitAll_ne _ _, by rw [dots_splitAll]⟩, fun i hi => ?_⟩
        exact (hok i).1 (List.all_eq_true.1 ha i hi)
      · cases h
    · rintro ⟨⟨_, h⟩ | ⟨hn, h⟩, hi⟩
      · cases h
      · have hu : u = dots ids := by simpa using h
        have hs : splitAll '.' u = ids := by
          rw [hu]; exact splitAll_dots ids hn (fun t ht => hq t (hi t ht))
        rw [hs, if_pos]
        rw [List.all_eq_true]
        exact fun i hm => (hok i).2 (hi i hm)

theorem core_iff (t : Text) (x y z : Nat) : core t = some (x, y, z) ↔ ∃ a b c,
    t = a ++ '.' :: (b ++ '.' :: c) ∧ WritesNum a x ∧ WritesNum b y ∧ WritesNum c z := by
  constructor
  · intro h
    have hd := dots_splitAll t
    unfold core at h
    split at h
    · rename_i a b c hs
      rw [hs] at hd
      simp only [Option.bind_eq_some_iff, Option.map_eq_some_iff] at h
      obtain ⟨x', hx, y', hy, z', hz, e⟩ := h
      cases e
      exact ⟨a, b, c, by simpa [dots] using hd.symm, (number_iff _ _).1 hx, (number_iff _ _).1 hy,
        (number_iff _ _).1 hz⟩
    · cases h
  · rintro ⟨a, b, c, rfl, ha, hb, hc⟩
    have na := numeric_no '.' (by decide) a ha.2.1
    have nb := numeric_no '.' (by decide) b hb.2.1
    have nc := numeric_no '.' (by decide) c hc.2.1
    have hs : splitAll '.' (a ++ '.' :: (b ++ '.' :: c)) = [a, b, c] := by
      rw [splitAll_at _ _ _ na, splitAll_at _ _ _ nb, splitAll_none _ _ nc]
    simp [core, hs, (number_iff _ _).2 ha, (number_iff _ _).2 hb, (number_iff _ _).2 hc]

theorem splitFirst_part (mark : Char) (t u : Text) (ids : List Text) (ht : mark ∉ t)
    (h : WritesPart mark u ids) : (splitFirst mark (t ++ u)).1 = t ∧
    partText mark (splitFirst mark (t ++ u)).2 = u := by
  rcases h with ⟨_, rfl⟩ | ⟨_, rfl⟩
  · rw [List.append_nil, splitFirst_none _ _ ht]; exact ⟨rfl, rfl⟩
  · rw [splitFirst_at _ _ _ ht]; exact ⟨rfl, rfl⟩

theorem splitFirst_join (mark : Char) (t : Text) :
    t = (splitFirst mark t).1 ++ partText mark (splitFirst mark t).2 := by
  have h := (splitFirst_spec mark t).2
  cases hs : (splitFirst mark t).2 with
  | none => rw [hs] at h; simpa [partText] using h
  | some u => rw [hs] at h; simpa [partText] using h

theorem writesPart_no (mark c : Char) (hm : c ≠ mark) (hd : c ≠ '.') (u : Text) (ids : List Text)
    (h : WritesPart mark u ids) (hi : ∀ i ∈ ids, c ∉ i) : c ∉ u := by
  rcases h with ⟨_, rfl⟩ | ⟨_, rfl⟩
  · simp
  · simp only [List.mem_cons, not_or]
    exact ⟨hm, dots_no c hd ids hi⟩

/-- A text is read as a version exactly if it is written as semver.org states. -/
theorem parse_iff (t : Text) (v : Version) : parse t = some v ↔ Writes t v := by
  have hpre : ∀ i, preId i = true ↔ Identifier i ∧ (Numeric i → ∀ cs, i = '0' :: cs → cs = []) := preId_iff
  constructor
  · intro h
    simp only [parse, Option.bind_eq_some_iff, Option.map_eq_some_iff] at h
    obtain ⟨⟨x, y, z⟩, hc, pre, hp, build, hb, rfl⟩ := h
    obtain ⟨a, b, c, e, ha, hb', hc'⟩ := (core_iff _ _ _ _).1 hc
    have p1 := (idents_iff '-' preId _ hpre
      (fun t h => identifier_no '.' (by decide) t h.1) _ _).1 hp
    have p2 := (idents_iff '+' buildId _ identifier_iff
      (fun t h => identifier_no '.' (by decide) t h) _ _).1 hb
    refine ⟨a, b, c, _, _, ?_, ha, hb', hc', p1.1, p1.2, p2.1, p2.2⟩
    have j1 := splitFirst_join '+' t
    have j2 := splitFirst_join '-' (splitFirst '+' t).1
    rw [e] at j2
    rw [j2] at j1
    refine j1.trans ?_
    simp [List.append_assoc]
  · rintro ⟨a, b, c, pre, build, rfl, ha, hb, hc, p1, q1, p2, q2⟩
    obtain ⟨mj, mn, pt, vp, vb⟩ := v
    simp only at ha hb hc p1 q1 p2 q2
    have hplus : '+' ∉ (a ++ '.' :: (b ++ '.' :: c)) ++ pre := by
      simp only [List.mem_append, List.mem_cons, not_or]
      exact ⟨⟨numeric_no _ (by decide) a ha.2.1, by decide, numeric_no _ (by decide) b hb.2.1, by decide,
        numeric_no _ (by decide) c hc.2.1⟩,
        writesPart_no '-' '+' (by decide) (by decide) pre vp p1
          (fun i hi => identifier_no '+' (by decide) i (q1 i hi).1)⟩
    have hminus : '-' ∉ a ++ '.' :: (b ++ '.' :: c) := by
      simp only [List.mem_append, List.mem_cons, not_or]
      exact ⟨numeric_no _ (by decide) a ha.2.1, by decide, numeric_no _ (by decide) b hb.2.1, by decide,
        numeric_no _ (by decide) c hc.2.1⟩
    have s1 := splitFirst_part '+' _ build vb hplus p2
    have s2 := splitFirst_part '-' _ pre vp hminus p1
    have e : a ++ '.' :: (b ++ '.' :: (c ++ (pre ++ build))) =
        ((a ++ '.' :: (b ++ '.' :: c)) ++ pre) ++ build := by simp
    rw [e]
    have c1 : core (a ++ '.' :: (b ++ '.' :: c)) = some (mj, mn, pt) :=
      (core_iff _ _ _ _).2 ⟨a, b, c, rfl, ha, hb, hc⟩
    have i1 : idents preId (splitFirst '-' ((a ++ '.' :: (b ++ '.' :: c)) ++ pre)).2 = some vp :=
      (idents_iff '-' preId _ hpre (fun t h => identifier_no '.' (by decide) t h.1) _ _).2
        ⟨by rw [s2.2]; exact p1, q1⟩
    have i2 : idents buildId (splitFirst '+' (((a ++ '.' :: (b ++ '.' :: c)) ++ pre) ++ build)).2 = some vb :=
      (idents_iff '+' buildId _ identifier_iff (fun t h => identifier_no '.' (by decide) t h) _ _).2
        ⟨by rw [s1.2]; exact p2, q2⟩
    unfold parse
    rw [s1.1, s2.1, c1, i1, i2]
    rfl

theorem writes_digit (t : Text) (v : Version) (h : Writes t v) : ∀ u, t ≠ 'v' :: u := by
  obtain ⟨a, b, c, pre, build, rfl, ha, _⟩ := h
  intro u e
  cases a with
  | nil => exact ha.1 rfl
  | cons x xs =>
    simp only [List.cons_append, List.cons.injEq] at e
    have := ha.2.1 x (by simp)
    rw [e.1] at this
    exact absurd this.2 (by decide)

/-- A name is read exactly if it is the text of a version, with or without the letter in front. -/
theorem names_iff (t : Text) (v : Version) : parse (stripV t) = some v ↔ Names t v := by
  unfold stripV Names
  split
  · rename_i u
    rw [parse_iff]
    constructor
    · intro h; exact Or.inr ⟨u, rfl, h⟩
    · rintro (h | ⟨w, e, h⟩)
      · exact absurd rfl (writes_digit _ _ h u)
      · cases e; exact h
  · rename_i hne
    rw [parse_iff]
    constructor
    · exact Or.inl
    · rintro (h | ⟨w, e, _⟩)
      · exact h
      · exact absurd e (hne w)

theorem names_none (t : Text) : parse (stripV t) = none ↔ ∀ w, ¬ Names t w := by
  constructor
  · intro h w hw
    rw [(names_iff t w).2 hw] at h; cases h
  · intro h
    cases hp : parse (stripV t) with
    | none => rfl
    | some w => exact absurd ((names_iff t w).1 hp) (h w)

/-! ### The loop -/

/-- What the variables of the loop hold after some responses. -/
def Holds (rs : List Response) (s : State) : Prop :=
  LastTag rs s.etag ∧
  (∀ v, s.latest = some v ↔ LastRelease rs v)

theorem names_unique {t : Text} {v w : Version} (h : Names t v) (h' : Names t w) : v = w := by
  rw [← names_iff] at h h'
  rw [h] at h'; cases h'; rfl

theorem lastRelease_unique {rs : List Response} {v w : Version} (h : LastRelease rs v)
    (h' : LastRelease rs w) : v = w := by
  obtain ⟨b, n, e, a, rfl, hp, hn⟩ := h
  obtain ⟨b', n', e', a', heq, hp', hn'⟩ := h'
  rcases List.append_eq_append_iff.mp heq with ⟨c, hc, hc'⟩ | ⟨c, hc, hc'⟩
  · cases c with
    | nil => simp at hc'; obtain ⟨⟨rfl, rfl⟩, rfl⟩ := hc'; exact names_unique hp hp'
    | cons x xs =>
      simp at hc'
      obtain ⟨rfl, hc'⟩ := hc'
      exact absurd hp' (hn n' e' (by rw [hc']; simp) w)
  · cases c with
    | nil => simp at hc'; obtain ⟨⟨rfl, rfl⟩, rfl⟩ := hc'; exact names_unique hp hp'
    | cons x xs =>
      simp at hc'
      obtain ⟨rfl, hc'⟩ := hc'
      exact absurd hp (hn' n e (by rw [hc']; simp) v)

theorem lastRelease_snoc (rs : List Response) (r : Response) (v : Version)
    (h : ∀ n e, r = .update n e → ∀ w, ¬ Names n w) :
    LastRelease (rs ++ [r]) v ↔ LastRelease rs v := by
  constructor
  · rintro ⟨b, n, e, a, heq, hp, hn⟩
    rcases List.eq_nil_or_concat a with rfl | ⟨a', x, rfl⟩
    · have := List.append_inj' heq rfl
      simp at this
      exact absurd hp (h n e this.2 v)
    · rw [List.concat_eq_append, show b ++ Response.update n e :: (a' ++ [x]) =
        (b ++ Response.update n e :: a') ++ [x] by simp] at heq
      have := List.append_inj' heq rfl
      exact ⟨b, n, e, a', this.1, hp, fun n' e' hm => hn n' e' (by simp [hm])⟩
  · rintro ⟨b, n, e, a, rfl, hp, hn⟩
    refine ⟨b, n, e, a ++ [r], by simp, hp, fun n' e' hm => ?_⟩
    rcases List.mem_append.mp hm with hm | hm
    · exact hn n' e' hm
    · exact h n' e' (List.mem_singleton.mp hm).symm

theorem lastTag_snoc (rs : List Response) (r : Response) (o : Option Nat)
    (h : ∀ n e, r ≠ .update n e) (ht : LastTag rs o) : LastTag (rs ++ [r]) o := by
  rcases ht with ⟨rfl, hn⟩ | ⟨b, n, a, rfl, hn⟩
  · left
    refine ⟨rfl, fun n e hm => ?_⟩
    rcases List.mem_append.mp hm with hm | hm
    · exact hn n e hm
    · exact h n e (List.mem_singleton.mp hm).symm
  · right
    refine ⟨b, n, a ++ [r], by simp, fun n' e' hm => ?_⟩
    rcases List.mem_append.mp hm with hm | hm
    · exact hn n' e' hm
    · exact h n' e' (List.mem_singleton.mp hm).symm

theorem holds_receive (rs : List Response) (s : State) (r : Response) (h : Holds rs s) :
    Holds (rs ++ [r]) (receive s r) := by
  obtain ⟨ht, hl⟩ := h
  cases r with
  | update name etag =>
    have tag : LastTag (rs ++ [Response.update name etag]) etag :=
      Or.inr ⟨rs, name, [], rfl, fun n e hm => by simp at hm⟩
    cases hp : parse (stripV name) with
    | some v =>
      simp only [receive, hp]
      have lr : LastRelease (rs ++ [Response.update name etag]) v :=
        ⟨rs, name, etag, [], rfl, (names_iff _ _).1 hp, fun n e hm => by simp at hm⟩
      refine ⟨tag, fun w => ⟨fun e => ?_, fun e => ?_⟩⟩
      · cases e; exact lr
      · rw [lastRelease_unique lr e]
    | none =>
      simp only [receive, hp]
      refine ⟨tag, fun w => ?_⟩
      rw [lastRelease_snoc _ _ _ (fun n e h => by cases h; exact (names_none _).1 hp)]
      exact hl w
  | notModified =>
    refine ⟨lastTag_snoc _ _ _ (fun n e h => by cases h) ht, fun w => ?_⟩
    rw [lastRelease_snoc _ _ _ (fun n e h => by cases h)]
    exact hl w
  | failed =>
    refine ⟨lastTag_snoc _ _ _ (fun n e h => by cases h) ht, fun w => ?_⟩
    rw [lastRelease_snoc _ _ _ (fun n e h => by cases h)]
    exact hl w

theorem holds_init : Holds [] ⟨none, none⟩ := by
  refine ⟨Or.inl ⟨rfl, (fun n e h => by simp at h)⟩, fun v => ⟨(fun h => by cases h), ?_⟩⟩
  rintro ⟨b, n, e, a, h, _⟩
  simp at h

theorem loop_get (cb : List Text → List Text → Ordering) (l : Version) (done : List Response) (s : State)
    (h : Holds done s) (rs : List Response) (i : Nat) (p : Poll) (hp : (loop cb l s rs)[i]? = some p) :
    ∃ s1 s2, Holds (done ++ rs.take i) s1 ∧ Holds (done ++ rs.take (i + 1)) s2 ∧
      p = ⟨s1.etag, noticeOf cb l s2⟩ := by
  induction rs generalizing done s i with
  | nil => simp [loop] at hp
  | cons r rs ih =>
    cases i with
    | zero =>
      simp only [loop, List.getElem?_cons_zero, Option.some.injEq] at hp
      exact ⟨s, receive s r, by simpa using h, by simpa using holds_receive _ _ r h, hp.symm⟩
    | succ i =>
      simp only [loop, List.getElem?_cons_succ] at hp
      obtain ⟨s1, s2, h1, h2, e⟩ := ih (done ++ [r]) (receive s r) (holds_receive _ _ r h) i hp
      exact ⟨s1, s2, by simpa using h1, by simpa using h2, e⟩

theorem loop_length (cb : List Text → List Text → Ordering) (l : Version) (s : State) (rs : List Response) :
    (loop cb l s rs).length = rs.length := by
  induction rs generalizing s with
  | nil => rfl
  | cons r rs ih => simp [loop, ih]

end Verif.Release
