import Verif.ClassSync.Spec

namespace Verif.ClassSync
open Spec

variable {P : Type}

/-! ### Streams -/

theorem andThen_spec {α β : Type} (f : α → Except (Err P) β) (fail : Option (Err P)) (xs : List α) :
    ∃ pre suf, xs = pre ++ suf ∧ pre.map f = (andThen f fail xs).items.map .ok ∧
      ((suf = [] ∧ (andThen f fail xs).fail = fail) ∨
        ∃ x t e, suf = x :: t ∧ f x = .error e ∧ (andThen f fail xs).fail = some e) := by
  induction xs with
  | nil => exact ⟨[], [], rfl, rfl, .inl ⟨rfl, rfl⟩⟩
  | cons x xs ih =>
    cases h : f x with
    | error e =>
      refine ⟨[], x :: xs, rfl, ?_, .inr ⟨x, xs, e, rfl, h, ?_⟩⟩ <;> simp [andThen, h]
    | ok y =>
      obtain ⟨pre, suf, rfl, hm, ht⟩ := ih
      refine ⟨x :: pre, suf, rfl, ?_, ?_⟩
      · simp [andThen, h, hm]
      · simpa [andThen, h] using ht

theorem chunks_join {α : Type} (n : Nat) (xs : List α) :
    ∀ acc, (chunks n acc xs).1.flatten ++ (chunks n acc xs).2 = acc ++ xs := by
  induction xs with
  | nil => intro acc; simp [chunks]
  | cons x xs ih =>
    intro acc
    unfold chunks
    split
    · simp only [List.flatten_cons, List.append_assoc]
      rw [ih []]; simp
    · rw [ih]; simp

theorem tryChunks_spec {α : Type} (n : Nat) (s : Feed P α) :
    (s.tryChunks n).fail = s.fail ∧ (s.tryChunks n).items.flatten <+: s.items ∧
      (s.fail = none → (s.tryChunks n).items.flatten = s.items) := by
  have h := chunks_join n s.items []
  unfold Feed.tryChunks
  cases hf : s.fail with
  | some e =>
    cases hc : chunks n [] s.items with
    | mk full rest =>
      rw [hc] at h
      refine ⟨rfl, ⟨rest, by simpa using h⟩, fun e => by cases e⟩
  | none =>
    cases hc : chunks n [] s.items with
    | mk full rest =>
      rw [hc] at h
      cases rest with
      | nil =>
        have h' : full.flatten = s.items := by simpa using h
        exact ⟨rfl, by rw [h']; exact List.prefix_refl _, fun _ => h'⟩
      | cons x rest =>
        have h' : (full ++ [x :: rest]).flatten = s.items := by simpa using h
        exact ⟨rfl, by rw [h']; exact List.prefix_refl _, fun _ => h'⟩

theorem collect_ok {β : Type} {pick : List (Err P) → Nat} {l : List (Except (Err P) β)} {ys : List β}
    (h : collect pick l = .ok ys) : l = ys.map .ok := by
  unfold collect at h
  split at h
  · cases h
  · next hn =>
    have he : errorsOf l = [] := by
      cases e : errorsOf l with
      | nil => rfl
      | cons a t =>
        rw [e] at hn
        rw [List.getElem?_eq_none_iff] at hn
        have := Nat.mod_lt (pick (a :: t)) (show 0 < (a :: t).length by simp)
        omega
    cases h
    clear hn
    induction l with
    | nil => rfl
    | cons a l ih =>
      cases a with
      | error e => simp [errorsOf] at he
      | ok y =>
        have he' : errorsOf l = [] := by simpa [errorsOf] using he
        have : l = (valuesOf l).map .ok := ih he'
        show Except.ok y :: l = (y :: valuesOf l).map .ok
        rw [List.map_cons, ← this]

theorem collect_error {β : Type} {pick : List (Err P) → Nat} {l : List (Except (Err P) β)} {e : Err P}
    (h : collect pick l = .error e) : .error e ∈ l := by
  unfold collect at h
  split at h
  · next hn =>
    cases h
    have := List.mem_of_getElem? hn
    obtain ⟨x, hx, hy⟩ := List.mem_filterMap.mp this
    cases x with
    | error e' => simp at hy; subst hy; exact hx
    | ok y => simp at hy
  · cases h

/-- What happens to the items of a stream that is cut into chunks whose members are all handled by
`f`. -/
theorem chunked_spec {α β : Type} (f : α → Except (Err P) β) (pick : List (Err P) → Nat) (n : Nat) (s : Feed P α) :
    let out := andThen (fun c => collect pick (c.map f)) (s.tryChunks n).fail (s.tryChunks n).items
    (∃ pre, pre <+: s.items ∧ pre.map f = out.items.flatten.map .ok ∧
      (out.fail = none → pre = s.items ∧ s.fail = none)) ∧
    ∀ e, out.fail = some e → s.fail = some e ∨ ∃ x ∈ s.items, f x = .error e := by
  intro out
  obtain ⟨hf, hp, hn⟩ := tryChunks_spec n s
  obtain ⟨pre, suf, hx, hm, ht⟩ := andThen_spec (fun c => collect pick (c.map f)) (s.tryChunks n).fail (s.tryChunks n).items
  have hm : pre.map (fun c => collect pick (c.map f)) = out.items.map .ok := hm
  have join : ∀ (a : List (List α)) (b : List (List β)), a.map (fun c => collect pick (c.map f)) = b.map .ok →
      a.flatten.map f = b.flatten.map .ok := by
    intro a
    induction a with
    | nil => intro b hb; cases b with | nil => rfl | cons => cases hb
    | cons c a ih =>
      intro b hb
      cases b with
      | nil => cases hb
      | cons d b =>
        simp only [List.map_cons, List.cons.injEq] at hb
        have h1 := collect_ok hb.1
        simp only [List.flatten_cons, List.map_append]
        rw [h1, ih b hb.2]
  rw [hx] at hp hn
  refine ⟨⟨pre.flatten, ?_, join _ _ hm, ?_⟩, ?_⟩
  · rw [List.flatten_append] at hp
    exact (List.prefix_append _ _).trans hp
  · intro ho
    have ho : (andThen (fun c => collect pick (c.map f)) (s.tryChunks n).fail (s.tryChunks n).items).fail = none := ho
    rcases ht with ⟨rfl, h2⟩ | ⟨x, t, e, _, _, h2⟩
    · rw [h2, hf] at ho
      refine ⟨?_, ho⟩
      rw [← hn ho, List.append_nil]
    · rw [h2] at ho; cases ho
  · intro e ho
    have ho : (andThen (fun c => collect pick (c.map f)) (s.tryChunks n).fail (s.tryChunks n).items).fail = some e := ho
    rcases ht with ⟨rfl, h2⟩ | ⟨x, t, e', rfl, he, h2⟩
    · rw [h2, hf] at ho; exact .inl ho
    · rw [h2] at ho
      cases ho
      obtain ⟨y, hy, hye⟩ := List.mem_map.mp (collect_error he)
      refine .inr ⟨y, ?_, hye⟩
      apply hp.subset
      simp only [List.flatten_append, List.mem_append, List.mem_flatten]
      exact .inr ⟨x, List.mem_cons_self, hy⟩

/-! ### Layout and hash -/

theorem verifyLayout_ok {lib : Lib} {x y : P × Raw} (h : verifyLayout lib x = .ok y) :
    y = x ∧ lib.parses x.2.defn = true := by
  unfold verifyLayout at h
  split at h
  · next hp => cases h; exact ⟨rfl, hp⟩
  · cases h

theorem verifyLayout_error {lib : Lib} {x : P × Raw} {e : Err P} (h : verifyLayout lib x = .error e) :
    e.blamed = some x.1 ∧ ¬ Valid lib x.2 := by
  unfold verifyLayout at h
  split at h
  · cases h
  · next hp => cases h; exact ⟨rfl, fun v => hp v.1⟩

theorem verifyHash_ok {lib : Lib} {x y : P × Raw} (h : verifyHash lib x = .ok y) :
    y = x ∧ lib.hashOf x.2.defn = some x.2.hash := by
  unfold verifyHash at h
  split at h
  · cases h
  · next k hk =>
    split at h
    · next he => cases h; exact ⟨rfl, by rw [hk, he]⟩
    · cases h

theorem verifyHash_error {lib : Lib} {x : P × Raw} {e : Err P} (h : verifyHash lib x = .error e) :
    e.blamed = some x.1 ∧ ¬ Valid lib x.2 := by
  unfold verifyHash at h
  split at h
  · next hk => cases h; exact ⟨rfl, fun v => by have h2 := v.2; rw [hk] at h2; cases h2⟩
  · next k hk =>
    split at h
    · cases h
    · next he => cases h; exact ⟨rfl, fun v => he (by have h2 := v.2; rw [hk] at h2; exact Option.some.inj h2)⟩

/-- The stream after the two checks. -/
def checked (lib : Lib) (pick : List (Err P) → Nat) (n : Nat) (feed : Feed P (P × Raw)) : Feed P (List (P × Raw)) :=
  let laid := andThen (verifyLayout lib) feed.fail feed.items
  andThen (fun c => collect pick (c.map (verifyHash lib))) (laid.tryChunks n).fail (laid.tryChunks n).items

theorem map_ok_self {α : Type} {f : α → Except (Err P) α} {p : α → Prop} (hf : ∀ {x y}, f x = .ok y → y = x ∧ p x) :
    ∀ {a b : List α}, a.map f = b.map .ok → b = a ∧ ∀ x ∈ a, p x := by
  intro a
  induction a with
  | nil => intro b hb; cases b with | nil => exact ⟨rfl, by simp⟩ | cons => cases hb
  | cons x a ih =>
    intro b hb
    cases b with
    | nil => cases hb
    | cons y b =>
      simp only [List.map_cons, List.cons.injEq] at hb
      obtain ⟨rfl, h1⟩ := hf hb.1
      obtain ⟨rfl, h2⟩ := ih hb.2
      refine ⟨rfl, ?_⟩
      intro z hz
      rcases List.mem_cons.mp hz with rfl | hz
      · exact h1
      · exact h2 z hz

theorem checked_spec (lib : Lib) (pick : List (Err P) → Nat) (n : Nat) (feed : Feed P (P × Raw)) :
    (checked lib pick n feed).items.flatten <+: feed.items ∧
    (∀ x ∈ (checked lib pick n feed).items.flatten, Valid lib x.2) ∧
    ((checked lib pick n feed).fail = none →
      (checked lib pick n feed).items.flatten = feed.items ∧ feed.fail = none) ∧
    ∀ e, (checked lib pick n feed).fail = some e → feed.fail = some e ∨
      ∃ x ∈ feed.items, e.blamed = some x.1 ∧ ¬ Valid lib x.2 := by
  obtain ⟨pre, suf, hx, hm, ht⟩ := andThen_spec (verifyLayout lib) feed.fail feed.items
  obtain ⟨h1, h2⟩ := map_ok_self (fun h => verifyLayout_ok h) hm
  obtain ⟨⟨pre', hp', hm', hn'⟩, he'⟩ := chunked_spec (verifyHash lib) pick n (andThen (verifyLayout lib) feed.fail feed.items)
  obtain ⟨h3, h4⟩ := map_ok_self (fun h => verifyHash_ok h) hm'
  have h3 : (checked lib pick n feed).items.flatten = pre' := h3
  rw [h1] at hp'
  rw [h3]
  refine ⟨?_, ?_, ?_, ?_⟩
  · rw [hx]; exact hp'.trans (List.prefix_append _ _)
  · intro x hx'
    exact ⟨h2 x (hp'.subset hx'), h4 x hx'⟩
  · intro hf
    obtain ⟨h5, h6⟩ := hn' hf
    rcases ht with ⟨rfl, h7⟩ | ⟨x, t, e, _, _, h7⟩
    · rw [h7] at h6
      refine ⟨?_, h6⟩
      rw [h5, h1, hx, List.append_nil]
    · rw [h7] at h6; cases h6
  · intro e hf
    rcases he' e hf with h5 | ⟨x, hx', hxe⟩
    · rcases ht with ⟨_, h7⟩ | ⟨x, t, e', h8, h9, h7⟩
      · rw [h7] at h5; exact .inl h5
      · rw [h7] at h5
        cases h5
        exact .inr ⟨x, by rw [hx, h8]; simp, verifyLayout_error h9⟩
    · rw [h1] at hx'
      exact .inr ⟨x, by rw [hx]; exact List.mem_append_left _ hx', verifyHash_error hxe⟩

/-! ### Declared classes -/

/-- The loop over one block. -/
theorem verifyBlock_prefix (b : Nat) (fail : Option (Err P)) (items : List (P × Raw)) : ∀ declared,
    (verifyBlock b fail declared items).1 <+: items ∧
    (∀ x ∈ (verifyBlock b fail declared items).1, x.2.block = b ∧ x.2.hash ∈ declared) ∧
    (∀ rest, (verifyBlock b fail declared items).2 = .go rest → items = (verifyBlock b fail declared items).1 ++ rest) := by
  induction items with
  | nil =>
    intro declared
    unfold verifyBlock
    split
    · refine ⟨List.prefix_refl _, fun x hx => (by cases hx), fun rest h => ?_⟩
      simp only [After.go.injEq] at h; subst h; rfl
    · exact ⟨List.prefix_refl _, fun x hx => (by cases hx), fun rest h => (by cases h)⟩
  | cons x items ih =>
    intro declared
    obtain ⟨p, r⟩ := x
    unfold verifyBlock
    split
    · refine ⟨List.nil_prefix, fun x hx => (by cases hx), fun rest h => ?_⟩
      simp only [After.go.injEq] at h; subst h; rfl
    · split
      · exact ⟨List.nil_prefix, fun x hx => (by cases hx), fun rest h => (by cases h)⟩
      · next hb =>
        split
        · next hm =>
          obtain ⟨h1, h2, h3⟩ := ih (declared.erase r.hash)
          simp only
          refine ⟨List.cons_prefix_cons.mpr ⟨rfl, h1⟩, ?_, ?_⟩
          · intro x hx
            rcases List.mem_cons.mp hx with rfl | hx
            · exact ⟨(Classical.not_not.mp hb).symm, hm⟩
            · exact ⟨(h2 x hx).1, List.mem_of_mem_erase (h2 x hx).2⟩
          · intro rest hr
            rw [List.cons_append, ← h3 rest hr]
        · exact ⟨List.nil_prefix, fun x hx => (by cases hx), fun rest h => (by cases h)⟩

theorem verifyDeclared_prefix (fail : Option (Err P)) (expected : List (Except Unit (Nat × List Nat))) :
    ∀ items : List (P × Raw), (verifyDeclared fail expected items).items <+: items ∧
      ∀ x ∈ (verifyDeclared fail expected items).items, ∃ d, .ok (x.2.block, d) ∈ expected ∧ x.2.hash ∈ d := by
  induction expected with
  | nil => intro items; exact ⟨List.nil_prefix, fun x hx => (by cases hx)⟩
  | cons e expected ih =>
    intro items
    cases e with
    | error u => exact ⟨List.nil_prefix, fun x hx => (by cases hx)⟩
    | ok bd =>
      obtain ⟨b, d⟩ := bd
      obtain ⟨h1, h2, h3⟩ := verifyBlock_prefix b fail items d
      unfold verifyDeclared
      cases hv : verifyBlock b fail d items with
      | mk out a =>
        rw [hv] at h1 h2 h3
        cases a with
        | stop e =>
          refine ⟨h1, fun x hx => ?_⟩
          obtain ⟨rfl, h5⟩ := h2 x hx
          exact ⟨d, List.mem_cons_self, h5⟩
        | go rest =>
          have h4 : items = out ++ rest := h3 rest rfl
          obtain ⟨h5, h6⟩ := ih rest
          refine ⟨?_, ?_⟩
          · simp only [h4]
            exact List.prefix_append_right_inj _ |>.mpr h5
          · intro x hx
            rcases List.mem_append.mp hx with hx | hx
            · obtain ⟨rfl, h7⟩ := h2 x hx
              exact ⟨d, List.mem_cons_self, h7⟩
            · obtain ⟨d', h7, h8⟩ := h6 x hx
              exact ⟨d', List.mem_cons_of_mem _ h7, h8⟩

/-- The loop over one block, given the definitions of one peer for it (all or a part of them). -/
theorem verifyBlock_own (b : Nat) (fail : Option (Err P)) (p : P) (rs : List Raw) (rest : List (P × Raw)) :
    ∀ declared, (∀ r ∈ rs, r.block = b) → rs.length = declared.length →
      ((rs.map (·.hash)).Perm declared ∧
        verifyBlock b fail declared (rs.map (fun r => (p, r)) ++ rest) = (rs.map (fun r => (p, r)), .go rest)) ∨
      (¬ (rs.map (·.hash)).Perm declared ∧
        (verifyBlock b fail declared (rs.map (fun r => (p, r)) ++ rest)).2 = .stop (some (.unexpected p))) := by
  induction rs with
  | nil =>
    intro declared _ hl
    have : declared = [] := List.eq_nil_of_length_eq_zero hl.symm
    subst this
    refine .inl ⟨List.Perm.refl _, ?_⟩
    cases rest with
    | nil => rfl
    | cons x rest => rfl
  | cons r rs ih =>
    intro declared hb hl
    have hne : declared.isEmpty = false := by cases declared with | nil => cases hl | cons => rfl
    have hrb : r.block = b := hb r List.mem_cons_self
    by_cases hm : r.hash ∈ declared
    · have hl' : rs.length = (declared.erase r.hash).length := by
        rw [List.length_erase_of_mem hm]; simp at hl; omega
      have hperm : (declared.erase r.hash).length = rs.length := hl'.symm
      rcases ih (declared.erase r.hash) (fun x hx => hb x (List.mem_cons_of_mem _ hx)) hl' with ⟨h1, h2⟩ | ⟨h1, h2⟩
      · refine .inl ⟨?_, ?_⟩
        · exact (List.Perm.cons _ h1).trans (List.perm_cons_erase hm).symm
        · simp [verifyBlock, hne, hrb, hm, h2]
      · refine .inr ⟨fun hp => h1 ?_, ?_⟩
        · exact List.Perm.cons_inv (hp.trans (List.perm_cons_erase hm))
        · simp [verifyBlock, hne, hrb, hm, h2]
    · refine .inr ⟨fun hp => hm (hp.mem_iff.mp List.mem_cons_self), ?_⟩
      simp [verifyBlock, hne, hrb, hm]

/-- The same when the stream ends within the block. -/
theorem verifyBlock_cut (b : Nat) (fail : Option (Err P)) (p : P) (rs more : List Raw) :
    ∀ declared, (∀ r ∈ rs, r.block = b) → rs.length + more.length = declared.length →
      (verifyBlock b fail declared (rs.map (fun r => (p, r)))).2 = .stop fail ∨
      (more = [] ∧ (verifyBlock b fail declared (rs.map (fun r => (p, r)))).2 = .go []) ∨
      (¬ ((rs ++ more).map (·.hash)).Perm declared ∧
        (verifyBlock b fail declared (rs.map (fun r => (p, r)))).2 = .stop (some (.unexpected p))) := by
  induction rs with
  | nil =>
    intro declared _ hl
    cases declared with
    | nil =>
      refine .inr (.inl ⟨?_, rfl⟩)
      simp at hl; exact hl
    | cons d ds => exact .inl rfl
  | cons r rs ih =>
    intro declared hb hl
    have hne : declared.isEmpty = false := by cases declared with | nil => simp at hl | cons => rfl
    have hrb : r.block = b := hb r List.mem_cons_self
    by_cases hm : r.hash ∈ declared
    · have hl' : rs.length + more.length = (declared.erase r.hash).length := by
        rw [List.length_erase_of_mem hm]; simp at hl; omega
      rcases ih (declared.erase r.hash) (fun x hx => hb x (List.mem_cons_of_mem _ hx)) hl' with h2 | ⟨h1, h2⟩ | ⟨h1, h2⟩
      · exact .inl (by simp [verifyBlock, hne, hrb, hm, h2])
      · exact .inr (.inl ⟨h1, by simp [verifyBlock, hne, hrb, hm, h2]⟩)
      · refine .inr (.inr ⟨fun hp => h1 ?_, ?_⟩)
        · exact List.Perm.cons_inv (hp.trans (List.perm_cons_erase hm))
        · simp [verifyBlock, hne, hrb, hm, h2]
    · refine .inr (.inr ⟨fun hp => hm (hp.mem_iff.mp List.mem_cons_self), ?_⟩)
      simp [verifyBlock, hne, hrb, hm]

/-- Only blocks without a fault are expected. -/
theorem expected_mem {db : Db} {fault : Nat → Bool} {b : Nat} {d : List Nat} : ∀ {n start},
    .ok (b, d) ∈ db.expected fault start n → start ≤ b ∧ b < start + n ∧ ∃ l, db.declaredAt b = some l ∧ d = l.eraseDups := by
  intro n
  induction n with
  | zero => intro start h; cases h
  | succ n ih =>
    intro start h
    unfold Db.expected at h
    split at h
    · simp at h
    · split at h
      · simp at h
      · next l hl =>
        split at h
        · obtain ⟨h1, h2, h3⟩ := ih h
          exact ⟨by omega, by omega, h3⟩
        · rcases List.mem_cons.mp h with h | h
          · simp only [Except.ok.injEq, Prod.mk.injEq] at h
            obtain ⟨rfl, rfl⟩ := h
            exact ⟨by omega, by omega, l, hl, rfl⟩
          · obtain ⟨h1, h2, h3⟩ := ih h
            exact ⟨by omega, by omega, h3⟩

theorem eraseDups_nodup : ∀ {l : List Nat}, l.Nodup → l.eraseDups = l := by
  intro l
  induction l with
  | nil => intro _; rfl
  | cons a l ih =>
    intro h
    rw [List.eraseDups_cons]
    have h2 := List.nodup_cons.mp h
    have : l.filter (fun b => !b == a) = l := by
      apply List.filter_eq_self.mpr
      intro b hb
      have : b ≠ a := fun e => h2.1 (e ▸ hb)
      simpa using this
    rw [this, ih h2.2]

theorem prefix_append_cases {α : Type} {a b c : List α} (h : a <+: b ++ c) :
    (∃ a', a = b ++ a' ∧ a' <+: c) ∨ ∃ more, more ≠ [] ∧ b = a ++ more := by
  obtain ⟨t, ht⟩ := h
  rcases List.append_eq_append_iff.mp ht with ⟨x, h1, h2⟩ | ⟨x, h1, h2⟩
  · cases x with
    | nil => exact .inl ⟨[], by rw [h1]; simp, List.nil_prefix⟩
    | cons y ys => exact .inr ⟨y :: ys, by simp, h1⟩
  · exact .inl ⟨x, h1, ⟨t, h2.symm⟩⟩

/-- Checking declarations of whole blocks: what can end it, and that it is exact. -/
theorem verifyDeclared_fed {db : Db} (hdb : ∀ b l, db.declaredAt b = some l → l.Nodup) {fault : Nat → Bool}
    {fail : Option (Err P)} : ∀ (k m start : Nat) (sent : List (Sent P)) (items : List (P × Raw)),
      Fed db start k sent → items <+: itemsOf sent →
      (∀ e, (verifyDeclared fail (db.expected fault start m) items).fail = some e →
        fail = some e ∨ ∃ s ∈ sent, e = .unexpected s.peer ∧
          ∀ l, db.declaredAt s.block = some l → ¬ (s.classes.map (·.hash)).Perm l) ∧
      ((∀ b, fault b = false) → m = k → (fail = none → items = itemsOf sent) →
        (verifyDeclared fail (db.expected fault start m) items).fail = none →
        (verifyDeclared fail (db.expected fault start m) items).items = itemsOf sent ∧
          ∀ s ∈ sent, ∃ l, db.declaredAt s.block = some l ∧ (s.classes.map (·.hash)).Perm l) := by
  intro k
  induction k with
  | zero =>
    intro m start sent items hfed hpre
    have hs : sent = [] := by
      have := hfed.blocks
      simpa using this
    subst hs
    have hi : items = [] := by simpa [itemsOf] using hpre
    subst hi
    refine ⟨?_, ?_⟩
    · intro e he
      cases hx : db.expected fault start m with
      | nil => rw [hx] at he; cases he
      | cons x xs =>
        rw [hx] at he
        cases x with
        | error u => cases he
        | ok bd =>
          obtain ⟨b, d⟩ := bd
          unfold verifyDeclared verifyBlock at he
          by_cases hd : d.isEmpty
          · rw [if_pos hd] at he
            simp only at he
            have hmem : Except.ok (b, d) ∈ db.expected fault start m := by rw [hx]; exact List.mem_cons_self
            exfalso
            have : ∀ {n start}, Except.ok (b, d) ∈ db.expected fault start n → d ≠ [] := by
              intro n
              induction n with
              | zero => intro start h; cases h
              | succ n ih =>
                intro start h
                unfold Db.expected at h
                split at h
                · simp at h
                · split at h
                  · simp at h
                  · next l hl =>
                    split at h
                    · exact ih h
                    · next hne =>
                      rcases List.mem_cons.mp h with h | h
                      · simp only [Except.ok.injEq, Prod.mk.injEq] at h
                        obtain ⟨_, rfl⟩ := h
                        rw [eraseDups_nodup (hdb _ _ hl)]
                        simpa using hne
                      · exact ih h
            exact this hmem (List.isEmpty_iff.mp hd)
          · rw [if_neg hd] at he
            exact .inl he
    · intro _ hm _ _
      subst hm
      exact ⟨rfl, fun s hs => (by cases hs)⟩
  | succ k ih =>
    intro m start sent items hfed hpre
    cases sent with
    | nil => have := hfed.blocks; simp at this
    | cons s sent =>
      have hblocks := hfed.blocks
      rw [List.map_cons, List.range'_succ, List.cons.injEq] at hblocks
      obtain ⟨hsb, hrest⟩ := hblocks
      have hfed' : Fed db (start + 1) k sent :=
        ⟨hrest, fun x hx => hfed.own x (List.mem_cons_of_mem _ hx), fun x hx => hfed.count x (List.mem_cons_of_mem _ hx)⟩
      obtain ⟨l, hl, hlen⟩ := hfed.count s List.mem_cons_self
      have hown := hfed.own s List.mem_cons_self
      have hitems : itemsOf (s :: sent) = s.classes.map (fun r => (s.peer, r)) ++ itemsOf sent := rfl
      rw [hsb] at hl
      cases m with
      | zero =>
        refine ⟨fun e he => (by cases he), fun _ hm => (by omega)⟩
      | succ m =>
        by_cases hf : fault start = true
        · have hx : db.expected fault start (m + 1) = [.error ()] := by
            unfold Db.expected; rw [if_pos hf]
          rw [hx]
          exact ⟨fun e he => (by cases he), fun h => (by rw [h] at hf; cases hf)⟩
        · by_cases hle : l.isEmpty
          · have hc : s.classes = [] := by
              have : l = [] := List.isEmpty_iff.mp hle
              subst this
              exact List.eq_nil_of_length_eq_zero hlen.symm
            have hx : db.expected fault start (m + 1) = db.expected fault (start + 1) m := by
              conv => lhs; unfold Db.expected
              rw [if_neg hf, hl]
              simp only
              rw [if_pos hle]
            have hit : itemsOf (s :: sent) = itemsOf sent := by rw [hitems, hc]; rfl
            rw [hx]
            rw [hit] at hpre ⊢
            obtain ⟨h1, h2⟩ := ih m (start + 1) sent items hfed' hpre
            refine ⟨?_, ?_⟩
            · intro e he
              rcases h1 e he with h | ⟨s', hs', h⟩
              · exact .inl h
              · exact .inr ⟨s', List.mem_cons_of_mem _ hs', h⟩
            · intro hff hm hi hn
              obtain ⟨h3, h4⟩ := h2 hff (by omega) hi hn
              refine ⟨h3, ?_⟩
              intro s' hs'
              rcases List.mem_cons.mp hs' with rfl | hs'
              · refine ⟨l, by rw [hsb]; exact hl, ?_⟩
                rw [hc, List.isEmpty_iff.mp hle]
                exact List.Perm.refl _
              · exact h4 s' hs'
          · have hx : db.expected fault start (m + 1) = .ok (start, l) :: db.expected fault (start + 1) m := by
              conv => lhs; unfold Db.expected
              rw [if_neg hf, hl]
              simp only
              rw [if_neg hle, eraseDups_nodup (hdb _ _ hl)]
            rw [hx]
            have hown' : ∀ r ∈ s.classes, r.block = start := fun r hr => by rw [hown r hr, hsb]
            rw [hitems] at hpre
            rcases prefix_append_cases hpre with ⟨items', rfl, hpre'⟩ | ⟨more, hne, hmore⟩
            · rcases verifyBlock_own start fail s.peer s.classes items' l hown' hlen.symm with ⟨hp, hv⟩ | ⟨hp, hv⟩
              · obtain ⟨h1, h2⟩ := ih m (start + 1) sent items' hfed' hpre'
                have he1 : (verifyDeclared fail (.ok (start, l) :: db.expected fault (start + 1) m)
                    (s.classes.map (fun r => (s.peer, r)) ++ items')).fail =
                    (verifyDeclared fail (db.expected fault (start + 1) m) items').fail := by
                  conv => lhs; unfold verifyDeclared
                  rw [hv]
                have he2 : (verifyDeclared fail (.ok (start, l) :: db.expected fault (start + 1) m)
                    (s.classes.map (fun r => (s.peer, r)) ++ items')).items =
                    s.classes.map (fun r => (s.peer, r)) ++ (verifyDeclared fail (db.expected fault (start + 1) m) items').items := by
                  conv => lhs; unfold verifyDeclared
                  rw [hv]
                rw [he1, he2]
                refine ⟨?_, ?_⟩
                · intro e he
                  rcases h1 e he with h | ⟨s', hs', h⟩
                  · exact .inl h
                  · exact .inr ⟨s', List.mem_cons_of_mem _ hs', h⟩
                · intro hff hm hi hn
                  rw [hitems] at hi
                  obtain ⟨h3, h4⟩ := h2 hff (by omega) (fun h => List.append_cancel_left (hi h)) hn
                  refine ⟨by rw [h3, hitems], ?_⟩
                  intro s' hs'
                  rcases List.mem_cons.mp hs' with rfl | hs'
                  · exact ⟨l, by rw [hsb]; exact hl, hp⟩
                  · exact h4 s' hs'
              · have he1 : (verifyDeclared fail (.ok (start, l) :: db.expected fault (start + 1) m)
                    (s.classes.map (fun r => (s.peer, r)) ++ items')).fail = some (.unexpected s.peer) := by
                  unfold verifyDeclared
                  cases hv' : verifyBlock start fail l (s.classes.map (fun r => (s.peer, r)) ++ items') with
                  | mk out a => rw [hv'] at hv; simp only at hv; subst hv; rfl
                rw [he1]
                refine ⟨?_, fun _ _ _ hn => (by cases hn)⟩
                intro e he
                cases he
                refine .inr ⟨s, List.mem_cons_self, rfl, ?_⟩
                intro l' hl'
                rw [hsb, hl] at hl'
                cases hl'
                exact hp
            · -- the stream ends within the block
              obtain ⟨rs, more', hrs, hri, hrm⟩ := List.map_eq_append_iff.mp hmore
              subst hri
              have hm' : more' ≠ [] := fun h => hne (by rw [← hrm, h]; rfl)
              have hlen2 : rs.length + more'.length = l.length := by
                rw [hlen, hrs, List.length_append]
              have hown2 : ∀ r ∈ rs, r.block = start := fun r hr => hown' r (by rw [hrs]; exact List.mem_append_left _ hr)
              rcases verifyBlock_cut start fail s.peer rs more' l hown2 hlen2 with hv | ⟨hm0, hv⟩ | ⟨hp, hv⟩
              · have he1 : (verifyDeclared fail (.ok (start, l) :: db.expected fault (start + 1) m)
                    (rs.map (fun r => (s.peer, r)))).fail = fail := by
                  unfold verifyDeclared
                  cases hv' : verifyBlock start fail l (rs.map (fun r => (s.peer, r))) with
                  | mk out a => rw [hv'] at hv; simp only at hv; subst hv; rfl
                rw [he1]
                refine ⟨fun e he => .inl he, ?_⟩
                intro _ _ hi hn
                exfalso
                have hlen3 := congrArg List.length (hi hn)
                rw [hitems, hrs] at hlen3
                simp only [List.length_map, List.length_append] at hlen3
                exact hm' (List.eq_nil_of_length_eq_zero (by omega))
              · exact absurd hm0 hm'
              · have he1 : (verifyDeclared fail (.ok (start, l) :: db.expected fault (start + 1) m)
                    (rs.map (fun r => (s.peer, r)))).fail = some (.unexpected s.peer) := by
                  unfold verifyDeclared
                  cases hv' : verifyBlock start fail l (rs.map (fun r => (s.peer, r))) with
                  | mk out a => rw [hv'] at hv; simp only at hv; subst hv; rfl
                rw [he1]
                refine ⟨?_, fun _ _ _ hn => (by cases hn)⟩
                intro e he
                cases he
                refine .inr ⟨s, List.mem_cons_self, rfl, ?_⟩
                intro l' hl'
                rw [hsb, hl] at hl'
                cases hl'
                rw [hrs]
                exact hp

end Verif.ClassSync
