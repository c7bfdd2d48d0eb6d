import Verif.Head.Spec
namespace Verif.Head

theorem linked_cons {a : Blk} {l : List Blk} (h : Linked (a :: l)) : Linked l := by
  cases l with
  | nil => trivial
  | cons b l => exact h.2

/-- The numbers of a chain go up by one. -/
theorem linked_get {a : Blk} : {l : List Blk} → Linked (a :: l) → ∀ (i : Nat) (b : Blk), (a :: l)[i]? = some b → b.number = a.number + i
  | l, h, 0, b, hb => by simp at hb; subst hb; rfl
  | [], h, i + 1, b, hb => by simp at hb
  | c :: l, h, i + 1, b, hb => by
    have := linked_get h.2 i b (by simpa using hb)
    rw [this, h.1.1]; omega

theorem linked_lt {l : List Blk} (h : Linked l) : l.Pairwise (fun a b => a.number < b.number) := by
  cases l with
  | nil => exact .nil
  | cons a l =>
    rw [List.pairwise_iff_getElem]
    intro i j hi hj hij
    rw [linked_get h i _ (List.getElem?_eq_getElem hi), linked_get h j _ (List.getElem?_eq_getElem hj)]
    omega

theorem block_mem {db : DB} {n : Nat} {b : Blk} (h : db.block n = some b) : b ∈ db.blocks ∧ b.number = n := by
  have := List.find?_some h
  exact ⟨List.mem_of_find?_eq_some h, by simpa using this⟩

theorem find_of_mem {l : List Blk} (hp : l.Pairwise (fun a b => a.number < b.number)) {b : Blk} (hb : b ∈ l) :
    (l.find? fun c => c.number == b.number) = some b := by
  induction l with
  | nil => cases hb
  | cons a l ih =>
    rw [List.pairwise_cons] at hp
    rw [List.find?_cons]
    rcases List.mem_cons.mp hb with rfl | hb
    · simp
    · have := hp.1 b hb
      have hne : (a.number == b.number) = false := by simp; omega
      simp only [hne]
      exact ih hp.2 hb

theorem block_of_mem {db : DB} (h : Linked db.blocks) {b : Blk} (hb : b ∈ db.blocks) : db.block b.number = some b :=
  find_of_mem (linked_lt h) hb

theorem block_iff {db : DB} (h : Linked db.blocks) (n : Nat) (b : Blk) : db.block n = some b ↔ b ∈ db.blocks ∧ b.number = n :=
  ⟨block_mem, fun ⟨hb, hn⟩ => hn ▸ block_of_mem h hb⟩

theorem latest_fold {l : List Blk} (hp : l.Pairwise (fun a b => a.number < b.number)) : ∀ m : Option Blk,
    (∀ a ∈ m, ∀ b ∈ l, a.number < b.number) →
    l.foldl (fun m b => if m.all (·.number < b.number) then some b else m) m = l.getLast?.or m := by
  induction l with
  | nil => intro m _; simp
  | cons a l ih =>
    intro m hm
    rw [List.pairwise_cons] at hp
    rw [List.foldl_cons]
    have : (m.all fun x => decide (x.number < a.number)) = true := by
      cases m with
      | none => rfl
      | some x => simpa using hm x rfl a (by simp)
    rw [if_pos this, ih hp.2]
    · cases l with
      | nil => simp
      | cons c l =>
        rw [List.getLast?_cons_cons]
        cases hgl : (c :: l).getLast? with
        | none => simp at hgl
        | some x => rfl
    · intro x hx b hb
      cases hx
      exact hp.1 b hb

/-- The latest block is the last of the chain. -/
theorem latest_eq {db : DB} (h : Linked db.blocks) : db.latest = db.blocks.getLast? := by
  rw [DB.latest, latest_fold (linked_lt h) none (fun a ha => by cases ha), Option.or_none]

theorem le_last {l : List Blk} (h : Linked l) {x b : Blk} (hx : l.getLast? = some x) (hb : b ∈ l) : b.number ≤ x.number := by
  cases l with
  | nil => cases hb
  | cons a l =>
    obtain ⟨i, hi, rfl⟩ := List.mem_iff_getElem.mp hb
    rw [List.getLast?_eq_getElem?] at hx
    rw [linked_get h i _ (List.getElem?_eq_getElem hi), linked_get h _ _ hx]
    omega

theorem head_le {a : Blk} {l : List Blk} (h : Linked (a :: l)) {b : Blk} (hb : b ∈ a :: l) : a.number ≤ b.number := by
  obtain ⟨i, hi, rfl⟩ := List.mem_iff_getElem.mp hb
  rw [linked_get h i _ (List.getElem?_eq_getElem hi)]
  omega

/-- Every number between two stored ones is stored. -/
theorem between {l : List Blk} (h : Linked l) {b c : Blk} (hb : b ∈ l) (hc : c ∈ l) {n : Nat} (h1 : b.number ≤ n) (h2 : n ≤ c.number) :
    ∃ d ∈ l, d.number = n := by
  cases l with
  | nil => cases hb
  | cons a l =>
    obtain ⟨i, hi, rfl⟩ := List.mem_iff_getElem.mp hb
    obtain ⟨j, hj, rfl⟩ := List.mem_iff_getElem.mp hc
    rw [linked_get h i _ (List.getElem?_eq_getElem hi)] at h1
    rw [linked_get h j _ (List.getElem?_eq_getElem hj)] at h2
    have hk : n - a.number < (a :: l).length := by omega
    refine ⟨(a :: l)[n - a.number], List.getElem_mem hk, ?_⟩
    rw [linked_get h _ _ (List.getElem?_eq_getElem hk)]
    omega

theorem mem_genesis {l : List Blk} (h : Linked l) (hg : FromGenesis l) {b : Blk} (hb : b ∈ l) {n : Nat} (hn : n ≤ b.number) :
    ∃ d ∈ l, d.number = n := by
  cases l with
  | nil => cases hb
  | cons a l =>
    have := hg a rfl
    exact between h (List.mem_cons_self ..) hb (by omega) hn

theorem Anc.trans {a b c : Blk} (h1 : Anc a b) (h2 : Anc b c) : Anc a c := by
  induction h2 with
  | refl => exact h1
  | step _ hn ih => exact .step ih hn

/-- In a chain the earlier block is an ancestor of the later. -/
theorem linked_anc : {l : List Blk} → Linked l → ∀ {b c : Blk}, b ∈ l → c ∈ l → b.number ≤ c.number → Anc b c
  | [], _, _, _, hb, _, _ => by cases hb
  | [a], _, b, c, hb, hc, _ => by
    simp at hb hc; subst hb; subst hc; exact .refl
  | a :: d :: l, h, b, c, hb, hc, hle => by
    rcases List.mem_cons.mp hb with rfl | hb'
    · rcases List.mem_cons.mp hc with rfl | hc'
      · exact .refl
      · exact ((Anc.refl).step h.1).trans (linked_anc h.2 (List.mem_cons_self ..) hc' (head_le h.2 hc'))
    · rcases List.mem_cons.mp hc with rfl | hc'
      · have := head_le h.2 hb'
        have := h.1.1
        omega
      · exact linked_anc h.2 hb' hc' hle

theorem linked_append {l : List Blk} (h : Linked l) {b : Blk} (hb : ∀ x, l.getLast? = some x → Next x b) : Linked (l ++ [b]) := by
  induction l with
  | nil => trivial
  | cons a l ih =>
    cases l with
    | nil => exact ⟨hb a rfl, trivial⟩
    | cons c l =>
      refine ⟨h.1, ih h.2 fun x hx => hb x ?_⟩
      rw [List.getLast?_cons_cons]; exact hx

theorem filter_below {l : List Blk} (h : Linked l) (t : Nat) : Linked (l.filter fun b => b.number < t) := by
  induction l with
  | nil => trivial
  | cons a l ih =>
    by_cases ha : a.number < t
    · rw [List.filter_cons_of_pos (by simpa using ha)]
      cases l with
      | nil => trivial
      | cons c l =>
        by_cases hc : c.number < t
        · have := ih h.2
          rw [List.filter_cons_of_pos (by simpa using hc)] at this ⊢
          exact ⟨h.1, this⟩
        · have : (c :: l).filter (fun b => decide (b.number < t)) = [] := by
            rw [List.filter_eq_nil_iff]
            intro x hx
            have := head_le h.2 hx
            simp; omega
          rw [this]; trivial
    · rw [List.filter_cons_of_neg (by simpa using ha)]
      exact ih (linked_cons h)

theorem filter_above {l : List Blk} (h : Linked l) (t : Nat) : Linked (l.filter fun b => !(b.number < t)) := by
  induction l with
  | nil => trivial
  | cons a l ih =>
    by_cases ha : a.number < t
    · rw [List.filter_cons_of_neg (by simpa using ha)]
      exact ih (linked_cons h)
    · have : (a :: l).filter (fun b => !decide (b.number < t)) = a :: l := by
        rw [List.filter_eq_self]
        intro x hx
        have := head_le h hx
        simp; omega
      rw [this]; exact h

/-- Nothing is above the last block, so that a reorg leaves what is below its tail. -/
theorem reorg_filter {l : List Blk} (h : Linked l) {x : Blk} (hx : l.getLast? = some x) (t : Nat) :
    (l.filter fun b => b.number < t || x.number < b.number) = l.filter fun b => b.number < t := by
  apply List.filter_congr
  intro b hb
  have := le_last h hx hb
  have : decide (x.number < b.number) = false := by simp; omega
  rw [this, Bool.or_false]

theorem last_filter_above {l : List Blk} (h : Linked l) {x : Blk} (hx : l.getLast? = some x) {t : Nat} (ht : t ≤ x.number) :
    (l.filter fun b => !(b.number < t)).getLast? = some x := by
  have hx' := List.getLast?_eq_some_iff.mp hx
  obtain ⟨ys, rfl⟩ := hx'
  rw [List.filter_append, List.filter_cons_of_pos (by simp; omega)]
  simp

theorem genesis_below {l : List Blk} (h : Linked l) (hg : FromGenesis l) (t : Nat) : FromGenesis (l.filter fun b => b.number < t) := by
  intro b hb
  cases l with
  | nil => cases hb
  | cons a l =>
    have ha := hg a rfl
    by_cases hat : a.number < t
    · rw [List.filter_cons_of_pos (by simpa using hat)] at hb
      simp at hb; subst hb; exact ha
    · have : (a :: l).filter (fun b => decide (b.number < t)) = [] := by
        rw [List.filter_eq_nil_iff]
        intro x hx
        simp; omega
      rw [this] at hb; cases hb

theorem genesis_append {l : List Blk} (hg : FromGenesis l) {b : Blk} (hb : l = [] → b.number = 0) : FromGenesis (l ++ [b]) := by
  intro x hx
  cases l with
  | nil => simp at hx; subst hx; exact hb rfl
  | cons a l => simp at hx; subst hx; exact hg a rfl

/-- The last block below `t`, when the block before `t` is stored. -/
theorem last_below {l : List Blk} (h : Linked l) {d : Blk} (hd : d ∈ l) : (l.filter fun b => b.number < d.number + 1).getLast? = some d := by
  have hm : d ∈ l.filter fun b => b.number < d.number + 1 := by simp [hd]
  cases hl : (l.filter fun b => b.number < d.number + 1).getLast? with
  | none => rw [List.getLast?_eq_none_iff] at hl; rw [hl] at hm; cases hm
  | some x =>
    have hx := List.mem_of_getLast? hl
    have hle := le_last (filter_below h (d.number + 1)) hl hm
    rw [List.mem_filter] at hx
    have hxn : x.number = d.number := by have := hx.2; simp at this; omega
    have h1 := find_of_mem (linked_lt h) hx.1
    have h2 := find_of_mem (linked_lt h) hd
    rw [hxn, h2] at h1
    exact h1.symm

end Verif.Head
