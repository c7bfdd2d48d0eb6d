import Verif.Sync.Headers
import Verif.Sync.PipelineProps

/-!
# Continuity (C39) and gaps (C40) of stored headers
-/

namespace Verif.Sync

variable {P H B S : Type}

/-! ## Specification -/

/-- Consecutive headers from number `n` on, the first with parent `h`, each the parent of the next. -/
def LinkedUp (n : Nat) (h : H) (ys : List (Header H B S)) : Prop :=
  ∀ i x, ys[i]? = some x → x.number = n + i ∧ (i = 0 → x.parent = h) ∧
    ∀ y, i ≠ 0 → ys[i - 1]? = some y → x.parent = y.hash

/-- Consecutive headers from number `n` downwards, the first with hash `h`, each the child of the next. -/
def LinkedDown (n : Nat) (h : H) (ys : List (Header H B S)) : Prop :=
  ∀ i x, ys[i]? = some x → x.number + i = n ∧ (i = 0 → x.hash = h) ∧
    ∀ y, i ≠ 0 → ys[i - 1]? = some y → x.hash = y.parent

/-- A header with this number is stored. -/
def Stored (db : Rows H B S) (n : Nat) : Prop := ∃ r ∈ db, r.number = n

theorem linkedUp_nil (n : Nat) (h : H) : LinkedUp n h ([] : List (Header H B S)) := by intro i x hx; simp at hx

theorem linkedDown_nil (n : Nat) (h : H) : LinkedDown n h ([] : List (Header H B S)) := by intro i x hx; simp at hx

theorem linkedUp_cons (n : Nat) (h : H) (x : Header H B S) (ys : List (Header H B S)) :
    LinkedUp n h (x :: ys) ↔ x.number = n ∧ x.parent = h ∧ LinkedUp (n + 1) x.hash ys := by
  constructor
  · intro hl
    have h0 := hl 0 x rfl
    refine ⟨by omega, h0.2.1 rfl, fun i y hy => ?_⟩
    have h1 := hl (i + 1) y (by simpa using hy)
    refine ⟨by omega, fun hi => ?_, fun z hi hz => ?_⟩
    · subst hi; exact h1.2.2 x (by simp) (by simp)
    · refine h1.2.2 z (by simp) ?_
      obtain ⟨j, rfl⟩ : ∃ j, i = j + 1 := ⟨i - 1, by omega⟩
      simpa using hz
  · rintro ⟨hn, hp, hl⟩ i y hy
    cases i with
    | zero =>
      have : x = y := by simpa using hy
      subst this
      exact ⟨hn, fun _ => hp, fun _ h => absurd rfl h⟩
    | succ j =>
      have h1 := hl j y (by simpa using hy)
      refine ⟨by omega, fun h => by omega, fun z _ hz => ?_⟩
      cases j with
      | zero =>
        have : x = z := by simpa using hz
        subst this
        exact h1.2.1 rfl
      | succ k => exact h1.2.2 z (by simp) (by simpa using hz)

theorem linkedDown_cons (n : Nat) (h : H) (x : Header H B S) (ys : List (Header H B S)) :
    LinkedDown n h (x :: ys) ↔ x.number = n ∧ x.hash = h ∧
      (ys = [] ∨ (n ≠ 0 ∧ LinkedDown (n - 1) x.parent ys)) := by
  constructor
  · intro hl
    have h0 := hl 0 x rfl
    refine ⟨by omega, h0.2.1 rfl, ?_⟩
    cases hys : ys with
    | nil => exact .inl rfl
    | cons y' ys' =>
      right
      rw [← hys]
      have hn : n ≠ 0 := by
        have := hl 1 y' (by simp [hys])
        omega
      refine ⟨hn, fun i y hy => ?_⟩
      have h1 := hl (i + 1) y (by simpa using hy)
      refine ⟨by omega, fun hi => ?_, fun z hi hz => ?_⟩
      · subst hi; exact h1.2.2 x (by simp) (by simp)
      · refine h1.2.2 z (by simp) ?_
        obtain ⟨j, rfl⟩ : ∃ j, i = j + 1 := ⟨i - 1, by omega⟩
        simpa using hz
  · rintro ⟨hn, hp, hl⟩ i y hy
    cases i with
    | zero =>
      have : x = y := by simpa using hy
      subst this
      exact ⟨hn, fun _ => hp, fun _ h => absurd rfl h⟩
    | succ j =>
      rcases hl with rfl | ⟨h0, hl⟩
      · simp at hy
      · have h1 := hl j y (by simpa using hy)
        refine ⟨by omega, fun h => by omega, fun z _ hz => ?_⟩
        cases j with
        | zero =>
          have : x = z := by simpa using hz
          subst this
          exact h1.2.1 rfl
        | succ k => exact h1.2.2 z (by simp) (by simpa using hz)

/-! ## C39 -/

/-- C39. The forward stage lets exactly the longest linked prefix through, unchanged and with its peers, and reports the
peer of the first header that does not fit. -/
theorem C39_forward [DecidableEq H] (n : Nat) (h : H) (xs : List (P × Header H B S)) :
    ∃ k, k ≤ xs.length ∧ LinkedUp n h ((xs.take k).map (·.2)) ∧
      (k < xs.length → ¬ LinkedUp n h ((xs.take (k + 1)).map (·.2))) ∧
      pipe forwardContinuity (n, h) (infallible xs) =
        (xs.take k).map .ok ++ xs[k]?.toList.map (fun x => .error (.discontinuity x.1)) := by
  induction xs generalizing n h with
  | nil => exact ⟨0, by simp, linkedUp_nil n h, by simp, rfl⟩
  | cons x xs ih =>
    obtain ⟨p, x⟩ := x
    by_cases hx : x.number ≠ n ∨ x.parent ≠ h
    · refine ⟨0, by simp, linkedUp_nil n h, fun _ hl => ?_, ?_⟩
      · simp only [Nat.zero_add, List.take_succ_cons, List.take_zero, List.map_cons, List.map_nil, linkedUp_cons] at hl
        rcases hx with hx | hx
        · exact hx hl.1
        · exact hx hl.2.1
      · simp [infallible, pipe, forwardContinuity, hx]
    · have hx' : x.number = n ∧ x.parent = h := by
        constructor
        · exact Classical.byContradiction fun hc => hx (.inl hc)
        · exact Classical.byContradiction fun hc => hx (.inr hc)
      obtain ⟨k, h1, h2, h3, h4⟩ := ih (n + 1) x.hash
      refine ⟨k + 1, by simpa using h1, ?_, ?_, ?_⟩
      · simp only [List.take_succ_cons, List.map_cons, linkedUp_cons]
        exact ⟨hx'.1, hx'.2, h2⟩
      · intro hk
        simp only [List.take_succ_cons, List.map_cons, linkedUp_cons]
        rintro ⟨-, -, hl⟩
        exact h3 (by simpa using hk) hl
      · simp only [infallible] at h4
        simp [infallible, pipe, forwardContinuity, hx, h4]

theorem backward_none [DecidableEq H] (h : H) (xs : List (P × Header H B S)) :
    pipe backwardContinuity (none, h) (infallible xs) = xs.head?.toList.map (fun x => .error (.discontinuity x.1)) := by
  cases xs with
  | nil => rfl
  | cons x xs => simp [infallible, pipe, backwardContinuity]

/-- C39. The backward stage lets exactly the longest linked prefix through, unchanged and with its peers, and reports the
peer of the first header that does not fit, also when it comes after the genesis block. -/
theorem C39_backward [DecidableEq H] (n : Nat) (h : H) (xs : List (P × Header H B S)) :
    ∃ k, k ≤ xs.length ∧ LinkedDown n h ((xs.take k).map (·.2)) ∧
      (k < xs.length → ¬ LinkedDown n h ((xs.take (k + 1)).map (·.2))) ∧
      pipe backwardContinuity (some n, h) (infallible xs) =
        (xs.take k).map .ok ++ xs[k]?.toList.map (fun x => .error (.discontinuity x.1)) := by
  induction xs generalizing n h with
  | nil => exact ⟨0, by simp, linkedDown_nil n h, by simp, rfl⟩
  | cons x xs ih =>
    obtain ⟨p, x⟩ := x
    by_cases hx : x.number ≠ n ∨ x.hash ≠ h
    · refine ⟨0, by simp, linkedDown_nil n h, fun _ hl => ?_, ?_⟩
      · simp only [Nat.zero_add, List.take_succ_cons, List.take_zero, List.map_cons, List.map_nil, linkedDown_cons] at hl
        rcases hx with hx | hx
        · exact hx hl.1
        · exact hx hl.2.1
      · simp [infallible, pipe, backwardContinuity, hx]
    · have hx' : x.number = n ∧ x.hash = h := by
        constructor
        · exact Classical.byContradiction fun hc => hx (.inl hc)
        · exact Classical.byContradiction fun hc => hx (.inr hc)
      by_cases h0 : n = 0
      · refine ⟨1, by simp, ?_, ?_, ?_⟩
        · simp only [List.take_succ_cons, List.take_zero, List.map_cons, List.map_nil, linkedDown_cons]
          exact ⟨hx'.1, hx'.2, .inl trivial⟩
        · intro hk
          simp only [List.take_succ_cons, List.map_cons, linkedDown_cons]
          rintro ⟨-, -, hl | hl⟩
          · rw [List.map_eq_nil_iff, List.take_eq_nil_iff] at hl
            rcases hl with hl | rfl
            · omega
            · simp at hk
          · exact hl.1 h0
        · have hb := backward_none (P := P) x.parent xs
          simp only [infallible] at hb
          subst h0
          simp [infallible, pipe, backwardContinuity, hx', parentNumber, hb, List.head?_eq_getElem?]
      · obtain ⟨k, h1, h2, h3, h4⟩ := ih (n - 1) x.parent
        refine ⟨k + 1, by simpa using h1, ?_, ?_, ?_⟩
        · simp only [List.take_succ_cons, List.map_cons, linkedDown_cons]
          exact ⟨hx'.1, hx'.2, .inr ⟨h0, h2⟩⟩
        · intro hk
          simp only [List.take_succ_cons, List.map_cons, linkedDown_cons]
          rintro ⟨-, -, hl | hl⟩
          · rw [List.map_eq_nil_iff, List.take_eq_nil_iff] at hl
            rcases hl with hl | rfl
            · omega
            · simp at hk
          · exact h3 (by simpa using hk) hl.2
        · simp only [infallible] at h4
          simp [infallible, pipe, backwardContinuity, hx, parentNumber, h0, h4]

/-- C39. A header passes verification exactly if its contents hash to the value expected for its number and its hash is
signed. The value expected is the one shipped with the node, or else the header's own hash. -/
theorem C39_verify [DecidableEq H] (c : Checks H B S) (p : P) (h : Header H B S) :
    c.verify () p h = .ok (h, ()) ↔
      (∀ k, c.known h.number = some k → c.compute h.number h.parent h.body = k) ∧
      (c.known h.number = none → c.compute h.number h.parent h.body = h.hash) ∧ c.signed h.signature h.hash = true := by
  unfold Checks.verify Checks.hashOk
  cases hk : c.known h.number <;> cases hs : c.signed h.signature h.hash <;> simp
  · split <;> simp
  · split <;> simp

/-- The headers of the examples. -/
def sampleHeader (n : Nat) : Header Nat Nat Nat := ⟨n, 100 + n, 99 + n, 0, 0⟩

example : pipe forwardContinuity (5, 104) (infallible [(1, sampleHeader 5), (2, sampleHeader 6), (3, sampleHeader 8)]) =
    [.ok (1, sampleHeader 5), .ok (2, sampleHeader 6), .error (.discontinuity 3)] := by rfl

example : pipe backwardContinuity (some 1, 101) (infallible [(1, sampleHeader 1), (2, sampleHeader 0), (3, sampleHeader 0)]) =
    [.ok (1, sampleHeader 1), .ok (2, sampleHeader 0), .error (.discontinuity 3)] := by rfl

example : (⟨fun n p b => n + p + b, fun _ => none, fun _ _ => true⟩ : Checks Nat Nat Nat).verify () 7 ⟨3, 10, 5, 2, 0⟩ =
    .ok (⟨3, 10, 5, 2, 0⟩, ()) := by rfl

/-! ## C40 -/

theorem highestBy_foldl {R : Type} (key : R → Nat) (rows : List R) (b : Option R) :
    ∃ r, (rows.foldl (fun best r => match best with
      | none => some r
      | some b => if key b < key r then some r else some b) b) = r ∧
      (r = none → b = none ∧ rows = []) ∧
      (∀ x, r = some x → (b = some x ∨ x ∈ rows) ∧ (∀ y, b = some y → key y ≤ key x) ∧ ∀ y ∈ rows, key y ≤ key x) := by
  induction rows generalizing b with
  | nil => exact ⟨b, rfl, by simp, fun x hx => ⟨.inl hx, by simp [hx], by simp⟩⟩
  | cons a rows ih =>
    obtain ⟨r, h1, h2, h3⟩ := ih (match b with | none => some a | some b => if key b < key a then some a else some b)
    refine ⟨r, h1, ?_, ?_⟩
    · intro hr
      have := (h2 hr).1
      cases b with
      | none => simp at this
      | some b => by_cases hk : key b < key a <;> simp [hk] at this
    · intro x hx
      obtain ⟨g1, g2, g3⟩ := h3 x hx
      cases b with
      | none =>
        simp only [Option.some.injEq] at g1 g2
        refine ⟨.inr ?_, by simp, ?_⟩
        · rcases g1 with g1 | g1
          · simp [g1]
          · simp [g1]
        · intro y hy
          rcases List.mem_cons.mp hy with rfl | hy
          · exact g2 y rfl
          · exact g3 y hy
      | some b =>
        by_cases hk : key b < key a
        · simp only [hk, if_true, Option.some.injEq] at g1 g2
          have ga := g2 a rfl
          refine ⟨.inr (by rcases g1 with g1 | g1 <;> simp [g1]), ?_, ?_⟩
          · intro y hy
            simp at hy
            subst hy
            omega
          · intro y hy
            rcases List.mem_cons.mp hy with rfl | hy
            · exact ga
            · exact g3 y hy
        · simp only [hk, if_false, Option.some.injEq] at g1 g2
          have gb := g2 b rfl
          refine ⟨by rcases g1 with g1 | g1 <;> simp [g1], ?_, ?_⟩
          · intro y hy
            simp at hy
            subst hy
            exact gb
          · intro y hy
            rcases List.mem_cons.mp hy with rfl | hy
            · omega
            · exact g3 y hy

theorem highestBy_none {R : Type} {key : R → Nat} {rows : List R} (h : highestBy key rows = none) : rows = [] := by
  obtain ⟨r, h1, h2, -⟩ := highestBy_foldl key rows none
  exact (h2 (h1.symm.trans h)).2

theorem highestBy_some {R : Type} {key : R → Nat} {rows : List R} {x : R} (h : highestBy key rows = some x) :
    x ∈ rows ∧ ∀ y ∈ rows, key y ≤ key x := by
  obtain ⟨r, h1, -, h3⟩ := highestBy_foldl key rows none
  obtain ⟨g1, -, g3⟩ := h3 x (h1.symm.trans h)
  exact ⟨by simpa using g1, g3⟩

theorem headerAt_none {db : Rows H B S} {n : Nat} : headerAt db n = none ↔ ¬ Stored db n := by
  simp [headerAt, Stored]

theorem headerAt_some {db : Rows H B S} {n : Nat} {r : Header H B S} (h : headerAt db n = some r) :
    r ∈ db ∧ r.number = n := by
  exact ⟨List.mem_of_find?_eq_some h, by simpa using List.find?_some h⟩

theorem gapBelow_spec (zero : H) (db : Rows H B S) (head : Nat) (hh : H) (hm : ¬ Stored db head) :
    let g := gapBelow zero db head hh
    g.head = head ∧ g.headHash = hh ∧ g.tail ≤ head ∧ (∀ n, g.tail ≤ n → n ≤ head → ¬ Stored db n) ∧
      ((g.tail = 0 ∧ g.tailParentHash = zero) ∨ ∃ r ∈ db, r.number + 1 = g.tail ∧ r.hash = g.tailParentHash) := by
  unfold gapBelow nextAncestor
  cases hn : highestBy (fun r : Header H B S => r.number) (db.filter fun r => decide (r.number < head)) with
  | none =>
    have := highestBy_none hn
    refine ⟨rfl, rfl, Nat.zero_le _, ?_, .inl ⟨rfl, rfl⟩⟩
    rintro n - hle ⟨r, hr, rfl⟩
    rcases Nat.lt_or_eq_of_le hle with hlt | heq
    · have hmem : r ∈ db.filter fun r => decide (r.number < head) := List.mem_filter.mpr ⟨hr, by simpa using hlt⟩
      rw [this] at hmem
      simp at hmem
    · exact hm ⟨r, hr, heq⟩
  | some t =>
    obtain ⟨h1, h2⟩ := highestBy_some hn
    obtain ⟨h1, h3⟩ := List.mem_filter.mp h1
    simp only [decide_eq_true_eq] at h3
    refine ⟨rfl, rfl, h3, ?_, .inr ⟨t, h1, rfl, rfl⟩⟩
    rintro n hge hle ⟨r, hr, rfl⟩
    rcases Nat.lt_or_eq_of_le hle with hlt | heq
    · have := h2 r (List.mem_filter.mpr ⟨hr, by simpa using hlt⟩)
      simp only at hge
      omega
    · exact hm ⟨r, hr, heq⟩

theorem orphan_spec {db : Rows H B S} {head : Nat} {r : Header H B S} (h : nextAncestorWithoutParent db head = some r) :
    r ∈ db ∧ r.number ≤ head ∧ 0 < r.number ∧ ¬ Stored db (r.number - 1) ∧
      ∀ q ∈ db, q.number ≤ head → 0 < q.number → r.number < q.number → Stored db (q.number - 1) := by
  obtain ⟨h1, h2⟩ := highestBy_some h
  obtain ⟨h1, h3⟩ := List.mem_filter.mp h1
  simp only [Bool.and_eq_true, decide_eq_true_eq, Bool.not_eq_true', List.any_eq_false] at h3
  refine ⟨h1, h3.1.1, h3.1.2, ?_, ?_⟩
  · rintro ⟨t, ht, he⟩
    exact h3.2 t ht he.symm
  · intro q hq hle hpos hlt
    apply Classical.byContradiction
    intro hc
    have := h2 q (List.mem_filter.mpr ⟨hq, by
      simp only [Bool.and_eq_true, decide_eq_true_eq, Bool.not_eq_true', List.any_eq_false]
      exact ⟨⟨hle, hpos⟩, fun t ht he => hc ⟨t, ht, he.symm⟩⟩⟩)
    omega

theorem no_orphan_spec {db : Rows H B S} {head : Nat} (h : nextAncestorWithoutParent db head = none) :
    ∀ q ∈ db, q.number ≤ head → 0 < q.number → Stored db (q.number - 1) := by
  intro q hq hle hpos
  apply Classical.byContradiction
  intro hc
  have hmem := highestBy_none h
  have : q ∈ ([] : Rows H B S) := hmem ▸ List.mem_filter.mpr ⟨hq, by
      simp only [Bool.and_eq_true, decide_eq_true_eq, Bool.not_eq_true', List.any_eq_false]
      exact ⟨⟨hle, hpos⟩, fun t ht he => hc ⟨t, ht, he.symm⟩⟩⟩
  simp at this

/-- C40. No gap is reported exactly if every header from genesis to the search head is stored. -/
theorem C40_none (zero : H) (db : Rows H B S) (head : Nat) (hh : H) :
    nextGap zero db head hh = none ↔ ∀ n, n ≤ head → Stored db n := by
  unfold nextGap
  cases hat : headerAt db head with
  | none =>
    constructor
    · intro h; simp at h
    · intro h; exact absurd (h head (Nat.le_refl _)) (headerAt_none.mp hat)
  | some r =>
    obtain ⟨hr, hrn⟩ := headerAt_some hat
    cases ho : nextAncestorWithoutParent db head with
    | none =>
      refine ⟨fun _ => ?_, fun _ => rfl⟩
      have down : ∀ d, d ≤ head → Stored db (head - d) := by
        intro d
        induction d with
        | zero => intro _; exact ⟨r, hr, by omega⟩
        | succ d ih =>
          intro hd
          obtain ⟨q, hq, hqn⟩ := ih (by omega)
          have := no_orphan_spec ho q hq (by omega) (by omega)
          rwa [show q.number - 1 = head - (d + 1) by omega] at this
      intro n hn
      have := down (head - n) (by omega)
      rwa [show head - (head - n) = n by omega] at this
    | some g =>
      constructor
      · intro h; simp at h
      · intro h
        obtain ⟨-, h2, h3, h4, -⟩ := orphan_spec ho
        exact absurd (h (g.number - 1) (by omega)) h4

/-- C40. The gap reported is the first one below the search head: everything above it up to the head is stored, nothing in
it is, and it ends at genesis or at a stored header, whose hash is the one reported. Its head comes with the hash that was
asked for, or with the parent hash of the stored header above it. -/
theorem C40_gap (zero : H) (db : Rows H B S) (head : Nat) (hh : H) (g : Gap H) (h : nextGap zero db head hh = some g) :
    g.tail ≤ g.head ∧ g.head ≤ head ∧ (∀ n, g.tail ≤ n → n ≤ g.head → ¬ Stored db n) ∧
      (∀ n, g.head < n → n ≤ head → Stored db n) ∧
      ((g.tail = 0 ∧ g.tailParentHash = zero) ∨ ∃ r ∈ db, r.number + 1 = g.tail ∧ r.hash = g.tailParentHash) ∧
      (g.head = head → g.headHash = hh) ∧
      (g.head < head → ∃ r ∈ db, r.number = g.head + 1 ∧ r.parent = g.headHash) := by
  unfold nextGap at h
  cases hat : headerAt db head with
  | none =>
    rw [hat] at h
    simp only [Option.some.injEq] at h
    subst h
    obtain ⟨h1, h2, h3, h4, h5⟩ := gapBelow_spec zero db head hh (headerAt_none.mp hat)
    exact ⟨by omega, by omega, fun n ha hb => h4 n ha (by omega), fun n ha hb => by omega, h5, fun _ => h2,
      fun hlt => by omega⟩
  | some r =>
    rw [hat] at h
    obtain ⟨hr, hrn⟩ := headerAt_some hat
    cases ho : nextAncestorWithoutParent db head with
    | none => rw [ho] at h; simp at h
    | some o =>
      rw [ho] at h
      simp only [Option.some.injEq] at h
      subst h
      obtain ⟨o1, o2, o3, o4, o5⟩ := orphan_spec ho
      obtain ⟨h1, h2, h3, h4, h5⟩ := gapBelow_spec zero db (o.number - 1) o.parent o4
      refine ⟨by omega, by omega, fun n ha hb => h4 n ha (by omega), ?_, h5, fun he => by omega,
        fun _ => ⟨o, o1, by clear h5; omega, h2.symm⟩⟩
      have down : ∀ d, o.number + d ≤ head → Stored db (head - d) := by
        intro d
        induction d with
        | zero => intro _; exact ⟨r, hr, by omega⟩
        | succ d ih =>
          intro hd
          obtain ⟨q, hq, hqn⟩ := ih (by omega)
          have := o5 q hq (by omega) (by omega) (by omega)
          rwa [show q.number - 1 = head - (d + 1) by omega] at this
      intro n hn hle
      have := down (head - n) (by omega)
      rwa [show head - (head - n) = n by omega] at this

/-- Two holes below the head: the upper one is reported. -/
example : nextGap 0 [sampleHeader 1, sampleHeader 8, sampleHeader 4, sampleHeader 9] 9 109 = some ⟨7, 107, 5, 104⟩ := by
  rfl

example : nextGap 0 [sampleHeader 1, sampleHeader 0] 1 101 = none := by rfl

end Verif.Sync
