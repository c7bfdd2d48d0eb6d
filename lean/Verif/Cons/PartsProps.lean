import Verif.Cons.Parts

/-!
# Which sequences of proposal parts are accepted, and which messages are ignored
-/
namespace Verif.Proposals

variable {X C : Type}

/-! ## Specification -/

def Part.isInit : Part X C → Bool
  | .init _ => true
  | _ => false

def Part.isFin : Part X C → Bool
  | .fin _ => true
  | _ => false

/-- The block info comes first and only there, batches are not empty, and there is at most one closing part. -/
def Ordered (ps : List (Part X C)) : Prop :=
  ps = [] ∨ ∃ i rest, ps = .init i :: rest ∧ (∀ p ∈ rest, p.isInit = false) ∧ (∀ xs, .batch xs ∈ rest → xs ≠ []) ∧
    (rest.filter Part.isFin).length ≤ 1

/-- The documented order (proposal_validator.rs:8-11): block info, then batches, then the closing part as the last. -/
def Documented (ps : List (Part X C)) : Prop :=
  ∃ (i : Init) (bs : List (List X)) (f : Fin' C), ps = .init i :: (bs.map .batch ++ [.fin f]) ∧ ∀ xs ∈ bs, xs ≠ []

/-! ## Lemmas -/

/-- What the validator has stored. -/
private structure Holds (v : Parts X C) (ps : List (Part X C)) : Prop where
  parts : v.parts = ps
  init : v.hasInit = !ps.isEmpty
  fin : v.hasFin = ps.any Part.isFin

private theorem accept_holds {v : Parts X C} {ps : List (Part X C)} (h : Holds v ps) (p : Part X C) (v' : Parts X C) (a : Accepted)
    (e : v.accept p = some (v', a)) : Holds v' (ps ++ [p]) := by
  obtain ⟨h1, h2, h3⟩ := h
  cases p with
  | init i =>
    simp only [Parts.accept, Parts.acceptInit] at e
    split at e <;> simp_all
    obtain ⟨rfl, rfl⟩ := e
    constructor <;> simp_all [Part.isFin]
  | batch xs =>
    simp only [Parts.accept, Parts.acceptBatch] at e
    split at e <;> simp_all
    obtain ⟨-, rfl, rfl⟩ := e
    constructor <;> simp_all [Part.isFin]
    cases ps <;> simp_all
  | fin f =>
    simp only [Parts.accept, Parts.acceptFin] at e
    split at e
    · simp at e
    split at e
    · simp at e
      obtain ⟨rfl, rfl⟩ := e
      constructor <;> simp_all [Part.isFin]
    split at e
    · simp at e
      obtain ⟨rfl, rfl⟩ := e
      constructor <;> simp_all [Part.isFin]
    · simp at e

/-- When is the next part accepted? -/
private def Next (ps : List (Part X C)) (p : Part X C) : Prop :=
  match p with
  | .init _ => ps = []
  | .batch xs => ps ≠ [] ∧ xs ≠ []
  | .fin _ => ps ≠ [] ∧ ps.any Part.isFin = false

private theorem accept_iff {v : Parts X C} {ps : List (Part X C)} (h : Holds v ps) (p : Part X C) :
    (v.accept p).isSome ↔ Next ps p := by
  obtain ⟨h1, h2, h3⟩ := h
  cases p with
  | init i => simp [Parts.accept, Parts.acceptInit, Next, h1]
  | batch xs =>
    simp only [Parts.accept, Parts.acceptBatch, Next, h1]
    cases ps <;> cases xs <;> simp
  | fin f =>
    simp only [Parts.accept, Parts.acceptFin, Next, h1, h2, h3]
    cases ha : ps.any Part.isFin <;> cases ps with
    | nil => simp
    | cons a l => cases l <;> simp

private theorem acceptAll_iff {v : Parts X C} {ps : List (Part X C)} (h : Holds v ps) (qs : List (Part X C)) :
    (v.acceptAll qs).isSome ↔ ∀ q1 p q2, qs = q1 ++ p :: q2 → Next (ps ++ q1) p := by
  induction qs generalizing v ps with
  | nil => simp [Parts.acceptAll]
  | cons q qs ih =>
    simp only [Parts.acceptAll]
    cases e : v.accept q with
    | none =>
      have := (accept_iff h q)
      simp only [e, Option.isSome_none, Bool.false_eq_true, false_iff] at this
      simp only [Option.bind_none, Option.isSome_none, Bool.false_eq_true, false_iff]
      intro hh
      exact this (by simpa using hh [] q qs rfl)
    | some r =>
      obtain ⟨v', a⟩ := r
      have hn : Next ps q := (accept_iff h q).1 (by simp [e])
      simp only [Option.bind_some]
      rw [ih (accept_holds h q v' a e)]
      constructor
      · intro hh q1 p q2 e'
        cases q1 with
        | nil =>
          simp only [List.nil_append, List.cons.injEq] at e'
          obtain ⟨rfl, rfl⟩ := e'
          simpa using hn
        | cons b q1 =>
          simp only [List.cons_append, List.cons.injEq] at e'
          obtain ⟨rfl, rfl⟩ := e'
          simpa using hh q1 p q2 rfl
      · intro hh q1 p q2 e'
        simpa using hh (q :: q1) p q2 (by simp [e'])

private theorem holds_new : Holds (Parts.new : Parts X C) [] := ⟨rfl, rfl, rfl⟩

private theorem acceptAll_holds {v : Parts X C} {ps : List (Part X C)} (h : Holds v ps) (qs : List (Part X C)) (v' : Parts X C)
    (e : v.acceptAll qs = some v') : Holds v' (ps ++ qs) := by
  induction qs generalizing v ps with
  | nil => simp [Parts.acceptAll] at e; subst e; simpa using h
  | cons q qs ih =>
    simp only [Parts.acceptAll, Option.bind_eq_some_iff] at e
    obtain ⟨⟨v1, a⟩, e1, e2⟩ := e
    simpa using ih (accept_holds h q v1 a e1) e2

/-! ## Properties -/

/-- **C58** (which sequences). Exactly the sequences are accepted in which the block info comes first and nowhere else,
no batch is empty, and there is at most one closing part. -/
theorem C58_accepted (ps : List (Part X C)) : (Parts.new.acceptAll ps).isSome ↔ Ordered ps := by
  rw [acceptAll_iff holds_new]
  constructor
  · intro h
    cases ps with
    | nil => exact .inl rfl
    | cons p rest =>
      right
      have h0 := h [] p rest rfl
      cases p with
      | batch xs => simp [Next] at h0
      | fin f => simp [Next] at h0
      | init i =>
        refine ⟨i, rest, rfl, ?_, ?_, ?_⟩
        · intro q hq
          obtain ⟨l1, l2, rfl⟩ := List.append_of_mem hq
          have := h (.init i :: l1) q l2 rfl
          cases q <;> simp_all [Next, Part.isInit]
        · intro xs hq
          obtain ⟨l1, l2, rfl⟩ := List.append_of_mem hq
          have := h (.init i :: l1) _ l2 rfl
          exact this.2
        · have key : ∀ l1 q l2, rest = l1 ++ q :: l2 → q.isFin = true → l1.any Part.isFin = false := by
            intro l1 q l2 e hq
            have := h (.init i :: l1) q l2 (by simp [e])
            cases q <;> simp_all [Next, Part.isFin]
          clear h h0
          induction rest with
          | nil => simp
          | cons q rest ih =>
            by_cases hq : q.isFin = true
            · have : rest.filter Part.isFin = [] := by
                rw [List.filter_eq_nil_iff]
                intro r hr hr'
                obtain ⟨l1, l2, rfl⟩ := List.append_of_mem hr
                have := key (q :: l1) r l2 rfl hr'
                simp [hq] at this
              simp [hq, this]
            · rw [List.filter_cons_of_neg hq]
              apply ih
              intro l1 r l2 e hr
              have := key (q :: l1) r l2 (by simp [e]) hr
              simp only [List.any_cons, Bool.or_eq_false_iff] at this
              exact this.2
  · rintro (rfl | ⟨i, rest, rfl, hi, hb, hf⟩) q1 p q2 e
    · simp at e
    · cases q1 with
      | nil =>
        simp only [List.nil_append, List.cons.injEq] at e
        obtain ⟨rfl, rfl⟩ := e
        simp [Next]
      | cons a q1 =>
        simp only [List.cons_append, List.cons.injEq] at e
        obtain ⟨rfl, rfl⟩ := e
        cases p with
        | init j => simpa [Part.isInit] using hi (.init j) (by simp)
        | batch xs => exact ⟨by simp, hb xs (by simp)⟩
        | fin f =>
          refine ⟨by simp, ?_⟩
          simp only [List.filter_append, List.length_append] at hf
          rw [List.filter_cons_of_pos (by simp [Part.isFin])] at hf
          simp only [List.length_cons] at hf
          have : (q1.filter Part.isFin) = [] := by
            apply List.eq_nil_of_length_eq_zero; omega
          simp only [List.filter_eq_nil_iff] at this
          simp only [List.nil_append, List.any_cons, Bool.or_eq_false_iff, List.any_eq_false]
          exact ⟨rfl, fun x hx => this x hx⟩

/-- **C58** (empty or not). The closing part ends an empty proposal exactly when only the block info came before, and a
proposal with transactions exactly when something else came in between. -/
theorem C58_kind (ps : List (Part X C)) (v : Parts X C) (h : Parts.new.acceptAll ps = some v) (f : Fin' C) :
    ((∃ v', v.accept (.fin f) = some (v', .empty)) ↔ ∃ i, ps = [.init i]) ∧
      ((∃ v', v.accept (.fin f) = some (v', .nonEmpty)) ↔ 2 ≤ ps.length ∧ ∀ p ∈ ps, p.isFin = false) := by
  have hh := acceptAll_holds holds_new ps v h
  have ho := (C58_accepted ps).1 (by simp [h])
  obtain ⟨h1, h2, h3⟩ := hh
  simp only [List.nil_append] at h1 h2 h3
  simp only [Parts.accept, Parts.acceptFin, h1, h2, h3]
  rcases ho with rfl | ⟨i, rest, rfl, -⟩
  · simp
  · cases rest with
    | nil => simp [Part.isFin]
    | cons q rest =>
      simp only [List.isEmpty_cons, Bool.not_false, List.length_cons]
      constructor
      · constructor
        · rintro ⟨v', e⟩
          split at e <;> simp at e
        · simp
      · by_cases ha : (Part.init i :: q :: rest).any Part.isFin = true
        · simp only [ha, ↓reduceIte, reduceCtorEq, exists_false, false_iff]
          rintro ⟨-, hn⟩
          obtain ⟨x, hx, hx'⟩ := List.any_eq_true.1 ha
          rw [hn x hx] at hx'
          cases hx'
        · simp only [ha, Bool.false_eq_true, ↓reduceIte]
          simp only [List.any_eq_true, not_exists, not_and, Bool.not_eq_true] at ha
          simp
          exact ⟨by simpa using ha (.init i) (by simp), by simpa using ha q (by simp), fun x hx => by simpa using ha x (by simp [hx])⟩

/-- **C58** (origin). What was accepted is stored in order, and the origin is that of the block info. -/
theorem C58_origin (i : Init) (rest : List (Part X C)) (v : Parts X C)
    (h : Parts.new.acceptAll (.init i :: rest) = some v) :
    v.parts = .init i :: rest ∧ v.proposer = some i.proposer ∧ v.validRound = i.validRound := by
  refine ⟨by simpa using (acceptAll_holds holds_new _ v h).parts, ?_⟩
  have ho := (C58_accepted (.init i :: rest)).1 (by simp [h])
  have hi : ∀ p ∈ rest, p.isInit = false := by
    rcases ho with e | ⟨j, r, e, hi, -⟩
    · cases e
    · simp only [List.cons.injEq] at e
      rw [e.2]; exact hi
  simp only [Parts.acceptAll, Parts.accept, Parts.acceptInit, Parts.new, List.isEmpty_nil, Bool.not_true,
    Bool.false_eq_true, ↓reduceIte, Option.bind_some] at h
  have key : ∀ (qs : List (Part X C)) (u : Parts X C), (∀ p ∈ qs, p.isInit = false) → u.acceptAll qs = some v →
      v.proposer = u.proposer ∧ v.validRound = u.validRound := by
    intro qs
    induction qs with
    | nil => intro u _ e; simp [Parts.acceptAll] at e; simp [e]
    | cons q qs ih =>
      intro u hq e
      simp only [Parts.acceptAll, Option.bind_eq_some_iff] at e
      obtain ⟨⟨u', a⟩, e1, e2⟩ := e
      have := ih u' (fun p hp => hq p (by simp [hp])) e2
      have hu : u'.proposer = u.proposer ∧ u'.validRound = u.validRound := by
        cases q with
        | init j => simpa [Part.isInit] using hq (.init j) (by simp)
        | batch xs =>
          simp only [Parts.accept, Parts.acceptBatch] at e1
          split at e1
          · simp at e1
          · split at e1 <;> simp at e1
            simp [← e1.1]
        | fin f =>
          simp only [Parts.accept, Parts.acceptFin] at e1
          split at e1
          · simp at e1
          · split at e1
            · simp at e1; simp [← e1.1]
            · split at e1 <;> simp at e1
              simp [← e1.1]
      rw [this.1, this.2]; exact hu
  exact key rest _ hi h

/-- **C58** (the documented order is accepted). -/
theorem C58_documented (ps : List (Part X C)) (h : Documented ps) : (Parts.new.acceptAll ps).isSome := by
  obtain ⟨i, bs, f, rfl, hb⟩ := h
  rw [C58_accepted]
  refine .inr ⟨i, _, rfl, ?_, ?_, ?_⟩
  · simp only [List.mem_append, List.mem_map, List.mem_singleton]
    rintro p (⟨x, -, rfl⟩ | rfl) <;> rfl
  · intro xs hx
    simp at hx
    exact hb xs hx
  · have : (bs.map (Part.batch (C := C))).filter Part.isFin = [] := by simp [Part.isFin]
    rw [List.filter_append, this]
    exact List.length_filter_le _ _

/-- **C58** violated: the closing part need not be the last. After every complete proposal any batch that is not empty
is still accepted, and every number of them. -/
theorem C58_last_violated (ps : List (Part X C)) (h : Documented ps) (more : List (List X)) (hm : ∀ xs ∈ more, xs ≠ []) :
    (Parts.new.acceptAll (ps ++ more.map .batch)).isSome := by
  obtain ⟨i, bs, f, rfl, hb⟩ := h
  rw [C58_accepted]
  refine .inr ⟨i, bs.map .batch ++ [.fin f] ++ more.map .batch, rfl, ?_, ?_, ?_⟩
  · simp only [List.mem_append, List.mem_map, List.mem_singleton]
    rintro p ((⟨x, -, rfl⟩ | rfl) | ⟨x, -, rfl⟩) <;> rfl
  · intro xs hx
    simp at hx
    exact hx.elim (hb xs) (hm xs)
  · have h1 : (bs.map (Part.batch (C := C))).filter Part.isFin = [] := by simp [Part.isFin]
    have h2 : (more.map (Part.batch (C := C))).filter Part.isFin = [] := by simp [Part.isFin]
    rw [List.filter_append, List.filter_append, h1, h2]
    simpa using List.length_filter_le Part.isFin [Part.fin f]

private def i1 : Init := ⟨7, 1, none, 0⟩

example : Documented ([.init i1, .batch [1, 2], .batch [3], .fin ⟨9, 3⟩] : List (Part Nat Nat)) :=
  ⟨i1, [[1, 2], [3]], ⟨9, 3⟩, rfl, by decide⟩

example : Ordered ([.init i1, .batch [1, 2], .fin ⟨9, 3⟩, .batch [4]] : List (Part Nat Nat)) :=
  (C58_accepted _).1 (by decide)

example : ¬ Documented ([.init i1, .batch [1, 2], .fin ⟨9, 3⟩, .batch [4]] : List (Part Nat Nat)) := by
  rintro ⟨i, bs, f, e, -⟩
  have := congrArg List.getLast? e
  rw [← List.cons_append, List.getLast?_concat] at this
  simp at this

/-! ## Outdated messages -/

/-- What the filter sees: the heights of the proposals being received, and the newest committed block. -/
structure Seen where
  incoming : List Nat
  committed : Option Nat
  deriving DecidableEq

/-- What changes it: a proposal part for a height, kept or dropped after a recoverable error (p2p_task.rs:1056, 316); a
height is decided (p2p_task.rs:615); a block is committed. -/
inductive SeenEvent
  | part (h : Nat) (kept : Bool)
  | vote (h : Nat)
  | decided (h : Nat)
  | committed (h : Nat)

/-- One event. Messages that are outdated change nothing (p2p_task.rs:258-271). Simplification: a height is received in
one round only. -/
def Seen.step (depth : Nat) (s : Seen) : SeenEvent → Seen
  | .part h kept =>
    if isOutdated s.incoming s.committed depth h then s
    else if kept then { s with incoming := h :: s.incoming }
    else { s with incoming := s.incoming.filter (· != h) }
  | .vote _ => s
  | .decided h => { s with incoming := s.incoming.filter (· != h) }
  | .committed h => { s with committed := some h }

/-- **C55** (exact). A message is ignored exactly when it is more than `depth` blocks below the highest proposal that is
being received or, if there is none, below the newest committed block. -/
theorem C55_exact (s : Seen) (depth h : Nat) :
    isOutdated s.incoming s.committed depth h = true ↔
      (∃ m ∈ s.incoming, h + depth < m) ∨ (s.incoming = [] ∧ ∃ m, s.committed = some m ∧ h + depth < m) := by
  unfold isOutdated
  cases e : s.incoming.max? with
  | none =>
    have := List.max?_eq_none_iff.1 e
    cases hc : s.committed <;> simp [this]
    omega
  | some m =>
    obtain ⟨hm, hle⟩ := List.max?_eq_some_iff.1 e
    have hne : s.incoming ≠ [] := List.ne_nil_of_mem hm
    simp only [decide_eq_true_eq, hne, false_and, or_false]
    constructor
    · intro hlt; exact ⟨m, hm, by omega⟩
    · rintro ⟨k, hk, hlt⟩
      have := hle k hk
      omega

/-- **C55** partial: as long as no proposal is being received for a height more than `ahead` above the newest decided
block `top`, a message that is ignored is more than `depth` blocks below `top + ahead`. Missing: nothing keeps proposals for
heights far above `top` out, see `C55_violated`. -/
theorem C55_partial (s : Seen) (depth ahead top h : Nat) (hin : ∀ m ∈ s.incoming, m ≤ top + ahead)
    (hc : ∀ m, s.committed = some m → m ≤ top) (hd : isOutdated s.incoming s.committed depth h = true) :
    h + depth < top + ahead := by
  rcases (C55_exact s depth h).1 hd with ⟨m, hm, hlt⟩ | ⟨-, m, hm, hlt⟩
  · have := hin m hm; omega
  · have := hc m hm; omega

/-- **C55** violated: whatever has been decided or committed, one part of a proposal for a height far enough ahead makes
the node ignore every message for the height the network is working on, and for all below. -/
theorem C55_violated (s : Seen) (depth h far : Nat) (hfar : h + depth < far)
    (hs : isOutdated s.incoming s.committed depth far = false) (k : Nat) (hk : k ≤ h) :
    let t := s.step depth (.part far true)
    isOutdated t.incoming t.committed depth k = true := by
  have hd : isOutdated (s.step depth (.part far true)).incoming (s.step depth (.part far true)).committed depth k = true := by
    rw [C55_exact]
    left
    refine ⟨far, ?_, by omega⟩
    simp [Seen.step, hs]
  exact hd

/-- **C55** violated for good: from then on the node ignores these messages, whatever else happens, until that very
height is decided or a part of that proposal is refused. -/
theorem C55_stuck (s : Seen) (depth h far : Nat) (hfar : h + depth < far) (hin : far ∈ s.incoming) (es : List SeenEvent)
    (hes : ∀ e ∈ es, e ≠ .decided far ∧ e ≠ .part far false) (k : Nat) (hk : k ≤ h) :
    let t := es.foldl (Seen.step depth) s
    isOutdated t.incoming t.committed depth k = true := by
  have key : far ∈ (es.foldl (Seen.step depth) s).incoming := by
    induction es generalizing s with
    | nil => exact hin
    | cons e es ih =>
      rw [List.foldl_cons]
      apply ih
      · obtain ⟨h1, h2⟩ := hes e (by simp)
        cases e with
        | part m kept =>
          simp only [Seen.step]
          split
          · exact hin
          · split
            · simp [hin]
            · rename_i hk'
              have : m ≠ far := by rintro rfl; apply h2; simp at hk'; simp [hk']
              simpa [hin] using fun e => this e.symm
        | vote m => exact hin
        | decided m =>
          have : m ≠ far := by rintro rfl; exact h1 rfl
          simp only [Seen.step, List.mem_filter, hin, bne_iff_ne, true_and]
          exact fun e => this e.symm
        | committed m => exact hin
      · exact fun e' he' => hes e' (by simp [he'])
  exact (C55_exact _ depth k).2 (.inl ⟨far, key, by omega⟩)

/-- Nothing has been decided above 100, votes for 101 are awaited, one part for 112 arrives. -/
example : isOutdated [] (some 100) 10 112 = false ∧ isOutdated [112] (some 100) 10 101 = true := by decide

example : ∀ m ∈ [101], m ≤ 100 + 1 := by decide

end Verif.Proposals
