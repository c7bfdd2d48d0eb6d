import Verif.Feed.Spec
namespace Verif.Feed
open Verif.Block (F P Txn Bound V3 Msg Event felt DeclareOld DeclareV2 DeclareV3 Deploy DeployAccountV1 DeployAccountV3 InvokeV1 InvokeV3 L1Handler)

/-! ## Leaves -/

theorem readHex_iff (v : J) (x : F) : readHex v = some x ↔ Says v (hx x) := by
  constructor
  · intro e
    cases v <;> simp only [readHex] at e <;> try cases e
    split at e
    · cases e; exact .same _
    · cases e
  · intro h
    cases h
    simp only [readHex, x.isLt, dif_pos]

theorem readHex251_iff (v : J) (x : F) : readHex251 v = some x ↔ Says v (hx x) ∧ Short x := by
  unfold readHex251
  rw [Option.bind_eq_some_iff]
  constructor
  · rintro ⟨y, hy, e⟩
    split at e
    · cases e; exact ⟨(readHex_iff _ _).1 hy, by assumption⟩
    · cases e
  · rintro ⟨h, s⟩
    exact ⟨x, (readHex_iff _ _).2 h, if_pos s⟩

theorem readDec_iff (v : J) (x : F) : readDec v = some x ↔ Says v (.dec x.val) := by
  constructor
  · intro e
    cases v <;> simp only [readDec] at e <;> try cases e
    · split at e
      · cases e; exact .hex _
      · cases e
    · split at e
      · cases e; exact .same _
      · cases e
  · intro h
    cases h <;> simp only [readDec, x.isLt, dif_pos]

theorem readBytes_iff (w : Nat) (v : J) (n : Nat) : readBytes w v = some n ↔ Says v (.hex n) ∧ n < 256 ^ w := by
  constructor
  · intro e
    cases v <;> simp only [readBytes] at e <;> try cases e
    split at e
    · cases e; exact ⟨.same _, by assumption⟩
    · cases e
  · rintro ⟨h, hn⟩
    cases h
    simp only [readBytes, hn, if_pos]

theorem readMode_iff (v : J) (b : Bool) : readMode v = some b ↔ Says v (md b) := by
  constructor
  · intro e
    unfold readMode at e
    cases v <;> simp only [readNum] at e <;> try cases e
    rename_i n
    by_cases hn : n < 256
    · rw [if_pos hn] at e
      match n with
      | 0 => cases e; exact .same _
      | 1 => cases e; exact .same _
      | n + 2 => cases e
    · rw [if_neg hn] at e; cases e
  · intro h
    cases b <;> (cases h; rfl)

theorem all_iff {α : Type} (rd : J → Option α) (f : α → J) (hf : ∀ v x, rd v = some x ↔ Says v (f x)) :
    ∀ (l : List J) (xs : List α), all rd l = some xs ↔ l.length = xs.length ∧ ∀ p ∈ l.zip (xs.map f), Says p.1 p.2
  | [], [] => by simp [all]
  | [], x :: xs => by simp [all]
  | j :: l, [] => by simp [all, Option.bind_eq_some_iff]
  | j :: l, x :: xs => by
    have ih := all_iff rd f hf l xs
    simp only [all, Option.bind_eq_bind, Option.bind_eq_some_iff, List.length_cons, List.map_cons, List.zip_cons_cons, List.forall_mem_cons,
      Nat.add_right_cancel_iff]
    constructor
    · rintro ⟨y, hy, ys, hys, e⟩
      cases e
      exact ⟨(ih.1 hys).1, (hf _ _).1 hy, (ih.1 hys).2⟩
    · rintro ⟨hl, h1, h2⟩
      exact ⟨x, (hf _ _).2 h1, xs, ih.2 ⟨hl, h2⟩, rfl⟩

theorem zip_self_says : ∀ (l : List J), ∀ p ∈ l.zip l, Says p.1 p.2
  | [] => by simp
  | j :: l => by
    simp only [List.zip_cons_cons, List.forall_mem_cons]
    exact ⟨.same j, zip_self_says l⟩

theorem says_arr {v : J} {m : List J} (h : Says v (.arr m)) : ∃ l, v = .arr l ∧ l.length = m.length ∧ ∀ p ∈ l.zip m, Says p.1 p.2 := by
  cases h with
  | same => exact ⟨m, rfl, rfl, zip_self_says m⟩
  | arr l _ hl h => exact ⟨l, rfl, hl, h⟩

theorem readList_iff {α : Type} (rd : J → Option α) (f : α → J) (hf : ∀ v x, rd v = some x ↔ Says v (f x)) (v : J) (xs : List α) :
    readList rd v = some xs ↔ Says v (.arr (xs.map f)) := by
  constructor
  · intro e
    cases v <;> simp only [readList] at e <;> try cases e
    have := (all_iff rd f hf _ _).1 e
    exact .arr _ _ (by simpa using this.1) this.2
  · intro h
    obtain ⟨l, rfl, hl, hh⟩ := says_arr h
    exact (all_iff rd f hf _ _).2 ⟨by simpa using hl, hh⟩

theorem hexes_iff (v : J) (xs : List F) : readList readHex v = some xs ↔ Says v (hxs xs) := readList_iff _ _ readHex_iff _ _

theorem decs_iff (v : J) (xs : List F) : readList readDec v = some xs ↔ Says v (dcs xs) :=
  readList_iff _ (fun x : F => .dec x.val) readDec_iff _ _

/-! ## Objects -/

theorem lookup_iff : ∀ {l : List (String × J)} (_ : (l.map (·.1)).Nodup) (k : String) (v : J), l.lookup k = some v ↔ (k, v) ∈ l
  | [], _, k, v => by simp
  | (a, b) :: l, hn, k, v => by
    simp only [List.map_cons, List.nodup_cons] at hn
    simp only [List.lookup_cons, List.mem_cons, Prod.mk.injEq]
    by_cases h : k = a
    · subst h
      simp only [BEq.rfl, Option.some.injEq, true_and]
      constructor
      · intro e; exact .inl e.symm
      · rintro (e | e)
        · exact e.symm
        · exact absurd (List.mem_map.2 ⟨_, e, rfl⟩) hn.1
    · have : (k == a) = false := by simpa using h
      simp only [this, h, false_and, false_or]
      exact lookup_iff hn.2 k v

theorem lookup_none {l : List (String × J)} (k : String) : l.lookup k = none ↔ ∀ q ∈ l, q.1 ≠ k := by
  induction l with
  | nil => simp
  | cons p l ih =>
    obtain ⟨a, b⟩ := p
    simp only [List.lookup_cons, List.forall_mem_cons]
    by_cases h : k = a
    · subst h; simp
    · have : (k == a) = false := by simpa using h
      simp only [this, ih]
      constructor
      · intro e; exact ⟨fun e' => h e'.symm, e⟩
      · exact fun e => e.2

theorem lookup_reverse {l : List (String × J)} (hn : (l.map (·.1)).Nodup) (k : String) : l.reverse.lookup k = l.lookup k := by
  have hr : ((l.reverse).map (·.1)).Nodup := by rw [List.map_reverse]; exact List.pairwise_reverse.2 (hn.imp Ne.symm)
  cases h : l.lookup k with
  | none => rw [lookup_none] at h ⊢; intro q hq; exact h q (List.mem_reverse.1 hq)
  | some v => rw [lookup_iff hn] at h; rw [lookup_iff hr]; exact List.mem_reverse.2 h

theorem lookup_filter (l : List (String × J)) (a k : String) :
    (l.filter (fun p => p.1 ≠ a)).lookup k = if k = a then none else l.lookup k := by
  induction l with
  | nil => simp
  | cons p l ih =>
    obtain ⟨b, c⟩ := p
    simp only [List.filter_cons]
    by_cases h : b = a
    · subst h
      simp only [ne_eq, not_true_eq_false, decide_false, Bool.false_eq_true, if_false]
      rw [ih, List.lookup_cons]
      by_cases hk : k = b
      · simp [hk]
      · have : (k == b) = false := by simpa using hk
        simp only [hk, if_false, this]
    · simp only [h, ne_eq, not_false_eq_true, decide_true, if_true, List.lookup_cons, ih]
      by_cases hk : k = a
      · have : (k == b) = false := by subst hk; simpa using fun e : k = b => h e.symm
        simp only [this, if_pos hk]
      · simp only [hk, if_false]

theorem says_obj {v : J} {m : List (String × J)} (hm : (m.map (·.1)).Nodup) (h : Says v (.obj m)) :
    ∃ l, v = .obj l ∧ ∀ p ∈ m, Says (valueOf l p.1) p.2 := by
  cases h with
  | same =>
    refine ⟨m, rfl, fun p hp => ?_⟩
    have : valueOf m p.1 = p.2 := by
      unfold valueOf
      rw [lookup_reverse hm, (lookup_iff hm p.1 p.2).2 hp]; rfl
    rw [this]; exact .same _
  | obj l _ h => exact ⟨l, rfl, h⟩

/-- A field that is there and says this. -/
def Has (g : String → Option J) (k : String) (w : J) : Prop := ∃ v, g k = some v ∧ Says v w

theorem req_iff {α : Type} {g : String → Option J} {k : String} {rd : J → Option α} {x : α} {w : J} {p : Prop}
    (h : ∀ v, rd v = some x ↔ Says v w ∧ p) : req g k rd = some x ↔ Has g k w ∧ p := by
  unfold req Has
  rw [Option.bind_eq_some_iff]
  constructor
  · rintro ⟨v, hv, e⟩; exact ⟨⟨v, hv, ((h v).1 e).1⟩, ((h v).1 e).2⟩
  · rintro ⟨⟨v, hv, e⟩, hp⟩; exact ⟨v, hv, (h v).2 ⟨e, hp⟩⟩

theorem req_iff' {α : Type} {g : String → Option J} {k : String} {rd : J → Option α} {x : α} {w : J}
    (h : ∀ v, rd v = some x ↔ Says v w) : req g k rd = some x ↔ Has g k w := by
  have := req_iff (g := g) (k := k) (p := True) (fun v => by rw [h v, and_true])
  rwa [and_true] at this

theorem dflt_iff {α : Type} {g : String → Option J} {k : String} {rd : J → Option α} {x d : α} {w : J}
    (h : ∀ v, rd v = some x ↔ Says v w) : dflt g k d rd = some x ↔ Has g k w ∨ (g k = none ∧ x = d) := by
  unfold dflt Has
  cases e : g k with
  | none => simp [eq_comm]
  | some v => simp [h]

theorem req_value {α : Type} {l : List (String × J)} {k : String} {rd : J → Option α} {x : α} {w : J} {p : Prop}
    (h : ∀ v, rd v = some x ↔ Says v w ∧ p) (hnull : ¬ Says .null w) : req (valueFields l).get k rd = some x ↔ Says (valueOf l k) w ∧ p := by
  rw [req_iff h]
  unfold Has valueOf valueFields
  simp only
  cases e : List.lookup k l.reverse with
  | none => simp [hnull]
  | some v => simp

theorem null_obj {m : List (String × J)} : ¬ Says .null (.obj m) := by intro h; cases h
theorem null_hex {n : Nat} : ¬ Says .null (.hex n) := by intro h; cases h

theorem readBound_iff (v : J) (b : Bound) : readBound v = some b ↔ Says v (bd b) ∧ Bound.Fits b := by
  have hm : (([("max_price_per_unit", J.hex b.price), ("max_amount", J.hex b.amount)] : List (String × J)).map (·.1)).Nodup := by
    show (["max_price_per_unit", "max_amount"] : List String).Nodup
    decide
  constructor
  · intro e
    cases v <;> unfold readBound at e <;> try cases e
    simp only [Option.bind_eq_bind, Option.bind_eq_some_iff] at e
    obtain ⟨a, ha, p, hp, e⟩ := e
    cases e
    rw [req_value (readBytes_iff 8 · a) null_hex] at ha
    rw [req_value (readBytes_iff 16 · p) null_hex] at hp
    refine ⟨.obj _ _ ?_, by simpa using ha.2, by simpa using hp.2⟩
    simp only [List.forall_mem_cons, List.not_mem_nil, false_implies, implies_true, and_true]
    exact ⟨hp.1, ha.1⟩
  · rintro ⟨h, hf⟩
    obtain ⟨l, rfl, h'⟩ := says_obj hm h
    clear h
    have h := h'
    clear h'
    simp only [List.forall_mem_cons, List.not_mem_nil, false_implies, implies_true, and_true] at h
    unfold readBound
    simp only [Option.bind_eq_bind]
    rw [(req_value (readBytes_iff 8 · b.amount) null_hex).2 ⟨h.2, by simpa using hf.1⟩,
      (req_value (readBytes_iff 16 · b.price) null_hex).2 ⟨h.1, by simpa using hf.2⟩]
    rfl

theorem opt_value {l : List (String × J)} {k : String} {c : Option Bound} : opt (valueFields l).get k readBound = some c ↔
    Says (valueOf l k) (match c with
      | none => .null
      | some b => bd b) ∧ ∀ b, c = some b → Bound.Fits b := by
  have hn : ∀ v, Says v .null ↔ v = .null := fun v => ⟨fun h => by cases h; rfl, fun h => h ▸ .same _⟩
  unfold opt valueOf valueFields
  simp only
  cases e : List.lookup k l.reverse with
  | none =>
    cases c with
    | none => simp [hn]
    | some b => simp [null_obj]
  | some v =>
    cases v with
    | null => cases c with
      | none => simp [hn]
      | some b => simp [null_obj]
    | _ =>
      cases c with
      | none => simp [hn]
      | some b => simp [readBound_iff]

theorem readBounds_iff (v : J) (x : V3) : readBounds v = some (x.l1Gas, x.l2Gas, x.l1DataGas) ↔
    Says v (bds x) ∧ (Bound.Fits x.l1Gas ∧ Bound.Fits x.l2Gas ∧ ∀ b, x.l1DataGas = some b → Bound.Fits b) := by
  have hm : (([("L1_GAS", bd x.l1Gas), ("L1_DATA_GAS", match x.l1DataGas with
      | none => .null
      | some b => bd b), ("L2_GAS", bd x.l2Gas)] : List (String × J)).map (·.1)).Nodup := by
    show (["L1_GAS", "L1_DATA_GAS", "L2_GAS"] : List String).Nodup
    decide
  constructor
  · intro e
    cases v <;> unfold readBounds at e <;> try cases e
    simp only [Option.bind_eq_bind, Option.bind_eq_some_iff] at e
    obtain ⟨a, ha, b, hb, c, hc, e⟩ := e
    simp only [Option.pure_def, Option.some.injEq, Prod.mk.injEq] at e
    obtain ⟨rfl, rfl, rfl⟩ := e
    rw [req_value (readBound_iff · _) null_obj] at ha hb
    rw [opt_value] at hc
    refine ⟨.obj _ _ ?_, ha.2, hb.2, hc.2⟩
    simp only [List.forall_mem_cons, List.not_mem_nil, false_implies, implies_true, and_true]
    exact ⟨ha.1, hc.1, hb.1⟩
  · rintro ⟨h, h1, h2, h3⟩
    obtain ⟨l, rfl, h'⟩ := says_obj hm h
    clear h
    have h := h'
    clear h'
    simp only [List.forall_mem_cons, List.not_mem_nil, false_implies, implies_true, and_true] at h
    unfold readBounds
    simp only [Option.bind_eq_bind]
    rw [(req_value (readBound_iff · x.l1Gas) null_obj).2 ⟨h.1, h1⟩, (req_value (readBound_iff · x.l2Gas) null_obj).2 ⟨h.2.2, h2⟩,
      opt_value.2 ⟨h.2.1, h3⟩]
    rfl

end Verif.Feed
