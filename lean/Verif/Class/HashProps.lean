import Verif.Class.HashPython
/-! # C75: a class hash stands for one class -/
namespace Verif.Class
open Verif.Block (F felt Hashes Query chainQ chain Collide chain_inj query_eq felt_inj64 Collide.mono)

/-! ## Lists of entry points -/

theorem pairs_inj {l l' : List (F × F)} (h : l.flatMap (fun e => [e.1, e.2]) = l'.flatMap (fun e => [e.1, e.2])) : l = l' := by
  induction l generalizing l' with
  | nil => cases l' <;> simp at h ⊢
  | cons p l ih =>
    cases l' with
    | nil => simp at h
    | cons q l' =>
      simp only [List.flatMap_cons, List.cons_append, List.nil_append, List.cons.injEq] at h
      rw [ih h.2.2, Prod.ext h.1 h.2.1]

theorem indices_inj {l l' : List (F × Nat)} (hl : ∀ e ∈ l, e.2 < 2 ^ 64) (hl' : ∀ e ∈ l', e.2 < 2 ^ 64)
    (h : l.flatMap (fun e => [e.1, felt e.2]) = l'.flatMap (fun e => [e.1, felt e.2])) : l = l' := by
  induction l generalizing l' with
  | nil => cases l' <;> simp at h ⊢
  | cons p l ih =>
    cases l' with
    | nil => simp at h
    | cons q l' =>
      simp only [List.flatMap_cons, List.cons_append, List.nil_append, List.cons.injEq] at h
      rw [ih (fun e he => hl e (by simp [he])) (fun e he => hl' e (by simp [he])) h.2.2,
        Prod.ext h.1 (felt_inj64 (hl p (by simp)) (hl' q (by simp)) h.2.1)]

theorem pairs_length (l : List (F × F)) : (l.flatMap (fun e => [e.1, e.2])).length = 2 * l.length := by
  induction l with
  | nil => rfl
  | cons p l ih => simp only [List.flatMap_cons, List.length_append, ih, List.length_cons, List.length_nil]; omega

/-! ## Prepared programs -/

theorem prepare_some {p q : Program} (h : prepare p = some q) : ∃ attributes, p.attributes.mapM prepareAttribute = some attributes ∧
    q = { p with
      attributes := attributes
      debugInfo := none
      identifiers := if p.compilerVersion.isNone then spaced p.identifiers else p.identifiers
      referenceManager := if p.compilerVersion.isNone then spaced p.referenceManager else p.referenceManager } := by
  simp only [prepare, Option.map_eq_some_iff] at h
  obtain ⟨a, h1, h2⟩ := h
  exact ⟨a, h1, h2.symm⟩

theorem spacedIf_ok {b : Bool} {j : Json} (h : j.Ok) : (if b then spaced j else j).Ok := by
  cases b
  · exact h
  · exact spaced_ok j h

theorem text_ok {c : Cairo} {p : Program} (hc : c.Ok) (hp : prepare c.program = some p) :
    (Json.obj [("abi".toList, c.abi), ("program".toList, programJson p)]).Ok := by
  obtain ⟨a, h1, rfl⟩ := prepare_some hp
  simp only [Json.Ok, FieldsOk, and_true]
  exact ⟨hc.abi, programJson_ok (prepare_ok h1 hc.attributes) hc.hints (spacedIf_ok hc.identifiers) (spacedIf_ok hc.referenceManager)⟩

theorem same_program {p q r s : Program} (hp : prepare p = some r) (hq : prepare q = some s) (e : programJson r = programJson s) : SameProgram p q := by
  obtain ⟨a, h1, rfl⟩ := prepare_some hp
  obtain ⟨b, h2, rfl⟩ := prepare_some hq
  obtain ⟨e1, e2, e3, e4, e5, e6, e7, e8, e9⟩ := programJson_inj (by rfl) (by rfl) e
  simp only at e1 e2 e3 e4 e5 e6 e7 e8 e9
  subst e1
  have fin : ∀ x y : Json, (if p.compilerVersion.isNone then spaced x else x) = (if q.compilerVersion.isNone then spaced y else y) →
      if p.compilerVersion = none then unspaced x = unspaced y else x = y := by
    intro x y h
    rw [← e3] at h
    cases hv : p.compilerVersion with
    | none =>
      rw [hv] at h
      simp only [Option.isNone_none, if_true] at h ⊢
      rw [← unspaced_spaced x, h, unspaced_spaced]
    | some v => rw [hv] at h; simpa using h
  exact { attributes := prepare_alike h1 h2, builtins := e2, compilerVersion := e3, data := e4, hints := e5, identifiers := fin _ _ e6
          mainScope := e7, prime := e8, referenceManager := fin _ _ e9 }

/-! ## The theorems -/

theorem cairo_same (h : Hashes) {a b : Cairo} {x : F} (ha : a.Ok) (hb : b.Ok) (hx : cairoHash h a = some x) (hy : cairoHash h b = some x) :
    Collide h (cairoQueries h a) (cairoQueries h b) ∨ Same (.cairo a) (.cairo b) := by
  simp only [cairoHash, Option.bind_eq_some_iff, Option.some.injEq] at hx hy
  obtain ⟨p, hp, bs, hbs, ds, hds, e1⟩ := hx
  obtain ⟨q, hq, bs', hbs', ds', hds', e2⟩ := hy
  rcases chain_inj h (by simp) (by simp) (e1.trans e2.symm) with e | hc
  rotate_left
  · left
    refine hc.mono ?_ ?_ <;> intro y hy <;> simp only [cairoQueries, hp, hq, hbs, hbs', hds, hds', List.mem_append] <;> exact .inr hy
  simp only [List.cons.injEq, and_true, true_and] at e
  obtain ⟨e3, e4, e5, _, e6, _⟩ := e
  have len : ∀ l : Option (List (F × F)), (l.getD []).length < 2 ^ 63 → (flatPairs l).length < 2 ^ 64 := by
    intro l hl
    rw [flatPairs, pairs_length]; omega
  rcases chain_inj h (len _ ha.external) (len _ hb.external) e3 with g1 | hc
  rotate_left
  · left
    refine hc.mono ?_ ?_ <;> intro y hy <;> simp only [cairoQueries, hp, hq, List.mem_append] <;> exact .inl (.inl (.inl (.inr hy)))
  rcases chain_inj h (len _ ha.l1Handler) (len _ hb.l1Handler) e4 with g2 | hc
  rotate_left
  · left
    refine hc.mono ?_ ?_ <;> intro y hy <;> simp only [cairoQueries, hp, hq, List.mem_append] <;> exact .inl (.inl (.inr hy))
  rcases chain_inj h (len _ ha.constructor) (len _ hb.constructor) e5 with g3 | hc
  rotate_left
  · left
    refine hc.mono ?_ ?_ <;> intro y hy <;> simp only [cairoQueries, hp, hq, List.mem_append] <;> exact .inl (.inr hy)
  have m1 : Query.reason (asciiBytes (hintedText a.abi p)) ∈ cairoQueries h a := by
    simp only [cairoQueries, hp, List.mem_append]; exact .inl (.inl (.inl (.inl (by simp))))
  have m2 : Query.reason (asciiBytes (hintedText b.abi q)) ∈ cairoQueries h b := by
    simp only [cairoQueries, hq, List.mem_append]; exact .inl (.inl (.inl (.inl (by simp))))
  rcases query_eq (h := h) m1 m2 e6 with g4 | hc
  rotate_left
  · exact .inl hc
  right
  have oka := text_ok ha hp
  have okb := text_ok hb hq
  have t := asciiBytes_inj (print_ascii _ oka) (print_ascii _ okb) (Query.reason.inj g4)
  have j := printJson_inj oka okb t
  simp only [Json.obj.injEq, List.cons.injEq, Prod.mk.injEq, true_and, and_true] at j
  exact ⟨j.1, same_program hp hq j.2, pairs_inj g1, pairs_inj g2, pairs_inj g3⟩

theorem sierra_same (h : Hashes) {a b : Sierra} {x : F} (ha : a.Ok) (hb : b.Ok) (hx : sierraHash h a = some x) (hy : sierraHash h b = some x) :
    Collide h (sierraQueries h a) (sierraQueries h b) ∨ Same (.sierra a) (.sierra b) := by
  unfold sierraHash at hx hy
  split at hx
  · cases hx
  next v1 =>
  split at hy
  · cases hy
  next v2 =>
  simp only [ne_eq, Decidable.not_not] at v1 v2
  have e := (Option.some.inj hx).trans (Option.some.inj hy).symm
  have step : ∀ {s t : Query}, s ∈ sierraQueries h a → t ∈ sierraQueries h b → s.eval h = t.eval h →
      s = t ∨ Collide h (sierraQueries h a) (sierraQueries h b) := fun hs ht he => query_eq hs ht he
  rcases step (s := .many _) (t := .many _) (by simp [sierraQueries]) (by simp [sierraQueries]) e with g | hc
  rotate_left
  · exact .inl hc
  simp only [Query.many.injEq, List.cons.injEq, true_and, and_true] at g
  obtain ⟨g1, g2, g3, g4, g5⟩ := g
  rcases step (s := .many _) (t := .many _) (by simp [sierraQueries]) (by simp [sierraQueries]) g1 with f1 | hc
  rotate_left
  · exact .inl hc
  rcases step (s := .many _) (t := .many _) (by simp [sierraQueries]) (by simp [sierraQueries]) g2 with f2 | hc
  rotate_left
  · exact .inl hc
  rcases step (s := .many _) (t := .many _) (by simp [sierraQueries]) (by simp [sierraQueries]) g3 with f3 | hc
  rotate_left
  · exact .inl hc
  rcases step (s := .reason a.abi) (t := .reason b.abi) (by simp [sierraQueries]) (by simp [sierraQueries]) g4 with f4 | hc
  rotate_left
  · exact .inl hc
  rcases step (s := .many _) (t := .many _) (by simp [sierraQueries]) (by simp [sierraQueries]) g5 with f5 | hc
  rotate_left
  · exact .inl hc
  right
  refine ⟨Query.reason.inj f4, Query.many.inj f5, v1.trans v2.symm, ?_, ?_, ?_⟩
  · exact indices_inj (ha _ (.inl rfl)) (hb _ (.inl rfl)) (Query.many.inj f1)
  · exact indices_inj (ha _ (.inr (.inl rfl))) (hb _ (.inr (.inl rfl))) (Query.many.inj f2)
  · exact indices_inj (ha _ (.inr (.inr rfl))) (hb _ (.inr (.inr rfl))) (Query.many.inj f3)

theorem cairo_sierra (h : Hashes) {a : Cairo} {b : Sierra} {x : F} (hx : cairoHash h a = some x) (hy : sierraHash h b = some x) :
    ∃ s ∈ cairoQueries h a, ∃ t ∈ sierraQueries h b, s ≠ t ∧ s.eval h = x ∧ t.eval h = x := by
  simp only [cairoHash, Option.bind_eq_some_iff, Option.some.injEq] at hx
  obtain ⟨p, hp, bs, hbs, ds, hds, e1⟩ := hx
  unfold sierraHash at hy
  split at hy
  · cases hy
  refine ⟨.ped _ _, ?_, .many _, ?_, ?_, e1, Option.some.inj hy⟩
  · simp only [cairoQueries, hp, hbs, hds, List.mem_append, chainQ]
    exact .inr (.inr (by simp))
  · simp [sierraQueries]
  · simp

/-- **C75**: two classes, Cairo 0 or Sierra, that get the same class hash are the same class, as long as no collision of the hash functions is
among the hashes computed for the two. For Sierra classes the same means: ABI, program, version and the entry points of every type with their
order. For Cairo 0 classes it means: the ABI, the entry points, and all parts of the program but its debug information, where an attribute
field that older compilers did not write may be missing or empty, and for programs without a compiler version the spaces in type names do not
count. -/
theorem C75_class_hash (h : Hashes) {a b : ClassDef} {x : F} (ha : a.Ok) (hb : b.Ok) (hx : classHash h a = some x) (hy : classHash h b = some x) :
    Same a b ∨ Collide h (queries h a) (queries h b) := by
  cases a with
  | cairo a =>
    cases b with
    | cairo b => exact (cairo_same h ha hb hx hy).symm
    | sierra b =>
      obtain ⟨s, hs, t, ht, hne, e1, e2⟩ := cairo_sierra h hx hy
      exact .inr ⟨s, hs, t, ht, hne, e1.trans e2.symm⟩
  | sierra a =>
    cases b with
    | cairo b =>
      obtain ⟨s, hs, t, ht, hne, e1, e2⟩ := cairo_sierra h hy hx
      exact .inr ⟨t, ht, s, hs, hne.symm, e2.trans e1.symm⟩
    | sierra b => exact (sierra_same h ha hb hx hy).symm

/-- **C75**: which classes have a hash. A Sierra class has one if its version is supported; a Cairo 0 class if its attributes are objects whose
scopes are lists, the names of its builtins fit into a field element and its bytecode is hexadecimal field elements. -/
theorem C75_has_hash (h : Hashes) :
    (∀ c : Sierra, (classHash h (.sierra c)).isSome = true ↔ c.version = "0.1.0".toList) ∧
    (∀ c : Cairo, (classHash h (.cairo c)).isSome = true ↔
      (∀ j ∈ c.program.attributes, ∃ l, j = .obj l ∧ ∀ v, l.lookup "accessible_scopes".toList = some v → ∃ s, v = .arr s) ∧
      (∀ s ∈ c.program.builtins, (builtinFelt s).isSome = true) ∧ (∀ s ∈ c.program.data, (wordFelt s).isSome = true)) := by
  have all : ∀ {α β : Type} (f : α → Option β) (l : List α), (l.mapM f).isSome = true ↔ ∀ x ∈ l, (f x).isSome = true := by
    intro α β f l
    induction l with
    | nil => simp
    | cons x l ih =>
      rw [List.mapM_cons]
      cases hx : f x with
      | none => simp [hx]
      | some y =>
        simp only [List.mem_cons, forall_eq_or_imp, hx, Option.isSome_some, true_and]
        rw [← ih]
        cases l.mapM f <;> simp
  constructor
  · intro c
    simp only [classHash, sierraHash]
    split <;> simp_all
  · intro c
    have att : ∀ j : Json, (prepareAttribute j).isSome = true ↔
        ∃ l, j = .obj l ∧ ∀ v, l.lookup "accessible_scopes".toList = some v → ∃ s, v = .arr s := by
      intro j
      cases j with
      | obj l =>
        simp only [prepareAttribute, Option.isSome_map, Json.obj.injEq]
        unfold dropScopes
        have e : scopesKey = "accessible_scopes".toList := rfl
        rw [e]
        constructor
        · intro hs
          refine ⟨l, rfl, ?_⟩
          intro v hv
          rw [hv] at hs
          cases v with
          | arr s => exact ⟨s, rfl⟩
          | _ => simp at hs
        · rintro ⟨l', rfl, hl⟩
          cases hv : l.lookup "accessible_scopes".toList with
          | none => rfl
          | some v =>
            obtain ⟨s, rfl⟩ := hl v hv
            cases s <;> rfl
      | _ => simp [prepareAttribute]
    have pre : (prepare c.program).isSome = true ↔
        ∀ j ∈ c.program.attributes, ∃ l, j = .obj l ∧ ∀ v, l.lookup "accessible_scopes".toList = some v → ∃ s, v = .arr s := by
      rw [prepare, Option.isSome_map, all]
      exact forall_congr' fun j => imp_congr_right fun _ => att j
    rw [← pre, ← all, ← all]
    simp only [classHash, cairoHash]
    cases hp : prepare c.program with
    | none => simp
    | some p =>
      obtain ⟨a, _, rfl⟩ := prepare_some hp
      simp only [Option.bind_some, Option.isSome_some, true_and]
      cases c.program.builtins.mapM builtinFelt <;> simp
      cases c.program.data.mapM wordFelt <;> simp

/-- **C75**: the hash of a class from a peer, computed from its parts, is the hash of the class as the gateway serves it, whether the gateway
leaves out an empty type of entry points or not. -/
theorem C75_parts (h : Hashes) :
    (∀ c : Cairo, cairoPartsHash h c.abi c.program (c.entryPoints.external.getD []) (c.entryPoints.l1Handler.getD [])
      (c.entryPoints.constructor.getD []) = classHash h (.cairo c)) ∧
    (∀ c : Sierra, sierraPartsHash h c.abi c.program c.version (c.entryPoints.external.getD []) (c.entryPoints.l1Handler.getD [])
      (c.entryPoints.constructor.getD []) = classHash h (.sierra c)) := by
  constructor <;> intro c
  · simp only [cairoPartsHash, classHash, cairoHash, flatPairs, Option.getD_some]
  · simp only [sierraPartsHash, classHash, sierraHash, flatIndices, Option.getD_some]

theorem flatIndices_official (l : Option (List (F × Nat))) : flatIndices l = officialEntries (l.getD []) := by
  unfold flatIndices
  generalize l.getD [] = l
  induction l with
  | nil => rfl
  | cons e l ih =>
    obtain ⟨a, b⟩ := e
    simp only [List.flatMap_cons, ih, officialEntries, List.cons_append, List.nil_append]

/-- **C75**: a Sierra class of version 0.1.0 has the hash of the network, one of another version has none. -/
theorem C75_sierra_official (h : Hashes) (c : Sierra) :
    (c.version = ['0', '.', '1', '.', '0'] → classHash h (.sierra c) = some (officialSierra h c.abi c.program
      (c.entryPoints.external.getD []) (c.entryPoints.l1Handler.getD []) (c.entryPoints.constructor.getD []))) ∧
    (c.version ≠ ['0', '.', '1', '.', '0'] → classHash h (.sierra c) = none) := by
  have e : "0.1.0".toList = ['0', '.', '1', '.', '0'] := by decide
  have e2 : "CONTRACT_CLASS_V0.1.0".toList =
    ['C', 'O', 'N', 'T', 'R', 'A', 'C', 'T', '_', 'C', 'L', 'A', 'S', 'S', '_', 'V', '0', '.', '1', '.', '0'] := by decide
  have e3 : (2 : Nat) ^ 250 = 0x400000000000000000000000000000000000000000000000000000000000000 := by decide
  show (_ → sierraHash h c = _) ∧ (_ → sierraHash h c = none)
  unfold sierraHash
  rw [e]
  constructor
  · intro hv
    rw [if_neg (fun x : c.version ≠ _ => x hv), officialSierra, ← flatIndices_official, ← flatIndices_official, ← flatIndices_official, ← e3, ← e2]
    rfl
  · intro hv
    rw [if_pos hv]

example (h : Hashes) : classHash h (.sierra ⟨[], [felt 7], ['0', '.', '1', '.', '0'], ⟨none, some [(felt 1, 2)], none⟩⟩) =
    some (officialSierra h [] [felt 7] [] [(felt 1, 2)] []) := (C75_sierra_official h _).1 rfl

/-- **C75**: the text that is hashed for a Cairo 0 class is the one Python writes, and so the hash is that of the network, if and only if no
string in it has a character from U+007F to U+0FFF. -/
theorem C75_official_partial (h : Hashes) {c : Cairo} {p : Program} (hp : prepare c.program = some p) :
    (hintedText c.abi p = officialText c.abi p ↔ c.abi.Plain ∧ (programJson p).Plain) ∧
    (c.abi.Plain ∧ (programJson p).Plain → classHash h (.cairo c) = officialHash h c) := by
  have key : hintedText c.abi p = officialText c.abi p ↔ c.abi.Plain ∧ (programJson p).Plain := by
    rw [hintedText, officialText, print_plain]
    simp only [Json.Plain, FieldsPlain, and_true]
    constructor
    · rintro ⟨_, h1, _, h2⟩; exact ⟨h1, h2⟩
    · rintro ⟨h1, h2⟩
      refine ⟨?_, h1, ?_, h2⟩ <;> intro d hd <;> simp at hd <;> rcases hd with rfl | rfl | rfl | rfl | rfl | rfl | rfl <;>
        simp only [Odd, not_and] <;> decide
  refine ⟨key, fun hpl => ?_⟩
  simp only [classHash, cairoHash, officialHash, hp, Option.bind_some, key.mpr hpl]

/-- **C75 violated**: a Cairo 0 class with such a character, in its ABI or its program, gets a hash that is not that of the network. -/
theorem C75_escape_violated (h : Hashes) {c : Cairo} {p : Program} {x y : F} (hc : c.Ok) (hp : prepare c.program = some p)
    (hodd : ¬ (c.abi.Plain ∧ (programJson p).Plain)) (hx : classHash h (.cairo c) = some x) (hy : officialHash h c = some y) :
    x ≠ y ∨ Collide h (queries h (.cairo c)) (officialQueries h c) := by
  by_cases hxy : x = y
  rotate_left
  · exact .inl hxy
  right
  subst hxy
  simp only [classHash, cairoHash, officialHash, hp, Option.bind_some, Option.bind_eq_some_iff, Option.some.injEq] at hx hy
  obtain ⟨bs, hbs, ds, hds, e1⟩ := hx
  obtain ⟨bs', hbs', ds', hds', e2⟩ := hy
  rw [hbs] at hbs'; rw [hds] at hds'
  cases hbs'; cases hds'
  rcases chain_inj h (by simp) (by simp) (e1.trans e2.symm) with e | hc'
  rotate_left
  · refine hc'.mono ?_ ?_ <;> intro y hy
    · simp only [queries, cairoQueries, hp, hbs, hds, List.mem_append]; exact .inr hy
    · simp only [officialQueries, hp, hbs, hds, List.mem_cons]; exact .inr hy
  simp only [List.cons.injEq, and_true, true_and] at e
  have m1 : Query.reason (asciiBytes (hintedText c.abi p)) ∈ queries h (.cairo c) := by
    simp only [queries, cairoQueries, hp, List.mem_append]; exact .inl (.inl (.inl (.inl (by simp))))
  have m2 : Query.reason (asciiBytes (officialText c.abi p)) ∈ officialQueries h c := by
    simp only [officialQueries, hp, List.mem_cons, true_or]
  rcases query_eq (h := h) m1 m2 e with g | g
  · have oka := text_ok hc hp
    exact absurd ((C75_official_partial h hp).1.mp (asciiBytes_inj (print_ascii _ oka) (py_ascii _ oka) (Query.reason.inj g))) hodd
  · exact g

/-! ## Examples -/

/-- A class with one function, an attribute and a builtin; `name` is the name of a function in the ABI. -/
def sampleProgram (version : Option Str) (fields : List (Str × Json)) : Program where
  attributes := [.obj fields]
  builtins := ["pedersen".toList]
  compilerVersion := version
  data := ["0x40780017fff7fff".toList, "0x1".toList]
  debugInfo := some "{}".toList
  hints := [(0, [.obj [("code".toList, .str "x = 1".toList)]])]
  identifiers := .obj [("f".toList, .obj [("cairo_type".toList, .str "(a: felt, b : felt)".toList), ("size".toList, .num ['1'])])]
  mainScope := "__main__".toList
  prime := "0x800000000000011000000000000000000000000000000000000000000000001".toList
  referenceManager := .obj [("references".toList, .arr [])]

def sampleCairo (name : Str) (p : Program) : Cairo where
  abi := .arr [.obj [("name".toList, .str name), ("outputs".toList, .arr []), ("type".toList, .str "function".toList)]]
  program := p
  entryPoints := ⟨some [(7, 0)], none, some []⟩

def sampleSierra : Sierra := ⟨[91, 93], [1, 2, 3], "0.1.0".toList, ⟨some [(7, 0), (9, 1)], some [], none⟩⟩

def sampleHashes : Hashes where
  ped a b := 2 * a + 3 * b + 1
  two a b := 5 * a + 7 * b + 2
  many l := l.foldl (fun a b => 11 * a + b + 3) 0
  keccak l := l.foldl (fun n c => n * 256 + c.toNat) 1

/-- All parts of the samples are well formed. -/
theorem sampleCairo_ok (name : Str) (v : Option Str) (l : List (Str × Json)) (h : FieldsOk l) : (sampleCairo name (sampleProgram v l)).Ok where
  abi := by simp [sampleCairo, Json.Ok, ItemsOk, FieldsOk]
  attributes := by simp [sampleCairo, sampleProgram, ItemsOk, Json.Ok, h]
  hints := by intro p hp; simp [sampleCairo, sampleProgram] at hp; subst hp; simp [ItemsOk, Json.Ok, FieldsOk]
  identifiers := by simp [sampleCairo, sampleProgram, Json.Ok, FieldsOk, NumChar]
  referenceManager := by simp [sampleCairo, sampleProgram, Json.Ok, ItemsOk, FieldsOk]
  external := by simp [sampleCairo]
  l1Handler := by simp [sampleCairo]
  constructor := by simp [sampleCairo]

/-- The hypotheses of `C75_class_hash` for two Cairo 0 classes that differ and still count as the same: the second lacks an empty field of the
attribute, has other spaces in a type and other debug information. -/
example : ∃ x, classHash sampleHashes (.cairo (sampleCairo "f".toList (sampleProgram none [("accessible_scopes".toList, .arr [])]))) = some x ∧
    classHash sampleHashes (.cairo (sampleCairo "f".toList { sampleProgram none [] with debugInfo := none })) = some x ∧
    (sampleProgram none [("accessible_scopes".toList, .arr [])]).attributes ≠ (sampleProgram none []).attributes := by
  refine ⟨(classHash sampleHashes (.cairo (sampleCairo "f".toList (sampleProgram none [])))).getD 0, ?_, ?_, ?_⟩
  · decide +kernel
  · decide +kernel
  · simp [sampleProgram]

example : (ClassDef.sierra sampleSierra).Ok ∧ (classHash sampleHashes (.sierra sampleSierra)).isSome = true := by
  refine ⟨?_, by decide +kernel⟩
  rintro l (rfl | rfl | rfl) e he <;> simp [sampleSierra] at he
  rcases he with rfl | rfl <;> decide

/-- The hypotheses of `C75_escape_violated`: a function named `é`. -/
example : ∃ p, prepare (sampleProgram (some "0.10".toList) []) = some p ∧
    ¬ ((sampleCairo "é".toList (sampleProgram (some "0.10".toList) [])).abi.Plain ∧ (programJson p).Plain) ∧
    (sampleCairo "é".toList (sampleProgram (some "0.10".toList) [])).Ok ∧
    (classHash sampleHashes (.cairo (sampleCairo "é".toList (sampleProgram (some "0.10".toList) [])))).isSome = true ∧
    (officialHash sampleHashes (sampleCairo "é".toList (sampleProgram (some "0.10".toList) []))).isSome = true ∧
    quote "é".toList = "\"\\u  e9\"".toList ∧ pyString "é".toList = "\"\\u00e9\"".toList := by
  refine ⟨_, rfl, ?_, sampleCairo_ok _ _ _ (by simp [FieldsOk]), by decide +kernel, by decide +kernel, by decide +kernel, by decide +kernel⟩
  rintro ⟨h, -⟩
  simp only [sampleCairo, Json.Plain, ItemsPlain, FieldsPlain] at h
  have := h.1.2.1 'é' (by decide)
  exact this (by unfold Odd; decide)

/-- The hypotheses of `C75_official_partial`: a function named `f`. -/
example : ∃ p, prepare (sampleProgram none []) = some p ∧ (sampleCairo "f".toList (sampleProgram none [])).abi.Plain := by
  refine ⟨_, rfl, ?_⟩
  simp only [sampleCairo, Json.Plain, ItemsPlain, FieldsPlain, and_true, true_and]
  simp [Odd]

end Verif.Class
