import Verif.Cls.Spec
namespace Verif.Cls
open Verif.Block (F P)

/-! ## Fields -/

theorem get_eq_some {l : List (String × J)} {k : String} {v : J} : get l k = some v ↔ Gives (.obj l) k v := by
  unfold get Gives
  constructor
  · intro h
    obtain ⟨a, b, e, hb⟩ := List.lookup_eq_some_iff.1 h
    refine ⟨b.reverse, a.reverse, ?_, ?_⟩
    · have := congrArg List.reverse e
      rw [List.reverse_reverse] at this
      rw [this]; simp
    · intro hm
      obtain ⟨p, hp, rfl⟩ := List.mem_map.1 hm
      have := hb p (List.mem_reverse.1 hp)
      simp at this
  · rintro ⟨a, b, e, hb⟩
    cases e
    refine List.lookup_eq_some_iff.2 ⟨b.reverse, a.reverse, by simp, ?_⟩
    intro p hp
    have : p.1 ∈ b.map (·.1) := List.mem_map.2 ⟨p, List.mem_reverse.1 hp, rfl⟩
    simp only [bne_iff_ne, ne_eq]
    intro hk
    exact hb (hk ▸ this)

theorem lacks_obj {l : List (String × J)} {k : String} : Lacks (.obj l) k ↔ k ∉ l.map (·.1) := by
  constructor
  · rintro ⟨l', h, hk⟩; cases h; exact hk
  · exact fun h => ⟨l, rfl, h⟩

theorem get_eq_none {l : List (String × J)} {k : String} : get l k = none ↔ Lacks (.obj l) k := by
  rw [lacks_obj]
  unfold get
  rw [List.lookup_eq_none_iff]
  constructor
  · intro h hm
    obtain ⟨p, hp, rfl⟩ := List.mem_map.1 hm
    have := h p (List.mem_reverse.2 hp)
    simp at this
  · intro h p hp
    simp only [bne_iff_ne, ne_eq]
    intro hk
    exact h (List.mem_map.2 ⟨p, List.mem_reverse.1 hp, hk.symm⟩)

theorem gives_unique {j : J} {k : String} {v w : J} (h : Gives j k v) (h' : Gives j k w) : v = w := by
  obtain ⟨a, b, rfl, hb⟩ := id h
  have h1 := get_eq_some.2 h
  have h2 := get_eq_some.2 h'
  rw [h1] at h2; cases h2; rfl

theorem gives_lacks {j : J} {k : String} {v : J} (h : Gives j k v) (h' : Lacks j k) : False := by
  obtain ⟨a, b, rfl, hb⟩ := id h
  have h1 := get_eq_some.2 h
  have h2 := get_eq_none.2 h'
  rw [h1] at h2; cases h2

theorem gives_or_lacks (l : List (String × J)) (k : String) : (∃ v, Gives (.obj l) k v) ∨ Lacks (.obj l) k := by
  cases h : get l k with
  | none => exact .inr (get_eq_none.1 h)
  | some v => exact .inl ⟨v, get_eq_some.1 h⟩

theorem only_obj {l : List (String × J)} {names : List String} : Only (.obj l) names ↔ ∀ p ∈ l, p.1 ∈ names := by
  constructor
  · rintro ⟨l', h, hk⟩; cases h; exact hk
  · exact fun h => ⟨l, rfl, h⟩

theorem fields_eq {names : List String} {j : J} {g : String → Option J} :
    fields names j = some g ↔ ∃ l, j = .obj l ∧ Only j names ∧ g = get l := by
  cases j with
  | obj l =>
    simp only [fields]
    constructor
    · intro h
      split at h
      · rename_i hk
        cases h
        refine ⟨l, rfl, only_obj.2 fun p hp => ?_, rfl⟩
        have := List.all_eq_true.1 hk p hp
        simpa using this
      · cases h
    · rintro ⟨l', h, ho, rfl⟩
      cases h
      rw [if_pos]
      rw [List.all_eq_true]
      intro p hp
      simpa using only_obj.1 ho p hp
  | _ => simp [fields]

theorem req_eq {α : Type} {l : List (String × J)} {k : String} {rd : J → Option α} {x : α} :
    req (get l) k rd = some x ↔ ∃ v, Gives (.obj l) k v ∧ rd v = some x := by
  unfold req
  rw [Option.bind_eq_some_iff]
  simp only [get_eq_some]

theorem opt_eq {α : Type} {l : List (String × J)} {k : String} {rd : J → Option α} {o : Option α} :
    opt (get l) k rd = some o ↔ OptDoc (fun v x => rd v = some x) (.obj l) k o := by
  unfold opt
  cases hg : get l k with
  | none =>
    have hl := get_eq_none.1 hg
    cases o with
    | none => simp [OptDoc, hl]
    | some x =>
      simp only [OptDoc, Option.some.injEq, reduceCtorEq, false_iff]
      rintro ⟨v, hv, -⟩
      exact gives_lacks hv hl
  | some v =>
    have hv := get_eq_some.1 hg
    by_cases hn : v = .null
    · subst hn
      cases o with
      | none => simp [OptDoc, hv]
      | some x =>
        simp only [OptDoc, Option.some.injEq, reduceCtorEq, false_iff]
        rintro ⟨w, hw, hne, -⟩
        exact hne (gives_unique hw hv)
    · suffices h : Option.map some (rd v) = some o ↔ OptDoc (fun v x => rd v = some x) (.obj l) k o by
        cases v <;> first | exact h | exact absurd rfl hn
      rw [Option.map_eq_some_iff]
      cases o with
      | none =>
        simp only [reduceCtorEq, and_false, exists_false, OptDoc, false_iff, not_or]
        exact ⟨fun h => gives_lacks hv h, fun h => hn (gives_unique hv h)⟩
      | some x =>
        simp only [Option.some.injEq, OptDoc]
        constructor
        · rintro ⟨y, hy, rfl⟩; exact ⟨v, hv, hn, hy⟩
        · rintro ⟨w, hw, -, hr⟩
          cases gives_unique hv hw
          exact ⟨x, hr, rfl⟩

theorem optDoc_congr {α : Type} {R S : J → α → Prop} (h : ∀ v x, R v x ↔ S v x) (j : J) (k : String) (o : Option α) :
    OptDoc R j k o ↔ OptDoc S j k o := by
  cases o <;> simp only [OptDoc, h]

theorem all_eq {α : Type} {rd : J → Option α} {l : List J} {xs : List α} : all rd l = some xs ↔ Each (fun v x => rd v = some x) l xs := by
  induction l generalizing xs with
  | nil =>
    constructor
    · intro h; cases h; exact .nil
    · intro h; cases h; rfl
  | cons j r ih =>
    simp only [all, Option.bind_eq_bind, Option.bind_eq_some_iff, Option.pure_def]
    constructor
    · rintro ⟨x, hx, ys, hy, h⟩
      cases h
      exact .cons hx (ih.1 hy)
    · intro h
      cases h with
      | cons hx hr => exact ⟨_, hx, _, ih.2 hr, rfl⟩

theorem each_congr {α β : Type} {R S : α → β → Prop} (h : ∀ v x, R v x ↔ S v x) {l : List α} {m : List β} : Each R l m ↔ Each S l m := by
  have : R = S := funext fun v => funext fun x => propext (h v x)
  rw [this]

theorem readList_eq {α : Type} {rd : J → Option α} {R : J → α → Prop} (h : ∀ v x, rd v = some x ↔ R v x) {v : J} {xs : List α} :
    readList rd v = some xs ↔ ListOf R v xs := by
  cases v with
  | arr l =>
    simp only [readList, ListOf, all_eq, each_congr h]
    constructor
    · exact fun h => ⟨l, rfl, h⟩
    · rintro ⟨l', h, hr⟩; cases h; exact hr
  | _ => simp [readList, ListOf]

theorem readStr_eq {v : J} {s : String} : readStr v = some s ↔ v = .str s := by
  cases v <;> simp [readStr]

theorem readU64_eq {v : J} {n : Nat} : readU64 v = some n ↔ NumDoc v n := by
  cases v with
  | num m =>
    simp only [readU64, NumDoc, J.num.injEq]
    constructor
    · intro h; split at h
      · cases h; exact ⟨rfl, by assumption⟩
      · cases h
    · rintro ⟨rfl, h⟩; rw [if_pos h]
  | _ => simp [readU64, NumDoc]

theorem gives_str {j : J} {k : String} {s : String} : (∃ v, Gives j k v ∧ readStr v = some s) ↔ Gives j k (.str s) := by
  simp only [readStr_eq]
  constructor
  · rintro ⟨v, h, rfl⟩; exact h
  · exact fun h => ⟨_, h, rfl⟩

theorem gives_congr {α : Type} {rd : J → Option α} {R : J → α → Prop} (h : ∀ v x, rd v = some x ↔ R v x) {j : J} {k : String} {x : α} :
    (∃ v, Gives j k v ∧ rd v = some x) ↔ ∃ v, Gives j k v ∧ R v x := by
  simp only [h]

section
variable {B : Type} (e : Ext B)

theorem readFelt_eq {v : J} {x : F} : readFelt e v = some x ↔ FeltDoc e v x := by
  cases v with
  | str s =>
    simp only [readFelt, FeltDoc, J.str.injEq]
    constructor
    · exact fun h => ⟨s, rfl, h⟩
    · rintro ⟨t, rfl, h⟩; exact h
  | _ => simp [readFelt, FeltDoc]

theorem readOffset_eq {v : J} {n : Nat} : readOffset e v = some n ↔ OffsetDoc e v n := by
  cases v with
  | str s =>
    simp only [readOffset, OffsetDoc, NumDoc, J.str.injEq, reduceCtorEq, false_and, or_false]
    constructor
    · exact fun h => ⟨s, rfl, h⟩
    · rintro ⟨t, rfl, h⟩; exact h
  | num m =>
    simp only [readOffset, OffsetDoc, NumDoc, J.num.injEq, reduceCtorEq, false_and, exists_false, false_or]
    constructor
    · intro h; split at h
      · cases h; exact ⟨rfl, by assumption⟩
      · cases h
    · rintro ⟨rfl, h⟩; rw [if_pos h]
  | _ => simp [readOffset, OffsetDoc, NumDoc]
end

/-- The shape of all readers of objects. -/
theorem obj_eq {α : Type} {names : List String} {j : J} {k : (String → Option J) → Option α} {x : α} :
    ((fields names j).bind k = some x) ↔ ∃ l, j = .obj l ∧ Only j names ∧ k (get l) = some x := by
  rw [Option.bind_eq_some_iff]
  constructor
  · rintro ⟨g, hg, hk⟩
    obtain ⟨l, rfl, ho, rfl⟩ := fields_eq.1 hg
    exact ⟨l, rfl, ho, hk⟩
  · rintro ⟨l, rfl, ho, hk⟩
    exact ⟨get l, fields_eq.2 ⟨l, rfl, ho, rfl⟩, hk⟩

theorem only_is_obj {j : J} {names : List String} (h : Only j names) : ∃ l, j = .obj l := h.imp fun _ h => h.1

theorem readParam_eq (j : J) (x : Param) : readParam j = some x ↔ ParamDoc j x := by
  simp only [readParam, Option.bind_eq_bind]
  rw [obj_eq]
  simp only [Option.bind_eq_some_iff, Option.pure_def, req_eq, gives_str]
  constructor
  · rintro ⟨l, rfl, ho, n, hn, t, ht, h⟩
    cases h
    exact ⟨ho, hn, ht⟩
  · rintro ⟨ho, hn, ht⟩
    obtain ⟨l, rfl⟩ := only_is_obj ho
    exact ⟨l, rfl, ho, _, hn, _, ht, rfl⟩

theorem readMember_eq (j : J) (x : Member) : readMember j = some x ↔ MemberDoc j x := by
  simp only [readMember, Option.bind_eq_bind]
  rw [obj_eq]
  simp only [Option.bind_eq_some_iff, Option.pure_def, req_eq, gives_str, readU64_eq]
  constructor
  · rintro ⟨l, rfl, ho, n, hn, t, ht, o, h1, h⟩
    cases h
    exact ⟨ho, hn, ht, h1⟩
  · rintro ⟨ho, hn, ht, h1⟩
    obtain ⟨l, rfl⟩ := only_is_obj ho
    exact ⟨l, rfl, ho, _, hn, _, ht, _, h1, rfl⟩

section
variable {B : Type} (e : Ext B)

theorem readEp_eq (j : J) (x : Ep) : readEp e j = some x ↔ EpDoc e j x := by
  simp only [readEp, Option.bind_eq_bind]
  rw [obj_eq]
  simp only [Option.bind_eq_some_iff, Option.pure_def, req_eq, readOffset_eq, readFelt_eq]
  constructor
  · rintro ⟨l, rfl, ho, n, hn, t, ht, h⟩
    cases h
    exact ⟨ho, hn, ht⟩
  · rintro ⟨ho, hn, ht⟩
    obtain ⟨l, rfl⟩ := only_is_obj ho
    exact ⟨l, rfl, ho, _, hn, _, ht, rfl⟩

theorem readSEp_eq (j : J) (x : SEp) : readSEp e j = some x ↔ SEpDoc e j x := by
  simp only [readSEp, Option.bind_eq_bind]
  rw [obj_eq]
  simp only [Option.bind_eq_some_iff, Option.pure_def, req_eq, readU64_eq, readFelt_eq]
  constructor
  · rintro ⟨l, rfl, ho, n, hn, t, ht, h⟩
    cases h
    exact ⟨ho, hn, ht⟩
  · rintro ⟨ho, hn, ht⟩
    obtain ⟨l, rfl⟩ := only_is_obj ho
    exact ⟨l, rfl, ho, _, hn, _, ht, rfl⟩
end

theorem readEps_eq {α : Type} {rd : J → Option α} {R : J → α → Prop} (h : ∀ v x, rd v = some x ↔ R v x) (j : J) (x : Eps α) :
    readEps rd j = some x ↔ EpsDoc R j x := by
  simp only [readEps, Option.bind_eq_bind]
  rw [obj_eq]
  simp only [Option.bind_eq_some_iff, Option.pure_def, req_eq, readList_eq h]
  constructor
  · rintro ⟨l, rfl, ho, n, hn, t, ht, u, hu, h⟩
    cases h
    exact ⟨ho, hn, ht, hu⟩
  · rintro ⟨ho, hn, ht, hu⟩
    obtain ⟨l, rfl⟩ := only_is_obj ho
    exact ⟨l, rfl, ho, _, hn, _, ht, _, hu, rfl⟩

theorem readFnType_eq (v : J) (t : FnType) :
    readFnType v = some t ↔ v = .str (match t with | .function => "function" | .l1Handler => "l1_handler" | .constructor => "constructor") := by
  cases v with
  | str s =>
    simp only [readFnType, readStr, Option.bind_eq_bind, Option.bind_some, Option.pure_def, J.str.injEq]
    constructor
    · intro h
      split at h
      · cases h; assumption
      · split at h
        · cases h; assumption
        · split at h
          · cases h; assumption
          · cases h
    · intro h
      cases t <;> subst h <;> simp
  | _ => simp [readFnType, readStr]

theorem gives_fnType {j : J} {k : String} {t : FnType} : (∃ v, Gives j k v ∧ readFnType v = some t)
    ↔ Gives j k (.str (match t with | .function => "function" | .l1Handler => "l1_handler" | .constructor => "constructor")) := by
  simp only [readFnType_eq]
  constructor
  · rintro ⟨v, h, rfl⟩; exact h
  · exact fun h => ⟨_, h, rfl⟩

theorem gives_tag {j : J} {k t : String} {u : Unit} : (∃ v, Gives j k v ∧ readTag t v = some u) ↔ Gives j k (.str t) := by
  constructor
  · rintro ⟨v, h, hr⟩
    cases v with
    | str s =>
      simp only [readTag, readStr, Option.bind_eq_bind, Option.bind_some, Option.pure_def] at hr
      split at hr
      · rename_i hs; subst hs; exact h
      · cases hr
    | _ => simp [readTag, readStr] at hr
  · exact fun h => ⟨_, h, by simp [readTag, readStr]⟩

theorem optParams_eq {l : List (String × J)} {k : String} {o : Option (List Param)} :
    opt (get l) k (readList readParam) = some o ↔ OptDoc (ListOf ParamDoc) (.obj l) k o := by
  rw [opt_eq]
  exact optDoc_congr (fun v x => readList_eq readParam_eq) _ _ _

theorem optStr_eq {l : List (String × J)} {k : String} {o : Option String} :
    opt (get l) k readStr = some o ↔ OptDoc (fun v s => v = .str s) (.obj l) k o := by
  rw [opt_eq]
  exact optDoc_congr (fun v x => readStr_eq) _ _ _

theorem readFn_eq (j : J) (f : Fn) : readFn j = some f ↔ EntryDoc j (.fn f) := by
  simp only [readFn, Option.bind_eq_bind]
  rw [obj_eq]
  simp only [Option.bind_eq_some_iff, Option.pure_def, req_eq, gives_str, gives_fnType, optParams_eq, optStr_eq]
  constructor
  · rintro ⟨l, rfl, ho, t, ht, n, hn, i, hi, o, h1, m, hm, h⟩
    cases h
    exact ⟨ho, ht, hn, hi, h1, hm⟩
  · rintro ⟨ho, ht, hn, hi, h1, hm⟩
    obtain ⟨l, rfl⟩ := only_is_obj ho
    exact ⟨l, rfl, ho, _, ht, _, hn, _, hi, _, h1, _, hm, rfl⟩

theorem readEv_eq (j : J) (f : Ev) : readEv j = some f ↔ EntryDoc j (.ev f) := by
  simp only [readEv, Option.bind_eq_bind]
  rw [obj_eq]
  simp only [Option.bind_eq_some_iff, Option.pure_def, req_eq, gives_str, gives_tag, optParams_eq]
  constructor
  · rintro ⟨l, rfl, ho, t, ht, n, hn, i, hi, o, h1, m, hm, q, hq, h⟩
    cases h
    exact ⟨ho, ht, hn, hi, h1, hm, hq⟩
  · rintro ⟨ho, ht, hn, hi, h1, hm, hq⟩
    obtain ⟨l, rfl⟩ := only_is_obj ho
    exact ⟨l, rfl, ho, (), ht, _, hn, _, hi, _, h1, _, hm, _, hq, rfl⟩

theorem readSt_eq (j : J) (f : St) : readSt j = some f ↔ EntryDoc j (.st f) := by
  simp only [readSt, Option.bind_eq_bind]
  rw [obj_eq]
  simp only [Option.bind_eq_some_iff, Option.pure_def, req_eq, gives_str, gives_tag, readU64_eq, readList_eq readMember_eq]
  constructor
  · rintro ⟨l, rfl, ho, t, ht, n, hn, i, hi, o, h1, h⟩
    cases h
    exact ⟨ho, ht, hn, hi, h1⟩
  · rintro ⟨ho, ht, hn, hi, h1⟩
    obtain ⟨l, rfl⟩ := only_is_obj ho
    exact ⟨l, rfl, ho, (), ht, _, hn, _, hi, _, h1, rfl⟩

theorem readEntry_eq (j : J) (x : Entry) : readEntry j = some x ↔ EntryDoc j x := by
  have d1 : ∀ f v, EntryDoc j (.fn f) → EntryDoc j (.ev v) → False := by
    rintro f v ⟨-, h, -⟩ ⟨-, h', -⟩
    have := gives_unique h h'
    cases f with
    | mk t => cases t <;> simp at this
  have d2 : ∀ f v, EntryDoc j (.fn f) → EntryDoc j (.st v) → False := by
    rintro f v ⟨-, h, -⟩ ⟨-, h', -⟩
    have := gives_unique h h'
    cases f with
    | mk t => cases t <;> simp at this
  have d3 : ∀ f v, EntryDoc j (.ev f) → EntryDoc j (.st v) → False := by
    rintro f v ⟨-, h, -⟩ ⟨-, h', -⟩
    have := gives_unique h h'
    simp at this
  unfold readEntry
  cases h1 : readFn j with
  | some f =>
    have hf := (readFn_eq _ _).1 h1
    simp only [Option.some.injEq]
    constructor
    · rintro rfl; exact hf
    · intro hx
      cases x with
      | fn g => rw [(readFn_eq _ _).2 hx] at h1; cases h1; rfl
      | ev v => exact (d1 _ _ hf hx).elim
      | st v => exact (d2 _ _ hf hx).elim
  | none =>
    cases h2 : readEv j with
    | some f =>
      have hf := (readEv_eq _ _).1 h2
      simp only [Option.some.injEq]
      constructor
      · rintro rfl; exact hf
      · intro hx
        cases x with
        | fn g => exact (d1 _ _ hx hf).elim
        | ev v => rw [(readEv_eq _ _).2 hx] at h2; cases h2; rfl
        | st v => exact (d3 _ _ hf hx).elim
    | none =>
      simp only [Option.map_eq_some_iff, readSt_eq]
      constructor
      · rintro ⟨s, hs, rfl⟩; exact hs
      · intro hx
        cases x with
        | fn g => rw [(readFn_eq _ _).2 hx] at h1; cases h1
        | ev v => rw [(readEv_eq _ _).2 hx] at h2; cases h2
        | st s => exact ⟨s, hx, rfl⟩

section
variable {B : Type} (e : Ext B)

theorem readSierra_eq (j : J) (c : Sierra) : readSierra e j = some c ↔ SierraDoc e j c := by
  have hd : ∀ (l : List (String × J)) a, dflt (get l) "abi" "" readStr = some a ↔ (Gives (.obj l) "abi" (.str a) ∨ Lacks (.obj l) "abi" ∧ a = "") := by
    intro l a
    unfold dflt
    cases hg : get l "abi" with
    | none =>
      have hl := get_eq_none.1 hg
      simp only [Option.some.injEq]
      constructor
      · rintro rfl; exact .inr ⟨hl, rfl⟩
      · rintro (h | ⟨-, rfl⟩)
        · exact (gives_lacks h hl).elim
        · rfl
    | some v =>
      have hv := get_eq_some.1 hg
      simp only [readStr_eq]
      constructor
      · rintro rfl; exact .inl hv
      · rintro (h | ⟨h, -⟩)
        · exact gives_unique hv h
        · exact (gives_lacks hv h).elim
  simp only [readSierra, Option.bind_eq_bind]
  rw [obj_eq]
  simp only [Option.bind_eq_some_iff, Option.pure_def, req_eq, gives_str, hd,
    readList_eq (fun v x => readFelt_eq e), readEps_eq (readSEp_eq e)]
  constructor
  · rintro ⟨l, rfl, ho, t, ht, n, hn, i, hi, o, h1, h⟩
    cases h
    exact ⟨ho, ht, hn, hi, h1⟩
  · rintro ⟨ho, ht, hn, hi, h1⟩
    obtain ⟨l, rfl⟩ := only_is_obj ho
    exact ⟨l, rfl, ho, _, ht, _, hn, _, hi, _, h1, rfl⟩

theorem readCairo_eq (j : J) (c : Cairo) : readCairo e j = some c ↔ CairoDoc e j c := by
  simp only [readCairo, Option.bind_eq_bind]
  rw [obj_eq]
  simp only [Option.bind_eq_some_iff, Option.pure_def, req_eq, gives_str, opt_eq,
    readEps_eq (readEp_eq e)]
  constructor
  · rintro ⟨l, rfl, ho, t, ht, n, hn, i, hi, h⟩
    cases h
    exact ⟨ho, ht, hn, (optDoc_congr (fun v x => readList_eq readEntry_eq) _ _ _).1 hi⟩
  · rintro ⟨ho, ht, hn, hi⟩
    obtain ⟨l, rfl⟩ := only_is_obj ho
    exact ⟨l, rfl, ho, _, ht, _, hn, _, (optDoc_congr (fun v x => readList_eq readEntry_eq) _ _ _).2 hi, rfl⟩

theorem fromStored_cairo (j : J) (c : Cairo) :
    fromStored e j = some (.cairo c) ↔ ∃ p x a, StoredCairo e j p x a ∧ c = ⟨e.encode (e.zip p), x, a⟩ := by
  cases j with
  | obj l =>
    simp only [fromStored]
    cases hs : get l "sierra_program" with
    | some v =>
      have hv := get_eq_some.1 hs
      simp only [Option.isSome_some, if_true, Option.map_eq_some_iff, reduceCtorEq, and_false, exists_false, false_iff]
      rintro ⟨p, x, a, ⟨h, -⟩, -⟩
      exact gives_lacks hv h
    | none =>
      have hl := get_eq_none.1 hs
      simp only [Option.isSome_none, Bool.false_eq_true, if_false, Option.bind_eq_bind, Option.bind_eq_some_iff, Option.pure_def,
        get_eq_some, readEps_eq (readEp_eq e)]
      constructor
      · rintro ⟨v, hv, x, hx, p, hp, h⟩
        cases h
        refine ⟨p, x, (get l "abi").bind (readList readEntry), ⟨hl, hp, ⟨v, hv, hx⟩, ?_⟩, rfl⟩
        cases ha : get l "abi" with
        | none => exact .inl (get_eq_none.1 ha)
        | some w =>
          have hw := get_eq_some.1 ha
          simp only [Option.bind_some]
          cases hr : readList readEntry w with
          | none =>
            refine .inr ⟨w, hw, ?_⟩
            rintro ⟨xs, hxs⟩
            rw [(readList_eq readEntry_eq).2 hxs] at hr; cases hr
          | some xs => exact ⟨w, hw, (readList_eq readEntry_eq).1 hr⟩
      · rintro ⟨p, x, a, ⟨-, hp, ⟨v, hv, hx⟩, ha⟩, rfl⟩
        refine ⟨v, hv, x, hx, p, hp, ?_⟩
        have : (get l "abi").bind (readList readEntry) = a := by
          cases a with
          | some xs =>
            obtain ⟨w, hw, hr⟩ := ha
            rw [get_eq_some.2 hw, Option.bind_some, (readList_eq readEntry_eq).2 hr]
          | none =>
            rcases ha with h | ⟨w, hw, hr⟩
            · rw [get_eq_none.2 h]; rfl
            · rw [get_eq_some.2 hw, Option.bind_some]
              cases hq : readList readEntry w with
              | none => rfl
              | some xs => exact (hr ⟨xs, (readList_eq readEntry_eq).1 hq⟩).elim
        rw [this]
  | _ => 
    simp only [fromStored, reduceCtorEq, false_iff]
    rintro ⟨p, x, a, ⟨⟨l, h, -⟩, -⟩, -⟩
    cases h

theorem fromStored_sierra (j : J) (c : Sierra) : fromStored e j = some (.sierra c) ↔ SierraDoc e j c := by
  cases j with
  | obj l =>
    simp only [fromStored]
    cases hs : get l "sierra_program" with
    | some v =>
      simp only [Option.isSome_some, if_true, Option.map_eq_some_iff, Class.sierra.injEq, exists_eq_right, readSierra_eq]
    | none =>
      have hl := get_eq_none.1 hs
      simp only [Option.isSome_none, Bool.false_eq_true, if_false, Option.bind_eq_bind, Option.bind_eq_some_iff, Option.pure_def,
        Option.some.injEq, reduceCtorEq, and_false, exists_false, false_iff]
      rintro ⟨-, ⟨v, hv, -⟩, -⟩
      exact gives_lacks hv hl
  | _ =>
    simp only [fromStored, reduceCtorEq, false_iff]
    rintro ⟨⟨l, h, -⟩, -⟩
    cases h
end
end Verif.Cls
