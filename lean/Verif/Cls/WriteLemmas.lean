import Verif.Cls.Lemmas
namespace Verif.Cls
open Verif.Block (F P)

theorem each_map {α : Type} {R : J → α → Prop} {f : α → J} {l : List α} (h : ∀ x ∈ l, R (f x) x) : Each R (l.map f) l := by
  induction l with
  | nil => exact .nil
  | cons a l ih => exact .cons (h a (by simp)) (ih fun x hx => h x (by simp [hx]))

theorem each_mem {α β : Type} {R : α → β → Prop} {l : List α} {m : List β} (h : Each R l m) : ∀ b ∈ m, ∃ a, R a b := by
  induction h with
  | nil => simp
  | cons hr _ ih =>
    intro b hb
    rcases List.mem_cons.1 hb with rfl | hb
    · exact ⟨_, hr⟩
    · exact ih b hb

theorem listOf_map {α : Type} {R : J → α → Prop} {f : α → J} (h : ∀ j x, R j x → R (f x) x) {v : J} {xs : List α} (hv : ListOf R v xs) :
    ListOf R (.arr (xs.map f)) xs := by
  obtain ⟨l, rfl, he⟩ := hv
  refine ⟨_, rfl, each_map fun x hx => ?_⟩
  obtain ⟨j, hj⟩ := each_mem he x hx
  exact h j x hj

theorem gives_obj {l : List (String × J)} {k : String} {v : J} (h : get l k = some v) : Gives (.obj l) k v := get_eq_some.1 h

theorem only_names {l : List (String × J)} {names : List String} (h : (l.all fun p => names.contains p.1) = true) : Only (.obj l) names := by
  refine only_obj.2 fun p hp => ?_
  simpa using List.all_eq_true.1 h p hp

section
variable {B : Type} {e : Ext B} (ok : e.Ok)
include ok

theorem feltDoc (x : F) : FeltDoc e (.str (e.feltText x)) x := ⟨_, rfl, ok.felt x⟩

theorem offsetDoc_lt {v : J} {n : Nat} (h : OffsetDoc e v n) : n < 2 ^ 64 := by
  rcases h with ⟨s, -, h⟩ | ⟨-, h⟩
  · exact ok.u64_lt s n h
  · exact h

theorem showEp_doc (j : J) (x : Ep) (h : EpDoc e j x) : EpDoc e (showEp e x) x := by
  obtain ⟨-, ⟨v, -, hv⟩, -⟩ := h
  have := offsetDoc_lt ok hv
  refine ⟨only_names rfl, ⟨_, gives_obj rfl, .inl ⟨_, rfl, ok.u64 _ this⟩⟩, _, gives_obj rfl, feltDoc ok _⟩

theorem showSEp_doc (j : J) (x : SEp) (h : SEpDoc e j x) : SEpDoc e (showSEp e x) x := by
  obtain ⟨-, ⟨v, -, -, hv⟩, -⟩ := h
  exact ⟨only_names rfl, ⟨_, gives_obj rfl, rfl, hv⟩, _, gives_obj rfl, feltDoc ok _⟩

theorem writeSEp_doc (j : J) (x : SEp) (h : SEpDoc e j x) : SEpDoc e (writeSEp e x) x := by
  obtain ⟨-, ⟨v, -, -, hv⟩, -⟩ := h
  exact ⟨only_names rfl, ⟨_, gives_obj rfl, rfl, hv⟩, _, gives_obj rfl, feltDoc ok _⟩

omit ok in
theorem writeEp_eq (x : Ep) : writeEp e x = showEp e x := rfl

theorem felts_doc (l : List F) : ListOf (FeltDoc e) (.arr (l.map fun x => .str (e.feltText x))) l :=
  ⟨_, rfl, each_map fun x _ => feltDoc ok x⟩
end

theorem showEps_doc {α : Type} {R : J → α → Prop} {f : α → J} (h : ∀ j x, R j x → R (f x) x) {j : J} {x : Eps α} (hx : EpsDoc R j x) :
    EpsDoc R (showEps f x) x := by
  obtain ⟨-, ⟨u, -, hu⟩, ⟨v, -, hv⟩, w, -, hw⟩ := hx
  exact ⟨only_names rfl, ⟨_, gives_obj rfl, listOf_map h hu⟩, ⟨_, gives_obj rfl, listOf_map h hv⟩, _, gives_obj rfl, listOf_map h hw⟩

theorem writeEps_eq {α : Type} (f : α → J) (x : Eps α) : writeEps f x = showEps f x := rfl

theorem param_doc (x : Param) : ParamDoc (writeParam x) x := ⟨only_names rfl, gives_obj rfl, gives_obj rfl⟩

theorem params_doc (l : List Param) : ListOf ParamDoc (writeParams l) l := ⟨_, rfl, each_map fun x _ => param_doc x⟩

theorem member_doc (j : J) (x : Member) (h : MemberDoc j x) : MemberDoc (writeMember x) x := by
  obtain ⟨-, -, -, v, -, -, hv⟩ := h
  exact ⟨only_names rfl, gives_obj rfl, gives_obj rfl, _, gives_obj rfl, rfl, hv⟩

theorem showParams_some (l : List Param) : showParams (some l) = writeParams l := rfl
theorem showParams_none : showParams none = writeParams [] := rfl

theorem read_params (l : List Param) : readList readParam (.arr (l.map writeParam)) = some l := (readList_eq readParam_eq).2 (params_doc l)

theorem writeEntry_doc (j : J) (x : Entry) (h : EntryDoc j x) : EntryDoc (writeEntry x) x := by
  cases x with
  | fn f =>
    rw [← readFn_eq]
    obtain ⟨t, n, i, o, m⟩ := f
    cases t <;> cases i <;> cases o <;> cases m <;>
      simp [readFn, writeEntry, fields, get, req, opt, Cls.skip, FnType.text, List.lookup, readFnType, readStr, read_params, writeParams]
  | ev f =>
    rw [← readEv_eq]
    obtain ⟨n, k, d, i, o⟩ := f
    cases k <;> cases d <;> cases i <;> cases o <;>
      simp [readEv, writeEntry, fields, get, req, opt, Cls.skip, readTag, List.lookup, readStr, read_params, writeParams]
  | st s =>
    obtain ⟨-, -, -, ⟨v, -, -, hv⟩, w, -, hw⟩ := h
    exact ⟨only_names rfl, gives_obj rfl, gives_obj rfl, ⟨_, gives_obj rfl, rfl, hv⟩, _, gives_obj rfl, listOf_map member_doc hw⟩

theorem showEntry_eq (x : Entry) : showEntry x = writeEntry (tidy x) ∨ ∃ s, x = .st s := by
  cases x with
  | fn f =>
    left
    obtain ⟨t, n, i, o, m⟩ := f
    cases i <;> cases o <;> cases m <;> rfl
  | ev f =>
    left
    obtain ⟨n, k, d, i, o⟩ := f
    cases k <;> cases d <;> rfl
  | st s => exact .inr ⟨s, rfl⟩

theorem showEntry_doc (j : J) (x : Entry) (h : EntryDoc j x) : EntryDoc (showEntry x) (tidy x) := by
  cases x with
  | fn f =>
    have : EntryDoc (writeEntry (tidy (.fn f))) (tidy (.fn f)) := by
      rw [tidy, ← readFn_eq]
      obtain ⟨t, n, i, o, m⟩ := f
      cases t <;> cases m <;>
        simp [readFn, writeEntry, fields, get, req, opt, Cls.skip, FnType.text, List.lookup, readFnType, readStr, read_params, writeParams]
    rcases showEntry_eq (.fn f) with h | ⟨s, h⟩
    · rw [h]; exact this
    · cases h
  | ev f =>
    have : EntryDoc (writeEntry (tidy (.ev f))) (tidy (.ev f)) := by
      rw [tidy, ← readEv_eq]
      simp [readEv, writeEntry, fields, get, req, opt, Cls.skip, readTag, List.lookup, readStr, read_params, writeParams]
    rcases showEntry_eq (.ev f) with h | ⟨s, h⟩
    · rw [h]; exact this
    · cases h
  | st s => exact writeEntry_doc j (.st s) h

theorem tidy_standard (x : Entry) : tidy x = x ↔ Standard x := by
  cases x with
  | fn f =>
    obtain ⟨t, n, i, o, m⟩ := f
    cases i <;> cases o <;> cases m <;> simp [tidy, Standard, eq_comm]
  | ev f =>
    obtain ⟨n, k, d, i, o⟩ := f
    cases k <;> cases d <;> cases i <;> cases o <;> simp [tidy, Standard]
  | st s => simp [tidy, Standard]

theorem entries_shown {v : J} {xs : List Entry} (h : ListOf EntryDoc v xs) : ListOf EntryDoc (.arr (xs.map showEntry)) (xs.map tidy) := by
  obtain ⟨l, rfl, he⟩ := h
  refine ⟨_, rfl, ?_⟩
  induction he with
  | nil => exact .nil
  | cons hr _ ih => exact .cons (showEntry_doc _ _ hr) ih

theorem entries_written {v : J} {xs : List Entry} (h : ListOf EntryDoc v xs) : ListOf EntryDoc (.arr (xs.map writeEntry)) xs :=
  listOf_map writeEntry_doc h

theorem cairoDoc_unique {B : Type} {e : Ext B} {j : J} {c d : Cairo} (h : CairoDoc e j c) (h' : CairoDoc e j d) : c = d := by
  have h1 := (readCairo_eq e j c).2 h
  rw [(readCairo_eq e j d).2 h'] at h1
  cases h1; rfl

/-! ## Nothing is lost -/

theorem gives_iff_get {l : List (String × J)} {k : String} {v : J} : Gives (.obj l) k v ↔ get l k = some v := get_eq_some.symm
theorem lacks_iff_get {l : List (String × J)} {k : String} : Lacks (.obj l) k ↔ get l k = none := get_eq_none.symm

theorem kept_all {B : Type} {e : Ext B} {rd : J → Option J} (h : ∀ j j', rd j = some j' → Kept e j j') {l m : List J} (hm : all rd l = some m) :
    Kept e (.arr l) (.arr m) := by
  have he := all_eq.1 hm
  have : l.length = m.length ∧ ∀ (i : Nat) a b, l[i]? = some a → m[i]? = some b → Kept e a b := by
    clear hm
    induction he with
    | nil => exact ⟨rfl, fun i a b h => by simp at h⟩
    | cons hr _ ih =>
      refine ⟨by simp [ih.1], fun i a b ha hb => ?_⟩
      cases i with
      | zero => simp at ha hb; subst ha; subst hb; exact h _ _ hr
      | succ i => simp at ha hb; exact ih.2 i a b ha hb
  exact .arr _ _ this.1 this.2

theorem get_allSnd {rd : J → Option J} {l m : List (String × J)} (h : allSnd rd l = some m) (k : String) :
    (get l k = none ∧ get m k = none) ∨ ∃ v w, get l k = some v ∧ get m k = some w ∧ rd v = some w := by
  induction l generalizing m with
  | nil => cases h; exact .inl ⟨rfl, rfl⟩
  | cons p r ih =>
    obtain ⟨n, j⟩ := p
    simp only [allSnd, Option.bind_eq_bind, Option.bind_eq_some_iff, Option.pure_def] at h
    obtain ⟨x, hx, xs, hxs, h⟩ := h
    cases h
    have key : ∀ (q : List (String × J)) (v : J), get ((n, v) :: q) k = (get q k).or (if k == n then some v else none) := by
      intro q v
      simp only [get, List.reverse_cons, List.lookup_append, List.lookup_cons, List.lookup_nil]
      cases hk : (k == n) <;> simp
    rcases ih hxs with ⟨h1, h2⟩ | ⟨v, w, h1, h2, h3⟩
    · rw [key, key, h1, h2]
      cases hk : (k == n)
      · left; simp
      · right; exact ⟨j, x, by simp, by simp, hx⟩
    · right
      exact ⟨v, w, by rw [key, h1]; rfl, by rw [key, h2]; rfl, h3⟩

theorem kept_allSnd {B : Type} {e : Ext B} {rd : J → Option J} (h : ∀ j j', rd j = some j' → Kept e j j') {l m : List (String × J)}
    (hm : allSnd rd l = some m) : Kept e (.obj l) (.obj m) := by
  refine .obj _ _ (fun k v w hv hw => ?_) (fun k v hv hw => ?_) (fun k w hv hw => ?_)
  · rw [gives_iff_get] at hv hw
    rcases get_allSnd hm k with ⟨h1, h2⟩ | ⟨v', w', h1, h2, h3⟩
    · rw [h1] at hv; cases hv
    · rw [h1] at hv; cases hv
      rw [h2] at hw; cases hw
      exact h _ _ h3
  · rw [gives_iff_get] at hv
    rw [lacks_iff_get] at hw
    rcases get_allSnd hm k with ⟨h1, h2⟩ | ⟨v', w', h1, h2, h3⟩
    · rw [h1] at hv; cases hv
    · rw [h2] at hw; cases hw
  · rw [gives_iff_get] at hw
    rw [lacks_iff_get] at hv
    rcases get_allSnd hm k with ⟨h1, h2⟩ | ⟨v', w', h1, h2, h3⟩
    · rw [h2] at hw; cases hw
    · rw [h1] at hv; cases hv

mutual
/-- No struct has a field twice. -/
def Ty.good : Ty → Bool
  | .list t | .map t | .keyed t => t.good
  | .struct fs => decide fs.names.Nodup && fs.good
  | _ => true
def Tys.good : Tys → Bool
  | .nil => true
  | .cons _ _ t r => t.good && r.good
end

/-- What becomes of one field. -/
def OneField {B : Type} (e : Ext B) (v w : Option J) : Prop :=
  match v, w with
  | none, none => True
  | none, some w => w = .null ∨ w = .arr []
  | some v, none => v = .null
  | some v, some w => Kept e v w

theorem get_skip_append (n k : String) (x : Option J) (m : List (String × J)) :
    get (Cls.skip n x ++ m) k = (get m k).or (if k == n then x else none) := by
  cases x with
  | none => simp [Cls.skip, get]
  | some v =>
    simp only [Cls.skip, get, List.reverse_append, List.reverse_cons, List.reverse_nil, List.nil_append, List.lookup_append, List.lookup_cons,
      List.lookup_nil]
    cases hk : (k == n) <;> simp

theorem get_notin {m : List (String × J)} {k : String} (h : k ∉ m.map (·.1)) : get m k = none := get_eq_none.2 (lacks_obj.2 h)

section
variable {B : Type} {e : Ext B} (ok : e.Ok)
include ok

mutual
theorem norm_kept : ∀ (t : Ty), t.good = true → ∀ (j j' : J), norm e t j = some j' → Kept e j j'
  | .any, _, j, j', h => by simp only [norm] at h; cases h; exact .same _
  | .str, _, j, j', h => by
    cases j <;> simp only [norm] at h <;> first | (cases h; done) | skip
    cases h; exact .same _
  | .u64, _, j, j', h => by
    cases j <;> simp only [norm] at h <;> first | (cases h; done) | skip
    split at h
    · cases h; exact .same _
    · cases h
  | .felt, _, j, j', h => by
    cases j <;> simp only [norm] at h <;> first | (cases h; done) | skip
    obtain ⟨x, hx, rfl⟩ := Option.map_eq_some_iff.1 h
    exact .felt _ _ x hx (ok.felt x)
  | .list t, hg, j, j', h => by
    cases j <;> simp only [norm] at h <;> first | (cases h; done) | skip
    obtain ⟨m, hm, rfl⟩ := Option.map_eq_some_iff.1 h
    exact kept_all (norm_kept t (by simpa [Ty.good] using hg)) hm
  | .map t, hg, j, j', h => by
    cases j <;> simp only [norm] at h <;> first | (cases h; done) | skip
    obtain ⟨m, hm, rfl⟩ := Option.map_eq_some_iff.1 h
    exact kept_allSnd (norm_kept t (by simpa [Ty.good] using hg)) hm
  | .keyed t, hg, j, j', h => by
    cases j <;> simp only [norm] at h <;> first | (cases h; done) | skip
    split at h
    · obtain ⟨m, hm, rfl⟩ := Option.map_eq_some_iff.1 h
      exact kept_allSnd (norm_kept t (by simpa [Ty.good] using hg)) hm
    · cases h
  | .struct fs, hg, j, j', h => by
    cases j <;> simp only [norm] at h <;> first | (cases h; done) | skip
    rename_i l
    split at h
    · rename_i hc
      obtain ⟨m, hm, rfl⟩ := Option.map_eq_some_iff.1 h
      simp only [Ty.good, Bool.and_eq_true, decide_eq_true_eq] at hg
      obtain ⟨h1, h2⟩ := normFields_kept fs hg.1 hg.2 (get l) m hm
      have hone : ∀ k, OneField e (get l k) (get m k) := by
        intro k
        by_cases hk : k ∈ fs.names
        · exact h1 k hk
        · have hl : get l k = none := by
            refine get_notin fun hm => ?_
            obtain ⟨p, hp, rfl⟩ := List.mem_map.1 hm
            exact hk (by simpa using List.all_eq_true.1 hc.2 p hp)
          have hm' : get m k = none := get_notin fun hm => hk (h2 k hm)
          rw [hl, hm']; trivial
      refine .obj _ _ (fun k v w hv hw => ?_) (fun k v hv hw => ?_) (fun k w hv hw => ?_)
      · have := hone k
        rw [gives_iff_get.1 hv, gives_iff_get.1 hw] at this; exact this
      · have := hone k
        rw [gives_iff_get.1 hv, lacks_iff_get.1 hw] at this; exact this
      · have := hone k
        rw [lacks_iff_get.1 hv, gives_iff_get.1 hw] at this; exact this
    · cases h
theorem normFields_kept : ∀ (fs : Tys), fs.names.Nodup → fs.good = true → ∀ (g : String → Option J) (m : List (String × J)),
    normFields e fs g = some m → (∀ k ∈ fs.names, OneField e (g k) (get m k)) ∧ ∀ k ∈ m.map (·.1), k ∈ fs.names
  | .nil, _, _, g, m, h => by simp only [normFields] at h; cases h; simp [Tys.names]
  | .cons n kd t r, hn, hg, g, m, h => by
    simp only [Tys.names, List.nodup_cons] at hn
    simp only [Tys.good, Bool.and_eq_true] at hg
    simp only [normFields, Option.bind_eq_bind, Option.bind_eq_some_iff, Option.pure_def] at h
    obtain ⟨x, hx, xs, hxs, h⟩ := h
    cases h
    obtain ⟨h1, h2⟩ := normFields_kept r hn.2 hg.2 g xs hxs
    have hnx : get xs n = none := get_notin fun hm => hn.1 (h2 n hm)
    have hx' : OneField e (g n) x := by
      cases hgn : g n with
      | none =>
        rw [hgn] at hx
        cases kd <;> simp only [normField] at hx <;> cases hx <;> simp [OneField]
      | some v =>
        rw [hgn] at hx
        by_cases hv : v = .null
        · subst hv
          cases kd <;> simp only [normField] at hx
          · obtain ⟨y, hy, rfl⟩ := Option.map_eq_some_iff.1 hx
            exact norm_kept t hg.1 _ _ hy
          · cases hx; simp [OneField]
          · cases hx; exact .same _
          · obtain ⟨y, hy, rfl⟩ := Option.map_eq_some_iff.1 hx
            exact norm_kept t hg.1 _ _ hy
        · have : Option.map some (norm e t v) = some x := by
            cases v <;> first | exact hx | exact absurd rfl hv
          obtain ⟨y, hy, rfl⟩ := Option.map_eq_some_iff.1 this
          exact norm_kept t hg.1 _ _ hy
    refine ⟨fun k hk => ?_, fun k hk => ?_⟩
    · rw [get_skip_append]
      simp only [Tys.names, List.mem_cons] at hk
      by_cases hkn : k = n
      · subst hkn
        rw [hnx]; simpa using hx'
      · have : (k == n) = false := by simpa using hkn
        rw [this]
        simpa using h1 k (hk.resolve_left hkn)
    · simp only [Tys.names, List.mem_cons]
      rw [List.map_append, List.mem_append] at hk
      rcases hk with hk | hk
      · left
        cases x with
        | none => simp [Cls.skip] at hk
        | some v => simpa [Cls.skip] using hk
      · exact .inr (h2 k hk)
end

theorem program_kept {p p' : J} (h : norm e program p = some p') : Kept e p p' := norm_kept ok program (by decide) p p' h
end
end Verif.Cls
