import Verif.Cls.WriteLemmas
namespace Verif.Cls
open Verif.Block (F P)

/-- A field that both documents lack or give alike. -/
def FieldEqv (j j' : J) (k : String) : Prop := (Lacks j k ∧ Lacks j' k) ∨ ∃ v v', Gives j k v ∧ Gives j' k v' ∧ Eqv v v'

theorem eqv_obj {j j' : J} {names : List String} (h : Only j names) (h' : Only j' names) (hf : ∀ k ∈ names, FieldEqv j j' k) : Eqv j j' := by
  obtain ⟨l, rfl⟩ := only_is_obj h
  obtain ⟨m, rfl⟩ := only_is_obj h'
  have hall : ∀ k, FieldEqv (.obj l) (.obj m) k := by
    intro k
    by_cases hk : k ∈ names
    · exact hf k hk
    · left
      constructor
      · refine lacks_obj.2 fun hm => hk ?_
        obtain ⟨p, hp, rfl⟩ := List.mem_map.1 hm
        exact only_obj.1 h p hp
      · refine lacks_obj.2 fun hm => hk ?_
        obtain ⟨p, hp, rfl⟩ := List.mem_map.1 hm
        exact only_obj.1 h' p hp
  refine .obj _ _ (fun k v w hv hw => ?_) fun k => ?_
  · rcases hall k with ⟨h1, -⟩ | ⟨v', w', h1, h2, h3⟩
    · exact (gives_lacks hv h1).elim
    · rw [gives_unique hv h1, gives_unique hw h2]; exact h3
  · rcases hall k with ⟨h1, h2⟩ | ⟨v', w', h1, h2, h3⟩
    · exact ⟨fun _ => h2, fun _ => h1⟩
    · exact ⟨fun h => (gives_lacks h1 h).elim, fun h => (gives_lacks h2 h).elim⟩

theorem fieldEqv_same {j j' v : J} {k : String} (h : Gives j k v) (h' : Gives j' k v) : FieldEqv j j' k := .inr ⟨v, v, h, h', .same v⟩

theorem eqv_listOf {α : Type} {R : J → α → Prop} (hR : ∀ v v' x, R v x → R v' x → Eqv v v') {v v' : J} {xs : List α} (h : ListOf R v xs)
    (h' : ListOf R v' xs) : Eqv v v' := by
  obtain ⟨l, rfl, hl⟩ := h
  obtain ⟨m, rfl, hm⟩ := h'
  have : l.length = m.length ∧ ∀ (i : Nat) a b, l[i]? = some a → m[i]? = some b → Eqv a b := by
    induction hl generalizing m with
    | nil => cases hm; exact ⟨rfl, fun i a b h => by simp at h⟩
    | cons hr _ ih =>
      cases hm with
      | cons hr' ht =>
        obtain ⟨i1, i2⟩ := ih _ ht
        refine ⟨by simp [i1], fun i a b ha hb => ?_⟩
        cases i with
        | zero => simp at ha hb; subst ha; subst hb; exact hR _ _ _ hr hr'
        | succ i => simp at ha hb; exact i2 i a b ha hb
  exact .arr _ _ this.1 this.2

theorem eqv_num {j j' : J} {k : String} {n : Nat} (h : ∃ v, Gives j k v ∧ NumDoc v n) (h' : ∃ v, Gives j' k v ∧ NumDoc v n) : FieldEqv j j' k := by
  obtain ⟨v, hv, rfl, -⟩ := h
  obtain ⟨w, hw, rfl, -⟩ := h'
  exact fieldEqv_same hv hw

theorem eqv_param (v v' : J) (x : Param) (h : ParamDoc v x) (h' : ParamDoc v' x) : Eqv v v' := by
  refine eqv_obj h.1 h'.1 fun k hk => ?_
  simp only [List.mem_cons, List.not_mem_nil, or_false] at hk
  rcases hk with rfl | rfl
  · exact fieldEqv_same h.2.1 h'.2.1
  · exact fieldEqv_same h.2.2 h'.2.2

theorem eqv_member (v v' : J) (x : Member) (h : MemberDoc v x) (h' : MemberDoc v' x) : Eqv v v' := by
  refine eqv_obj h.1 h'.1 fun k hk => ?_
  simp only [List.mem_cons, List.not_mem_nil, or_false] at hk
  rcases hk with rfl | rfl | rfl
  · exact fieldEqv_same h.2.1 h'.2.1
  · exact fieldEqv_same h.2.2.1 h'.2.2.1
  · exact eqv_num h.2.2.2 h'.2.2.2

theorem eqv_opt {α : Type} {R : J → α → Prop} (hR : ∀ v v' x, R v x → R v' x → Eqv v v') {j j' : J} {k : String} {o : Option α}
    (n : ¬ Gives j k .null) (n' : ¬ Gives j' k .null) (h : OptDoc R j k o) (h' : OptDoc R j' k o) : FieldEqv j j' k := by
  cases o with
  | none => exact .inl ⟨h.resolve_right n, h'.resolve_right n'⟩
  | some x =>
    obtain ⟨v, hv, -, hr⟩ := h
    obtain ⟨w, hw, -, hr'⟩ := h'
    exact .inr ⟨v, w, hv, hw, hR _ _ _ hr hr'⟩

theorem eqv_str (v v' : J) (s : String) (h : v = .str s) (h' : v' = .str s) : Eqv v v' := by subst h; subst h'; exact .same _

theorem eqv_entry {j j' : J} {x : Entry} (h : EntryDoc j x) (h' : EntryDoc j' x) (n : ∀ k, ¬ Gives j k .null) (n' : ∀ k, ¬ Gives j' k .null) :
    Eqv j j' := by
  have ep : ∀ v v' (x : List Param), ListOf ParamDoc v x → ListOf ParamDoc v' x → Eqv v v' := fun v v' x => eqv_listOf eqv_param
  cases x with
  | fn f =>
    obtain ⟨h0, h1, h2, h3, h4, h5⟩ := h
    obtain ⟨g0, g1, g2, g3, g4, g5⟩ := h'
    refine eqv_obj h0 g0 fun k hk => ?_
    simp only [List.mem_cons, List.not_mem_nil, or_false] at hk
    rcases hk with rfl | rfl | rfl | rfl | rfl
    · exact fieldEqv_same h1 g1
    · exact fieldEqv_same h2 g2
    · exact eqv_opt ep (n _) (n' _) h3 g3
    · exact eqv_opt ep (n _) (n' _) h4 g4
    · exact eqv_opt eqv_str (n _) (n' _) h5 g5
  | ev f =>
    obtain ⟨h0, h1, h2, h3, h4, h5, h6⟩ := h
    obtain ⟨g0, g1, g2, g3, g4, g5, g6⟩ := h'
    refine eqv_obj h0 g0 fun k hk => ?_
    simp only [List.mem_cons, List.not_mem_nil, or_false] at hk
    rcases hk with rfl | rfl | rfl | rfl | rfl | rfl
    · exact fieldEqv_same h1 g1
    · exact fieldEqv_same h2 g2
    · exact eqv_opt ep (n _) (n' _) h3 g3
    · exact eqv_opt ep (n _) (n' _) h4 g4
    · exact eqv_opt ep (n _) (n' _) h5 g5
    · exact eqv_opt ep (n _) (n' _) h6 g6
  | st s =>
    obtain ⟨h0, h1, h2, h3, ⟨v, hv, h4⟩⟩ := h
    obtain ⟨g0, g1, g2, g3, ⟨w, hw, g4⟩⟩ := h'
    refine eqv_obj h0 g0 fun k hk => ?_
    simp only [List.mem_cons, List.not_mem_nil, or_false] at hk
    rcases hk with rfl | rfl | rfl | rfl
    · exact fieldEqv_same h1 g1
    · exact fieldEqv_same h2 g2
    · exact eqv_num h3 g3
    · exact .inr ⟨v, w, hv, hw, eqv_listOf eqv_member h4 g4⟩

theorem gives_mem {l : List (String × J)} {k : String} {v : J} (h : Gives (.obj l) k v) : (k, v) ∈ l := by
  obtain ⟨a, b, e, -⟩ := h
  cases e; simp

theorem writeEntry_noNull (x : Entry) (k : String) : ¬ Gives (writeEntry x) k .null := by
  intro h
  cases x with
  | fn f =>
    obtain ⟨t, n, i, o, m⟩ := f
    have := gives_mem h
    cases i <;> cases o <;> cases m <;> simp [Cls.skip, writeParams] at this
  | ev f =>
    obtain ⟨n, k, d, i, o⟩ := f
    have := gives_mem h
    cases k <;> cases d <;> cases i <;> cases o <;> simp [Cls.skip, writeParams] at this
  | st s =>
    have := gives_mem h
    simp at this

theorem eqv_entries {v : J} {xs : List Entry} (h : ListOf EntryDoc v xs) (n : ∀ l, v = .arr l → ∀ j ∈ l, ∀ k, ¬ Gives j k .null) :
    Eqv v (.arr (xs.map writeEntry)) := by
  obtain ⟨l, rfl, he⟩ := h
  replace n := n l rfl
  have : l.length = (xs.map writeEntry).length ∧ ∀ (i : Nat) a b, l[i]? = some a → (xs.map writeEntry)[i]? = some b → Eqv a b := by
    induction he with
    | nil => exact ⟨rfl, fun i a b h => by simp at h⟩
    | cons hr _ ih =>
      obtain ⟨i1, i2⟩ := ih fun j hj => n j (by simp [hj])
      refine ⟨by simpa using i1, fun i a b ha hb => ?_⟩
      cases i with
      | zero =>
        simp at ha hb; subst ha; subst hb
        exact eqv_entry hr (writeEntry_doc _ _ hr) (n _ (by simp)) (writeEntry_noNull _)
      | succ i =>
        simp only [List.getElem?_cons_succ, List.map_cons] at ha hb
        exact i2 i a b ha hb
  exact .arr _ _ this.1 this.2
end Verif.Cls
