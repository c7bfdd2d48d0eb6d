import Verif.ExecReceipt.Spec

/-!
# Receipts of executed transactions: lemmas
-/

namespace Verif.ExecReceipt

open Verif.GwTrace (Text XResources XEvent XMsg XCall XTree Revertible)
open Verif.TraceOut (Body Total)

variable {α : Type}

theorem push_perm (m : Queues α) (x : Int × α) :
    ((push m x).flatMap (·.2)).Perm (m.flatMap (·.2) ++ [x.2]) := by
  fun_induction push m x with
  | case1 x => simp
  | case2 k l m x h =>
    show ([x.2] ++ (l ++ m.flatMap (·.2))).Perm ((l ++ m.flatMap (·.2)) ++ [x.2])
    exact List.perm_append_comm
  | case3 l m x h =>
    show ((l ++ [x.2]) ++ m.flatMap (·.2)).Perm ((l ++ m.flatMap (·.2)) ++ [x.2])
    rw [List.append_assoc, List.append_assoc]
    exact List.Perm.append_left _ List.perm_append_comm
  | case4 k l m x h h' ih =>
    show (l ++ (push m x).flatMap (·.2)).Perm ((l ++ m.flatMap (·.2)) ++ [x.2])
    rw [List.append_assoc]
    exact List.Perm.append_left _ ih

theorem foldl_push_perm (l : List (Int × α)) (m : Queues α) :
    ((l.foldl push m).flatMap (·.2)).Perm (m.flatMap (·.2) ++ l.map (·.2)) := by
  induction l generalizing m with
  | nil => simp
  | cons x l ih =>
    refine (ih (push m x)).trans ?_
    rw [List.map_cons, ← List.singleton_append (l := l.map (·.2)), ← List.append_assoc]
    exact List.Perm.append_right _ (push_perm m x)

theorem heads_tails_perm (m : Queues α) : (heads m ++ (tails m).flatMap (·.2)).Perm (m.flatMap (·.2)) := by
  fun_induction tails m with
  | case1 => exact List.Perm.refl _
  | case2 k m ih => exact ih
  | case3 k a m ih =>
    show (a :: (heads m ++ (tails m).flatMap (·.2))).Perm (a :: m.flatMap (·.2))
    exact List.Perm.cons a ih
  | case4 k a b l m ih =>
    show (a :: (heads m ++ (b :: l ++ (tails m).flatMap (·.2)))).Perm (a :: (b :: l ++ m.flatMap (·.2)))
    refine List.Perm.cons a ?_
    have h1 : (heads m ++ (b :: l ++ (tails m).flatMap (·.2))).Perm
        (b :: l ++ (heads m ++ (tails m).flatMap (·.2))) := by
      rw [← List.append_assoc, ← List.append_assoc]
      exact List.Perm.append_right _ List.perm_append_comm
    exact h1.trans (List.Perm.append_left _ ih)

theorem collect_perm (m : Queues α) : (collectItems m).Perm (m.flatMap (·.2)) := by
  fun_induction collectItems m with
  | case1 => exact List.Perm.refl _
  | case2 m h ih => exact (List.Perm.append_left _ ih).trans (heads_tails_perm m)

theorem collect_all (l : List (Int × α)) : (collectItems (l.foldl push [])).Perm (l.map (·.2)) := by
  have h := (collect_perm (l.foldl push [])).trans (foldl_push_perm l [])
  simpa using h

/-! The queues. -/

/-- The queues hold the items by their numbers. -/
def Holds (m : Queues α) (l : List (Int × α)) : Prop :=
  m.Pairwise (fun a b => a.1 < b.1) ∧
  ∀ k q, (k, q) ∈ m ↔ q ≠ [] ∧ q = (l.filter fun x => x.1 == k).map (·.2)

theorem mem_push_key (m : Queues α) (x : Int × α) (k : Int) (q : List α) (h : (k, q) ∈ push m x) :
    k = x.1 ∨ (k, q) ∈ m := by
  fun_induction push m x with
  | case1 x => simp_all
  | case2 k' l m x hlt => simp_all; grind
  | case3 l m x hlt => simp_all; grind
  | case4 k' l m x hlt he ih => simp_all; grind

theorem push_sorted (m : Queues α) (x : Int × α) (h : m.Pairwise (fun a b => a.1 < b.1)) :
    (push m x).Pairwise (fun a b => a.1 < b.1) := by
  fun_induction push m x with
  | case1 x => simp
  | case2 k l m x hlt =>
    refine List.pairwise_cons.2 ⟨?_, h⟩
    intro e he
    rcases List.mem_cons.1 he with rfl | he
    · exact hlt
    · exact Int.lt_trans hlt ((List.pairwise_cons.1 h).1 e he)
  | case3 l m x hlt =>
    rw [List.pairwise_cons] at h ⊢
    exact h
  | case4 k l m x hlt he ih =>
    rw [List.pairwise_cons] at h ⊢
    refine ⟨?_, ih h.2⟩
    rintro ⟨k', q⟩ hq
    rcases mem_push_key m x k' q hq with e | hq
    · show k < k'
      omega
    · exact h.1 _ hq

theorem push_mem (m : Queues α) (x : Int × α) (h : m.Pairwise (fun a b => a.1 < b.1)) (k : Int) (q : List α) :
    (k, q) ∈ push m x ↔
      (k ≠ x.1 ∧ (k, q) ∈ m) ∨
      (k = x.1 ∧ ((∃ r, (k, r) ∈ m ∧ q = r ++ [x.2]) ∨ (q = [x.2] ∧ ∀ r, (k, r) ∉ m))) := by
  fun_induction push m x with
  | case1 x => simp
  | case2 k' l m x hlt =>
    rw [List.pairwise_cons] at h
    have h1 : ∀ e ∈ m, x.1 < e.1 := fun e he => Int.lt_trans hlt (h.1 e he)
    have h2 : ∀ r, (x.1, r) ∉ m := fun r hr => by have := h1 _ hr; simp at this
    simp only [List.mem_cons, Prod.mk.injEq]
    constructor
    · rintro (⟨rfl, rfl⟩ | ⟨rfl, rfl⟩ | hm)
      · exact .inr ⟨rfl, .inr ⟨rfl, fun r hr => by
          rcases hr with ⟨he, _⟩ | hr
          · omega
          · exact h2 r hr⟩⟩
      · exact .inl ⟨by omega, .inl ⟨rfl, rfl⟩⟩
      · exact .inl ⟨by have := h1 _ hm; simp at this; omega, .inr hm⟩
    · rintro (⟨hne, hm⟩ | ⟨rfl, ⟨r, hr, _⟩ | ⟨rfl, _⟩⟩)
      · exact .inr hm
      · rcases hr with ⟨he, _⟩ | hr
        · omega
        · exact absurd hr (h2 r)
      · exact .inl ⟨rfl, rfl⟩
  | case3 l m x hlt =>
    rw [List.pairwise_cons] at h
    have h2 : ∀ r, (x.1, r) ∉ m := fun r hr => by have := h.1 _ hr; simp at this
    simp only [List.mem_cons, Prod.mk.injEq]
    constructor
    · rintro (⟨rfl, rfl⟩ | hm)
      · exact .inr ⟨rfl, .inl ⟨l, .inl ⟨rfl, rfl⟩, rfl⟩⟩
      · exact .inl ⟨fun e => h2 q (by rw [← e]; exact hm), .inr hm⟩
    · rintro (⟨hne, ⟨e, _⟩ | hm⟩ | ⟨e, ⟨r, ⟨_, rfl⟩ | hr, rfl⟩ | ⟨rfl, hn⟩⟩)
      · exact absurd e hne
      · exact .inr hm
      · exact .inl ⟨e, rfl⟩
      · exact absurd (by rw [← e]; exact hr) (h2 r)
      · exact absurd (.inl ⟨e, rfl⟩) (hn l)
  | case4 k' l m x hlt he ih =>
    rw [List.pairwise_cons] at h
    simp only [List.mem_cons, Prod.mk.injEq]
    rw [ih h.2]
    constructor
    · rintro (⟨rfl, rfl⟩ | ⟨hne, hm⟩ | ⟨e, ⟨r, hr, rfl⟩ | ⟨rfl, hn⟩⟩)
      · exact .inl ⟨by omega, .inl ⟨rfl, rfl⟩⟩
      · exact .inl ⟨hne, .inr hm⟩
      · exact .inr ⟨e, .inl ⟨r, .inr hr, rfl⟩⟩
      · exact .inr ⟨e, .inr ⟨rfl, fun r hr => by
          rcases hr with ⟨e', _⟩ | hr
          · omega
          · exact hn r hr⟩⟩
    · rintro (⟨hne, ⟨rfl, rfl⟩ | hm⟩ | ⟨e, ⟨r, ⟨e', _⟩ | hr, rfl⟩ | ⟨rfl, hn⟩⟩)
      · exact .inl ⟨rfl, rfl⟩
      · exact .inr (.inl ⟨hne, hm⟩)
      · omega
      · exact .inr (.inr ⟨e, .inl ⟨r, hr, rfl⟩⟩)
      · exact .inr (.inr ⟨e, .inr ⟨rfl, fun r hr => hn r (.inr hr)⟩⟩)

theorem holds_push (m : Queues α) (l : List (Int × α)) (x : Int × α) (h : Holds m l) :
    Holds (push m x) (l ++ [x]) := by
  refine ⟨push_sorted m x h.1, ?_⟩
  intro k q
  rw [push_mem m x h.1, List.filter_append, List.map_append]
  by_cases hk : k = x.1
  · subst hk
    have e : ([x].filter fun y => y.1 == x.1).map (·.2) = [x.2] := by simp
    rw [e]
    constructor
    · rintro (⟨hne, _⟩ | ⟨_, ⟨r, hr, rfl⟩ | ⟨rfl, hn⟩⟩)
      · exact absurd rfl hne
      · rw [((h.2 _ _).1 hr).2]
        exact ⟨by simp, rfl⟩
      · have hz : (l.filter fun y => y.1 == x.1).map (·.2) = [] :=
          Classical.byContradiction fun hc => hn _ ((h.2 _ _).2 ⟨hc, rfl⟩)
        rw [hz]
        exact ⟨by simp, rfl⟩
    · rintro ⟨_, rfl⟩
      refine .inr ⟨rfl, ?_⟩
      by_cases hz : (l.filter fun y => y.1 == x.1).map (·.2) = []
      · exact .inr ⟨by rw [hz]; rfl, fun r hr => ((h.2 _ _).1 hr).1 (((h.2 _ _).1 hr).2.trans hz)⟩
      · exact .inl ⟨_, (h.2 _ _).2 ⟨hz, rfl⟩, rfl⟩
  · have e : ([x].filter fun y => y.1 == k).map (·.2) = ([] : List α) := by
      have : (x.1 == k) = false := by simp; omega
      simp [this]
    rw [e, List.append_nil, ← h.2 k q]
    constructor
    · rintro (⟨_, hm⟩ | ⟨he, _⟩)
      · exact hm
      · exact absurd he hk
    · exact fun hm => .inl ⟨hk, hm⟩

theorem holds_foldl (l l0 : List (Int × α)) (m : Queues α) (h : Holds m l0) :
    Holds (l.foldl push m) (l0 ++ l) := by
  induction l generalizing m l0 with
  | nil => simpa using h
  | cons x l ih =>
    have := ih (l0 ++ [x]) (push m x) (holds_push m l0 x h)
    simpa using this

theorem holds_build (l : List (Int × α)) : Holds (l.foldl push []) l := by
  have h : Holds ([] : Queues α) [] := ⟨List.Pairwise.nil, by simp⟩
  simpa using holds_foldl l [] [] h

/-- Items with different numbers come in the order of their numbers. -/
def front (m : Queues α) : List (Int × α) := m.filterMap fun e => e.2.head?.map fun a => (e.1, a)

theorem heads_front (m : Queues α) : heads m = (front m).map (·.2) := by
  induction m with
  | nil => rfl
  | cons e m ih =>
    obtain ⟨k, l⟩ := e
    cases l with
    | nil => exact ih
    | cons a l => simpa [heads, front] using ih

theorem mem_front (m : Queues α) (k : Int) (a : α) : (k, a) ∈ front m ↔ ∃ q, (k, a :: q) ∈ m := by
  unfold front
  rw [List.mem_filterMap]
  constructor
  · rintro ⟨⟨k', l⟩, hm, h⟩
    cases l with
    | nil => simp at h
    | cons b l =>
      simp at h
      obtain ⟨rfl, rfl⟩ := h
      exact ⟨l, hm⟩
  · rintro ⟨q, hm⟩
    exact ⟨_, hm, rfl⟩

theorem front_sorted (m : Queues α) (h : m.Pairwise (fun a b => a.1 < b.1)) : InOrder (front m) := by
  induction m with
  | nil => exact List.Pairwise.nil
  | cons e m ih =>
    rw [List.pairwise_cons] at h
    obtain ⟨k, l⟩ := e
    cases l with
    | nil => exact ih h.2
    | cons a l =>
      show List.Pairwise _ ((k, a) :: front m)
      refine List.pairwise_cons.2 ⟨?_, ih h.2⟩
      rintro ⟨k', b⟩ hb
      obtain ⟨q, hq⟩ := (mem_front m k' b).1 hb
      exact h.1 _ hq

theorem mem_tails (m : Queues α) (k : Int) (q : List α) :
    (k, q) ∈ tails m ↔ q ≠ [] ∧ ∃ a, (k, a :: q) ∈ m := by
  fun_induction tails m with
  | case1 => simp
  | case2 k' m ih => rw [ih]; simp
  | case3 k' a m ih =>
    rw [ih]
    constructor
    · rintro ⟨hq, b, hb⟩
      exact ⟨hq, b, List.mem_cons_of_mem _ hb⟩
    · rintro ⟨hq, b, hb⟩
      rcases List.mem_cons.1 hb with e | hb
      · cases e; exact absurd rfl hq
      · exact ⟨hq, b, hb⟩
  | case4 k' a b l m ih =>
    rw [List.mem_cons, ih]
    constructor
    · rintro (e | ⟨hq, c, hc⟩)
      · cases e
        exact ⟨by simp, a, List.mem_cons_self⟩
      · exact ⟨hq, c, List.mem_cons_of_mem _ hc⟩
    · rintro ⟨hq, c, hc⟩
      rcases List.mem_cons.1 hc with e | hc
      · cases e; exact .inl rfl
      · exact .inr ⟨hq, c, hc⟩

theorem tails_sorted (m : Queues α) (h : m.Pairwise (fun a b => a.1 < b.1)) :
    (tails m).Pairwise (fun a b => a.1 < b.1) := by
  fun_induction tails m with
  | case1 => exact h
  | case2 k m ih => exact ih (List.pairwise_cons.1 h).2
  | case3 k a m ih => exact ih (List.pairwise_cons.1 h).2
  | case4 k a b l m ih =>
    rw [List.pairwise_cons] at h ⊢
    refine ⟨?_, ih h.2⟩
    rintro ⟨k', q⟩ hq
    obtain ⟨_, c, hc⟩ := (mem_tails m k' q).1 hq
    exact h.1 (k', c :: q) hc

theorem filter_one (l : List (Int × α)) (h : (l.map (·.1)).Nodup) (k : Int) (a : α) (ha : (k, a) ∈ l) :
    (l.filter fun x => x.1 == k).map (·.2) = [a] := by
  induction l with
  | nil => simp at ha
  | cons x l ih =>
    rw [List.map_cons, List.nodup_cons] at h
    rcases List.mem_cons.1 ha with rfl | ha
    · have hz : l.filter (fun y => y.1 == k) = [] := by
        rw [List.filter_eq_nil_iff]
        intro y hy hk
        simp at hk
        exact h.1 (hk ▸ List.mem_map_of_mem (f := (·.1)) hy)
      simp [hz]
    · have hne : (x.1 == k) = false := by
        simp
        intro e
        exact h.1 (e ▸ List.mem_map_of_mem (f := (·.1)) ha)
      rw [List.filter_cons, hne]
      exact ih h.2 ha

theorem filter_none (l : List (Int × α)) (k : Int) (h : k ∉ l.map (·.1)) :
    (l.filter fun x => x.1 == k).map (·.2) = [] := by
  rw [List.map_eq_nil_iff, List.filter_eq_nil_iff]
  intro y hy hk
  simp at hk
  exact h (hk ▸ List.mem_map_of_mem (f := (·.1)) hy)

theorem nodup_of_keys (l : List (Int × α)) (h : (l.map (·.1)).Nodup) : l.Nodup := by
  induction l with
  | nil => exact List.nodup_nil
  | cons x l ih =>
    rw [List.map_cons, List.nodup_cons] at h
    exact List.nodup_cons.2 ⟨fun hx => h.1 (List.mem_map_of_mem (f := (·.1)) hx), ih h.2⟩

theorem nodup_of_order (l : List (Int × α)) (h : InOrder l) : l.Nodup :=
  List.Pairwise.imp (fun hab e => by rw [e] at hab; omega) h

/-- Two lists with different numbers each, the numbers of the second being numbers of the first: one after the
other. -/
theorem collect_two (A B : List (Int × α)) (hA : (A.map (·.1)).Nodup) (hB : (B.map (·.1)).Nodup)
    (hsub : ∀ k ∈ B.map (·.1), k ∈ A.map (·.1)) :
    ∃ a b, a.Perm A ∧ b.Perm B ∧ InOrder a ∧ InOrder b ∧
      collectItems ((A ++ B).foldl push []) = (a ++ b).map (·.2) := by
  generalize hm : (A ++ B).foldl push [] = m
  have hh : Holds m (A ++ B) := hm ▸ holds_build (A ++ B)
  have hmem : ∀ k q, (k, q) ∈ m ↔ q ≠ [] ∧
      q = (A.filter fun x => x.1 == k).map (·.2) ++ (B.filter fun x => x.1 == k).map (·.2) := by
    intro k q
    rw [hh.2 k q, List.filter_append, List.map_append]
  have ha : ∀ k x, (k, x) ∈ front m ↔ (k, x) ∈ A := by
    intro k x
    rw [mem_front]
    constructor
    · rintro ⟨q, hq⟩
      have e := ((hmem k _).1 hq).2
      by_cases hk : k ∈ A.map (·.1)
      · obtain ⟨⟨k', y⟩, hy, rfl⟩ := List.mem_map.1 hk
        rw [filter_one A hA _ y hy] at e
        simp at e
        rw [e.1]
        exact hy
      · rw [filter_none A k hk, filter_none B k fun hb => hk (hsub k hb)] at e
        simp at e
    · intro hx
      exact ⟨_, (hmem k _).2 ⟨by simp, by rw [filter_one A hA k x hx]; rfl⟩⟩
  have ht : ∀ k q, (k, q) ∈ tails m ↔ ∃ y, q = [y] ∧ (k, y) ∈ B := by
    intro k q
    rw [mem_tails]
    constructor
    · rintro ⟨hq, x, hx⟩
      have hxA : (k, x) ∈ A := (ha k x).1 ((mem_front m k x).2 ⟨q, hx⟩)
      have e := ((hmem k _).1 hx).2
      rw [filter_one A hA k x hxA] at e
      simp at e
      by_cases hk : k ∈ B.map (·.1)
      · obtain ⟨⟨k', y⟩, hy, rfl⟩ := List.mem_map.1 hk
        have e2 := filter_one B hB _ y hy
        exact ⟨y, by rw [e]; simpa using e2, hy⟩
      · have e2 := filter_none B k hk
        exact absurd (by rw [e]; simpa using e2) hq
    · rintro ⟨y, rfl, hy⟩
      obtain ⟨⟨k', x⟩, hx, he⟩ := List.mem_map.1 (hsub k (List.mem_map_of_mem (f := (·.1)) hy))
      simp only at he
      subst he
      exact ⟨by simp, x, (hmem k' _).2 ⟨by simp, by rw [filter_one A hA _ x hx, filter_one B hB _ y hy]; rfl⟩⟩
  have hb : ∀ k x, (k, x) ∈ front (tails m) ↔ (k, x) ∈ B := by
    intro k x
    rw [mem_front]
    constructor
    · rintro ⟨q, hq⟩
      obtain ⟨y, e, hy⟩ := (ht k _).1 hq
      cases e
      exact hy
    · intro hx
      exact ⟨[], (ht k _).2 ⟨x, rfl, hx⟩⟩
  have hz : tails (tails m) = [] := by
    rw [List.eq_nil_iff_forall_not_mem]
    rintro ⟨k, q⟩ h
    obtain ⟨hq, x, hx⟩ := (mem_tails _ k q).1 h
    obtain ⟨y, e, _⟩ := (ht k _).1 hx
    cases e
    exact hq rfl
  have s1 := front_sorted m hh.1
  have s2 := front_sorted (tails m) (tails_sorted m hh.1)
  refine ⟨front m, front (tails m),
    (List.perm_ext_iff_of_nodup (nodup_of_order _ s1) (nodup_of_keys _ hA)).2 fun ⟨k, x⟩ => ha k x,
    (List.perm_ext_iff_of_nodup (nodup_of_order _ s2) (nodup_of_keys _ hB)).2 fun ⟨k, x⟩ => hb k x, s1, s2, ?_⟩
  have hnil : collectItems ([] : Queues α) = [] := by rw [collectItems]; simp
  have step : ∀ m : Queues α, collectItems m = heads m ++ collectItems (tails m) := by
    intro m
    by_cases h : m = []
    · subst h; rw [hnil]; show [] = [] ++ collectItems (tails []); rw [tails, hnil]; rfl
    · rw [collectItems, dif_neg h]
  rw [step m, step (tails m), hz, hnil, List.append_nil, heads_front, heads_front, List.map_append]

/-! The trees. -/

theorem mem_treesEvents (l : List XTree) (x : Int × Event) :
    x ∈ treesEvents l ↔ ∃ t ∈ l, x ∈ treeEvents t := by
  induction l with
  | nil => simp [treesEvents]
  | cons t l ih => simp [treesEvents, ih]

mutual
theorem mem_treeEvents (t : XTree) (k : Int) (e : Event) :
    (k, e) ∈ treeEvents t ↔ ∃ p i, EmittedAt t p i k e := by
  match t with
  | .node c l =>
    rw [treeEvents, List.mem_append, List.mem_map]
    constructor
    · rintro (⟨x, hx, he⟩ | h)
      · obtain ⟨i, hi⟩ := List.getElem?_of_mem hx
        cases he
        exact ⟨[], i, c, x, rfl, hi, rfl, rfl⟩
      · obtain ⟨j, u, p, i, hj, h⟩ := (mem_treesEvents' l k e).1 h
        obtain ⟨c', x, h1, h2⟩ := h
        refine ⟨j :: p, i, c', x, ?_, h2⟩
        show l[j]?.bind (fun u => u.at p) = some c'
        rw [hj]
        exact h1
    · rintro ⟨p, i, c', x, h1, h2, h3, h4⟩
      cases p with
      | nil =>
        cases h1
        exact .inl ⟨x, List.mem_of_getElem? h2, by rw [h4, h3]; rfl⟩
      | cons j p =>
        refine .inr ((mem_treesEvents' l k e).2 ?_)
        change l[j]?.bind (fun u => u.at p) = some c' at h1
        cases hj : l[j]? with
        | none => rw [hj] at h1; cases h1
        | some u =>
          rw [hj] at h1
          exact ⟨j, u, p, i, hj, c', x, h1, h2, h3, h4⟩

theorem mem_treesEvents' (l : List XTree) (k : Int) (e : Event) :
    (k, e) ∈ treesEvents l ↔ ∃ (j : Nat) (u : XTree) (p : List Nat) (i : Nat), l[j]? = some u ∧ EmittedAt u p i k e := by
  match l with
  | [] => simp [treesEvents]
  | t :: l =>
    rw [treesEvents, List.mem_append, mem_treeEvents t k e, mem_treesEvents' l k e]
    constructor
    · rintro (⟨p, i, h⟩ | ⟨j, u, p, i, hj, h⟩)
      · exact ⟨0, t, p, i, rfl, h⟩
      · exact ⟨j + 1, u, p, i, by simpa using hj, h⟩
    · rintro ⟨j, u, p, i, hj, h⟩
      cases j with
      | zero =>
        simp at hj
        subst hj
        exact .inl ⟨p, i, h⟩
      | succ j => exact .inr ⟨j, u, p, i, by simpa using hj, h⟩
end

mutual
theorem mem_treeMessages (t : XTree) (k : Int) (e : Message) :
    (k, e) ∈ treeMessages t ↔ ∃ p i, SentAt t p i k e := by
  match t with
  | .node c l =>
    rw [treeMessages, List.mem_append, List.mem_map]
    constructor
    · rintro (⟨x, hx, he⟩ | h)
      · obtain ⟨i, hi⟩ := List.getElem?_of_mem hx
        cases he
        exact ⟨[], i, c, x, rfl, hi, rfl, rfl⟩
      · obtain ⟨j, u, p, i, hj, h⟩ := (mem_treesMessages' l k e).1 h
        obtain ⟨c', x, h1, h2⟩ := h
        refine ⟨j :: p, i, c', x, ?_, h2⟩
        show l[j]?.bind (fun u => u.at p) = some c'
        rw [hj]
        exact h1
    · rintro ⟨p, i, c', x, h1, h2, h3, h4⟩
      cases p with
      | nil =>
        cases h1
        exact .inl ⟨x, List.mem_of_getElem? h2, by rw [h4, h3]⟩
      | cons j p =>
        refine .inr ((mem_treesMessages' l k e).2 ?_)
        change l[j]?.bind (fun u => u.at p) = some c' at h1
        cases hj : l[j]? with
        | none => rw [hj] at h1; cases h1
        | some u =>
          rw [hj] at h1
          exact ⟨j, u, p, i, hj, c', x, h1, h2, h3, h4⟩

theorem mem_treesMessages' (l : List XTree) (k : Int) (e : Message) :
    (k, e) ∈ treesMessages l ↔ ∃ (j : Nat) (u : XTree) (p : List Nat) (i : Nat), l[j]? = some u ∧ SentAt u p i k e := by
  match l with
  | [] => simp [treesMessages]
  | t :: l =>
    rw [treesMessages, List.mem_append, mem_treeMessages t k e, mem_treesMessages' l k e]
    constructor
    · rintro (⟨p, i, h⟩ | ⟨j, u, p, i, hj, h⟩)
      · exact ⟨0, t, p, i, rfl, h⟩
      · exact ⟨j + 1, u, p, i, by simpa using hj, h⟩
    · rintro ⟨j, u, p, i, hj, h⟩
      cases j with
      | zero =>
        simp at hj
        subst hj
        exact .inl ⟨p, i, h⟩
      | succ j => exact .inr ⟨j, u, p, i, by simpa using hj, h⟩
end

theorem mem_parts (b : Body) (t : XTree) : t ∈ parts b ↔ HasPart b t := by
  constructor
  · intro h
    rcases b with ⟨f, v⟩ | ⟨c, f, v⟩ | ⟨e, f, v⟩ | e
    · simp [parts] at h
      rcases h with rfl | rfl
      · exact .declareValidate _ _
      · exact .declareFee _ _
    · simp [parts] at h
      rcases h with rfl | rfl | rfl
      · exact .deployValidate _ _ _
      · exact .deployConstructor _ _ _
      · exact .deployFee _ _ _
    · simp [parts] at h
      rcases h with rfl | h | rfl
      · exact .invokeValidate _ _ _
      · rcases e with e | r
        · simp [ofRevertible] at h
          subst h
          exact .invokeExecute _ _ _
        · simp [ofRevertible] at h
      · exact .invokeFee _ _ _
    · rcases e with e | r
      · simp [parts, ofRevertible] at h
        subst h
        exact .handler _
      · simp [parts, ofRevertible] at h
  · intro h
    cases h <;> simp [parts, ofRevertible]

mutual
theorem treeEvents_calls (t : XTree) : treeEvents t = (allCalls t).flatMap eventsOf := by
  match t with
  | .node c l =>
    rw [treeEvents, allCalls, List.flatMap_cons, treesEvents_calls l]
    rfl

theorem treesEvents_calls (l : List XTree) : treesEvents l = (allCallsList l).flatMap eventsOf := by
  match l with
  | [] => rfl
  | t :: l => rw [treesEvents, allCallsList, List.flatMap_append, treeEvents_calls t, treesEvents_calls l]
end

mutual
theorem treeMessages_calls (t : XTree) : treeMessages t = (allCalls t).flatMap messagesOf := by
  match t with
  | .node c l =>
    rw [treeMessages, allCalls, List.flatMap_cons, treesMessages_calls l]
    rfl

theorem treesMessages_calls (l : List XTree) : treesMessages l = (allCallsList l).flatMap messagesOf := by
  match l with
  | [] => rfl
  | t :: l => rw [treesMessages, allCallsList, List.flatMap_append, treeMessages_calls t, treesMessages_calls l]
end

theorem parts_effective (b : Body) : parts b = effective b := by
  rcases b with ⟨f, v⟩ | ⟨c, f, v⟩ | ⟨e, f, v⟩ | e
  · rcases f with _ | f <;> rcases v with _ | v <;> rfl
  · rcases f with _ | f <;> rcases v with _ | v <;> rcases c with _ | c <;> rfl
  · rcases f with _ | f <;> rcases v with _ | v <;> rcases e with (_ | e) | e <;> rfl
  · rcases e with (_ | e) | e <;> rfl

theorem flatMap_silent (f : XTree → List (Int × α)) (l : List XTree) (h : ∀ t ∈ l, f t = []) : l.flatMap f = [] := by
  rw [List.flatMap_eq_nil_iff]
  exact h

/-- One part with items. -/
theorem collect_one (A : List (Int × α)) (hA : (A.map (·.1)).Nodup) :
    ∃ a, a.Perm A ∧ InOrder a ∧ collectItems (A.foldl push []) = a.map (·.2) := by
  obtain ⟨a, b, ha, hb, sa, _, h⟩ := collect_two A [] hA (by simp) (by simp)
  refine ⟨a, ha, sa, ?_⟩
  rw [hb.eq_nil, List.append_nil, List.append_nil] at h
  exact h

/-! The order in general. -/

def tagged (r : Nat) (k : Int) : List α → List (Nat × Int × α)
  | [] => []
  | a :: q => (r, k, a) :: tagged (r + 1) k q

theorem tagged_append (q : List α) (r : Nat) (k : Int) (a : α) :
    tagged r k (q ++ [a]) = tagged r k q ++ [(r + q.length, k, a)] := by
  induction q generalizing r with
  | nil => rfl
  | cons b q ih =>
    show (r, k, b) :: tagged (r + 1) k (q ++ [a]) = _
    rw [ih (r + 1), List.length_cons, show r + 1 + q.length = r + (q.length + 1) by omega]
    rfl

def expand (r : Nat) (m : Queues α) : List (Nat × Int × α) := m.flatMap fun e => tagged r e.1 e.2

def frontAt (r : Nat) (m : Queues α) : List (Nat × Int × α) := (front m).map fun x => (r, x.1, x.2)

theorem expand_round (r : Nat) (m : Queues α) :
    (frontAt r m ++ expand (r + 1) (tails m)).Perm (expand r m) := by
  fun_induction tails m with
  | case1 => exact List.Perm.refl _
  | case2 k m ih => exact ih
  | case3 k a m ih =>
    show ((r, k, a) :: (frontAt r m ++ expand (r + 1) (tails m))).Perm ((r, k, a) :: expand r m)
    exact List.Perm.cons _ ih
  | case4 k a b l m ih =>
    show ((r, k, a) :: (frontAt r m ++ (tagged (r + 1) k (b :: l) ++ expand (r + 1) (tails m)))).Perm
      ((r, k, a) :: (tagged (r + 1) k (b :: l) ++ expand r m))
    refine List.Perm.cons _ ?_
    have h1 : (frontAt r m ++ (tagged (r + 1) k (b :: l) ++ expand (r + 1) (tails m))).Perm
        (tagged (r + 1) k (b :: l) ++ (frontAt r m ++ expand (r + 1) (tails m))) := by
      rw [← List.append_assoc, ← List.append_assoc]
      exact List.Perm.append_right _ List.perm_append_comm
    exact h1.trans (List.Perm.append_left _ ih)

theorem mem_tagged (q : List α) (r : Nat) (k : Int) (x : Nat × Int × α) (h : x ∈ tagged r k q) : r ≤ x.1 := by
  induction q generalizing r with
  | nil => cases h
  | cons a q ih =>
    rcases List.mem_cons.1 h with rfl | h
    · exact Nat.le_refl _
    · have := ih (r + 1) h
      omega

/-- The result of the rounds, with the rounds. -/
theorem collect_rounds (m : Queues α) (r : Nat) (hm : m.Pairwise (fun a b => a.1 < b.1)) :
    ∃ o : List (Nat × Int × α), o.Perm (expand r m) ∧ o.Pairwise Earlier ∧ collectItems m = o.map (·.2.2) := by
  fun_induction collectItems m generalizing r with
  | case1 => exact ⟨[], List.Perm.refl _, List.Pairwise.nil, rfl⟩
  | case2 m h ih =>
    obtain ⟨o, h1, h2, h3⟩ := ih (r + 1) (tails_sorted m hm)
    refine ⟨frontAt r m ++ o, (List.Perm.append_left _ h1).trans (expand_round r m), ?_, ?_⟩
    · rw [List.pairwise_append]
      refine ⟨?_, h2, ?_⟩
      · have := front_sorted m hm
        unfold frontAt
        rw [List.pairwise_map]
        exact List.Pairwise.imp (fun hab => Or.inr ⟨rfl, hab⟩) this
      · intro a ha b hb
        obtain ⟨x, _, rfl⟩ := List.mem_map.1 ha
        have hb' := (h1.mem_iff).1 hb
        obtain ⟨e, _, he⟩ := List.mem_flatMap.1 hb'
        have := mem_tagged _ _ _ _ he
        exact Or.inl (by show r < b.1; omega)
    · rw [List.map_append, h3, heads_front]
      congr 1
      unfold frontAt
      rw [List.map_map]
      rfl

/-- How many items a queue has. -/
def qlen (m : Queues α) (k : Int) : Nat :=
  match m with
  | [] => 0
  | (k', q) :: m => if k = k' then q.length else qlen m k

theorem qlen_zero (m : Queues α) (k : Int) (h : ∀ e ∈ m, k < e.1) : qlen m k = 0 := by
  induction m with
  | nil => rfl
  | cons e m ih =>
    have h1 := h e List.mem_cons_self
    show (if k = e.1 then e.2.length else qlen m k) = 0
    rw [if_neg (by omega)]
    exact ih fun e' he => h e' (List.mem_cons_of_mem _ he)

theorem qlen_push (m : Queues α) (x : Int × α) (h : m.Pairwise (fun a b => a.1 < b.1)) (k : Int) :
    qlen (push m x) k = if k = x.1 then qlen m k + 1 else qlen m k := by
  fun_induction push m x with
  | case1 x => rfl
  | case2 k' l m x hlt =>
    rw [List.pairwise_cons] at h
    have hz : qlen ((k', l) :: m) x.1 = 0 := qlen_zero _ _ fun e he => by
      rcases List.mem_cons.1 he with rfl | he
      · exact hlt
      · exact Int.lt_trans hlt (h.1 e he)
    show (if k = x.1 then 1 else qlen ((k', l) :: m) k) = _
    by_cases hk : k = x.1
    · subst hk
      rw [hz]
    · rw [if_neg hk, if_neg hk]
  | case3 l m x hlt =>
    show (if k = x.1 then (l ++ [x.2]).length else qlen m k) =
      if k = x.1 then (if k = x.1 then l.length else qlen m k) + 1 else (if k = x.1 then l.length else qlen m k)
    by_cases hk : k = x.1
    · simp [hk]
    · simp [hk]
  | case4 k' l m x hlt he ih =>
    rw [List.pairwise_cons] at h
    show (if k = k' then l.length else qlen (push m x) k) =
      if k = x.1 then (if k = k' then l.length else qlen m k) + 1 else (if k = k' then l.length else qlen m k)
    rw [ih h.2]
    by_cases hk : k = k'
    · rw [if_pos hk, if_pos hk, if_neg (by omega)]
    · rw [if_neg hk, if_neg hk]

theorem expand_push (m : Queues α) (x : Int × α) (h : m.Pairwise (fun a b => a.1 < b.1)) :
    (expand 0 (push m x)).Perm (expand 0 m ++ [(qlen m x.1, x.1, x.2)]) := by
  fun_induction push m x with
  | case1 x => exact List.Perm.refl _
  | case2 k l m x hlt =>
    rw [List.pairwise_cons] at h
    have hz : qlen ((k, l) :: m) x.1 = 0 := qlen_zero _ _ fun e he => by
      rcases List.mem_cons.1 he with rfl | he
      · exact hlt
      · exact Int.lt_trans hlt (h.1 e he)
    rw [hz]
    show ([(0, x.1, x.2)] ++ expand 0 ((k, l) :: m)).Perm (expand 0 ((k, l) :: m) ++ [(0, x.1, x.2)])
    exact List.perm_append_comm
  | case3 l m x hlt =>
    have hq : qlen ((x.1, l) :: m) x.1 = l.length := if_pos rfl
    rw [hq]
    show (tagged 0 x.1 (l ++ [x.2]) ++ expand 0 m).Perm ((tagged 0 x.1 l ++ expand 0 m) ++ [(l.length, x.1, x.2)])
    rw [tagged_append, Nat.zero_add, List.append_assoc, List.append_assoc]
    exact List.Perm.append_left _ List.perm_append_comm
  | case4 k l m x hlt he ih =>
    rw [List.pairwise_cons] at h
    have hq : qlen ((k, l) :: m) x.1 = qlen m x.1 := if_neg (by omega)
    rw [hq]
    show (tagged 0 k l ++ expand 0 (push m x)).Perm ((tagged 0 k l ++ expand 0 m) ++ [(qlen m x.1, x.1, x.2)])
    rw [List.append_assoc]
    exact List.Perm.append_left _ (ih h.2)

theorem expand_foldl (l : List (Int × α)) (m : Queues α) (before : List Int)
    (h : m.Pairwise (fun a b => a.1 < b.1)) (hq : ∀ k, qlen m k = before.count k) :
    (expand 0 (l.foldl push m)).Perm (expand 0 m ++ ranked before l) := by
  induction l generalizing m before with
  | nil => simp [ranked]
  | cons x l ih =>
    refine (ih (push m x) (before ++ [x.1]) (push_sorted m x h) ?_).trans ?_
    · intro k
      rw [qlen_push m x h k, hq k, List.count_append, List.count_singleton]
      by_cases hk : k = x.1
      · simp [hk]
      · have : (x.1 == k) = false := by simp; omega
        simp [hk, this]
    · rw [ranked, ← List.singleton_append (l := ranked _ l), ← List.append_assoc, ← hq x.1]
      exact List.Perm.append_right _ (expand_push m x h)

theorem collect_order (l : List (Int × α)) :
    ∃ o : List (Nat × Int × α), o.Perm (ranked [] l) ∧ o.Pairwise Earlier ∧ collectItems (l.foldl push []) = o.map (·.2.2) := by
  obtain ⟨o, h1, h2, h3⟩ := collect_rounds (l.foldl push []) 0 (holds_build l).1
  refine ⟨o, h1.trans ?_, h2, h3⟩
  have := expand_foldl l [] [] List.Pairwise.nil (fun k => by simp [qlen])
  simpa [expand] using this

end Verif.ExecReceipt
