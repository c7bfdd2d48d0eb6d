/-
Lemmas about histories of blocks.
-/
import Verif.Trie.SimTree
import Verif.Trie.SpecStore

namespace Verif.Trie

variable {F : Type} [DecidableEq F] {o : FeltOps F}

omit [DecidableEq F] in
theorem SRep.mem_iff_reach {T : Table F} {c : Content F} {lk} {pfx i t L}
    (h : SRep o (T.storage c) lk pfx i t L) : ∀ j, j ∈ L ↔ Reach T i j := by
  have hrow : ∀ {i : Nat} {n : StoredNode}, (T.storage c).get i = some n → ∃ h, T.row i = some (h, n) := by
    intro i n hg
    simp only [Table.storage, Option.map_eq_some_iff] at hg
    obtain ⟨x, hx, rfl⟩ := hg
    exact ⟨x.1, hx⟩
  induction h with
  | binary g hh _ _ ihl ihr =>
    intro j
    obtain ⟨h0, hr⟩ := hrow g
    simp only [List.mem_cons, List.mem_append, ihl j, ihr j]
    constructor
    · rintro (rfl | h | h)
      · exact .refl hr
      · exact .left hr h
      · exact .right hr h
    · intro h
      cases h with
      | refl => exact .inl rfl
      | left h1 h2 => rw [hr] at h1; cases h1; exact .inr (.inl h2)
      | right h1 h2 => rw [hr] at h1; cases h1; exact .inr (.inr h2)
      | child h1 h2 => rw [hr] at h1; cases h1
  | leafBinary g hh h1 h2 =>
    intro j
    obtain ⟨h0, hr⟩ := hrow g
    simp only [List.mem_singleton]
    constructor
    · rintro rfl; exact .refl hr
    · intro h
      cases h with
      | refl => rfl
      | left h1 h2 => rw [hr] at h1; cases h1
      | right h1 h2 => rw [hr] at h1; cases h1
      | child h1 h2 => rw [hr] at h1; cases h1
  | edge g hh _ ih =>
    intro j
    obtain ⟨h0, hr⟩ := hrow g
    simp only [List.mem_cons, ih j]
    constructor
    · rintro (rfl | h)
      · exact .refl hr
      · exact .child hr h
    · intro h
      cases h with
      | refl => exact .inl rfl
      | left h1 h2 => rw [hr] at h1; cases h1
      | right h1 h2 => rw [hr] at h1; cases h1
      | child h1 h2 => rw [hr] at h1; cases h1; exact .inr h2
  | leafEdge g hh h1 =>
    intro j
    obtain ⟨h0, hr⟩ := hrow g
    simp only [List.mem_singleton]
    constructor
    · rintro rfl; exact .refl hr
    · intro h
      cases h with
      | refl => rfl
      | left h1 h2 => rw [hr] at h1; cases h1
      | right h1 h2 => rw [hr] at h1; cases h1
      | child h1 h2 => rw [hr] at h1; cases h1

omit [DecidableEq F] in
theorem Stored.mem_iff {T : Table F} {H root c L} (h : Stored o T H root c L) (j : Nat) :
    j ∈ L ↔ InTrie T root j := by
  cases root with
  | none => rw [h.1]; simp [InTrie]
  | some i =>
    obtain ⟨t, hs, _⟩ := h
    rw [hs.mem_iff_reach]
    simp [InTrie]

theorem leafWrite_foldl (c : Content F) (ws : List (List Bool × F)) :
    ws.foldl (leafWrite o) c = c.writes o ws := rfl

/-- State of a database trie: stored, and leaves equal to the content. -/
def DbOk (o : FeltOps F) (H : Nat) (d : DbTrie F) (c : Content F) : Prop :=
  d.leaf = c ∧ ∃ L, Stored o d.table H d.root c L ∧ L.Nodup

omit [DecidableEq F] in
theorem DbOk.init {H : Nat} : DbOk o H (DbTrie.init : DbTrie F) Content.empty :=
  ⟨rfl, [], ⟨rfl, rfl⟩, List.nodup_nil⟩

theorem block_ok {H : Nat} (hH : 0 < H) (hH2 : H < 256) {d : DbTrie F} {c : Content F} (h : DbOk o H d c)
    (ws : List (List Bool × F)) (hws : ∀ w ∈ ws, w.1.length = H) :
    ∃ d' v, d.block o H ws = .ok (d', v) ∧ DbOk o H d' (c.writes o ws) ∧ v.root = d'.root ∧
      v.commitment = specRoot o H (c.writes o ws) ∧
      (∀ i x, d.table.row i = some x → d'.table.row i = some x) ∧
      v.removed.Nodup ∧
      (∀ i, i ∈ v.removed ↔ InTrie d.table d.root i ∧ ¬ InTrie d'.table d'.root i) ∧
      (∀ i, InTrie d'.table d'.root i → InTrie d.table d.root i ∨ d.table.row i = none) ∧
      (∀ i x, d'.table.row i = some x → d.table.row i = none → InTrie d'.table d'.root i) := by
  obtain ⟨hl, L, hst, hnd⟩ := h
  obtain ⟨T', root', removed, L', e, hst', hnd', hold, hrn, hrm, hnew, hnew2⟩ := applyBlock_ok hH hH2 hst hnd ws hws
  refine ⟨⟨T', root', c.writes o ws⟩, ⟨root', specRoot o H (c.writes o ws), removed⟩, ?_, ⟨rfl, L', hst', hnd'⟩, rfl, rfl, hold, hrn, ?_, ?_, ?_⟩
  · simp only [DbTrie.block, hl, e, bind, Except.bind, pure, Except.pure, leafWrite_foldl]
  · intro i
    rw [hrm, hst.mem_iff, hst'.mem_iff]
  · intro i hi
    rw [← hst.mem_iff]
    exact hnew i ((hst'.mem_iff i).2 hi)
  · intro i x hx hn
    exact (hst'.mem_iff i).1 (hnew2 i x hx hn)

theorem blocks_ok {H : Nat} (hH : 0 < H) (hH2 : H < 256) (bs : List (List (List Bool × F))) :
    ∀ {d : DbTrie F} {c : Content F}, DbOk o H d c → KeysOk H bs →
    ∃ d' vs, d.blocks o H bs = .ok (d', vs) ∧ DbOk o H d' (bs.foldl (fun c ws => c.writes o ws) c) ∧
      vs.length = bs.length ∧
      (∀ i x, d.table.row i = some x → d'.table.row i = some x) ∧
      (∀ j v, vs[j]? = some v →
        v.commitment = specRoot o H ((bs.take (j + 1)).foldl (fun c ws => c.writes o ws) c) ∧
        ∃ L, Stored o d'.table H v.root ((bs.take (j + 1)).foldl (fun c ws => c.writes o ws) c) L ∧ L.Nodup) ∧
      (∀ v, vs.getLast? = some v → v.root = d'.root ∧
        v.commitment = specRoot o H (bs.foldl (fun c ws => c.writes o ws) c)) := by
  induction bs with
  | nil =>
    intro d c h _
    exact ⟨d, [], rfl, h, rfl, fun _ _ h => h, by simp, by simp⟩
  | cons ws bs ih =>
    intro d c h hk
    obtain ⟨d1, v, e1, h1, hvr, hvc, hold1, _⟩ := block_ok hH hH2 h ws (hk ws List.mem_cons_self)
    obtain ⟨d2, vs, e2, h2, hlen, hold2, hvs, hlast⟩ := ih h1 (fun w hw => hk w (List.mem_cons_of_mem _ hw))
    refine ⟨d2, v :: vs, ?_, h2, by simp [hlen], fun i x hx => hold2 i x (hold1 i x hx), ?_, ?_⟩
    · simp [DbTrie.blocks, e1, e2, bind, Except.bind, pure, Except.pure]
    · intro j v' hj
      cases j with
      | zero =>
        simp only [List.getElem?_cons_zero, Option.some.injEq] at hj
        subst hj
        simp only [Nat.zero_add, List.take_succ_cons, List.take_zero, List.foldl_cons, List.foldl_nil]
        refine ⟨hvc, ?_⟩
        obtain ⟨_, L, hst, hnd⟩ := h1
        rw [← hvr] at hst
        refine ⟨L, hst.mono ?_, hnd⟩
        intro j hj
        obtain ⟨x, hx⟩ := hst.row j hj
        rw [hold2 j x hx, hx]
      | succ j =>
        simp only [List.getElem?_cons_succ] at hj
        simp only [List.take_succ_cons, List.foldl_cons]
        exact hvs j v' hj
    · intro v' hv'
      rw [List.getLast?_cons] at hv'
      simp only [Option.some.injEq] at hv'
      cases hvs' : vs.getLast? with
      | none =>
        have : vs = [] := by simpa using hvs'
        subst this
        simp only [List.getLast?_nil, Option.getD_none] at hv'
        have : bs = [] := by simpa using hlen.symm
        subst this
        simp only [DbTrie.blocks, Except.ok.injEq, Prod.mk.injEq] at e2
        subst hv'
        rw [← e2.1]
        exact ⟨hvr, hvc⟩
      | some w =>
        rw [hvs'] at hv'
        simp only [Option.getD_some] at hv'
        subst hv'
        exact hlast w hvs'

theorem run_ok {H : Nat} (hH : 0 < H) {S : Storage F} (ops : List (Op F)) :
    ∀ {t : MTree F} {c : Content F} {L}, MRep o S H t c L → (∀ op ∈ ops, op.key.length = H) →
    ∃ t', t.run o S H ops = .ok (Op.spec o c ops, t') ∧ MRep o S H t' (Op.specFinal o c ops) L := by
  induction ops with
  | nil => intro t c L h _; exact ⟨t, rfl, h⟩
  | cons op ops ih =>
    intro t c L h hk
    have hk1 := hk op List.mem_cons_self
    have hk2 : ∀ op' ∈ ops, op'.key.length = H := fun op' h' => hk op' (List.mem_cons_of_mem _ h')
    cases op with
    | set k v =>
      obtain ⟨t1, e1, h1, _⟩ := set_ok hH h (k := k) hk1 v
      obtain ⟨t2, e2, h2⟩ := ih h1 hk2
      exact ⟨t2, by simp [MTree.run, e1, bind, Except.bind, e2, Op.spec], h2⟩
    | get k =>
      obtain ⟨t1, e1, h1⟩ := get_ok h (k := k) hk1
      obtain ⟨t2, e2, h2⟩ := ih h1 hk2
      exact ⟨t2, by simp [MTree.run, e1, bind, Except.bind, e2, pure, Except.pure, Op.spec], h2⟩

end Verif.Trie
