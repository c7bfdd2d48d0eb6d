import Verif.Block.Spec
import Verif.Trie.SimTree
/-!
# Lemmas on the hashes of blocks
-/
namespace Verif.Block
open Verif.Trie
open Verif.Common (Version)

/-! ## Collisions -/

theorem Collide.mono {h : Hashes} {p q p' q' : List Query} (H : Collide h p p') (hp : ∀ x ∈ p, x ∈ q) (hp' : ∀ x ∈ p', x ∈ q') : Collide h q q' := by
  obtain ⟨a, ha, b, hb, hne, he⟩ := H
  exact ⟨a, hp a ha, b, hp' b hb, hne, he⟩

theorem HitsZero.mono {h : Hashes} {p q : List Query} (H : HitsZero h p) (hp : ∀ x ∈ p, x ∈ q) : HitsZero h q := by
  obtain ⟨a, ha, he⟩ := H
  exact ⟨a, hp a ha, he⟩

theorem Broken.mono {h : Hashes} {p q p' q' : List Query} (H : Broken h p p') (hp : ∀ x ∈ p, x ∈ q) (hp' : ∀ x ∈ p', x ∈ q') : Broken h q q' := by
  rcases H with H | H | H
  · exact .inl (H.mono hp hp')
  · exact .inr (.inl (H.mono hp))
  · exact .inr (.inr (H.mono hp'))

/-- Two queries with the same hash are the same, or they collide. -/
theorem query_eq {h : Hashes} {a b : Query} {q q' : List Query} (ha : a ∈ q) (hb : b ∈ q') (e : a.eval h = b.eval h) : a = b ∨ Collide h q q' := by
  by_cases hab : a = b
  · exact .inl hab
  · exact .inr ⟨a, ha, b, hb, hab, e⟩

/-! ## Numbers as field elements -/

theorem felt_val {n : Nat} (h : n < P) : (felt n).val = n := Nat.mod_eq_of_lt h

theorem felt_inj {a b : Nat} (ha : a < P) (hb : b < P) (h : felt a = felt b) : a = b := by
  have := congrArg Fin.val h
  rwa [felt_val ha, felt_val hb] at this

theorem lt_P {n : Nat} (h : n < 2 ^ 128) : n < P := by
  unfold P
  omega

theorem felt_inj128 {a b : Nat} (ha : a < 2 ^ 128) (hb : b < 2 ^ 128) (h : felt a = felt b) : a = b := felt_inj (lt_P ha) (lt_P hb) h

theorem felt_inj64 {a b : Nat} (ha : a < 2 ^ 64) (hb : b < 2 ^ 64) (h : felt a = felt b) : a = b :=
  felt_inj128 (by omega) (by omega) h

/-! ## Hash chains -/

theorem chain_steps (h : Hashes) {l l' : List F} (hl : l.length = l'.length) (a a' : F) (e : l.foldl h.ped a = l'.foldl h.ped a') :
    (a = a' ∧ l = l') ∨ Collide h (chainSteps h a l) (chainSteps h a' l') := by
  induction l generalizing l' a a' with
  | nil =>
    obtain rfl : l' = [] := List.eq_nil_of_length_eq_zero hl.symm
    exact .inl ⟨e, rfl⟩
  | cons x l ih =>
    cases l' with
    | nil => simp at hl
    | cons x' l' =>
      rw [List.foldl_cons, List.foldl_cons] at e
      rcases ih (by simpa using hl) _ _ e with ⟨h1, h2⟩ | h1
      · rcases query_eq (h := h) (a := .ped a x) (b := .ped a' x') (q := chainSteps h a (x :: l)) (q' := chainSteps h a' (x' :: l'))
          List.mem_cons_self List.mem_cons_self h1 with h3 | h3
        · simp only [Query.ped.injEq] at h3
          exact .inl ⟨h3.1, by rw [h3.2, h2]⟩
        · exact .inr h3
      · exact .inr (h1.mono (fun _ => List.mem_cons_of_mem _) (fun _ => List.mem_cons_of_mem _))

theorem chain_inj (h : Hashes) {l l' : List F} (hl : l.length < 2 ^ 64) (hl' : l'.length < 2 ^ 64) (e : chain h l = chain h l') :
    l = l' ∨ Collide h (chainQ h l) (chainQ h l') := by
  rcases query_eq (h := h) (a := .ped (l.foldl h.ped 0) (felt l.length)) (b := .ped (l'.foldl h.ped 0) (felt l'.length))
    (q := chainQ h l) (q' := chainQ h l') (by simp [chainQ]) (by simp [chainQ]) e with h1 | h1
  · simp only [Query.ped.injEq] at h1
    rcases chain_steps h (felt_inj64 hl hl' h1.2) _ _ h1.1 with h2 | h2
    · exact .inl h2.2
    · exact .inr (h2.mono (by simp +contextual [chainQ]) (by simp +contextual [chainQ]))
  · exact .inr h1

/-! ## Trees -/

theorem ops_zero (h : Hashes) (p : Bool) : (ops h p).zero = 0 := by cases p <;> rfl

theorem specNode_none {o : FeltOps F} {n : Nat} {m : Content F} : specNode o n m = none ↔ ∀ k : List Bool, k.length = n → m k = none := by
  induction n generalizing m with
  | zero => simp [specNode]
  | succ n ih =>
    have key : specNode o (n + 1) m = none ↔ specNode o n (fun k => m (false :: k)) = none ∧ specNode o n (fun k => m (true :: k)) = none := by
      rw [specNode]
      rcases specNode o n (fun k => m (false :: k)) with _ | ⟨p, b⟩ <;> rcases specNode o n (fun k => m (true :: k)) with _ | ⟨p', b'⟩ <;> simp
    rw [key, ih, ih]
    constructor
    · rintro ⟨h1, h2⟩ k hk
      cases k with
      | nil => simp at hk
      | cons b k => cases b
                    · exact h1 k (by simpa using hk)
                    · exact h2 k (by simpa using hk)
    · intro h1
      exact ⟨fun k hk => h1 _ (by simp [hk]), fun k hk => h1 _ (by simp [hk])⟩

/-- The node at the top of a tree that is not empty. -/
theorem specVal_eval (h : Hashes) (p : Bool) (c : F) (b : Bool) (l : List Bool) :
    specVal (ops h p) (b :: l, c) = (Query.edge p c (b :: l)).eval h := by
  cases p <;> simp [specVal, ops, posOps, pedOps, Query.eval]

theorem node_inj (h : Hashes) (p : Bool) {n : Nat} {m m' : Content F} {x x' : List Bool × F}
    (e : specNode (ops h p) n m = some x) (e' : specNode (ops h p) n m' = some x') (hv : specVal (ops h p) x = specVal (ops h p) x') :
    (∀ k : List Bool, k.length = n → m k = m' k) ∨ Collide h (nodesQ h p n m) (nodesQ h p n m') := by
  induction n generalizing m m' x x' with
  | zero =>
    left
    intro k hk
    obtain rfl : k = [] := List.eq_nil_of_length_eq_zero hk
    simp only [specNode, Option.map_eq_some_iff] at e e'
    obtain ⟨v, hm, rfl⟩ := e
    obtain ⟨v', hm', rfl⟩ := e'
    rw [hm, hm', show v = v' by simpa [specVal] using hv]
  | succ n ih =>
    have both : (∀ k : List Bool, k.length = n → m (false :: k) = m' (false :: k)) → (∀ k : List Bool, k.length = n → m (true :: k) = m' (true :: k)) →
        ∀ k : List Bool, k.length = n + 1 → m k = m' k := by
      intro h1 h2 k hk
      cases k with
      | nil => simp at hk
      | cons b k =>
        cases b
        · exact h1 k (by simpa using hk)
        · exact h2 k (by simpa using hk)
    have sub1 : ∀ m : Content F, ∀ y ∈ nodesQ h p n (fun k => m (false :: k)), y ∈ nodesQ h p (n + 1) m := by
      intro m y hy; simp [nodesQ, hy]
    have sub2 : ∀ m : Content F, ∀ y ∈ nodesQ h p n (fun k => m (true :: k)), y ∈ nodesQ h p (n + 1) m := by
      intro m y hy; simp [nodesQ, hy]
    -- the query at the top
    have top : ∀ (m : Content F) (x : List Bool × F), specNode (ops h p) (n + 1) m = some x → ∃ q ∈ nodesQ h p (n + 1) m, q.eval h = specVal (ops h p) x ∧
        ((∃ y z, specNode (ops h p) n (fun k => m (false :: k)) = some y ∧ specNode (ops h p) n (fun k => m (true :: k)) = some z ∧
            q = if p then .two (specVal (ops h p) y) (specVal (ops h p) z) else .ped (specVal (ops h p) y) (specVal (ops h p) z)) ∨
         (∃ l c, specNode (ops h p) n (fun k => m (false :: k)) = some (l, c) ∧ specNode (ops h p) n (fun k => m (true :: k)) = none ∧
            q = .edge p c (false :: l)) ∨
         (∃ l c, specNode (ops h p) n (fun k => m (false :: k)) = none ∧ specNode (ops h p) n (fun k => m (true :: k)) = some (l, c) ∧
            q = .edge p c (true :: l))) := by
      intro m x ex
      rw [specNode] at ex
      rcases e1 : specNode (ops h p) n (fun k => m (false :: k)) with _ | ⟨l, c⟩ <;>
        rcases e2 : specNode (ops h p) n (fun k => m (true :: k)) with _ | ⟨l', c'⟩ <;>
        simp only [e1, e2, Option.some.injEq, reduceCtorEq] at ex
      · subst ex
        refine ⟨.edge p c' (true :: l'), by simp [nodesQ, e1, e2], (specVal_eval h p c' true l').symm, .inr (.inr ⟨l', c', rfl, rfl, rfl⟩)⟩
      · subst ex
        refine ⟨.edge p c (false :: l), by simp [nodesQ, e1, e2], (specVal_eval h p c false l).symm, .inr (.inl ⟨l, c, rfl, rfl, rfl⟩)⟩
      · subst ex
        refine ⟨_, ?_, ?_, .inl ⟨_, _, rfl, rfl, rfl⟩⟩
        · simp [nodesQ, e1, e2]
        · cases p <;> simp [specVal, Query.eval, ops, posOps, pedOps]
    obtain ⟨q, hq, hqv, hc⟩ := top m x e
    obtain ⟨q', hq', hqv', hc'⟩ := top m' x' e'
    rcases query_eq hq hq' (hqv.trans (hv.trans hqv'.symm)) with heq | hcol
    · rcases hc with ⟨y, z, e1, e2, rfl⟩ | ⟨l, c, e1, e2, rfl⟩ | ⟨l, c, e1, e2, rfl⟩ <;>
        rcases hc' with ⟨y', z', e1', e2', hq2⟩ | ⟨l', c', e1', e2', hq2⟩ | ⟨l', c', e1', e2', hq2⟩ <;>
        rw [hq2] at heq
      · have : specVal (ops h p) y = specVal (ops h p) y' ∧ specVal (ops h p) z = specVal (ops h p) z' := by
          cases p <;> simpa using heq
        rcases ih e1 e1' this.1 with h1 | h1
        · rcases ih e2 e2' this.2 with h2 | h2
          · exact .inl (both h1 h2)
          · exact .inr (h2.mono (sub2 m) (sub2 m'))
        · exact .inr (h1.mono (sub1 m) (sub1 m'))
      · cases p <;> simp at heq
      · cases p <;> simp at heq
      · cases p <;> simp at heq
      · simp only [Query.edge.injEq, true_and, List.cons.injEq] at heq
        rcases ih e1 e1' (by rw [heq.1, heq.2]) with h1 | h1
        · left
          refine both h1 fun k hk => ?_
          rw [specNode_none.1 e2 k hk, specNode_none.1 e2' k hk]
        · exact .inr (h1.mono (sub1 m) (sub1 m'))
      · simp at heq
      · cases p <;> simp at heq
      · simp at heq
      · simp only [Query.edge.injEq, true_and, List.cons.injEq] at heq
        rcases ih e2 e2' (by rw [heq.1, heq.2]) with h1 | h1
        · left
          refine both (fun k hk => ?_) h1
          rw [specNode_none.1 e1 k hk, specNode_none.1 e1' k hk]
        · exact .inr (h1.mono (sub2 m) (sub2 m'))
    · exact .inr hcol

/-- A tree with a query at its top that hashes to its root. -/
theorem root_query (h : Hashes) (p : Bool) {n : Nat} {m : Content F} {x : List Bool × F} (e : specNode (ops h p) (n + 1) m = some x) :
    ∃ q ∈ nodesQ h p (n + 1) m, q.eval h = specVal (ops h p) x := by
  rw [specNode] at e
  rcases e1 : specNode (ops h p) n (fun k => m (false :: k)) with _ | ⟨l, c⟩ <;>
    rcases e2 : specNode (ops h p) n (fun k => m (true :: k)) with _ | ⟨l', c'⟩ <;>
    simp only [e1, e2, Option.some.injEq, reduceCtorEq] at e
  · subst e
    exact ⟨.edge p c' (true :: l'), by simp [nodesQ, e1, e2], (specVal_eval h p c' true l').symm⟩
  · subst e
    exact ⟨.edge p c (false :: l), by simp [nodesQ, e1, e2], (specVal_eval h p c false l).symm⟩
  · subst e
    refine ⟨if p then .two (specVal (ops h p) (l, c)) (specVal (ops h p) (l', c')) else .ped (specVal (ops h p) (l, c)) (specVal (ops h p) (l', c')), ?_, ?_⟩
    · simp [nodesQ, e1, e2]
    · cases p <;> simp [specVal, Query.eval, ops, posOps, pedOps]

theorem root_inj (h : Hashes) (p : Bool) {n : Nat} {m m' : Content F} (e : specRoot (ops h p) (n + 1) m = specRoot (ops h p) (n + 1) m') :
    (∀ k : List Bool, k.length = n + 1 → m k = m' k) ∨ Broken h (nodesQ h p (n + 1) m) (nodesQ h p (n + 1) m') := by
  unfold specRoot at e
  rcases e1 : specNode (ops h p) (n + 1) m with _ | x <;> rcases e2 : specNode (ops h p) (n + 1) m' with _ | y <;> simp only [e1, e2, ops_zero] at e
  · left
    intro k hk
    rw [specNode_none.1 e1 k hk, specNode_none.1 e2 k hk]
  · obtain ⟨q, hq, hv⟩ := root_query h p e2
    exact .inr (.inr (.inr ⟨q, hq, hv.trans e.symm⟩))
  · obtain ⟨q, hq, hv⟩ := root_query h p e1
    exact .inr (.inr (.inl ⟨q, hq, hv.trans e⟩))
  · rcases node_inj h p e1 e2 e with h1 | h1
    · exact .inl h1
    · exact .inr (.inl h1)

/-! ## Keys -/

theorem bits_length (w n : Nat) : (bits w n).length = w := by
  induction w with
  | zero => rfl
  | succ w ih => simp [bits, ih]

theorem number_cons (l : List Bool) (a : Nat) :
    l.foldl (fun n b => n * 2 + b.toNat) a = a * 2 ^ l.length + number l := by
  induction l generalizing a with
  | nil => simp [number]
  | cons x l ih =>
    unfold number
    rw [List.foldl_cons, List.foldl_cons, ih, ih (0 * 2 + _), List.length_cons, Nat.pow_succ]
    rw [Nat.zero_mul, Nat.zero_add, Nat.add_mul, Nat.add_assoc, Nat.mul_assoc, Nat.mul_comm 2]

theorem number_bits (w n : Nat) : number (bits w n) = n % 2 ^ w := by
  induction w with
  | zero => simp [bits, number, Nat.mod_one]
  | succ w ih =>
    unfold number bits
    rw [List.foldl_cons, number_cons, bits_length, ih]
    have : n % 2 ^ (w + 1) = n % 2 ^ w + 2 ^ w * (n / 2 ^ w % 2) := by
      rw [Nat.pow_succ, Nat.mod_mul]
    rw [this, Nat.testBit_eq_decide_div_mod_eq]
    have h2 : n / 2 ^ w % 2 = 0 ∨ n / 2 ^ w % 2 = 1 := by omega
    rcases h2 with h2 | h2 <;> simp [h2] <;> omega

theorem number_key {i : Nat} (h : i < 2 ^ 64) : number (key i) = i := by
  rw [key, number_bits, Nat.mod_eq_of_lt h]

theorem key_length (i : Nat) : (key i).length = 64 := bits_length 64 i

theorem key_number {k : List Bool} (hk : k.length = 64) : key (number k) = k := by
  have : ∀ (w : Nat) (k : List Bool), k.length = w → bits w (number k) = k ∧ number k < 2 ^ w := by
    intro w
    induction w with
    | zero =>
      intro k hk
      obtain rfl := List.eq_nil_of_length_eq_zero hk
      exact ⟨rfl, by decide⟩
    | succ w ih =>
      intro k hk
      cases k with
      | nil => simp at hk
      | cons b k =>
        have hk' : k.length = w := by simpa using hk
        obtain ⟨h1, h2⟩ := ih k hk'
        have hn : number (b :: k) = b.toNat * 2 ^ w + number k := by
          unfold number
          rw [List.foldl_cons, number_cons, hk']
          simp [number]
        have hmod : ∀ j, bits j (b.toNat * 2 ^ w + number k) = bits j (number k) ∨ ¬ j ≤ w := by
          intro j
          induction j with
          | zero => left; rfl
          | succ j ihj =>
            by_cases hj : j + 1 ≤ w
            · left
              rcases ihj with ihj | ihj
              · rw [bits, bits, ihj]
                congr 1
                rw [Nat.testBit_eq_decide_div_mod_eq, Nat.testBit_eq_decide_div_mod_eq]
                have : b.toNat * 2 ^ w = 2 ^ j * (2 * (b.toNat * 2 ^ (w - j - 1))) := by
                  have : w = j + 1 + (w - j - 1) := by omega
                  generalize hd : w - j - 1 = d at *
                  rw [this, Nat.pow_add, Nat.pow_succ]
                  simp only [Nat.mul_assoc, Nat.mul_comm, Nat.mul_left_comm]
                rw [this, Nat.mul_add_div (Nat.two_pow_pos j)]
                simp
              · omega
            · exact .inr hj
        refine ⟨?_, ?_⟩
        · rw [hn, bits]
          rcases hmod w with h3 | h3
          · rw [h3, h1]
            congr 1
            rw [Nat.testBit_eq_decide_div_mod_eq, Nat.add_comm, Nat.add_mul_div_right _ _ (Nat.two_pow_pos w), Nat.div_eq_of_lt h2]
            cases b <;> rfl
          · omega
        · rw [hn, Nat.pow_succ]
          cases b <;> simp <;> omega
  exact (this 64 k hk).1

/-! ## The tree of a list -/

theorem writes_leaves (o : FeltOps F) (ho : o.zero = 0) (l : List F) (i : Nat) (m : Content F) (hi : i + l.length ≤ 2 ^ 64) (k : List Bool) :
    (m.writes o (leaves i l)) k = if k.length = 64 ∧ i ≤ number k ∧ number k < i + l.length then (l[number k - i]?).filter (· ≠ 0) else m k := by
  induction l generalizing i m with
  | nil =>
    simp only [leaves, Content.writes, List.foldl_nil, List.length_nil]
    rw [if_neg (by omega)]
  | cons x l ih =>
    simp only [leaves, Content.writes, List.foldl_cons] at ih ⊢
    rw [ih (i + 1) _ (by simp at hi; omega)]
    simp only [List.length_cons] at hi ⊢
    by_cases hk : k.length = 64 ∧ i + 1 ≤ number k ∧ number k < i + 1 + l.length
    · rw [if_pos hk, if_pos (by omega)]
      have : number k - i = (number k - (i + 1)) + 1 := by omega
      rw [this, List.getElem?_cons_succ]
    · rw [if_neg hk]
      unfold Content.write
      by_cases hk2 : k = key i
      · subst hk2
        have hn : number (key i) = i := number_key (by omega)
        simp [hn, key_length, ho, Option.filter]
      · rw [if_neg hk2, if_neg]
        rintro ⟨h1, h2, h3⟩
        have : number k = i := by omega
        rw [← this, key_number h1] at hk2
        exact hk2 rfl

theorem commitmentRoot_eq (h : Hashes) (p : Bool) (l : List F) (hl : l.length ≤ 2 ^ 64) :
    commitmentRoot (ops h p) l = .ok (specRoot (ops h p) 64 (listContent l)) := by
  have h0 : MRep (ops h p) nullStorage 64 (MTree.empty : MTree F) Content.empty [] := ⟨[], by simp [MTree.empty], rfl, rfl⟩
  have hws : ∀ i (l : List F), ∀ w ∈ leaves i l, w.1.length = 64 := by
    intro i l
    induction l generalizing i with
    | nil => simp [leaves]
    | cons x l ih =>
      intro w hw
      simp only [leaves, List.mem_cons] at hw
      rcases hw with rfl | hw
      · exact key_length i
      · exact ih _ w hw
  obtain ⟨t, et, ht, _⟩ := setMany_ok (o := ops h p) (by decide) (leaves 0 l) (hws 0 l) h0
  obtain ⟨u, eu, hu, _⟩ := commit_ok (by decide) (by decide) ht
  unfold commitmentRoot
  rw [et]
  simp only [Except.bind, eu, Except.map, hu]
  congr 2
  funext k
  rw [writes_leaves (ops h p) (ops_zero h p) l 0 _ (by omega) k]
  unfold listContent Content.empty
  by_cases hk : k.length = 64
  · simp only [hk, true_and, Nat.zero_le, Nat.zero_add, Nat.sub_zero, if_true]
    split
    · rfl
    · rw [List.getElem?_eq_none (by omega)]
      rfl
  · simp [hk]

/-- Whether a query is one of the tree of Poseidon hashes. -/
def Query.inTree : Query → Option Bool
  | .ped _ _ => some false
  | .two _ _ => some true
  | .edge p _ _ => some p
  | _ => none

theorem nodesQ_inTree (h : Hashes) (p : Bool) (n : Nat) (m : Content F) : ∀ q ∈ nodesQ h p n m, q.inTree = some p := by
  induction n generalizing m with
  | zero => simp [nodesQ]
  | succ n ih =>
    intro q hq
    rw [nodesQ, List.mem_append, List.mem_append] at hq
    rcases hq with (hq | hq) | hq
    · split at hq
      · cases p <;> simp at hq <;> subst hq <;> rfl
      · simp at hq; subst hq; rfl
      · simp at hq; subst hq; rfl
      · simp at hq
    · exact ih _ q hq
    · exact ih _ q hq

/-- The same for trees of any kind. -/
theorem root_inj_any (h : Hashes) (p p' : Bool) {n : Nat} {m m' : Content F} (e : specRoot (ops h p) (n + 1) m = specRoot (ops h p') (n + 1) m') :
    (∀ k : List Bool, k.length = n + 1 → m k = m' k) ∨ Broken h (nodesQ h p (n + 1) m) (nodesQ h p' (n + 1) m') := by
  by_cases hp : p = p'
  · subst hp
    exact root_inj h p e
  · unfold specRoot at e
    rcases e1 : specNode (ops h p) (n + 1) m with _ | x <;> rcases e2 : specNode (ops h p') (n + 1) m' with _ | y <;> simp only [e1, e2, ops_zero] at e
    · left
      intro k hk
      rw [specNode_none.1 e1 k hk, specNode_none.1 e2 k hk]
    · obtain ⟨q, hq, hv⟩ := root_query h p' e2
      exact .inr (.inr (.inr ⟨q, hq, hv.trans e.symm⟩))
    · obtain ⟨q, hq, hv⟩ := root_query h p e1
      exact .inr (.inr (.inl ⟨q, hq, hv.trans e⟩))
    · obtain ⟨q, hq, hv⟩ := root_query h p e1
      obtain ⟨q', hq', hv'⟩ := root_query h p' e2
      refine .inr (.inl ⟨q, hq, q', hq', ?_, hv.trans (e.trans hv'.symm)⟩)
      rintro rfl
      have h1 := nodesQ_inTree h p _ _ q hq
      rw [nodesQ_inTree h p' _ _ q hq'] at h1
      exact hp (Option.some.inj h1).symm

/-- Equal roots of lists without zeros: equal lists. -/
theorem list_inj (h : Hashes) (p p' : Bool) {l l' : List F} (hl : l.length < 2 ^ 64) (hl' : l'.length < 2 ^ 64)
    (hz : ∀ x ∈ l, x ≠ 0) (hz' : ∀ x ∈ l', x ≠ 0) (e : commitmentRoot (ops h p) l = commitmentRoot (ops h p') l') :
    l = l' ∨ Broken h (treeQ h p l) (treeQ h p' l') := by
  rw [commitmentRoot_eq h p l (by omega), commitmentRoot_eq h p' l' (by omega)] at e
  rcases root_inj_any h p p' (n := 63) (Except.ok.inj e) with h1 | h1
  · left
    refine List.ext_getElem? fun i => ?_
    by_cases hi : i < 2 ^ 64
    · have := h1 (key i) (key_length i)
      simp only [listContent, key_length, if_true, number_key hi] at this
      have nz : ∀ l : List F, (∀ x ∈ l, x ≠ 0) → (l[i]?).filter (· ≠ 0) = l[i]? := by
        intro l hz
        rcases hx : l[i]? with _ | x
        · rfl
        · simp [Option.filter, hz x (List.mem_of_getElem? hx)]
      rw [nz l hz, nz l' hz'] at this
      exact this
    · rw [List.getElem?_eq_none (by omega), List.getElem?_eq_none (by omega)]
  · exact .inr h1

end Verif.Block
