import Verif.Block.Lemmas
/-!
# Lemmas on the commitments of transactions, receipts and events
-/
namespace Verif.Block
open Verif.Trie
open Verif.Common (Version)

theorem treeOps_eq (h : Hashes) (v : Version) : treeOps h v = ops h (poseidonAt v) := by
  unfold treeOps ops poseidonAt
  cases before v v0132 <;> rfl

theorem posOps_eq (h : Hashes) : posOps h = ops h true := rfl

/-- Lists of hashed things with the same root. -/
theorem hashed_inj {A B : Type} (h : Hashes) (p p' : Bool) (f : A → F) (g : A → B) (qf : A → List Query)
    (hq : ∀ a, ∃ q ∈ qf a, q.eval h = f a) {l l' : List A} (hl : l.length < 2 ^ 64) (hl' : l'.length < 2 ^ 64)
    (hinj : ∀ a ∈ l, ∀ b ∈ l', f a = f b → g a = g b ∨ Broken h (qf a) (qf b))
    (e : commitmentRoot (ops h p) (l.map f) = commitmentRoot (ops h p') (l'.map f)) :
    l.map g = l'.map g ∨ Broken h (l.flatMap qf ++ treeQ h p (l.map f)) (l'.flatMap qf ++ treeQ h p' (l'.map f)) := by
  have zero : ∀ l : List A, (∀ x ∈ l.map f, x ≠ 0) ∨ HitsZero h (l.flatMap qf) := by
    intro l
    by_cases hz : ∀ x ∈ l.map f, x ≠ 0
    · exact .inl hz
    · right
      have : ∃ a ∈ l, f a = 0 := by
        apply Classical.byContradiction
        intro hn
        apply hz
        intro x hx
        obtain ⟨a, ha, rfl⟩ := List.mem_map.1 hx
        exact fun h0 => hn ⟨a, ha, h0⟩
      obtain ⟨a, ha, h0⟩ := this
      obtain ⟨q, hqa, hv⟩ := hq a
      exact ⟨q, List.mem_flatMap.2 ⟨a, ha, hqa⟩, hv.trans h0⟩
  have left : ∀ (p : Bool) (l : List A), ∀ x ∈ l.flatMap qf, x ∈ l.flatMap qf ++ treeQ h p (l.map f) := fun p l x hx => List.mem_append_left _ hx
  have right : ∀ (p : Bool) (l : List A), ∀ x ∈ treeQ h p (l.map f), x ∈ l.flatMap qf ++ treeQ h p (l.map f) := fun p l x hx => List.mem_append_right _ hx
  rcases zero l with hz | hz
  · rcases zero l' with hz' | hz'
    · rcases list_inj h p p' (by simpa using hl) (by simpa using hl') hz hz' e with h1 | h1
      · clear e hz hz' zero right
        have : ∀ (l l' : List A), l.length = l'.length → (∀ a ∈ l, ∀ b ∈ l', f a = f b → g a = g b ∨ Broken h (qf a) (qf b)) →
            l.map f = l'.map f → l.map g = l'.map g ∨ Broken h (l.flatMap qf) (l'.flatMap qf) := by
          clear hinj h1 hl hl' left
          intro l
          induction l with
          | nil =>
            intro l' hlen _ _
            obtain rfl := List.eq_nil_of_length_eq_zero hlen.symm
            exact .inl rfl
          | cons a l ih =>
            intro l' hlen hinj h1
            cases l' with
            | nil => simp at hlen
            | cons b l' =>
              simp only [List.map_cons, List.cons.injEq] at h1
              rcases hinj a List.mem_cons_self b List.mem_cons_self h1.1 with h2 | h2
              · rcases ih l' (by simpa using hlen) (fun a ha b hb => hinj a (List.mem_cons_of_mem _ ha) b (List.mem_cons_of_mem _ hb)) h1.2 with h3 | h3
                · left
                  rw [List.map_cons, List.map_cons, h2, h3]
                · exact .inr (h3.mono (by simp +contextual) (by simp +contextual))
              · exact .inr (h2.mono (by simp +contextual) (by simp +contextual))
        rcases this l l' (by simpa using congrArg List.length h1) hinj h1 with h2 | h2
        · exact .inl h2
        · exact .inr (h2.mono (left p l) (left p' l'))
      · exact .inr (h1.mono (right p l) (right p' l'))
    · exact .inr (.inr (.inr (hz'.mono (left p' l'))))
  · exact .inr (.inr (.inl (hz.mono (left p l))))

/-! ## Transactions -/

theorem txLeaf_eq (h : Hashes) (v : Version) (t : Tx) : txLeaf h v t =
    if before v v0132 then h.ped t.hash (chain h (hashedSignature v t)) else h.many (t.hash :: hashedSignature v t) := by
  have h12 : before v v0111 = true → before v v0132 = true := by
    unfold before
    obtain ⟨⟨⟨a⟩⟩, ⟨⟨b⟩⟩, ⟨⟨c⟩⟩, ⟨⟨d⟩⟩⟩ := v
    simp only [beq_iff_eq, Version.cmp, Ordering.then_eq_lt, Ordering.then_eq_eq, Nat.compare_eq_lt, Nat.compare_eq_eq, v0111, v0132]
    simp only [show UInt8.toNat 0 = 0 from rfl, show UInt8.toNat 11 = 11 from rfl, show UInt8.toNat 13 = 13 from rfl, show UInt8.toNat 1 = 1 from rfl, show UInt8.toNat 2 = 2 from rfl]
    omega
  unfold txLeaf hashedSignature
  by_cases h1 : before v v0111 = true
  · simp only [h1, h12 h1, if_true, txHashPre0111]
    rcases t with ⟨hash, _ | _ | _ | _ | _⟩ <;> rfl
  · by_cases h2 : before v v0132 = true
    · simp only [h1, h2, if_true, txHashPre0132]
      rcases t with ⟨hash, _ | _ | _ | _ | _⟩ <;> simp [Variant.signature]
    · by_cases h3 : before v v0134 = true
      · simp only [h1, h2, h3, txHashPre0134]
        by_cases h4 : t.variant.signature = [] <;> simp [h4]
      · simp [h1, h2, h3, txHashNew]

theorem tx_query (h : Hashes) (v : Version) (t : Tx) : ∃ q ∈ txQ h v t, q.eval h = txLeaf h v t := by
  rw [txLeaf_eq]
  unfold txQ
  by_cases h2 : before v v0132 = true
  · simp only [h2, if_true]
    exact ⟨_, List.mem_cons_self, rfl⟩
  · simp only [h2]
    exact ⟨_, List.mem_cons_self, rfl⟩

theorem tx_inj (h : Hashes) (v v' : Version) {t t' : Tx} (ht : (hashedSignature v t).length < 2 ^ 64) (ht' : (hashedSignature v' t').length < 2 ^ 64)
    (e : txLeaf h v t = txLeaf h v' t') :
    (t.hash, hashedSignature v t) = (t'.hash, hashedSignature v' t') ∨ Collide h (txQ h v t) (txQ h v' t') := by
  rw [txLeaf_eq, txLeaf_eq] at e
  unfold txQ
  by_cases h2 : before v v0132 = true <;> by_cases h2' : before v' v0132 = true
  · simp only [h2, h2', if_true] at e ⊢
    rcases query_eq (h := h) (a := .ped t.hash (chain h (hashedSignature v t))) (b := .ped t'.hash (chain h (hashedSignature v' t')))
      List.mem_cons_self List.mem_cons_self e with h3 | h3
    · simp only [Query.ped.injEq] at h3
      rcases chain_inj h ht ht' h3.2 with h4 | h4
      · exact .inl (by rw [h3.1, h4])
      · exact .inr (h4.mono (fun _ => List.mem_cons_of_mem _) (fun _ => List.mem_cons_of_mem _))
    · exact .inr h3
  · simp only [h2, h2', if_true] at e ⊢
    exact .inr ⟨_, List.mem_cons_self, _, List.mem_cons_self, by simp, e⟩
  · simp only [h2, h2', if_true] at e ⊢
    exact .inr ⟨_, List.mem_cons_self, _, List.mem_cons_self, by simp, e⟩
  · simp only [h2, h2'] at e ⊢
    rcases query_eq (h := h) (a := .many (t.hash :: hashedSignature v t)) (b := .many (t'.hash :: hashedSignature v' t'))
      List.mem_cons_self List.mem_cons_self e with h3 | h3
    · simp only [Query.many.injEq, List.cons.injEq] at h3
      exact .inl (by rw [h3.1, h3.2])
    · exact .inr h3

/-! ## Receipts -/

theorem messages_inj {ms ms' : List Msg} (hok : ∀ m ∈ ms, m.payload.length < 2 ^ 64) (hok' : ∀ m ∈ ms', m.payload.length < 2 ^ 64)
    (hlen : ms.length = ms'.length) (e : ms.flatMap Msg.values = ms'.flatMap Msg.values) : ms = ms' := by
  induction ms generalizing ms' with
  | nil => exact (List.eq_nil_of_length_eq_zero hlen.symm).symm
  | cons m ms ih =>
    cases ms' with
    | nil => simp at hlen
    | cons m' ms' =>
      simp only [List.flatMap_cons, Msg.values, List.cons_append, List.cons.injEq] at e
      obtain ⟨h1, h2, h3, h4⟩ := e
      have h5 := felt_inj64 (hok m List.mem_cons_self) (hok' m' List.mem_cons_self) h3
      obtain ⟨h6, h7⟩ := List.append_inj h4 h5
      have := ih (fun x hx => hok x (List.mem_cons_of_mem _ hx)) (fun x hx => hok' x (List.mem_cons_of_mem _ hx)) (by simpa using hlen) h7
      obtain ⟨a, b, c⟩ := m
      obtain ⟨a', b', c'⟩ := m'
      simp only at h1 h2 h6
      rw [h1, h2, h6, this]

theorem receipt_inj (h : Hashes) {r r' : Receipt} (hr : r.Ok) (hr' : r'.Ok) (e : receiptHash h r = receiptHash h r') :
    r.covered = r'.covered ∨ Collide h (receiptQ h r) (receiptQ h r') ∨ HitsZero h (receiptQ h r) ∨ HitsZero h (receiptQ h r') := by
  have m1 : ∀ r : Receipt, Query.many [r.txHash, r.fee, messagesHash h r.messages, statusHash h r.reverted, 0,
      felt r.l1Gas, felt r.l1DataGas] ∈ receiptQ h r := by intro r; simp [receiptQ]
  have m2 : ∀ r : Receipt, Query.many (felt r.messages.length :: r.messages.flatMap Msg.values) ∈ receiptQ h r := by intro r; simp [receiptQ]
  rcases query_eq (m1 r) (m1 r') e with h1 | h1
  · simp only [Query.many.injEq, List.cons.injEq, and_true] at h1
    obtain ⟨e1, e2, e3, e4, _, e5, e6⟩ := h1
    rcases query_eq (m2 r) (m2 r') e3 with h2 | h2
    · simp only [Query.many.injEq, List.cons.injEq] at h2
      have e7 := messages_inj hr.payloads hr'.payloads (felt_inj64 hr.messages hr'.messages h2.1) h2.2
      have e8 := felt_inj128 hr.l1Gas hr'.l1Gas e5
      have e9 := felt_inj128 hr.l1DataGas hr'.l1DataGas e6
      have : r.reverted = r'.reverted ∨ Collide h (receiptQ h r) (receiptQ h r') ∨ HitsZero h (receiptQ h r) ∨ HitsZero h (receiptQ h r') := by
        rcases hs : r.reverted with _ | s <;> rcases hs' : r'.reverted with _ | s' <;> simp only [hs, hs', statusHash] at e4
        · exact .inl rfl
        · refine .inr (.inr (.inr ⟨.reason s', by simp [receiptQ, hs'], e4.symm⟩))
        · refine .inr (.inr (.inl ⟨.reason s, by simp [receiptQ, hs], e4⟩))
        · rcases query_eq (h := h) (a := .reason s) (b := .reason s') (q := receiptQ h r) (q' := receiptQ h r') (by simp [receiptQ, hs]) (by simp [receiptQ, hs']) e4 with h3 | h3
          · simp only [Query.reason.injEq] at h3
            exact .inl (by rw [h3])
          · exact .inr (.inl h3)
      rcases this with h3 | h3
      · left
        unfold Receipt.covered
        rw [e1, e2, e7, h3, e8, e9]
      · exact .inr h3
    · exact .inr (.inl h2)
  · exact .inr (.inl h1)

/-! ## Events -/

theorem event_query (h : Hashes) (v : Version) (p : F × Event) : ∃ q ∈ eventQ h v p, q.eval h = eventLeaf h v p := by
  unfold eventQ eventLeaf
  by_cases h2 : before v v0132 = true
  · simp only [h2, if_true]
    refine ⟨_, List.mem_append_left _ (List.mem_append_left _ (List.mem_append_right _ (List.mem_singleton.2 rfl))), rfl⟩
  · simp only [h2]
    exact ⟨_, List.mem_singleton.2 rfl, rfl⟩

theorem event_inj (h : Hashes) (v v' : Version) {p p' : F × Event} (hp : p.2.Ok) (hp' : p'.2.Ok) (e : eventLeaf h v p = eventLeaf h v' p') :
    eventCovered v p = eventCovered v' p' ∨ Collide h (eventQ h v p) (eventQ h v' p') := by
  obtain ⟨t, ⟨a, k, d⟩⟩ := p
  obtain ⟨t', ⟨a', k', d'⟩⟩ := p'
  obtain ⟨hk, hd⟩ := hp
  obtain ⟨hk', hd'⟩ := hp'
  unfold eventLeaf at e
  unfold eventQ eventCovered
  by_cases h2 : before v v0132 = true <;> by_cases h2' : before v' v0132 = true
  · simp only [h2, h2', if_true] at e ⊢
    rcases chain_inj h (by simp) (by simp) e with h3 | h3
    · simp only [List.cons.injEq, and_true] at h3
      rcases chain_inj h hk hk' h3.2.1 with h4 | h4
      · rcases chain_inj h hd hd' h3.2.2 with h5 | h5
        · left
          simp only at h4 h5
          rw [h3.1, h4, h5]
        · exact .inr (h5.mono (fun _ => List.mem_append_right _) (fun _ => List.mem_append_right _))
      · exact .inr (h4.mono (fun _ hx => List.mem_append_left _ (List.mem_append_right _ hx)) (fun _ hx => List.mem_append_left _ (List.mem_append_right _ hx)))
    · exact .inr (h3.mono (fun _ hx => List.mem_append_left _ (List.mem_append_left _ hx)) (fun _ hx => List.mem_append_left _ (List.mem_append_left _ hx)))
  · simp only [h2, h2', if_true] at e ⊢
    exact .inr ⟨_, List.mem_append_left _ (List.mem_append_left _ (List.mem_append_right _ (List.mem_singleton.2 rfl))), _, List.mem_singleton.2 rfl, by simp, e⟩
  · simp only [h2, h2', if_true] at e ⊢
    exact .inr ⟨_, List.mem_singleton.2 rfl, _, List.mem_append_left _ (List.mem_append_left _ (List.mem_append_right _ (List.mem_singleton.2 rfl))), by simp, e⟩
  · simp only [h2, h2'] at e ⊢
    rcases query_eq (h := h) (List.mem_singleton.2 rfl) (List.mem_singleton.2 rfl)
      (a := .many (a :: t :: felt k.length :: (k ++ felt d.length :: d))) (b := .many (a' :: t' :: felt k'.length :: (k' ++ felt d'.length :: d'))) e with h3 | h3
    · left
      simp only [Query.many.injEq, List.cons.injEq] at h3
      obtain ⟨e1, e2, e3, e4⟩ := h3
      obtain ⟨e5, e6⟩ := List.append_inj e4 (felt_inj64 hk hk' e3)
      simp only [List.cons.injEq] at e6
      rw [e1, e2, e5, e6.2]
    · exact .inr h3

end Verif.Block
