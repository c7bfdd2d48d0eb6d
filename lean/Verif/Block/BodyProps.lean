import Verif.Block.HeaderProps
/-!
# A commitment stands for one list, a hash for one block (C66, C67)
-/
namespace Verif.Block
open Verif.Common (Version)
open Verif.Trie (specRoot)

/-- C66. A commitment is the root of the Merkle-Patricia tree of height 64 with the hashes at their positions, without those that are zero. -/
theorem C66_root (h : Hashes) (v : Version) (l : List F) (hl : l.length ≤ 2 ^ 64) :
    commitmentRoot (treeOps h v) l = .ok (specRoot (treeOps h v) 64 (listContent l)) := by
  rw [treeOps_eq]
  exact commitmentRoot_eq h _ l hl

/-- C66. Transactions with the same commitment are the same: their hashes, and the signatures as they were hashed in their version. -/
theorem C66_transactions (h : Hashes) {v v' : Version} {ts ts' : List Tx} (hl : ts.length < 2 ^ 64) (hl' : ts'.length < 2 ^ 64)
    (hs : ∀ t ∈ ts, (hashedSignature v t).length < 2 ^ 64) (hs' : ∀ t ∈ ts', (hashedSignature v' t).length < 2 ^ 64)
    (e : transactionCommitment h ts v = transactionCommitment h ts' v') :
    (ts.map fun t => (t.hash, hashedSignature v t)) = (ts'.map fun t => (t.hash, hashedSignature v' t)) ∨
    Broken h (transactionsQ h v ts) (transactionsQ h v' ts') := by
  unfold transactionCommitment at e
  rw [treeOps_eq, treeOps_eq] at e
  have m : ∀ (v : Version) (ts : List Tx), ts.map (txLeaf h v) = (ts.map (Prod.mk v)).map fun p : Version × Tx => txLeaf h p.1 p.2 := by
    intro v ts; rw [List.map_map]; rfl
  have q : ∀ (v : Version) (ts : List Tx), ts.flatMap (txQ h v) = (ts.map (Prod.mk v)).flatMap fun p : Version × Tx => txQ h p.1 p.2 := by
    intro v ts; rw [List.flatMap_map]
  have r : ∀ (v : Version) (ts : List Tx), (ts.map fun t => (t.hash, hashedSignature v t)) =
      (ts.map (Prod.mk v)).map fun p : Version × Tx => (p.2.hash, hashedSignature p.1 p.2) := by
    intro v ts; rw [List.map_map]; rfl
  unfold transactionsQ
  rw [m, m] at e ⊢
  rw [q, q, r, r]
  refine hashed_inj h _ _ (fun p : Version × Tx => txLeaf h p.1 p.2) _ (fun p => txQ h p.1 p.2) (fun p => tx_query h p.1 p.2)
    (by simpa using hl) (by simpa using hl') ?_ e
  intro a ha b hb hab
  obtain ⟨t, ht, rfl⟩ := List.mem_map.1 ha
  obtain ⟨t', ht', rfl⟩ := List.mem_map.1 hb
  exact (tx_inj h v v' (hs t ht) (hs' t' ht') hab).imp_right .inl

/-- C66. Since 0.13.4 this is the signature; since 0.11.1 it is, but for the empty one that stood for a zero in 0.13.2 and 0.13.3. -/
theorem C66_signature (v : Version) (t : Tx) (hv : before v v0111 = false) :
    (before v v0134 = false → hashedSignature v t = t.variant.signature) ∧
    (hashedSignature v t = t.variant.signature ∨ hashedSignature v t = [0] ∧ t.variant.signature = []) := by
  unfold hashedSignature
  simp only [hv]
  constructor
  · intro h
    simp [h]
  · by_cases hc : (!before v v0132 && before v v0134 && decide (t.variant.signature = [])) = true
    · right
      rw [if_pos hc]
      simp only [Bool.and_eq_true, decide_eq_true_eq] at hc
      exact ⟨rfl, hc.2⟩
    · left
      rw [if_neg hc]
      rfl

/-- C66. Events with the same commitment are the same, in order, and since 0.13.2 they are of the same transactions. -/
theorem C66_events (h : Hashes) {v v' : Version} {es es' : List (F × List Event)} (hl : (flatEvents es).length < 2 ^ 64)
    (hl' : (flatEvents es').length < 2 ^ 64) (ho : ∀ p ∈ es, ∀ e ∈ p.2, e.Ok) (ho' : ∀ p ∈ es', ∀ e ∈ p.2, e.Ok)
    (e : eventCommitment h es v = eventCommitment h es' v') :
    (flatEvents es).map (eventCovered v) = (flatEvents es').map (eventCovered v') ∨ Broken h (eventsQ h v es) (eventsQ h v' es') := by
  have ok : ∀ es : List (F × List Event), (∀ p ∈ es, ∀ e ∈ p.2, e.Ok) → ∀ p ∈ flatEvents es, p.2.Ok := by
    intro es ho p hp
    obtain ⟨q, hq, hp⟩ := List.mem_flatMap.1 hp
    obtain ⟨e, he, rfl⟩ := List.mem_map.1 hp
    exact ho q hq e he
  have ok1 := ok es ho
  have ok2 := ok es' ho'
  unfold eventCommitment at e
  unfold eventsQ
  rw [treeOps_eq, treeOps_eq] at e
  generalize flatEvents es = l at *
  generalize flatEvents es' = l' at *
  have m : ∀ (v : Version) (ts : List (F × Event)), ts.map (eventLeaf h v) = (ts.map (Prod.mk v)).map fun p : Version × F × Event => eventLeaf h p.1 p.2 := by
    intro v ts; rw [List.map_map]; rfl
  have q : ∀ (v : Version) (ts : List (F × Event)), ts.flatMap (eventQ h v) = (ts.map (Prod.mk v)).flatMap fun p : Version × F × Event => eventQ h p.1 p.2 := by
    intro v ts; rw [List.flatMap_map]
  have r : ∀ (v : Version) (ts : List (F × Event)), ts.map (eventCovered v) = (ts.map (Prod.mk v)).map fun p : Version × F × Event => eventCovered p.1 p.2 := by
    intro v ts; rw [List.map_map]; rfl
  rw [m, m] at e ⊢
  rw [q, q, r, r]
  refine hashed_inj h _ _ (fun p : Version × F × Event => eventLeaf h p.1 p.2) _ (fun p => eventQ h p.1 p.2) (fun p => event_query h p.1 p.2)
    (by simpa using hl) (by simpa using hl') ?_ e
  intro a ha b hb hab
  obtain ⟨t, ht, rfl⟩ := List.mem_map.1 ha
  obtain ⟨t', ht', rfl⟩ := List.mem_map.1 hb
  exact (event_inj h v v' (ok1 t ht) (ok2 t' ht') hab).imp_right .inl

/-- C66. With the transactions known and different, the events of each are known. -/
theorem C66_events_grouped {es es' : List (F × List Event)} (hd : (es.map (·.1)).Nodup) (hk : es.map (·.1) = es'.map (·.1))
    (e : flatEvents es = flatEvents es') : es = es' := by
  have mem : ∀ (es : List (F × List Event)) (p : F × Event), p ∈ flatEvents es → p.1 ∈ es.map (·.1) := by
    intro es p hp
    obtain ⟨q, hq, hp⟩ := List.mem_flatMap.1 hp
    obtain ⟨x, hx, rfl⟩ := List.mem_map.1 hp
    exact List.mem_map.2 ⟨q, hq, rfl⟩
  induction es generalizing es' with
  | nil => exact (List.map_eq_nil_iff.1 hk.symm).symm
  | cons a es ih =>
    cases es' with
    | nil => simp at hk
    | cons b es' =>
      simp only [List.map_cons, List.cons.injEq, List.nodup_cons] at hk hd
      have s1 : ∀ (a : F × List Event) (es : List (F × List Event)), a.1 ∉ es.map (·.1) →
          (flatEvents (a :: es)).filter (fun p => p.1 == a.1) = a.2.map (Prod.mk a.1) ∧
          (flatEvents (a :: es)).filter (fun p => !(p.1 == a.1)) = flatEvents es := by
        intro a es ha
        have hcons : flatEvents (a :: es) = a.2.map (Prod.mk a.1) ++ flatEvents es := List.flatMap_cons
        rw [hcons, List.filter_append, List.filter_append]
        have f1 : (a.2.map (Prod.mk a.1)).filter (fun p => p.1 == a.1) = a.2.map (Prod.mk a.1) := by
          rw [List.filter_eq_self]
          intro p hp
          obtain ⟨x, _, rfl⟩ := List.mem_map.1 hp
          simp
        have f2 : (a.2.map (Prod.mk a.1)).filter (fun p => !(p.1 == a.1)) = [] := by
          rw [List.filter_eq_nil_iff]
          intro p hp
          obtain ⟨x, _, rfl⟩ := List.mem_map.1 hp
          simp
        have ne : ∀ p ∈ flatEvents es, p.1 ≠ a.1 := fun p hp h => ha (h ▸ mem es p hp)
        have f3 : (flatEvents es).filter (fun p => p.1 == a.1) = [] := by
          rw [List.filter_eq_nil_iff]
          intro p hp
          simpa using ne p hp
        have f4 : (flatEvents es).filter (fun p => !(p.1 == a.1)) = flatEvents es := by
          rw [List.filter_eq_self]
          intro p hp
          simpa using ne p hp
        rw [f1, f2, f3, f4]
        simp
      have hb : b.1 ∉ es'.map (·.1) := by rw [← hk.1, ← hk.2]; exact hd.1
      obtain ⟨x1, x2⟩ := s1 a es hd.1
      obtain ⟨y1, y2⟩ := s1 b es' hb
      rw [e, hk.1] at x1 x2
      rw [y1] at x1
      rw [y2] at x2
      have h1 : a = b := by
        refine Prod.ext hk.1 ?_
        have := congrArg (List.map Prod.snd) x1
        simpa [List.map_map, Function.comp_def] using this.symm
      rw [h1, ih hd.2 hk.2 x2.symm]

/-- C66. Receipts with the same commitment are the same in what is hashed: the transaction, the fee, the messages, the status and the L1 gas. -/
theorem C66_receipts (h : Hashes) {rs rs' : List Receipt} (hl : rs.length < 2 ^ 64) (hl' : rs'.length < 2 ^ 64) (ho : ∀ r ∈ rs, r.Ok)
    (ho' : ∀ r ∈ rs', r.Ok) (e : receiptCommitment h rs = receiptCommitment h rs') :
    rs.map Receipt.covered = rs'.map Receipt.covered ∨ Broken h (receiptsQ h rs) (receiptsQ h rs') := by
  unfold receiptCommitment at e
  rw [posOps_eq] at e
  refine hashed_inj h true true (receiptHash h) _ (receiptQ h) (fun r => ⟨_, List.mem_cons_self, rfl⟩) hl hl' ?_ e
  intro a ha b hb hab
  exact receipt_inj h (ho a ha) (ho' b hb) hab

/-- C66. The rest is not covered: receipts that differ in the L2 gas, the index or the execution resources have the same commitment. -/
theorem C66_receipts_violated (h : Hashes) (rs : List Receipt) (f g : Receipt → Nat) :
    receiptCommitment h (rs.map fun r => { r with l2Gas := f r, rest := g r }) = receiptCommitment h rs := by
  unfold receiptCommitment
  rw [List.map_map]
  rfl

/-! ## Gateway blocks -/

/-- What is checked of a gateway block. -/
theorem verifyGw_iff (h : Hashes) (b : GwBlock) (sdc : F) (sdl : Nat) (c : Chain) (chainId : F) (r : F × F × F) :
    verifyGw h b sdc sdl c chainId = .ok (some r) ↔
      ∃ tc ec rc, transactionCommitment h b.transactions b.version = .ok tc ∧ eventCommitment h b.events b.version = .ok ec ∧
        receiptCommitment h (b.receipts.map (·.1)) = .ok rc ∧ b.transactionCommitment ∈ [0, tc] ∧ b.eventCommitment ∈ [0, ec] ∧
        b.receiptCommitment ∈ [none, some rc] ∧ verifyBlockHash h (gwHeader b sdc sdl tc ec rc) c chainId = some true ∧
        transactionCommitment h b.transactions (if before b.version v0132 then v0132 else b.version) = .ok r.1 ∧
        eventCommitment h b.events (if before b.version v0132 then v0132 else b.version) = .ok r.2.1 ∧ r.2.2 = rc := by
  have set : ∀ (g : Option F) (x y : F), settle g x = some y ↔ y = x ∧ g ∈ [none, some x] := by
    intro g x y
    rcases g with _ | g
    · simp [settle, eq_comm]
    · simp only [settle]
      constructor
      · intro h1
        split at h1
        · rename_i h2
          cases h1
          simp [h2]
        · cases h1
      · rintro ⟨rfl, h2⟩
        simp at h2
        simp [h2]
  have nz : ∀ (g x : F), nonzero g ∈ [none, some x] ↔ g ∈ [0, x] := by
    intro g x
    unfold nonzero
    by_cases hg : g = 0
    · simp [hg]
    · simp [hg]
  constructor
  · intro hv
    unfold verifyGw at hv
    rcases h1 : transactionCommitment h b.transactions b.version with _ | tc
    · simp [h1] at hv
    rcases h2 : receiptCommitment h (b.receipts.map (·.1)) with _ | rc
    · simp [h1, h2] at hv
    rcases h3 : eventCommitment h b.events b.version with _ | ec
    · simp [h1, h2, h3] at hv
    simp only [h1, h2, h3] at hv
    rcases g1 : settle (nonzero b.transactionCommitment) tc with _ | tc'
    · simp [g1] at hv
    rcases g2 : settle b.receiptCommitment rc with _ | rc'
    · simp [g1, g2] at hv
    rcases g3 : settle (nonzero b.eventCommitment) ec with _ | ec'
    · simp [g1, g2, g3] at hv
    simp only [g1, g2, g3] at hv
    obtain ⟨rfl, k1⟩ := (set _ _ _).1 g1
    obtain ⟨rfl, k2⟩ := (set _ _ _).1 g2
    obtain ⟨rfl, k3⟩ := (set _ _ _).1 g3
    refine ⟨tc', ec', rc', rfl, rfl, h2, (nz _ _).1 k1, (nz _ _).1 k3, k2, ?_⟩
    unfold gwHeader
    rcases hh : verifyBlockHash h { headerOf b sdc sdl with transactionCommitment := tc', receiptCommitment := rc', eventCommitment := ec' }
        c chainId with _ | _ | _
    · simp [hh] at hv
    · simp [hh] at hv
    · simp only [hh] at hv
      refine ⟨rfl, ?_⟩
      by_cases hb : before b.version v0132 = true
      · simp only [hb, if_true] at hv ⊢
        rcases t1 : transactionCommitment h b.transactions v0132 with _ | t
        · simp [t1] at hv
        rcases t2 : eventCommitment h b.events v0132 with _ | t'
        · simp [t1, t2] at hv
        simp only [t1, t2] at hv
        cases hv
        exact ⟨rfl, rfl, rfl⟩
      · simp only [hb] at hv ⊢
        cases hv
        exact ⟨h1, h3, rfl⟩
  · rintro ⟨tc, ec, rc, h1, h3, h2, k1, k3, k2, hh, t1, t2, rfl⟩
    unfold verifyGw
    unfold gwHeader at hh
    simp only [h1, h2, h3, (set _ _ _).2 ⟨rfl, (nz _ _).2 k1⟩, (set _ _ _).2 ⟨rfl, k2⟩, (set _ _ _).2 ⟨rfl, (nz _ _).2 k3⟩, hh]
    by_cases hb : before b.version v0132 = true
    · simp only [hb, if_true] at t1 t2 ⊢
      simp only [t1, t2]
    · simp only [hb] at t1 t2 ⊢
      rw [if_neg (by simp)] at t1 t2
      rw [h1] at t1
      rw [h3] at t2
      cases t1; cases t2
      rfl

/-- C67. Two blocks accepted for the same hash have the same contents, as far as they are hashed, or the hash functions fail on them. -/
theorem C67_agree (h : Hashes) (c : Chain) (chainId : F) {b b' : GwBlock} {sdc sdc' : F} {sdl sdl' : Nat} {r r' : F × F × F}
    (hb : b.Ok sdl) (hb' : b'.Ok sdl') (v : verifyGw h b sdc sdl c chainId = .ok (some r)) (v' : verifyGw h b' sdc' sdl' c chainId = .ok (some r'))
    (e : b.hash = b'.hash) :
    SameBlock c b b' sdc sdc' sdl sdl' ∨ ∃ tc ec rc tc' ec' rc',
      transactionCommitment h b.transactions b.version = .ok tc ∧ eventCommitment h b.events b.version = .ok ec ∧
      receiptCommitment h (b.receipts.map (·.1)) = .ok rc ∧
      transactionCommitment h b'.transactions b'.version = .ok tc' ∧ eventCommitment h b'.events b'.version = .ok ec' ∧
      receiptCommitment h (b'.receipts.map (·.1)) = .ok rc' ∧
      Broken h (headerQ h c chainId (gwHeader b sdc sdl tc ec rc) ++ bodyQ h b) (headerQ h c chainId (gwHeader b' sdc' sdl' tc' ec' rc') ++ bodyQ h b') := by
  obtain ⟨tc, ec, rc, h1, h2, h3, -, -, -, hh, -⟩ := (verifyGw_iff h b sdc sdl c chainId r).1 v
  obtain ⟨tc', ec', rc', h1', h2', h3', -, -, -, hh', -⟩ := (verifyGw_iff h b' sdc' sdl' c chainId r').1 v'
  have evlen : ∀ b : GwBlock, (flatEvents b.events).length = (b.receipts.flatMap (·.2)).length := by
    intro b
    unfold flatEvents GwBlock.events
    rw [List.flatMap_map, List.length_flatMap, List.length_flatMap]
    simp
  have evok : ∀ (b : GwBlock) (n : Nat), b.Ok n → ∀ p ∈ b.events, ∀ e ∈ p.2, e.Ok := by
    intro b n hb p hp
    obtain ⟨q, hq, rfl⟩ := List.mem_map.1 hp
    exact hb.events q hq
  have evsmall : ∀ (b : GwBlock) (n : Nat), b.Ok n → (flatEvents b.events).length < 2 ^ 64 := by
    intro b n hb
    rw [evlen]
    exact hb.header.eventCount
  have rok : ∀ (b : GwBlock) (n : Nat), b.Ok n → ∀ r ∈ b.receipts.map (·.1), r.Ok := by
    intro b n hb r hr
    obtain ⟨q, hq, rfl⟩ := List.mem_map.1 hr
    exact hb.receipts q hq
  have hok : ∀ (b : GwBlock) (sdc : F) (n : Nat) (tc ec rc : F), b.Ok n → (gwHeader b sdc n tc ec rc).Ok := by
    intro b sdc n tc ec rc hb
    exact ⟨hb.header.number, hb.header.timestamp, hb.header.ethL1Gas, hb.header.strkL1Gas, hb.header.ethL1DataGas, hb.header.strkL1DataGas,
      hb.header.ethL2Gas, hb.header.strkL2Gas, hb.header.transactionCount, hb.header.eventCount, hb.header.stateDiffLength⟩
  have break_ : ∀ {q q' : List Query}, Broken h q q' → (∀ x ∈ q, x ∈ headerQ h c chainId (gwHeader b sdc sdl tc ec rc) ++ bodyQ h b) →
      (∀ x ∈ q', x ∈ headerQ h c chainId (gwHeader b' sdc' sdl' tc' ec' rc') ++ bodyQ h b') →
      ∃ tc ec rc tc' ec' rc',
      transactionCommitment h b.transactions b.version = .ok tc ∧ eventCommitment h b.events b.version = .ok ec ∧
      receiptCommitment h (b.receipts.map (·.1)) = .ok rc ∧
      transactionCommitment h b'.transactions b'.version = .ok tc' ∧ eventCommitment h b'.events b'.version = .ok ec' ∧
      receiptCommitment h (b'.receipts.map (·.1)) = .ok rc' ∧
      Broken h (headerQ h c chainId (gwHeader b sdc sdl tc ec rc) ++ bodyQ h b) (headerQ h c chainId (gwHeader b' sdc' sdl' tc' ec' rc') ++ bodyQ h b') :=
    fun hx m m' => ⟨tc, ec, rc, tc', ec', rc', h1, h2, h3, h1', h2', h3', hx.mono m m'⟩
  rcases C65_header h c chainId (hok b sdc sdl tc ec rc hb) (hok b' sdc' sdl' tc' ec' rc' hb') hh hh' e with same | bad
  rotate_left
  · exact .inr (break_ (.inl bad) (fun x hx => List.mem_append_left _ hx) (fun x hx => List.mem_append_left _ hx))
  obtain ⟨s1, s2, s3, s4, s5, s6, s7, s8, s9, s10⟩ := same
  have e6 : tc = tc' := s6
  rcases C66_transactions h hb.transactions hb'.transactions hb.signatures hb'.signatures (h1.trans (e6 ▸ h1'.symm)) with tx | bad
  rotate_left
  · exact .inr (break_ bad (fun x hx => by simp only [bodyQ, List.mem_append]; exact .inr (.inl (.inl hx)))
      (fun x hx => by simp only [bodyQ, List.mem_append]; exact .inr (.inl (.inl hx))))
  have ev : eraOf c b.number b.version ≠ .pre07 → ((flatEvents b.events).map (eventCovered b.version) = (flatEvents b'.events).map (eventCovered b'.version)) ∨
      Broken h (eventsQ h b.version b.events) (eventsQ h b'.version b'.events) := by
    intro hne
    obtain ⟨-, -, t3⟩ := s7 hne
    have e7 : ec = ec' := t3
    exact C66_events h (evsmall b _ hb) (evsmall b' _ hb') (evok b _ hb) (evok b' _ hb') (h2.trans (e7 ▸ h2'.symm))
  have rec' : eraOf c b.number b.version = .v0 ∨ eraOf c b.number b.version = .v1 →
      ((b.receipts.map (·.1)).map Receipt.covered = (b'.receipts.map (·.1)).map Receipt.covered) ∨
      Broken h (receiptsQ h (b.receipts.map (·.1))) (receiptsQ h (b'.receipts.map (·.1))) := by
    intro he
    obtain ⟨-, -, -, -, t5, -⟩ := s9 he
    have e7 : rc = rc' := t5
    exact C66_receipts h (by simpa using hb.receiptCount) (by simpa using hb'.receiptCount) (rok b _ hb) (rok b' _ hb') (h3.trans (e7 ▸ h3'.symm))
  by_cases bad1 : Broken h (eventsQ h b.version b.events) (eventsQ h b'.version b'.events)
  · exact .inr (break_ bad1 (fun x hx => by simp only [bodyQ, List.mem_append]; exact .inr (.inl (.inr hx)))
      (fun x hx => by simp only [bodyQ, List.mem_append]; exact .inr (.inl (.inr hx))))
  by_cases bad2 : Broken h (receiptsQ h (b.receipts.map (·.1))) (receiptsQ h (b'.receipts.map (·.1)))
  · exact .inr (break_ bad2 (fun x hx => by simp only [bodyQ, List.mem_append]; exact .inr (.inr hx))
      (fun x hx => by simp only [bodyQ, List.mem_append]; exact .inr (.inr hx)))
  left
  refine { number := s2, parent := s3, stateCommitment := s4, transactions := tx, since07 := ?_, since0132 := ?_, since0134 := ?_ }
  · intro hne
    exact ⟨(s7 hne).1, (ev hne).resolve_right bad1⟩
  · intro he
    have hne : eraOf c b.number b.version ≠ .pre07 := by rcases he with he | he <;> simp [he]
    have hne2 : eraOf c b.number b.version ≠ .pre0132 := by rcases he with he | he <;> simp [he]
    obtain ⟨t1, t2, t3, t4, t5, t6, t7, t8, t9⟩ := s9 he
    have t1 : b.version = b'.version := t1
    have hcov := (rec' he).resolve_right bad2
    rw [List.map_map, List.map_map] at hcov
    refine ⟨t1, t4, t3, t2, Prod.ext t6 t7, Prod.ext t8 t9, s8 hne (fun h => absurd h hne2), hcov, fun hd => ?_⟩
    have hev := (ev hne).resolve_right bad1
    have nb : before b.version v0132 = false := by
      unfold eraOf at he
      by_cases hx : before b.version v0132 = true
      · simp only [hx, if_true] at he
        split at he <;> simp at he
      · simpa using hx
    have strip : ∀ l : List (F × Event), l.map (eventCovered b.version) = l.map fun p => (some p.1, p.2) := by
      intro l
      simp [eventCovered, nb]
    rw [← t1, strip, strip] at hev
    have hev : flatEvents b.events = flatEvents b'.events := by
      have := congrArg (List.map fun p : Option F × Event => (p.1.getD 0, p.2)) hev
      simpa [List.map_map, Function.comp_def] using this
    have keys : ∀ b : GwBlock, b.events.map (·.1) = b.receipts.map (·.1.txHash) := by
      intro b
      simp [GwBlock.events, List.map_map, Function.comp_def]
    have hkeys : b.receipts.map (·.1.txHash) = b'.receipts.map (·.1.txHash) := by
      have := congrArg (List.map fun p : F × F × List Msg × Option (List UInt8) × Nat × Nat => p.1) hcov
      simpa [List.map_map, Function.comp_def, Receipt.covered] using this
    have hg := C66_events_grouped (es := b.events) (es' := b'.events) (by rw [keys]; exact hd) (by rw [keys, keys, hkeys]) hev
    have hsnd : b.receipts.map (·.2) = b'.receipts.map (·.2) := by
      have := congrArg (List.map Prod.snd) hg
      simpa [GwBlock.events, List.map_map, Function.comp_def] using this
    have zip : ∀ l : List (Receipt × List Event), (l.map fun p => (p.1.covered, p.2)) = (l.map (·.1.covered)).zip (l.map (·.2)) := by
      intro l
      induction l with
      | nil => rfl
      | cons a l ih => simp [ih]
    rw [zip, zip, hsnd]
    congr 1
  · intro he
    obtain ⟨t1, t2⟩ := s10 he
    exact Prod.ext t1 t2

/-- C67. The commitments that are kept are those of the contents, by the rules of version 0.13.2 for older blocks. -/
theorem C67_commitments (h : Hashes) (b : GwBlock) (sdc : F) (sdl : Nat) (c : Chain) (chainId : F) {tc ec rc : F}
    (v : verifyGw h b sdc sdl c chainId = .ok (some (tc, ec, rc))) :
    transactionCommitment h b.transactions (if before b.version v0132 then v0132 else b.version) = .ok tc ∧
    eventCommitment h b.events (if before b.version v0132 then v0132 else b.version) = .ok ec ∧
    receiptCommitment h (b.receipts.map (·.1)) = .ok rc := by
  obtain ⟨_, _, rc', _, _, h3, -, -, -, -, h4, h5, h6⟩ := (verifyGw_iff h b sdc sdl c chainId _).1 v
  exact ⟨h4, h5, by rw [h3]; exact congrArg _ h6.symm⟩

/-- C67. A genuine block is accepted: commitments missing or right, and the hash of its header. -/
theorem C67_accepts (h : Hashes) (b : GwBlock) (sdc : F) (sdl : Nat) (c : Chain) (chainId : F) (hb : b.Ok sdl) {tc ec rc : F}
    (h1 : transactionCommitment h b.transactions b.version = .ok tc) (h2 : eventCommitment h b.events b.version = .ok ec)
    (h3 : receiptCommitment h (b.receipts.map (·.1)) = .ok rc) (k1 : b.transactionCommitment ∈ [0, tc]) (k2 : b.eventCommitment ∈ [0, ec])
    (k3 : b.receiptCommitment ∈ [none, some rc])
    (hh : b.hash = eraHash h (eraOf c b.number b.version) (headerValues h (gwHeader b sdc sdl tc ec rc) chainId (eraOf c b.number b.version))) :
    ∃ r, verifyGw h b sdc sdl c chainId = .ok (some r) := by
  have evlen : (flatEvents b.events).length < 2 ^ 64 := by
    have : (flatEvents b.events).length = (b.receipts.flatMap (·.2)).length := by
      unfold flatEvents GwBlock.events
      rw [List.flatMap_map, List.length_flatMap, List.length_flatMap]
      simp
    rw [this]
    exact hb.header.eventCount
  obtain ⟨t, ht⟩ : ∃ t, transactionCommitment h b.transactions (if before b.version v0132 then v0132 else b.version) = .ok t :=
    ⟨_, C66_root h _ _ (by have := hb.transactions; rw [List.length_map]; omega)⟩
  obtain ⟨t', ht'⟩ : ∃ t, eventCommitment h b.events (if before b.version v0132 then v0132 else b.version) = .ok t :=
    ⟨_, C66_root h _ _ (by rw [List.length_map]; omega)⟩
  refine ⟨(t, t', rc), (verifyGw_iff h b sdc sdl c chainId _).2 ⟨tc, ec, rc, h1, h2, h3, k1, k2, k3, ?_, ht, ht', rfl⟩⟩
  rw [verify_iff]
  exact ⟨_, .inl rfl, hh⟩

/-- C67. Before 0.13.2 nothing binds the receipts: with any other fees, messages, statuses and resources the block is accepted for the same
hash, when it comes without a receipt commitment. -/
theorem C67_receipts_violated (h : Hashes) (b : GwBlock) (sdc : F) (sdl : Nat) (c : Chain) (chainId : F) (f : Receipt → Receipt) (hb : b.Ok sdl)
    (hf : ∀ r, (f r).txHash = r.txHash) (he : eraOf c b.number b.version = .pre07 ∨ eraOf c b.number b.version = .pre0132)
    {r : F × F × F} (hv : verifyGw h b sdc sdl c chainId = .ok (some r)) :
    ∃ r', verifyGw h { b with receipts := b.receipts.map fun p => (f p.1, p.2), receiptCommitment := none } sdc sdl c chainId = .ok (some r') := by
  obtain ⟨tc, ec, rc, h1, h2, h3, k1, k2, k3, hh, t1, t2, -⟩ := (verifyGw_iff h b sdc sdl c chainId _).1 hv
  have hev : ({ b with receipts := b.receipts.map fun p => (f p.1, p.2), receiptCommitment := none } : GwBlock).events = b.events := by
    simp [GwBlock.events, List.map_map, Function.comp_def, hf]
  obtain ⟨rc', hrc⟩ : ∃ x, receiptCommitment h ((b.receipts.map fun p => (f p.1, p.2)).map (·.1)) = .ok x := by
    refine ⟨_, commitmentRoot_eq h true _ ?_⟩
    have := hb.receiptCount
    simp only [List.length_map]
    omega
  refine ⟨(r.1, r.2.1, rc'), (verifyGw_iff h _ sdc sdl c chainId _).2 ⟨tc, ec, rc', h1, ?_, hrc, k1, k2, by simp, ?_, t1, ?_, rfl⟩⟩
  · rw [hev]; exact h2
  · rw [verify_iff] at hh ⊢
    obtain ⟨s, hs, hx⟩ := hh
    refine ⟨s, hs, ?_⟩
    have hcount : ((b.receipts.map fun p => (f p.1, p.2)).flatMap (·.2)).length = (b.receipts.flatMap (·.2)).length := by
      rw [List.flatMap_map]
    refine Eq.trans hx ?_
    simp only [gwHeader, headerOf]
    rcases he with he | he
    · simp only [he, headerValues]
    · simp only [he, headerValues, hcount]
  · rw [hev]; exact t2

/-! ## The hypotheses are met -/

def toyEvents : List (F × List Event) := [(5, [⟨1, [2], [3, 4]⟩]), (6, []), (7, [⟨1, [], [3]⟩, ⟨2, [2], []⟩])]

def toyTxs : List Tx := [⟨5, .invoke [1, 2]⟩, ⟨6, .declare []⟩, ⟨7, .l1Handler⟩]

def toyReceipts : List (Receipt × List Event) :=
  [(⟨5, 10, [⟨1, 2, [3]⟩], none, 1, 2, 3, 4⟩, [⟨1, [2], [3, 4]⟩]), (⟨6, 11, [], some [65, 66], 5, 6, 7, 8⟩, []),
    (⟨7, 12, [], none, 5, 6, 7, 8⟩, [⟨1, [], [3]⟩, ⟨2, [2], []⟩])]

def toyBlock : GwBlock :=
  { hash := 0, number := 900, l1Gas := (1, 2), l1DataGas := (3, 4), l2Gas := some (5, 6), parent := 7, sequencer := some 8, stateCommitment := 10
    timestamp := 12, receipts := toyReceipts, transactions := toyTxs, version := ⟨0, 13, 4, 0⟩, transactionCommitment := 0, eventCommitment := 0
    blob := true, receiptCommitment := none }

example : toyBlock.Ok 4 := by
  refine ⟨by constructor <;> decide, by decide, by decide, by decide, ?_, ?_⟩
  · intro p hp
    simp only [toyBlock, toyReceipts, List.mem_cons, List.not_mem_nil, or_false] at hp
    rcases hp with rfl | rfl | rfl <;> constructor <;> decide
  · intro p hp
    simp only [toyBlock, toyReceipts, List.mem_cons, List.not_mem_nil, or_false] at hp
    rcases hp with rfl | rfl | rfl <;> intro e he <;> simp only [List.mem_cons, List.not_mem_nil, or_false] at he
    · subst he; constructor <;> decide
    · rcases he with rfl | rfl <;> constructor <;> decide
example : toyBlock.events = toyEvents := rfl
example : (toyBlock.receipts.map (·.1.txHash)).Nodup := by decide
example : hashedSignature ⟨0, 13, 2, 0⟩ ⟨6, .declare []⟩ = [0] ∧ hashedSignature ⟨0, 11, 0, 0⟩ ⟨6, .declare [3]⟩ = [] := by decide

/-- A block with the hash of its contents. -/
def sealed (b : GwBlock) (sdc : F) (sdl : Nat) : GwBlock :=
  match transactionCommitment toyHashes b.transactions b.version, eventCommitment toyHashes b.events b.version,
      receiptCommitment toyHashes (b.receipts.map (·.1)) with
  | .ok tc, .ok ec, .ok rc =>
    let era := eraOf .mainnet b.number b.version
    { b with hash := eraHash toyHashes era (headerValues toyHashes (gwHeader b sdc sdl tc ec rc) 0 era) }
  | _, _, _ => b

/-- Whether a block is accepted. -/
def accepted (b : GwBlock) (sdc : F) (sdl : Nat) : Bool :=
  match verifyGw toyHashes b sdc sdl .mainnet 0 with
  | .ok (some _) => true
  | _ => false

example : accepted (sealed toyBlock 13 4) 13 4 = true := by decide +kernel
example : accepted (sealed toyBlock 13 4) 14 4 = false := by decide +kernel
example : accepted { sealed toyBlock 13 4 with transactions := toyTxs.reverse } 13 4 = false := by decide +kernel
example : accepted (sealed { toyBlock with version := ⟨0, 13, 1, 0⟩ } 13 4) 99 4 = true := by decide +kernel

end Verif.Block
