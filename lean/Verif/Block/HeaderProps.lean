import Verif.Block.HeaderLemmas
/-!
# A block hash stands for one header (C65)
-/
namespace Verif.Block
open Verif.Common (Version)

/-- The hash of the values of a header. -/
def eraHash (h : Hashes) : Era → List F → F
  | .pre07, l | .pre0132, l => chain h l
  | .v0, l | .v1, l => h.many l

/-- Which hash a header is checked against. -/
theorem verify_iff (h : Hashes) (c : Chain) (chainId : F) (b : Header) :
    verifyBlockHash h b c chainId = some true ↔
      ∃ s, (s = b.sequencer ∨ eraOf c b.number b.version = .pre0132 ∧ c.fallback = some s) ∧
        b.hash = eraHash h (eraOf c b.number b.version) (headerValues h { b with sequencer := s } chainId (eraOf c b.number b.version)) := by
  unfold verifyBlockHash eraOf
  by_cases h1 : b.number < c.first07
  · have hc : c ≠ .custom := by
      rintro rfl
      simp [Chain.first07] at h1
    simp only [h1, if_true, hc, if_false, Option.some.injEq, beq_iff_eq, reduceCtorEq, false_and, or_false]
    constructor
    · intro e
      exact ⟨_, rfl, e.symm⟩
    · rintro ⟨s, rfl, e⟩
      exact e.symm
  · by_cases h2 : before b.version v0132 = true
    · simp only [h1, if_false, h2, if_true, true_and]
      by_cases h3 : hashPre0132 h b = b.hash
      · simp only [h3, beq_self_eq_true, if_true]
        exact ⟨fun _ => ⟨b.sequencer, .inl rfl, h3.symm⟩, fun _ => trivial⟩
      · simp only [beq_iff_eq, h3, if_false]
        rcases hf : c.fallback with _ | a
        · simp only [Option.some.injEq, Bool.false_eq_true, false_iff, reduceCtorEq, or_false]
          rintro ⟨s, rfl, e⟩
          exact h3 e.symm
        · simp only [Option.some.injEq, beq_iff_eq]
          constructor
          · intro e
            exact ⟨a, .inr rfl, e.symm⟩
          · rintro ⟨s, rfl | rfl, e⟩
            · exact absurd e.symm h3
            · exact e.symm
    · by_cases h3 : before b.version v0134 = true
      · simp only [h1, if_false, h2, h3, if_true, Option.some.injEq, beq_iff_eq, finalHash, reduceCtorEq, false_and, or_false]
        constructor
        · intro e
          exact ⟨_, rfl, e.symm⟩
        · rintro ⟨s, rfl, e⟩
          exact e.symm
      · simp only [h1, if_false, h2, h3, Option.some.injEq, beq_iff_eq, finalHash, reduceCtorEq, false_and, or_false]
        constructor
        · intro e
          exact ⟨_, rfl, e.symm⟩
        · rintro ⟨s, rfl, e⟩
          exact e.symm

/-- The queries of the hash are among those of the header. -/
theorem header_chain {h : Hashes} {c : Chain} {chainId : F} {b : Header} {s : F}
    (hs : s = b.sequencer ∨ eraOf c b.number b.version = .pre0132 ∧ c.fallback = some s)
    (he : eraOf c b.number b.version = .pre07 ∨ eraOf c b.number b.version = .pre0132) :
    ∀ q ∈ chainQ h (headerValues h { b with sequencer := s } chainId (eraOf c b.number b.version)), q ∈ headerQ h c chainId b := by
  intro q hq
  unfold headerQ
  rcases he with he | he <;> rw [he] at hq ⊢
  · exact hq
  · rcases hs with rfl | ⟨_, hf⟩
    · exact List.mem_append_left _ hq
    · refine List.mem_append_right _ ?_
      rw [hf]
      simpa using hq

theorem header_many {h : Hashes} {c : Chain} {chainId : F} {b : Header}
    (he : eraOf c b.number b.version = .v0 ∨ eraOf c b.number b.version = .v1) :
    Query.many (headerValues h b chainId (eraOf c b.number b.version)) ∈ headerQ h c chainId b := by
  unfold headerQ
  rcases he with he | he <;> rw [he]
  · exact List.mem_singleton.2 rfl
  · exact List.mem_cons_self

theorem values_length (h : Hashes) (b : Header) (id : F) (e : Era) :
    (headerValues h b id e).length = match e with | .pre07 => 12 | .pre0132 => 11 | .v0 => 17 | .v1 => 14 := by
  cases e <;> rfl

theorem era_eq {h : Hashes} {b b' : Header} {id : F} {e e' : Era} (hl : headerValues h b id e = headerValues h b' id e') : e = e' := by
  have := congrArg List.length hl
  rw [values_length, values_length] at this
  cases e <;> cases e' <;> simp at this ⊢

/-- Equal values: the headers are the same as far as they are hashed. -/
theorem values_inj {h : Hashes} {c : Chain} {id : F} {b b' : Header} {s s' : F} (hb : b.Ok) (hb' : b'.Ok)
    (hs : s = b.sequencer ∨ eraOf c b.number b.version = .pre0132 ∧ c.fallback = some s)
    (hs' : s' = b'.sequencer ∨ eraOf c b'.number b'.version = .pre0132 ∧ c.fallback = some s')
    (hera : eraOf c b.number b.version = eraOf c b'.number b'.version)
    (e : headerValues h { b with sequencer := s } id (eraOf c b.number b.version) =
      headerValues h { b' with sequencer := s' } id (eraOf c b.number b.version)) :
    SameHeader c b b' ∨ Collide h (headerQ h c id b) (headerQ h c id b') := by
  have n63 : ∀ {x y : Nat}, x < 2 ^ 63 → y < 2 ^ 63 → felt x = felt y → x = y := fun hx hy h => felt_inj64 (by omega) (by omega) h
  have sq : eraOf c b.number b.version ≠ .pre0132 → s = s' → b.sequencer = b'.sequencer := by
    intro hne h1
    rcases hs with rfl | ⟨hs, _⟩
    · rcases hs' with rfl | ⟨hs', _⟩
      · exact h1
      · exact absurd (hera.trans hs') hne
    · exact absurd hs hne
  rcases he : eraOf c b.number b.version with _ | _ | _ | _ <;> rw [he] at e <;>
    simp only [headerValues, List.cons.injEq, and_true, true_and] at e
  · obtain ⟨e1, e2, e3, e4, e5⟩ := e
    left
    exact { era := hera, number := n63 hb.number hb'.number e1, parent := e5, stateCommitment := e2
            transactionCount := felt_inj64 hb.transactionCount hb'.transactionCount e3, transactionCommitment := e4
            since07 := fun h => absurd he h, sequencer := fun h => absurd he h
            since0132 := by simp [he], since0134 := by simp [he] }
  · obtain ⟨e1, e2, e3, e4, e5, e6, e7, e8, e9⟩ := e
    left
    refine { era := hera, number := n63 hb.number hb'.number e1, parent := e9, stateCommitment := e2
             transactionCount := felt_inj64 hb.transactionCount hb'.transactionCount e5, transactionCommitment := e6
             since07 := fun _ => ⟨n63 hb.timestamp hb'.timestamp e4, felt_inj64 hb.eventCount hb'.eventCount e7, e8⟩
             sequencer := fun _ hf => ?_
             since0132 := by simp [he], since0134 := by simp [he] }
    have hf := hf he
    rcases hs with rfl | ⟨_, hs⟩
    · rcases hs' with rfl | ⟨_, hs'⟩
      · exact e3
      · rw [hf] at hs'; cases hs'
    · rw [hf] at hs; cases hs
  · obtain ⟨e1, e2, e3, e4, e5, e6, e7, e8, e9, e10, e11, e12, e13, e14, e15⟩ := e
    obtain ⟨c1, c2, c3, c4⟩ := counts_inj hb hb' e5
    left
    exact { era := hera, number := n63 hb.number hb'.number e1, parent := e15, stateCommitment := e2
            transactionCount := c1, transactionCommitment := e7
            since07 := fun _ => ⟨n63 hb.timestamp hb'.timestamp e4, c2, e8⟩
            sequencer := fun _ _ => sq (by simp [he]) e3
            since0132 := fun _ => ⟨version_inj e14, c4, c3, e6, e9, felt_inj128 hb.ethL1Gas hb'.ethL1Gas e10, felt_inj128 hb.strkL1Gas hb'.strkL1Gas e11,
              felt_inj128 hb.ethL1DataGas hb'.ethL1DataGas e12, felt_inj128 hb.strkL1DataGas hb'.strkL1DataGas e13⟩
            since0134 := by simp [he] }
  · obtain ⟨e1, e2, e3, e4, e5, e6, e7, e8, e9, e10, e11, e12⟩ := e
    obtain ⟨c1, c2, c3, c4⟩ := counts_inj hb hb' e5
    have he' := hera.symm.trans he
    have q1 : ∀ b : Header, eraOf c b.number b.version = .v1 → Query.many [feltText "STARKNET_GAS_PRICES0".toList, felt b.ethL1Gas, felt b.strkL1Gas, felt b.ethL1DataGas, felt b.strkL1DataGas,
        felt b.ethL2Gas, felt b.strkL2Gas] ∈ headerQ h c id b := by
      intro b hb
      unfold headerQ
      rw [hb]
      exact List.mem_cons_of_mem _ (List.mem_singleton.2 rfl)
    rcases query_eq (q1 b he) (q1 b' he') e10 with g | g
    · left
      simp only [Query.many.injEq, List.cons.injEq, and_true, true_and] at g
      obtain ⟨g1, g2, g3, g4, g5, g6⟩ := g
      exact { era := hera, number := n63 hb.number hb'.number e1, parent := e12, stateCommitment := e2
              transactionCount := c1, transactionCommitment := e7
              since07 := fun _ => ⟨n63 hb.timestamp hb'.timestamp e4, c2, e8⟩
              sequencer := fun _ _ => sq (by simp [he]) e3
              since0132 := fun _ => ⟨version_inj e11, c4, c3, e6, e9, felt_inj128 hb.ethL1Gas hb'.ethL1Gas g1, felt_inj128 hb.strkL1Gas hb'.strkL1Gas g2,
                felt_inj128 hb.ethL1DataGas hb'.ethL1DataGas g3, felt_inj128 hb.strkL1DataGas hb'.strkL1DataGas g4⟩
              since0134 := fun _ => ⟨felt_inj128 hb.ethL2Gas hb'.ethL2Gas g5, felt_inj128 hb.strkL2Gas hb'.strkL2Gas g6⟩ }
    · exact .inr g

/-- C65. Two headers of one chain that are accepted for the same hash are the same in all that was hashed at their time, or the hash
functions collide on their values. -/
theorem C65_header (h : Hashes) (c : Chain) (chainId : F) {b b' : Header} (hb : b.Ok) (hb' : b'.Ok)
    (v : verifyBlockHash h b c chainId = some true) (v' : verifyBlockHash h b' c chainId = some true) (e : b.hash = b'.hash) :
    SameHeader c b b' ∨ Collide h (headerQ h c chainId b) (headerQ h c chainId b') := by
  obtain ⟨s, hs, ev⟩ := (verify_iff h c chainId b).1 v
  obtain ⟨s', hs', ev'⟩ := (verify_iff h c chainId b').1 v'
  rw [ev, ev'] at e
  have long : ∀ (b : Header) (x : Era), (headerValues h b chainId x).length < 2 ^ 64 := by
    intro b x
    rw [values_length]
    cases x <;> decide
  have old : ∀ x : Era, (x = .pre07 ∨ x = .pre0132) ∧ (∀ l, eraHash h x l = chain h l) ∨ (x = .v0 ∨ x = .v1) ∧ (∀ l, eraHash h x l = h.many l) := by
    intro x
    cases x
    · exact .inl ⟨.inl rfl, fun _ => rfl⟩
    · exact .inl ⟨.inr rfl, fun _ => rfl⟩
    · exact .inr ⟨.inl rfl, fun _ => rfl⟩
    · exact .inr ⟨.inr rfl, fun _ => rfl⟩
  have new : ∀ (b : Header) (s : F), (s = b.sequencer ∨ eraOf c b.number b.version = .pre0132 ∧ c.fallback = some s) →
      (eraOf c b.number b.version = .v0 ∨ eraOf c b.number b.version = .v1) → s = b.sequencer := by
    rintro b s (h1 | ⟨h1, _⟩) h2
    · exact h1
    · rcases h2 with h2 | h2 <;> rw [h1] at h2 <;> cases h2
  have finish : headerValues h { b with sequencer := s } chainId (eraOf c b.number b.version) =
      headerValues h { b' with sequencer := s' } chainId (eraOf c b'.number b'.version) →
      SameHeader c b b' ∨ Collide h (headerQ h c chainId b) (headerQ h c chainId b') := by
    intro hl
    have hera := era_eq hl
    rw [← hera] at hl
    exact values_inj hb hb' hs hs' hera hl
  rcases old (eraOf c b.number b.version) with ⟨o, f⟩ | ⟨o, f⟩ <;> rcases old (eraOf c b'.number b'.version) with ⟨o', f'⟩ | ⟨o', f'⟩ <;>
    rw [f, f'] at e
  · rcases chain_inj h (long _ _) (long _ _) e with g | g
    · exact finish g
    · exact .inr (g.mono (header_chain hs o) (header_chain hs' o'))
  · obtain rfl := new b' s' hs' o'
    refine .inr ⟨_, header_chain hs o _ (List.mem_append_right _ (List.mem_singleton.2 rfl)), _, header_many o', by simp, e⟩
  · obtain rfl := new b s hs o
    refine .inr ⟨_, header_many o, _, header_chain hs' o' _ (List.mem_append_right _ (List.mem_singleton.2 rfl)), by simp, e⟩
  · obtain rfl := new b s hs o
    obtain rfl := new b' s' hs' o'
    rcases query_eq (h := h) (header_many (h := h) (chainId := chainId) o) (header_many (h := h) (chainId := chainId) o') e with g | g
    · exact finish (Query.many.inj g)
    · exact .inr g

/-- C65. Nothing else is looked at: headers that agree in that are accepted or rejected together. -/
theorem C65_exact (h : Hashes) (c : Chain) (chainId : F) {b b' : Header} (e : b.hash = b'.hash) (same : SameHeader c b b')
    (hseq : eraOf c b.number b.version ≠ .pre07 → b.sequencer = b'.sequencer) :
    verifyBlockHash h b c chainId = verifyBlockHash h b' c chainId := by
  have total : ∀ b : Header, ∃ r, verifyBlockHash h b c chainId = some r := by
    intro b
    unfold verifyBlockHash
    by_cases h1 : b.number < c.first07
    · have hc : c ≠ .custom := by
        rintro rfl
        simp [Chain.first07] at h1
      simp [h1, hc]
    · simp only [h1, if_false]
      split
      · split
        · exact ⟨_, rfl⟩
        · split <;> exact ⟨_, rfl⟩
      · exact ⟨_, rfl⟩
  have vals : ∀ s, headerValues h { b with sequencer := s } chainId (eraOf c b.number b.version) =
      headerValues h { b' with sequencer := s } chainId (eraOf c b'.number b'.version) := by
    intro s
    obtain ⟨s1, s2, s3, s4, s5, s6, s7, _, s9, s10⟩ := same
    rw [← s1]
    rcases he : eraOf c b.number b.version with _ | _ | _ | _
    · simp only [headerValues, s2, s3, s4, s5, s6]
    · obtain ⟨t1, t2, t3⟩ := s7 (by simp [he])
      simp only [headerValues, s2, s3, s4, s5, s6, t1, t2, t3]
    · obtain ⟨t1, t2, t3⟩ := s7 (by simp [he])
      obtain ⟨r1, r2, r3, r4, r5, r6, r7, r8, r9⟩ := s9 (by simp [he])
      simp only [headerValues, concatCounts, s2, s3, s4, s5, s6, t1, t2, t3, r1, r2, r3, r4, r5, r6, r7, r8, r9]
    · obtain ⟨t1, t2, t3⟩ := s7 (by simp [he])
      obtain ⟨r1, r2, r3, r4, r5, r6, r7, r8, r9⟩ := s9 (by simp [he])
      obtain ⟨u1, u2⟩ := s10 he
      simp only [headerValues, concatCounts, gasPricesHash, s2, s3, s4, s5, s6, t1, t2, t3, r1, r2, r3, r4, r5, r6, r7, r8, r9, u1, u2]
  have key : verifyBlockHash h b c chainId = some true ↔ verifyBlockHash h b' c chainId = some true := by
    rw [verify_iff, verify_iff]
    by_cases hp : eraOf c b.number b.version = .pre07
    · constructor
      · rintro ⟨s, _, hs⟩
        refine ⟨_, .inl rfl, e.symm.trans (hs.trans ?_)⟩
        rw [vals s, ← same.era, hp]
        rfl
      · rintro ⟨s, _, hs⟩
        refine ⟨_, .inl rfl, e.trans (hs.trans ?_)⟩
        rw [← vals s, ← same.era, hp]
        rfl
    · have hseq := hseq hp
      constructor
      · rintro ⟨s, h1, hs⟩
        refine ⟨s, ?_, e.symm.trans (hs.trans ?_)⟩
        · rw [← hseq, ← same.era]; exact h1
        · rw [vals s, same.era]
      · rintro ⟨s, h1, hs⟩
        refine ⟨s, ?_, e.trans (hs.trans ?_)⟩
        · rw [hseq, same.era]; exact h1
        · rw [← vals s, same.era]
  obtain ⟨r, hr⟩ := total b
  obtain ⟨r', hr'⟩ := total b'
  rw [hr, hr'] at key ⊢
  cases r <;> cases r' <;> simp at key ⊢

/-- C65. The hash of its own values is accepted, whatever the header. -/
theorem C65_accepts (h : Hashes) (c : Chain) (chainId : F) (b : Header) :
    verifyBlockHash h { b with hash := eraHash h (eraOf c b.number b.version) (headerValues h b chainId (eraOf c b.number b.version)) } c chainId =
      some true := by
  rw [verify_iff]
  refine ⟨b.sequencer, .inl rfl, ?_⟩
  generalize eraOf c b.number b.version = x
  cases x <;> rfl

/-- C65. There is a second address for old blocks of the main network: a header whose hash was made with it is accepted with any
sequencer address. Before version 0.13.2 the address is not bound there. -/
theorem C65_sequencer_violated (h : Hashes) (chainId : F) (b : Header) (s a : F) (ha : Chain.fallback .mainnet = some a)
    (he : eraOf .mainnet b.number b.version = .pre0132) (hh : b.hash = hashPre0132 h { b with sequencer := a }) :
    verifyBlockHash h { b with sequencer := s } .mainnet chainId = some true := by
  rw [verify_iff]
  refine ⟨a, .inr ⟨he, ha⟩, ?_⟩
  simp only [he]
  exact hh

/-- C65. The hash that headers from peers are checked against (`compute_final_hash`): equal hashes mean equal headers, apart from the
price of L2 gas before version 0.13.4. -/
theorem C65_final (h : Hashes) {b b' : Header} (hb : b.Ok) (hb' : b'.Ok) (e : finalHash h b = finalHash h b') :
    ({ b with hash := 0, ethL2Gas := 0, strkL2Gas := 0 } = { b' with hash := 0, ethL2Gas := 0, strkL2Gas := 0 } ∧
      (before b.version v0134 = false → b.ethL2Gas = b'.ethL2Gas ∧ b.strkL2Gas = b'.strkL2Gas)) ∨
    ∃ q q' : Query, q ≠ q' ∧ q.eval h = q'.eval h ∧
      (q ∈ [Query.many (headerValues h b 0 (if before b.version v0134 then .v0 else .v1)),
        .many [feltText "STARKNET_GAS_PRICES0".toList, felt b.ethL1Gas, felt b.strkL1Gas, felt b.ethL1DataGas, felt b.strkL1DataGas,
          felt b.ethL2Gas, felt b.strkL2Gas]]) ∧
      (q' ∈ [Query.many (headerValues h b' 0 (if before b'.version v0134 then .v0 else .v1)),
        .many [feltText "STARKNET_GAS_PRICES0".toList, felt b'.ethL1Gas, felt b'.strkL1Gas, felt b'.ethL1DataGas, felt b'.strkL1DataGas,
          felt b'.ethL2Gas, felt b'.strkL2Gas]]) := by
  have n63 : ∀ {x y : Nat}, x < 2 ^ 63 → y < 2 ^ 63 → felt x = felt y → x = y := fun hx hy h => felt_inj64 (by omega) (by omega) h
  have fin : ∀ b : Header, finalHash h b = (Query.many (headerValues h b 0 (if before b.version v0134 then .v0 else .v1))).eval h := by
    intro b
    unfold finalHash
    split <;> rfl
  rw [fin, fin] at e
  by_cases hq : Query.many (headerValues h b 0 (if before b.version v0134 then .v0 else .v1)) =
      Query.many (headerValues h b' 0 (if before b'.version v0134 then .v0 else .v1))
  · have hl := Query.many.inj hq
    have hera := era_eq hl
    rw [← hera] at hl
    by_cases h3 : before b.version v0134 = true
    · left
      simp only [h3, if_true, headerValues, List.cons.injEq, and_true, true_and] at hl
      obtain ⟨e1, e2, e3, e4, e5, e6, e7, e8, e9, e10, e11, e12, e13, e14, e15⟩ := hl
      obtain ⟨c1, c2, c3, c4⟩ := counts_inj hb hb' e5
      refine ⟨?_, by simp [h3]⟩
      simp only [Header.mk.injEq, true_and, and_true]
      exact ⟨e15, n63 hb.number hb'.number e1, n63 hb.timestamp hb'.timestamp e4, felt_inj128 hb.ethL1Gas hb'.ethL1Gas e10, felt_inj128 hb.strkL1Gas hb'.strkL1Gas e11,
        felt_inj128 hb.ethL1DataGas hb'.ethL1DataGas e12, felt_inj128 hb.strkL1DataGas hb'.strkL1DataGas e13, e3, version_inj e14, e8, e2, e7, c1, c2, c4, e9, e6, c3⟩
    · simp only [h3, if_false, Bool.false_eq_true, headerValues, List.cons.injEq, and_true, true_and] at hl
      obtain ⟨e1, e2, e3, e4, e5, e6, e7, e8, e9, e10, e11, e12⟩ := hl
      obtain ⟨c1, c2, c3, c4⟩ := counts_inj hb hb' e5
      by_cases hg : Query.many [feltText "STARKNET_GAS_PRICES0".toList, felt b.ethL1Gas, felt b.strkL1Gas, felt b.ethL1DataGas, felt b.strkL1DataGas, felt b.ethL2Gas, felt b.strkL2Gas] =
          .many [feltText "STARKNET_GAS_PRICES0".toList, felt b'.ethL1Gas, felt b'.strkL1Gas, felt b'.ethL1DataGas, felt b'.strkL1DataGas, felt b'.ethL2Gas, felt b'.strkL2Gas]
      · left
        simp only [Query.many.injEq, List.cons.injEq, and_true, true_and] at hg
        obtain ⟨g1, g2, g3, g4, g5, g6⟩ := hg
        refine ⟨?_, fun _ => ⟨felt_inj128 hb.ethL2Gas hb'.ethL2Gas g5, felt_inj128 hb.strkL2Gas hb'.strkL2Gas g6⟩⟩
        simp only [Header.mk.injEq, true_and, and_true]
        exact ⟨e12, n63 hb.number hb'.number e1, n63 hb.timestamp hb'.timestamp e4, felt_inj128 hb.ethL1Gas hb'.ethL1Gas g1, felt_inj128 hb.strkL1Gas hb'.strkL1Gas g2,
          felt_inj128 hb.ethL1DataGas hb'.ethL1DataGas g3, felt_inj128 hb.strkL1DataGas hb'.strkL1DataGas g4, e3, version_inj e11, e8, e2, e7, c1, c2, c4, e9, e6, c3⟩
      · exact .inr ⟨_, _, hg, e10, by simp, by simp⟩
  · exact .inr ⟨_, _, hq, e, by simp, by simp⟩

/-! ## The hypotheses are met -/

/-- Toy hash functions. -/
def toyHashes : Hashes :=
  ⟨fun a b => a * 3 + b * 5 + 7, fun a b => a * 11 + b * 13 + 1, fun l => l.foldl (fun n x => n * 31 + x) 17, fun s => s.foldl (fun n x => n * 257 + x.toNat) 3⟩

def toyHeader : Header :=
  { hash := 0, parent := 7, number := 900, timestamp := 12, ethL1Gas := 1, strkL1Gas := 2, ethL1DataGas := 3, strkL1DataGas := 4, ethL2Gas := 5
    strkL2Gas := 6, sequencer := 8, version := ⟨0, 13, 4, 0⟩, eventCommitment := 9, stateCommitment := 10, transactionCommitment := 11
    transactionCount := 2, eventCount := 3, blob := true, receiptCommitment := 12, stateDiffCommitment := 13, stateDiffLength := 4 }

example : toyHeader.Ok := by constructor <;> decide
example : eraOf .mainnet 832 ⟨0, 13, 4, 0⟩ = .pre07 := by decide
example : eraOf .mainnet 833 ⟨0, 13, 1, 1⟩ = .pre0132 := by decide
example : eraOf .sepoliaTestnet 0 ⟨0, 13, 2, 0⟩ = .v0 := by decide
example : eraOf .mainnet 900 toyHeader.version = .v1 := by decide
example : verifyBlockHash toyHashes { toyHeader with hash := finalHash toyHashes toyHeader } .mainnet 0 = some true := by
  exact C65_accepts toyHashes .mainnet 0 toyHeader
example : verifyBlockHash toyHashes { toyHeader with hash := finalHash toyHashes toyHeader + 1 } .mainnet 0 = some false := by decide +kernel
example : concatCounts toyHeader = felt (2 * 2 ^ 192 + 3 * 2 ^ 128 + 4 * 2 ^ 64 + 2 ^ 63) := by decide +kernel

end Verif.Block
