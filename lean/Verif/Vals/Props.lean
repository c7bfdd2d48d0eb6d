import Verif.Vals.Lemmas
/-!
# C98: who votes and who proposes

Proved: what a contract returns is read as it means it, and a set has each address once, in
order; the validators of a node that starts are those that were configured; nodes with the
same addresses agree on them; a proposer is one of the validators; with the default selector
every validator has its turn.  Violations: F81–F85.
-/

namespace Verif.Vals

variable {S K : Type}

/-! ### What a contract returns -/

/-- What a contract returns as a list of participants is read as that list, and is refused
if it is empty or has a key that is none.  Missing: numbers that do not fit
(`C98_truncated_violated`). -/
theorem C98_contract_partial (toKey : Nat → Option K) (l : List Entry) (hn : ∀ e ∈ l, e.number < 2 ^ 64)
    (hl : l.length * 3 < 2 ^ 64) :
    (∀ ps, parse toKey (encode l) = .ok ps ↔ l ≠ [] ∧ Reads toKey l ps) ∧ parse toKey (encode l) ≠ .panic := by
  have h0 : low64 l.length = l.length := Nat.mod_eq_of_lt (by omega)
  have hp := parseChunks_encode toKey l
  have hnp := parseChunks_not_panic toKey (l.flatMap (fun e => [e.address, e.keyFelt, e.number]))
  simp only [parse, encode, h0, data_length, ne_eq, not_true_eq_false, if_false, Nat.not_le.mpr hl]
  cases hc : parseChunks toKey (l.flatMap (fun e => [e.address, e.keyFelt, e.number])) with
  | ok ps =>
    obtain ⟨qs, hq, he⟩ := (hp ps).mp hc
    rw [reads_exact hq hn] at he
    subst he
    have hlen := reads_length hq
    simp only [hlen, not_true_eq_false, if_false]
    cases l with
    | nil => cases hq; simp
    | cons e l =>
      cases hq with
      | cons hk hr =>
        refine ⟨fun qs => ?_, by simp⟩
        simp only [List.isEmpty_cons, Bool.false_eq_true, if_false, Out.ok.injEq]
        constructor
        · intro h; subst h; exact ⟨by simp, .cons hk hr⟩
        · rintro ⟨_, h⟩; exact reads_unique (.cons hk hr) h
  | err =>
    refine ⟨fun ps => ?_, by simp⟩
    simp only [reduceCtorEq, false_iff]
    rintro ⟨_, h⟩
    have := (hp ps).mpr ⟨ps, h, (reads_exact h hn).symm⟩
    rw [hc] at this
    exact absurd this (by simp)
  | panic => exact absurd hc hnp

/-- Anything else is refused.  Missing: a length that does not fit
(`C98_length_violated`). -/
theorem C98_malformed_partial (toKey : Nat → Option K) (result : List Nat) (h : ∀ l, result ≠ encode l)
    (hf : ∀ n ∈ result.head?, n * 3 < 2 ^ 64) : parse toKey result = .err := by
  cases result with
  | nil => rfl
  | cons n data =>
    have hn := hf n (by simp)
    have h0 : low64 n = n := Nat.mod_eq_of_lt (by omega)
    simp only [parse, h0]
    rw [if_neg (by omega)]
    by_cases hd : data.length = n * 3
    · obtain ⟨l, hl, he⟩ := data_entries n data hd
      exact absurd (by rw [encode, hl, he]) (h l)
    · rw [if_pos hd]

/-- Keys that are all valid, for the examples. -/
def exKey (n : Nat) : Option Nat := if n < 100 then some n else none

example : parse exKey (encode [⟨7, 1, 10⟩, ⟨3, 2, 20⟩]) = .ok [⟨7, 1, 10⟩, ⟨3, 2, 20⟩] ∧
    (∀ e ∈ [(⟨7, 1, 10⟩ : Entry), ⟨3, 2, 20⟩], e.number < 2 ^ 64) ∧
    parse exKey (encode [⟨7, 100, 10⟩]) = .err := by decide

example : (∀ l, [2, 7, 1, 10] ≠ encode l) ∧ ∀ n ∈ [2, 7, 1, 10].head?, n * 3 < 2 ^ 64 := by
  refine ⟨?_, by decide⟩
  intro l h
  have h1 := congrArg List.length h
  simp only [encode, List.length_cons, data_length] at h1
  have h2 : 2 = l.length := by
    have := congrArg List.head? h
    simpa [encode] using this
  simp at h1
  omega

/-- F83.  A number that does not fit 64 bits is cut off without an error: what is left of it
becomes the voting power. -/
theorem C98_truncated_violated (toKey : Nat → Option K) (a k m v : Nat) (key : K) (hk : toKey k = some key)
    (hv : v < 2 ^ 64) : parse toKey (encode [⟨a, k, m * 2 ^ 64 + v⟩]) = .ok [⟨a, key, v⟩] := by
  have h2 : low64 (m * 2 ^ 64 + v) = v := by simp only [low64]; omega
  have h1 : low64 1 = 1 := by decide
  simp [parse, encode, parseChunks, hk, h2, h1]

/-- F83.  A list that says it is longer than it can be makes the call panic, or is accepted
if only what is left of its length is right. -/
theorem C98_length_violated (toKey : Nat → Option K) :
    (∀ n data, 2 ^ 64 ≤ 3 * (n % 2 ^ 64) → parse toKey (n :: data) = .panic) ∧
    (∀ m n data, parse toKey ((m * 2 ^ 64 + n) :: data) = parse toKey (n :: data)) := by
  constructor
  · intro n data h
    have h' : 2 ^ 64 ≤ n % 2 ^ 64 * 3 := by omega
    simp only [parse, low64, h', if_true]
  · intro m n data
    have : low64 (m * 2 ^ 64 + n) = low64 n := by simp only [low64]; omega
    simp only [parse, this]

example : parse exKey [2 ^ 63] = .panic ∧ parse exKey [2 ^ 64 + 1, 7, 1, 2 ^ 64] = .ok [⟨7, 1, 0⟩] := by decide

/-! ### Sets -/

/-- A set has each address once, in order, with what was said of it last; only nothing at
all is refused, with a panic. -/
theorem C98_set (vs : List (Validator K)) :
    (newSet vs = .panic ↔ vs = []) ∧ newSet vs ≠ .err ∧
    ∀ set, newSet vs = .ok set → Sorted set ∧ ∀ v, v ∈ set ↔ LastOf vs v := by
  rcases newSet_spec vs with ⟨h, h1⟩ | ⟨h, s, h1, h2, _, h4⟩
  · rw [h1]
    exact ⟨by simp [h], by simp, by simp⟩
  · rw [h1]
    refine ⟨by simp [h], by simp, ?_⟩
    intro set hs
    simp only [Out.ok.injEq] at hs
    subst hs
    exact ⟨h2, h4⟩

example : newSet [(⟨7, 1, 10⟩ : Validator Nat), ⟨3, 2, 20⟩, ⟨7, 5, 30⟩] = .ok [⟨3, 2, 20⟩, ⟨7, 5, 30⟩] := by decide

/-- With the addresses with which a node starts, its validators are those addresses, with
one vote each, whatever the chain says; there are at least three and the votes can be
counted. -/
theorem C98_validators (ch : Chain S K) (latest : Option S) (draw : Nat → K) (c : Config) (h : accepted c = true)
    (hl : c.validators.length < 2 ^ 63) (height : Nat) :
    ∃ set, fetchValidators ch latest draw c height = .ok set ∧ Sorted set ∧
      (∀ a, (∃ v ∈ set, v.address = a) ↔ Votes c a) ∧ (∀ v ∈ set, v.power = 1) ∧ 3 ≤ set.length ∧
      totalPower set = .ok set.length := by
  have hne : c.validators.isEmpty = false := by
    cases hv : c.validators with
    | nil => simp [accepted, hv, dedup] at h
    | cons a as => rfl
  simp only [fetchValidators, hne, Bool.false_eq_true, if_false]
  rcases newSet_spec ((c.me :: c.validators).map (fun a => (⟨a, draw a, 1⟩ : Validator K))) with ⟨h1, _⟩ | ⟨_, set, h1, h2, _, h4⟩
  · simp at h1
  · refine ⟨set, h1, h2, ?_, ?_, ?_⟩
    · intro a
      have := newSet_addresses _ set h1 a
      simp only [List.mem_map] at this
      rw [this]
      simp only [Votes]
      constructor
      · rintro ⟨v, ⟨b, hb, he⟩, hv⟩
        rw [← he] at hv
        simp only at hv
        simp only [List.mem_cons] at hb
        rw [← hv]; exact hb
      · intro hv
        exact ⟨_, ⟨a, by simpa using hv, rfl⟩, rfl⟩
    · intro v hv
      have := last_mem ((h4 v).mp hv)
      obtain ⟨b, _, he⟩ := List.mem_map.mp this
      rw [← he]
    · have hpw : ∀ v ∈ set, v.power = 1 := by
        intro v hv
        have := last_mem ((h4 v).mp hv)
        obtain ⟨b, _, he⟩ := List.mem_map.mp this
        rw [← he]
      have hsum : ∀ (l : List (Validator K)), (∀ v ∈ l, v.power = 1) → (l.map (·.power)).sum = l.length := by
        intro l
        induction l with
        | nil => intro _; rfl
        | cons v vs ih =>
          intro hv
          rw [List.map_cons, List.sum_cons, ih (fun w hw => hv w (by simp [hw])), hv v (by simp), List.length_cons]
          omega
      have hnd : (set.map (·.address)).Nodup :=
        (sorted_addresses set h2).imp (fun h => by omega)
      have hlow : (dedup (c.me :: c.validators)).length ≤ set.length := by
        have := List.Nodup.length_le_of_subset (nodup_dedup (c.me :: c.validators)) (l₂ := set.map (·.address)) (by
          intro a ha
          rw [newSet_addresses _ set h1 a]
          rw [mem_dedup] at ha
          rw [List.map_map]
          exact List.mem_map.mpr ⟨a, ha, rfl⟩)
        simpa using this
      have hup : set.length ≤ c.validators.length + 1 := by
        have := List.Nodup.length_le_of_subset hnd (l₂ := c.me :: c.validators) (by
          intro a ha
          rw [newSet_addresses _ set h1 a, List.map_map] at ha
          obtain ⟨b, hb, he⟩ := List.mem_map.mp ha
          rw [← he]; exact hb)
        simpa using this
      simp only [accepted, decide_eq_true_eq] at h
      refine ⟨by omega, ?_⟩
      simp only [totalPower, hsum set hpw]
      rw [if_neg (by omega)]

/-- The votes of any set are counted by their power: adding a validator adds its power. -/
theorem C98_power (v : Validator K) (set : List (Validator K)) (n : Nat) (h : totalPower set = .ok n) :
    totalPower (v :: set) = if v.power + n < 2 ^ 64 then .ok (v.power + n) else .panic := by
  simp only [totalPower, List.map_cons, List.sum_cons] at h ⊢
  split at h
  · simp at h
  · simp only [Out.ok.injEq] at h
    subst h
    by_cases hl : v.power + (set.map (·.power)).sum < 2 ^ 64
    · rw [if_pos hl, if_neg (by omega)]
    · rw [if_neg hl, if_pos (by omega)]

example : totalPower [(⟨3, 2, 20⟩ : Validator Nat), ⟨7, 5, 30⟩] = .ok 50 := by decide

example : accepted ⟨5, [7, 3, 5], []⟩ = true ∧
    fetchValidators (S := Unit) ⟨true, fun _ _ => .panic, fun _ _ => .err, exKey⟩ none id ⟨5, [7, 3, 5], []⟩ 0 =
      .ok [⟨3, 3, 1⟩, ⟨5, 5, 1⟩, ⟨7, 7, 1⟩] := by decide

/-- Nodes that are configured with the same addresses, each with its own left out of the
list, have the same validators with the same votes, whatever each of them has of the chain. -/
theorem C98_agree (ch₁ ch₂ : Chain S K) (l₁ l₂ : Option S) (d₁ d₂ : Nat → K) (c₁ c₂ : Config) (h₁ : accepted c₁ = true)
    (h₂ : accepted c₂ = true) (hs : ∀ a, Votes c₁ a ↔ Votes c₂ a) (hl₁ : c₁.validators.length < 2 ^ 63)
    (hl₂ : c₂.validators.length < 2 ^ 63) (height : Nat) :
    ∃ s₁ s₂, fetchValidators ch₁ l₁ d₁ c₁ height = .ok s₁ ∧ fetchValidators ch₂ l₂ d₂ c₂ height = .ok s₂ ∧
      s₁.map (fun v => (v.address, v.power)) = s₂.map (fun v => (v.address, v.power)) := by
  obtain ⟨s₁, e₁, o₁, m₁, p₁, _⟩ := C98_validators ch₁ l₁ d₁ c₁ h₁ hl₁ height
  obtain ⟨s₂, e₂, o₂, m₂, p₂, _⟩ := C98_validators ch₂ l₂ d₂ c₂ h₂ hl₂ height
  refine ⟨s₁, s₂, e₁, e₂, ?_⟩
  have hadd : s₁.map (·.address) = s₂.map (·.address) := by
    refine sorted_ext _ _ (sorted_addresses s₁ o₁) (sorted_addresses s₂ o₂) ?_
    intro a
    simp only [List.mem_map]
    rw [m₁, m₂]
    exact hs a
  have key : ∀ (s : List (Validator K)), (∀ v ∈ s, v.power = 1) →
      s.map (fun v => (v.address, v.power)) = (s.map (·.address)).map (fun a => (a, 1)) := by
    intro s hp
    rw [List.map_map]
    refine List.map_congr_left ?_
    intro v hv
    simp [hp v hv]
  rw [key s₁ p₁, key s₂ p₂, hadd]

example : accepted ⟨5, [7, 3], []⟩ = true ∧ accepted ⟨7, [3, 5], []⟩ = true ∧
    ∀ a, Votes ⟨5, [7, 3], []⟩ a ↔ Votes ⟨7, [3, 5], []⟩ a := by
  refine ⟨by decide, by decide, ?_⟩
  intro a
  simp only [Votes, List.mem_cons, List.not_mem_nil, or_false]
  omega

/-! ### Proposers -/

/-- Who proposes is one of the validators, the one that was chosen, whoever chooses. -/
theorem C98_member (select : List (Validator K) → Nat → Nat → Out (Validator K)) (set : List (Validator K))
    (height : Nat) (round : Option Nat) (v : Validator K) (h : selectProposer select set height round = .ok v) :
    v ∈ set ∧ ∃ r w, round = some r ∧ select set height r = .ok w ∧ w.address = v.address := by
  simp only [selectProposer] at h
  cases round with
  | none => simp at h
  | some r =>
    simp only at h
    cases hs : select set height r with
    | err => simp [hs] at h
    | panic => simp [hs] at h
    | ok w =>
      simp only [hs] at h
      cases hf : set.find? (fun v => decide (v.address = w.address)) with
      | none => simp [hf] at h
      | some x =>
        simp only [hf, Out.ok.injEq] at h
        subst h
        have h1 := List.find?_some hf
        simp only [decide_eq_true_eq] at h1
        exact ⟨List.mem_of_find?_eq_some hf, r, w, rfl, hs, h1.symm⟩

/-- With the default selector each validator of a set has its turn exactly once in as many
rounds in a row as there are validators. -/
theorem C98_round_robin (set : List (Validator K)) (hs : Sorted set) (height r : Nat) (v : Validator K) (hv : v ∈ set) :
    ∃ i, i < set.length ∧ selectProposer selectRoundRobin set height (some (r + i)) = .ok v ∧
      ∀ j, j < set.length → selectProposer selectRoundRobin set height (some (r + j)) = .ok v → j = i := by
  have hpos : 0 < set.length := List.length_pos_of_mem hv
  have hsel : ∀ k, ∃ h : k % set.length < set.length,
      selectProposer selectRoundRobin set height (some k) = .ok set[k % set.length] := by
    intro k
    have hk := Nat.mod_lt k hpos
    refine ⟨hk, ?_⟩
    simp only [selectProposer, selectRoundRobin, Nat.ne_of_gt hpos, if_false, List.getElem?_eq_getElem hk]
    rw [sorted_find set hs set[k % set.length] (List.getElem_mem hk) _ rfl]
  obtain ⟨n, hn, he⟩ := List.getElem_of_mem hv
  have hnd : ∀ i j (hi : i < set.length) (hj : j < set.length), set[i] = set[j] → i = j := by
    intro i j hi hj e
    have hp := sorted_addresses set hs
    rw [List.pairwise_iff_getElem] at hp
    rcases Nat.lt_trichotomy i j with h | h | h
    · have := hp i j (by simpa using hi) (by simpa using hj) h
      simp only [List.getElem_map, e] at this
      omega
    · exact h
    · have := hp j i (by simpa using hj) (by simpa using hi) h
      simp only [List.getElem_map, e] at this
      omega
  have hr := Nat.mod_lt r hpos
  have hmod : ∀ i, i < set.length → (r + i) % set.length =
      if r % set.length + i < set.length then r % set.length + i else r % set.length + i - set.length := by
    intro i hi
    rw [Nat.add_mod, Nat.mod_eq_of_lt hi]
    split
    · rename_i h; exact Nat.mod_eq_of_lt h
    · rename_i h
      rw [Nat.mod_eq_sub_mod (by omega)]
      exact Nat.mod_eq_of_lt (by omega)
  refine ⟨if r % set.length ≤ n then n - r % set.length else n + set.length - r % set.length, ?_, ?_, ?_⟩
  · split <;> omega
  · obtain ⟨h1, h2⟩ := hsel (r + if r % set.length ≤ n then n - r % set.length else n + set.length - r % set.length)
    rw [h2]
    have : (r + if r % set.length ≤ n then n - r % set.length else n + set.length - r % set.length) % set.length = n := by
      rw [hmod _ (by split <;> omega)]
      split <;> split <;> omega
    simp only [this, he]
  · intro j hj h
    obtain ⟨h1, h2⟩ := hsel (r + j)
    rw [h2] at h
    simp only [Out.ok.injEq] at h
    have := hnd _ n h1 hn (by rw [h, he])
    rw [hmod j hj] at this
    split at this <;> split <;> omega

example : Sorted [(⟨3, 2, 20⟩ : Validator Nat), ⟨7, 5, 30⟩, ⟨9, 5, 30⟩] ∧
    selectProposer selectRoundRobin [(⟨3, 2, 20⟩ : Validator Nat), ⟨7, 5, 30⟩, ⟨9, 5, 30⟩] 0 (some 4) = .ok ⟨7, 5, 30⟩ := by
  refine ⟨⟨by decide, by decide, by decide, trivial⟩, by decide⟩

/-- With configured proposers, one of which votes and has the least address, that one
proposes. -/
theorem C98_proposer_partial (ch : Chain S K) (latest : Option S) (draw : Nat → K) (c : Config) (set : List (Validator K))
    (hs : Sorted set) (height r : Nat) (v : Validator K) (hv : v ∈ set) (hleast : Least c.proposers v.address) :
    selectProposer (selectL2 ch latest draw c) set height (some r) = .ok v := by
  have hne : c.proposers.isEmpty = false := by
    cases hp : c.proposers with
    | nil => rw [hp] at hleast; exact absurd hleast.1 (by simp)
    | cons a as => rfl
  have hsel : selectL2 ch latest draw c set height r = .ok v := by
    simp only [selectL2, fetchProposers, hne, Bool.false_eq_true, if_false]
    rcases newSet_spec (c.proposers.map (fun a => (⟨a, draw a, 1⟩ : Validator K))) with ⟨h1, _⟩ | ⟨_, ps, h1, h2, h3, _⟩
    · simp only [List.map_eq_nil_iff] at h1
      simp [h1] at hne
    · obtain ⟨p, hp, hpm, hpl⟩ := sorted_head ps h2 h3
      have hadd : Least c.proposers p.address := by
        have hm : ∀ a, a ∈ ps.map (·.address) ↔ a ∈ c.proposers := by
          intro a
          rw [newSet_addresses _ ps h1 a, List.map_map]
          simp
        refine ⟨(hm _).mp (List.mem_map.mpr ⟨p, hpm, rfl⟩), ?_⟩
        intro b hb
        obtain ⟨x, hx, he⟩ := List.mem_map.mp ((hm b).mpr hb)
        rw [← he]; exact hpl x hx
      simp only [h1, hp]
      rw [sorted_find set hs v hv p.address (least_unique hleast hadd)]
  simp only [selectProposer, hsel]
  rw [sorted_find set hs v hv _ rfl]

/-- F81.  The selector that a node uses does not look at the round: as long as a height
lasts the same one proposes, so if that one fails no round gets a proposal. -/
theorem C98_rotation_violated (ch : Chain S K) (latest : Option S) (draw : Nat → K) (c : Config) (set : List (Validator K))
    (height r r' : Nat) :
    selectProposer (selectL2 ch latest draw c) set height (some r) =
      selectProposer (selectL2 ch latest draw c) set height (some r') := rfl

example : selectProposer (selectL2 (S := Unit) ⟨true, fun _ _ => .err, fun _ _ => .err, exKey⟩ none id ⟨5, [7, 3], [7, 3]⟩)
    [⟨3, 3, 1⟩, ⟨5, 5, 1⟩, ⟨7, 7, 1⟩] 8 (some 1000) = .ok ⟨3, 3, 1⟩ := by decide

/-- F82.  Which of the listed proposers it is depends on neither the order in which they are
configured nor, below, the priority that the contract gives them: it is the one with the
least address. -/
theorem C98_order_violated (ch : Chain S K) (latest : Option S) (draw : Nat → K) (c c' : Config)
    (hc : ∀ a, a ∈ c.proposers ↔ a ∈ c'.proposers) (set : List (Validator K)) (hs : Sorted set) (height r : Nat)
    (v : Validator K) (hv : v ∈ set) (hleast : Least c.proposers v.address) :
    selectProposer (selectL2 ch latest draw c) set height (some r) = .ok v ∧
    selectProposer (selectL2 ch latest draw c') set height (some r) = .ok v := by
  refine ⟨C98_proposer_partial ch latest draw c set hs height r v hv hleast,
    C98_proposer_partial ch latest draw c' set hs height r v hv ?_⟩
  exact ⟨(hc _).mp hleast.1, fun b hb => hleast.2 b ((hc b).mpr hb)⟩

theorem C98_priority_violated (ch : Chain S K) (hk : ch.known = true) (s : S) (draw : Nat → K) (c : Config)
    (hc : c.proposers = []) (height r : Nat) (l : List Entry) (ps : List (Validator K)) (hr : Reads ch.toKey l ps)
    (hn : ∀ e ∈ l, e.number < 2 ^ 64) (hl : l.length * 3 < 2 ^ 64) (he : ch.proposers s height = .ok (encode l))
    (set : List (Validator K)) (hs : Sorted set) (v : Validator K) (hv : v ∈ set)
    (hleast : Least (l.map (·.address)) v.address) :
    selectProposer (selectL2 ch (some s) draw c) set height (some r) = .ok v := by
  have hlne : l ≠ [] := by
    intro e
    rw [e] at hleast
    exact absurd hleast.1 (by simp)
  have hp := ((C98_contract_partial ch.toKey l hn hl).1 ps).mpr ⟨hlne, hr⟩
  have hadd : ps.map (·.address) = l.map (·.address) := by
    clear hp he hn hl hleast hlne
    induction hr with
    | nil => rfl
    | cons _ _ ih => simp [ih]
  have hsel : selectL2 ch (some s) draw c set height r = .ok v := by
    simp only [selectL2, fetchProposers, hc, List.isEmpty_nil, if_true, fetchAt, hk, he, Out.bind, hp]
    rcases newSet_spec ps with ⟨h1, _⟩ | ⟨_, qs, h1, h2, h3, _⟩
    · rw [h1] at hadd
      exact absurd (List.map_eq_nil_iff.mp hadd.symm) hlne
    · obtain ⟨p, hp, hpm, hpl⟩ := sorted_head qs h2 h3
      have hle : Least (l.map (·.address)) p.address := by
        have hm := newSet_addresses ps qs h1
        rw [hadd] at hm
        refine ⟨(hm _).mp (List.mem_map.mpr ⟨p, hpm, rfl⟩), ?_⟩
        intro b hb
        obtain ⟨x, hx, he⟩ := List.mem_map.mp ((hm b).mpr hb)
        rw [← he]; exact hpl x hx
      simp only [h1, hp]
      rw [sorted_find set hs v hv p.address (least_unique hleast hle)]
  simp only [selectProposer, hsel]
  rw [sorted_find set hs v hv _ rfl]

example : selectProposer (selectL2 (S := Unit) ⟨true, fun _ _ => .err, fun _ _ => .ok (encode [⟨7, 1, 1000⟩, ⟨3, 2, 1⟩]), exKey⟩
    (some ()) id ⟨5, [7, 3], []⟩) [⟨3, 3, 1⟩, ⟨5, 5, 1⟩, ⟨7, 7, 1⟩] 8 (some 0) = .ok ⟨3, 3, 1⟩ ∧
    selectProposer (selectL2 (S := Unit) ⟨true, fun _ _ => .err, fun _ _ => .ok (encode [⟨7, 1, 1⟩, ⟨3, 2, 1000⟩]), exKey⟩
    (some ()) id ⟨5, [7, 3], []⟩) [⟨3, 3, 1⟩, ⟨5, 5, 1⟩, ⟨7, 7, 1⟩] 8 (some 0) = .ok ⟨3, 3, 1⟩ ∧
    Least ([(⟨7, 1, 1000⟩ : Entry), ⟨3, 2, 1⟩].map (·.address)) 3 :=
  ⟨by decide, by decide, by decide, by decide⟩

/-- F84.  Addresses with which a node starts can still make every selection of a proposer
panic: it is not checked that a proposer votes.  So does a contract call that fails. -/
theorem C98_panic_violated (ch : Chain S K) (latest : Option S) (draw : Nat → K) (c : Config) (set : List (Validator K))
    (height : Nat) (round : Option Nat) :
    ((∃ a, Least c.proposers a ∧ ∀ v ∈ set, v.address ≠ a) →
      selectProposer (selectL2 ch latest draw c) set height round = .panic) ∧
    (c.proposers = [] → (latest = none ∨ ch.known = false ∨ ∃ s, latest = some s ∧ ch.proposers s height = .err) →
      selectProposer (selectL2 ch latest draw c) set height round = .panic) := by
  constructor
  · rintro ⟨a, hleast, hno⟩
    cases round with
    | none => rfl
    | some r =>
      have hne : c.proposers.isEmpty = false := by
        cases hp : c.proposers with
        | nil => rw [hp] at hleast; exact absurd hleast.1 (by simp)
        | cons a as => rfl
      have hsel : selectL2 ch latest draw c set height r = .panic := by
        simp only [selectL2, fetchProposers, hne, Bool.false_eq_true, if_false]
        rcases newSet_spec (c.proposers.map (fun a => (⟨a, draw a, 1⟩ : Validator K))) with ⟨h1, _⟩ | ⟨_, ps, h1, h2, h3, _⟩
        · simp only [List.map_eq_nil_iff] at h1
          simp [h1] at hne
        · obtain ⟨p, hp, hpm, hpl⟩ := sorted_head ps h2 h3
          have hadd : Least c.proposers p.address := by
            have hm : ∀ a, a ∈ ps.map (·.address) ↔ a ∈ c.proposers := by
              intro a
              rw [newSet_addresses _ ps h1 a, List.map_map]
              simp
            refine ⟨(hm _).mp (List.mem_map.mpr ⟨p, hpm, rfl⟩), ?_⟩
            intro b hb
            obtain ⟨x, hx, he⟩ := List.mem_map.mp ((hm b).mpr hb)
            rw [← he]; exact hpl x hx
          simp only [h1, hp]
          have : set.find? (fun v => decide (v.address = p.address)) = none := by
            rw [List.find?_eq_none]
            intro v hv
            rw [← least_unique hleast hadd]
            simpa using hno v hv
          rw [this]
      simp only [selectProposer, hsel]
  · intro hc h
    cases round with
    | none => rfl
    | some r =>
      have hsel : selectL2 ch latest draw c set height r = .panic := by
        simp only [selectL2, fetchProposers, hc, List.isEmpty_nil, if_true, fetchAt]
        rcases h with h | h | ⟨s, h, he⟩
        · simp [h, Out.bind]
        · cases latest <;> simp [h, Out.bind]
        · cases hk : ch.known <;> simp [h, he, Out.bind]
      simp only [selectProposer, hsel]

example : accepted ⟨5, [7, 3], [1, 7]⟩ = true ∧ Least (Config.mk 5 [7, 3] [1, 7]).proposers 1 ∧
    ∀ v ∈ [(⟨3, 3, 1⟩ : Validator Nat), ⟨5, 5, 1⟩, ⟨7, 7, 1⟩], v.address ≠ 1 :=
  ⟨by decide, ⟨by decide, by decide⟩, by decide⟩

/-- F85.  Who proposes at a height is asked of the state of the node's own latest block: if
the contract's answer has changed in between, two nodes differ, although they agree on the
validators and on every block that both have. -/
theorem C98_latest_violated : ∃ (ch : Chain (List Entry) Nat) (c : Config) (s s' : List Entry) (set : List (Validator Nat))
    (v v' : Validator Nat), accepted c = true ∧ Sorted set ∧ (∀ a, (∃ v ∈ set, v.address = a) ↔ Votes c a) ∧
      selectProposer (selectL2 ch (some s) id c) set 8 (some 0) = .ok v ∧
      selectProposer (selectL2 ch (some s') id c) set 8 (some 0) = .ok v' ∧ v ≠ v' := by
  refine ⟨⟨true, fun s _ => .ok (encode s), fun s _ => .ok (encode s), exKey⟩, ⟨5, [7, 3], []⟩, [⟨5, 1, 1⟩], [⟨7, 1, 1⟩],
    [⟨3, 3, 1⟩, ⟨5, 5, 1⟩, ⟨7, 7, 1⟩], ⟨5, 5, 1⟩, ⟨7, 7, 1⟩, by decide, ⟨by decide, by decide, by decide, trivial⟩, ?_,
    by decide, by decide, by decide⟩
  intro a
  simp only [Votes, List.mem_cons, List.not_mem_nil, or_false]
  constructor
  · rintro ⟨v, h | h | h, e⟩ <;> subst h <;> simp only at e <;> omega
  · intro h
    have : a = 3 ∨ a = 5 ∨ a = 7 := by omega
    rcases this with rfl | rfl | rfl
    · exact ⟨_, Or.inl rfl, rfl⟩
    · exact ⟨_, Or.inr (Or.inl rfl), rfl⟩
    · exact ⟨_, Or.inr (Or.inr rfl), rfl⟩

end Verif.Vals
