import Verif.Cons.Stream
/-! # C56 and C57: proposal streams -/
namespace Verif.Cons

variable {T : Type}

/-! ### One incoming stream -/

/-- Messages into one stream: the state and the parts delivered. -/
def Incoming.run (s : Incoming T) : List (Msg T) → Incoming T × List T
  | [] => (s, [])
  | m :: ms => let r := s.receive m; let r' := r.1.run ms; (r'.1, r.2 ++ r'.2)

theorem lookup_none_iff' {l : List (Nat × T)} {k : Nat} : l.lookup k = none ↔ ∀ p ∈ l, p.1 ≠ k := by
  rw [List.lookup_eq_none_iff]
  constructor
  · intro h p hp e
    exact absurd (h p hp) (by simp [e])
  · intro h p hp
    exact bne_iff_ne.2 (Ne.symm (h p hp))

theorem mem_of_lookup' {l : List (Nat × T)} {k : Nat} {v : T} (h : l.lookup k = some v) : (k, v) ∈ l := by
  induction l with
  | nil => cases h
  | cons p l ih =>
    obtain ⟨a, b⟩ := p
    rw [List.lookup_cons] at h
    by_cases hk : k = a
    · subst hk
      rw [beq_self_eq_true] at h
      cases h
      exact List.mem_cons_self
    · rw [beq_eq_false_iff_ne.2 hk] at h
      exact List.mem_cons_of_mem _ (ih h)

/-- What draining does. -/
theorem drain_spec (next : Nat) (buf : List (Nat × T)) (c : Nat → T) (hc : ∀ p ∈ buf, p.2 = c p.1) :
    next ≤ (drain next buf).1 ∧
    (drain next buf).2.2 = (List.range' next ((drain next buf).1 - next)).map c ∧
    (∀ p, p ∈ (drain next buf).2.1 ↔ p ∈ buf ∧ ¬ (next ≤ p.1 ∧ p.1 < (drain next buf).1)) ∧
    (∀ i, next ≤ i → i < (drain next buf).1 → ∃ p ∈ buf, p.1 = i) ∧
    (∀ p ∈ (drain next buf).2.1, p.1 ≠ (drain next buf).1) := by
  fun_induction drain next buf with
  | case1 next buf h =>
    rw [lookup_none_iff'] at h
    refine ⟨Nat.le_refl _, by simp, fun p => ⟨fun hp => ⟨hp, by omega⟩, fun hp => hp.1⟩, fun i h1 h2 => by omega, h⟩
  | case2 next buf t h r ih =>
    change _ → next + 1 ≤ r.1 ∧ r.2.2 = _ ∧ (∀ p, p ∈ r.2.1 ↔ _ ∧ ¬ (_ ∧ _ < r.1)) ∧ (∀ i, _ → i < r.1 → _) ∧ _ at ih
    obtain ⟨i1, i2, i3, i4, i5⟩ := ih fun p hp => hc p (List.mem_filter.1 hp).1
    have ht := mem_of_lookup' h
    have htc : t = c next := hc _ ht
    dsimp only
    refine ⟨by omega, ?_, fun p => ?_, fun i h1 h2 => ?_, i5⟩
    · show t :: r.2.2 = _
      rw [i2, show r.1 - next = (r.1 - (next + 1)) + 1 by omega, List.range'_succ, List.map_cons, htc]
    · rw [i3, removeId, List.mem_filter]
      constructor
      · rintro ⟨⟨hp, hne⟩, h2⟩
        have hne := bne_iff_ne.1 hne
        exact ⟨hp, by omega⟩
      · rintro ⟨hp, h2⟩
        exact ⟨⟨hp, bne_iff_ne.2 (by omega)⟩, by omega⟩
    · by_cases hi : i = next
      · exact ⟨_, ht, hi.symm⟩
      · obtain ⟨p, hp, hpi⟩ := i4 i (by omega) h2
        exact ⟨p, (List.mem_filter.1 hp).1, hpi⟩

/-- The state after some messages, told by the messages. -/
structure Received (c : Nat → T) (ms : List (Msg T)) (s : Incoming T) (out : List T) : Prop where
  out_eq : out = (List.range s.next).map c
  got : ∀ i < s.next, ⟨i, .content (c i)⟩ ∈ ms
  buf : ∀ p ∈ s.buf, p.2 = c p.1 ∧ ⟨p.1, .content p.2⟩ ∈ ms
  fin : ∀ f, s.fin = some f → ⟨f, .fin⟩ ∈ ms
  stuck : ∀ p ∈ s.buf, p.1 ≠ s.next
  kept : ∀ i, ⟨i, .content (c i)⟩ ∈ ms → i < s.next ∨ (∃ p ∈ s.buf, p.1 = i) ∨ ∃ f, ⟨f, .fin⟩ ∈ ms ∧ f ≤ i

theorem Received.step {c : Nat → T} {ms : List (Msg T)} {s : Incoming T} {out : List T} (I : Received c ms s out) (m : Msg T)
    (hm : ∀ t, m.body = .content t → t = c m.id) : Received c (ms ++ [m]) (s.receive m).1 (out ++ (s.receive m).2) := by
  obtain ⟨id, body⟩ := m
  have old : ∀ {x : Msg T}, x ∈ ms → x ∈ ms ++ [⟨id, body⟩] := fun h => List.mem_append_left _ h
  have new : (⟨id, body⟩ : Msg T) ∈ ms ++ [⟨id, body⟩] := List.mem_append_right _ List.mem_cons_self
  unfold Incoming.receive
  dsimp only at hm ⊢
  split
  · rename_i hf
    obtain ⟨f, hf, hle⟩ := (Option.any_eq_true _ _).1 hf
    have hle : f ≤ id := of_decide_eq_true hle
    rw [List.append_nil]
    refine ⟨I.out_eq, fun i h => old (I.got i h), fun p hp => ⟨(I.buf p hp).1, old (I.buf p hp).2⟩, fun f h => old (I.fin f h),
      I.stuck, fun i hi => ?_⟩
    rcases List.mem_append.1 hi with hi | hi
    · rcases I.kept i hi with h | h | ⟨f, h, h'⟩
      · exact .inl h
      · exact .inr (.inl h)
      · exact .inr (.inr ⟨f, old h, h'⟩)
    · have hi := List.mem_singleton.1 hi
      simp only [Msg.mk.injEq] at hi
      exact .inr (.inr ⟨f, old (I.fin f hf), by omega⟩)
  · rename_i hnf
    cases body with
    | fin =>
      dsimp only
      rw [List.append_nil]
      refine ⟨I.out_eq, fun i h => old (I.got i h), fun p hp => ?_, fun f h => ?_, fun p hp => ?_, fun i hi => ?_⟩
      · have := I.buf p (List.mem_filter.1 hp).1
        exact ⟨this.1, old this.2⟩
      · cases h; exact new
      · exact I.stuck p (List.mem_filter.1 hp).1
      · rcases List.mem_append.1 hi with hi | hi
        · rcases I.kept i hi with h | ⟨p, hp, h⟩ | ⟨f, h, h'⟩
          · exact .inl h
          · by_cases hlt : p.1 < id
            · exact .inr (.inl ⟨p, List.mem_filter.2 ⟨hp, decide_eq_true hlt⟩, h⟩)
            · exact .inr (.inr ⟨id, new, by omega⟩)
          · exact .inr (.inr ⟨f, old h, h'⟩)
        · have hi := List.mem_singleton.1 hi
          simp only [Msg.mk.injEq] at hi
          cases hi.2
    | content t =>
      have ht := hm t rfl
      subst ht
      dsimp only
      split
      · rename_i hne
        rw [List.append_nil]
        refine ⟨I.out_eq, fun i h => old (I.got i h), fun p hp => ?_, fun f h => old (I.fin f h), fun p hp => ?_, fun i hi => ?_⟩
        · rcases List.mem_cons.1 hp with rfl | hp
          · exact ⟨rfl, new⟩
          · have := I.buf p (List.mem_filter.1 hp).1
            exact ⟨this.1, old this.2⟩
        · rcases List.mem_cons.1 hp with rfl | hp
          · exact hne
          · exact I.stuck p (List.mem_filter.1 hp).1
        · by_cases hid : i = id
          · exact .inr (.inl ⟨_, List.mem_cons_self, hid.symm⟩)
          rcases List.mem_append.1 hi with hi | hi
          · rcases I.kept i hi with h | ⟨p, hp, h⟩ | ⟨f, h, h'⟩
            · exact .inl h
            · exact .inr (.inl ⟨p, List.mem_cons_of_mem _ (List.mem_filter.2 ⟨hp, bne_iff_ne.2 (by omega)⟩), h⟩)
            · exact .inr (.inr ⟨f, old h, h'⟩)
          · have hi := List.mem_singleton.1 hi
            simp only [Msg.mk.injEq] at hi
            exact absurd hi.1 hid
      · rename_i heq
        have heq : id = s.next := Decidable.not_not.1 heq
        subst heq
        obtain ⟨d1, d2, d3, d4, d5⟩ := drain_spec (s.next + 1) s.buf c fun p hp => (I.buf p hp).1
        refine ⟨?_, fun i h => ?_, fun p hp => ?_, fun f h => old (I.fin f h), d5, fun i hi => ?_⟩
        · dsimp only
          rw [I.out_eq, d2, List.range_eq_range', List.range_eq_range']
          have : (drain (s.next + 1) s.buf).1 = s.next + (1 + ((drain (s.next + 1) s.buf).1 - (s.next + 1))) := by omega
          conv => rhs; rw [this]
          rw [← List.range'_append_1, List.map_append, ← List.range'_append_1 (m := 1), List.map_append]
          simp
        · by_cases h1 : i < s.next
          · exact old (I.got i h1)
          by_cases h2 : i = s.next
          · subst h2; exact new
          · obtain ⟨p, hp, hpi⟩ := d4 i (by omega) h
            have := I.buf p hp
            rw [this.1, hpi] at this
            exact old this.2
        · have := I.buf p ((d3 p).1 hp).1
          exact ⟨this.1, old this.2⟩
        · rcases List.mem_append.1 hi with hi | hi
          · rcases I.kept i hi with h | ⟨p, hp, h⟩ | ⟨f, h, h'⟩
            · exact .inl (by dsimp only; omega)
            · by_cases hlt : s.next + 1 ≤ p.1 ∧ p.1 < (drain (s.next + 1) s.buf).1
              · exact .inl (by dsimp only; omega)
              · exact .inr (.inl ⟨p, (d3 p).2 ⟨hp, hlt⟩, h⟩)
            · exact .inr (.inr ⟨f, old h, h'⟩)
          · have hi := List.mem_singleton.1 hi
            simp only [Msg.mk.injEq] at hi
            exact .inl (by dsimp only; omega)

theorem Received.run {c : Nat → T} (ms : List (Msg T)) : ∀ {pre : List (Msg T)} {s : Incoming T} {out : List T}, Received c pre s out →
    (∀ m ∈ ms, ∀ t, m.body = .content t → t = c m.id) → Received c (pre ++ ms) (s.run ms).1 (out ++ (s.run ms).2) := by
  induction ms with
  | nil => intro pre s out I _; simpa [Incoming.run] using I
  | cons m ms ih =>
    intro pre s out I hm
    have := ih (I.step m (hm m List.mem_cons_self)) fun x hx => hm x (List.mem_cons_of_mem _ hx)
    rw [List.append_assoc, List.append_assoc] at this
    exact this

/-- C56: a fresh stream into which messages arrive in any order, any number of times, delivers parts 0, 1, 2, … in order, each once, as
long as messages with the same id agree. It stops only at a part that did not arrive or lies behind an end marker. -/
theorem C56_in_order (c : Nat → T) (ms : List (Msg T)) (hm : ∀ m ∈ ms, ∀ t, m.body = .content t → t = c m.id) :
    ∃ n, (({} : Incoming T).run ms).2 = (List.range n).map c ∧ (∀ i < n, ⟨i, .content (c i)⟩ ∈ ms) ∧
      (⟨n, .content (c n)⟩ ∉ ms ∨ ∃ f, ⟨f, .fin⟩ ∈ ms ∧ f ≤ n) := by
  have I0 : Received c [] ({} : Incoming T) [] := by
    refine ⟨rfl, ?_, ?_, ?_, ?_, ?_⟩
    · exact fun i h => absurd h (Nat.not_lt_zero _)
    all_goals intros; contradiction
  have I := I0.run ms hm
  simp only [List.nil_append] at I
  refine ⟨_, I.out_eq, I.got, ?_⟩
  generalize hs : ({} : Incoming T).run ms = s at I ⊢
  by_cases hn : (⟨s.1.next, .content (c s.1.next)⟩ : Msg T) ∈ ms
  · rcases I.kept _ hn with h | ⟨p, hp, h⟩ | h
    · exact absurd h (Nat.lt_irrefl _)
    · exact absurd h (I.stuck p hp)
    · exact .inr h
  · exact .inl hn

/-! ### All streams -/

theorem lookup_setStream (st : Streams T) (k : Hnr) (s : StreamState T) (k' : Hnr) :
    (setStream st k s).lookup k' = if k' = k then some s else st.lookup k' := by
  unfold setStream
  rw [List.lookup_cons]
  by_cases h : k' = k
  · subst h; simp
  · rw [beq_eq_false_iff_ne.2 h, if_neg h]
    induction st with
    | nil => rfl
    | cons p st ih =>
      obtain ⟨a, b⟩ := p
      rw [List.filter_cons]
      by_cases ha : a = k
      · subst ha
        rw [List.lookup_cons, beq_eq_false_iff_ne.2 h]
        simpa using ih
      · have hb : (a != k) = true := bne_iff_ne.2 ha
        dsimp only
        rw [hb, if_pos rfl, List.lookup_cons, List.lookup_cons]
        cases k' == a
        · exact ih
        · rfl

/-- C56: streams do not interfere: with no outgoing stream among them, the parts delivered of a stream are those of its own messages. -/
theorem C56_isolated (ms : List (Hnr × Msg T)) : ∀ (st : Streams T), (∀ k s, st.lookup k ≠ some (.outgoing s)) →
    ∃ st' out, arrive st ms = some (st', out) ∧ ∀ k, (out.filter (·.1 == k)).map (·.2) =
      (Incoming.run (match st.lookup k with | some (.incoming s) => s | _ => {}) ((ms.filter (·.1 == k)).map (·.2))).2 := by
  induction ms with
  | nil =>
    intro st _
    exact ⟨st, [], rfl, fun k => rfl⟩
  | cons m ms ih =>
    intro st hst
    obtain ⟨k0, m⟩ := m
    obtain ⟨s, hs, hs'⟩ : ∃ s, (st.lookup k0).getD (.incoming {}) = .incoming s ∧
        s = (match st.lookup k0 with | some (.incoming s) => s | _ => {}) := by
      cases h : st.lookup k0 with
      | none => exact ⟨_, rfl, rfl⟩
      | some x =>
        cases x with
        | incoming s => exact ⟨s, rfl, rfl⟩
        | outgoing s => exact absurd h (hst k0 s)
    have hi : handleIncoming st k0 m = some (setStream st k0 (.incoming (s.receive m).1), (s.receive m).2) := by
      unfold handleIncoming
      rw [hs]
    obtain ⟨st', out, h1, h2⟩ := ih (setStream st k0 (.incoming (s.receive m).1)) (by
      intro k s' h
      rw [lookup_setStream] at h
      split at h
      · cases h
      · exact hst k s' h)
    refine ⟨st', (s.receive m).2.map (fun t => (k0, t)) ++ out, ?_, fun k => ?_⟩
    · show (handleIncoming st k0 m).bind _ = _
      rw [hi, Option.bind_some, h1]
      rfl
    · rw [List.filter_append, List.map_append, h2 k, lookup_setStream]
      by_cases hk : k = k0
      · subst hk
        have e1 : ((s.receive m).2.map (fun t => (k, t))).filter (·.1 == k) = (s.receive m).2.map (fun t => (k, t)) := by
          rw [List.filter_eq_self]
          intro a ha
          obtain ⟨t, _, rfl⟩ := List.mem_map.1 ha
          exact beq_self_eq_true k
        rw [e1, List.map_map, if_pos rfl, List.filter_cons]
        simp only [beq_self_eq_true, if_true, List.map_cons, Incoming.run, ← hs']
        congr 1
        exact List.map_id' _
      · have e1 : ((s.receive m).2.map (fun t => (k0, t))).filter (·.1 == k) = [] := by
          rw [List.filter_eq_nil_iff]
          intro a ha
          obtain ⟨t, _, rfl⟩ := List.mem_map.1 ha
          exact fun h => hk (beq_iff_eq.1 h).symm
        have e2 : (k0 == k) = false := beq_eq_false_iff_ne.2 (Ne.symm hk)
        rw [e1, if_neg hk, List.filter_cons]
        simp only [e2, Bool.false_eq_true, if_false, List.map_nil, List.nil_append]

/-! ### Sending -/

/-- The messages a proposal of `parts` (with its end part last) makes when `n` parts were sent before. -/
def wire (n : Nat) (parts : List T) : List (Msg T) :=
  parts.zipIdx.map (fun p => ⟨n + p.2, .content p.1⟩) ++ [⟨n + parts.length, .fin⟩]

theorem gossip_wire (isFin : T → Bool) (k : Hnr) (l : T) (hl : isFin l = true) (ps : List T) : ∀ (st : Streams T) (n : Nat),
    (∀ p ∈ ps, isFin p = false) →
    ((st.lookup k = none ∧ n = 0) ∨ ∃ i, st.lookup k = some (.outgoing ⟨some i⟩) ∧ n = i + 1) →
    ∃ st', gossip isFin st k (ps ++ [l]) = some (st', wire n (ps ++ [l])) ∧ st'.lookup k = some (.outgoing ⟨some (n + ps.length)⟩) := by
  have one : ∀ (st : Streams T) (n : Nat) (p : T), ((st.lookup k = none ∧ n = 0) ∨ ∃ i, st.lookup k = some (.outgoing ⟨some i⟩) ∧ n = i + 1) →
      createOutgoing isFin st k p = some (setStream st k (.outgoing ⟨some n⟩), ⟨n, .content p⟩ :: if isFin p then [⟨n + 1, .fin⟩] else []) := by
    rintro st n p (⟨h, rfl⟩ | ⟨i, h, rfl⟩) <;> simp [createOutgoing, h, Outgoing.send]
  induction ps with
  | nil =>
    intro st n _ hst
    refine ⟨setStream st k (.outgoing ⟨some n⟩), ?_, by rw [lookup_setStream, if_pos rfl]; rfl⟩
    simp [gossip, one st n l hst, hl, wire]
  | cons p ps ih =>
    intro st n hp hst
    obtain ⟨st', h1, h2⟩ := ih (setStream st k (.outgoing ⟨some n⟩)) (n + 1) (fun q hq => hp q (List.mem_cons_of_mem _ hq))
      (.inr ⟨n, by rw [lookup_setStream, if_pos rfl], rfl⟩)
    refine ⟨st', ?_, ?_⟩
    · simp only [List.cons_append, gossip, one st n p hst, hp p List.mem_cons_self, Bool.false_eq_true, if_false, Option.bind_some, h1,
        Option.map_some, Option.some.injEq, Prod.mk.injEq, true_and]
      simp only [wire, List.zipIdx_cons, List.map_cons, List.length_cons, List.cons_append, List.nil_append, Nat.add_zero, List.cons.injEq, true_and,
        Nat.zero_add]
      rw [List.zipIdx_succ, List.map_map]
      congr 1
      · refine List.map_congr_left fun q _ => ?_
        simp only [Function.comp, Msg.mk.injEq, and_true]
        omega
      · simp only [List.cons.injEq, Msg.mk.injEq, and_true]
        omega
    · rw [h2, List.length_cons]
      congr 4
      omega

theorem mem_wire_content {n : Nat} {parts : List T} {i : Nat} {t : T} :
    (⟨i, .content t⟩ : Msg T) ∈ wire n parts ↔ n ≤ i ∧ parts[i - n]? = some t := by
  unfold wire
  rw [List.mem_append]
  constructor
  · rintro (h | h)
    · obtain ⟨⟨a, j⟩, hp, he⟩ := List.mem_map.1 h
      simp only [Msg.mk.injEq, Body.content.injEq] at he
      obtain ⟨rfl, rfl⟩ := he
      rw [List.mem_zipIdx_iff_getElem?] at hp
      exact ⟨Nat.le_add_right _ _, by rw [Nat.add_sub_cancel_left]; exact hp⟩
    · simp at h
  · rintro ⟨h1, h2⟩
    refine .inl (List.mem_map.2 ⟨(t, i - n), List.mem_zipIdx_iff_getElem?.2 h2, ?_⟩)
    simp only [Msg.mk.injEq, and_true]
    omega

theorem mem_wire_fin {n : Nat} {parts : List T} {i : Nat} : (⟨i, .fin⟩ : Msg T) ∈ wire n parts ↔ i = n + parts.length := by
  unfold wire
  rw [List.mem_append]
  constructor
  · rintro (h | h)
    · obtain ⟨p, _, he⟩ := List.mem_map.1 h
      simp at he
    · simpa using h
  · rintro rfl
    exact .inr List.mem_cons_self

theorem map_range_take (parts : List T) (l : T) {n : Nat} (h : n ≤ parts.length) :
    (List.range n).map (fun i => parts[i]?.getD l) = parts.take n := by
  apply List.ext_getElem
  · simp [h]
  · intro i h1 h2
    simp only [List.length_map, List.length_range] at h1
    simp only [List.getElem_map, List.getElem_range, List.getElem_take]
    rw [List.getElem?_eq_getElem (by omega)]
    rfl

/-- C56: what one node gossips, another one puts together again: whatever order the messages of a proposal arrive in, however often each,
the receiver gets exactly the parts, in order. -/
theorem C56_reassembled (isFin : T → Bool) (k : Hnr) (ps : List T) (l : T) (hl : isFin l = true) (hp : ∀ p ∈ ps, isFin p = false) :
    ∃ st sent, gossip isFin [] k (ps ++ [l]) = some (st, sent) ∧
      ∀ ms : List (Msg T), (∀ m, m ∈ ms ↔ m ∈ sent) → (({} : Incoming T).run ms).2 = ps ++ [l] := by
  obtain ⟨st, h1, _⟩ := gossip_wire isFin k l hl ps [] 0 hp (.inl ⟨rfl, rfl⟩)
  refine ⟨st, _, h1, fun ms hms => ?_⟩
  generalize hq : ps ++ [l] = parts at *
  have cont : ∀ {i t}, (⟨i, .content t⟩ : Msg T) ∈ ms → parts[i]? = some t := fun h => (mem_wire_content.1 ((hms _).1 h)).2
  obtain ⟨n, e, h2, h3⟩ := C56_in_order (fun i => parts[i]?.getD l) ms (by
    rintro ⟨i, b⟩ hm t rfl
    show t = parts[i]?.getD l
    rw [cont hm]
    rfl)
  have hle : n ≤ parts.length := by
    rcases Nat.eq_zero_or_pos n with rfl | h
    · omega
    · have := cont (h2 (n - 1) (by omega))
      have := (List.getElem?_eq_some_iff.1 this).1
      omega
  have hn : n = parts.length := by
    rcases Nat.lt_or_ge n parts.length with hlt | hge
    · rcases h3 with h3 | ⟨f, hf, hfn⟩
      · refine absurd ((hms _).2 (mem_wire_content.2 ⟨Nat.zero_le _, ?_⟩)) h3
        rw [Nat.sub_zero, List.getElem?_eq_getElem hlt]
        rfl
      · have := mem_wire_fin.1 ((hms _).1 hf)
        omega
    · omega
  rw [e, hn, map_range_take _ _ (Nat.le_refl _), List.take_length]

theorem zipIdx_take' (l : List T) (j : Nat) : l.zipIdx.take j = (l.take j).zipIdx := by
  apply List.ext_getElem?
  intro i
  rw [List.getElem?_take, List.getElem?_zipIdx, List.getElem?_zipIdx, List.getElem?_take]
  split <;> rfl

/-- C57 is violated for every proposal: if publishing fails before the last part is out, the retry numbers its messages after those of the
first attempt, so a receiver that gets everything published never gets more than what the first attempt published. -/
theorem C57_retry_violated (isFin : T → Bool) (k : Hnr) (ps : List T) (l : T) (hl : isFin l = true) (hp : ∀ p ∈ ps, isFin p = false)
    (j : Nat) (hj : j ≤ ps.length) :
    ∃ st sent st' sent', gossip isFin [] k (ps ++ [l]) = some (st, sent) ∧ gossip isFin st k (ps ++ [l]) = some (st', sent') ∧
      ∀ ms : List (Msg T), (∀ m, m ∈ ms ↔ m ∈ sent.take j ∨ m ∈ sent') →
        (({} : Incoming T).run ms).2 = (ps ++ [l]).take j ∧ (({} : Incoming T).run ms).2 ≠ ps ++ [l] := by
  obtain ⟨st, h1, hst⟩ := gossip_wire isFin k l hl ps [] 0 hp (.inl ⟨rfl, rfl⟩)
  obtain ⟨st', h1', _⟩ := gossip_wire isFin k l hl ps st (ps.length + 1) hp (.inr ⟨ps.length, by rw [hst, Nat.zero_add], rfl⟩)
  refine ⟨st, _, st', _, h1, h1', fun ms hms => ?_⟩
  have hlen : (ps ++ [l]).length = ps.length + 1 := by simp
  generalize hq : ps ++ [l] = parts at *
  have htake : (wire 0 parts).take j = ((parts.take j).zipIdx.map fun p => (⟨0 + p.2, .content p.1⟩ : Msg T)) := by
    unfold wire
    rw [List.take_append_of_le_length (by simp only [List.length_map, List.length_zipIdx]; omega), ← List.map_take, zipIdx_take']
  have cont : ∀ {i t}, (⟨i, .content t⟩ : Msg T) ∈ ms ↔ (i < j ∧ parts[i]? = some t) ∨
      (ps.length + 1 ≤ i ∧ parts[i - (ps.length + 1)]? = some t) := by
    intro i t
    rw [hms, mem_wire_content, htake]
    refine or_congr_left ?_
    rw [List.mem_map]
    constructor
    · rintro ⟨⟨a, b⟩, hm, he⟩
      rw [List.mem_zipIdx_iff_getElem?] at hm
      simp only [Msg.mk.injEq, Body.content.injEq, Nat.zero_add] at he
      obtain ⟨rfl, rfl⟩ := he
      rw [List.getElem?_take] at hm
      split at hm
      · exact ⟨by assumption, hm⟩
      · cases hm
    · rintro ⟨hlt, h⟩
      refine ⟨(t, i), List.mem_zipIdx_iff_getElem?.2 ?_, by simp⟩
      rw [List.getElem?_take, if_pos hlt]
      exact h
  obtain ⟨n, e, h2, h3⟩ := C56_in_order (fun i => if i < ps.length + 1 then parts[i]?.getD l else parts[i - (ps.length + 1)]?.getD l) ms (by
    rintro ⟨i, b⟩ hm t rfl
    dsimp only
    rcases cont.1 hm with ⟨h, h'⟩ | ⟨h, h'⟩
    · rw [if_pos (by omega), h']; rfl
    · rw [if_neg (by omega), h']; rfl)
  have hle : n ≤ j := by
    rcases Nat.lt_or_ge j n with hlt | hge
    · rcases cont.1 (h2 j hlt) with h | h
      · exact absurd h.1 (Nat.lt_irrefl _)
      · omega
    · exact hge
  have hge : j ≤ n := by
    rcases Nat.lt_or_ge n j with hlt | hge
    · rcases h3 with h3 | ⟨f, hf, hfn⟩
      · refine absurd (cont.2 (.inl ⟨hlt, ?_⟩)) h3
        rw [if_pos (by omega), List.getElem?_eq_getElem (by omega)]
        rfl
      · rcases (hms _).1 hf with hf | hf
        · rw [htake] at hf
          obtain ⟨p, _, he⟩ := List.mem_map.1 hf
          simp at he
        · have := mem_wire_fin.1 hf
          omega
    · exact hge
  have hnj : n = j := by omega
  subst hnj
  have e' : (({} : Incoming T).run ms).2 = parts.take n := by
    rw [e, ← map_range_take parts l (by omega)]
    refine List.map_congr_left fun i hi => ?_
    have := List.mem_range.1 hi
    rw [if_pos (by omega)]
  refine ⟨e', ?_⟩
  rw [e']
  intro h
  have := congrArg List.length h
  rw [List.length_take] at this
  omega

/-- C57: a retry after a complete attempt changes nothing: every message of it is thrown away once the end marker is known. -/
theorem C57_duplicate (s : Incoming T) (f : Nat) (hf : s.fin = some f) (ms : List (Msg T)) (hm : ∀ m ∈ ms, f ≤ m.id) :
    s.run ms = (s, []) := by
  induction ms with
  | nil => rfl
  | cons m ms ih =>
    have h1 : s.receive m = (s, []) := by
      unfold Incoming.receive
      rw [hf]
      exact if_pos (decide_eq_true (hm m List.mem_cons_self))
    unfold Incoming.run
    dsimp only
    rw [h1]
    dsimp only
    rw [ih fun x hx => hm x (List.mem_cons_of_mem _ hx)]
    rfl

/-- C56 is violated when two peers write into one stream: one message of another peer, sent first, replaces a part of the proposal. -/
theorem C56_mixed_violated : ∃ (forged : Msg Nat) (sent : List (Msg Nat)), gossip (· == 9) [] (1, 0) [5, 6, 9] = some ([((1, 0), .outgoing ⟨some 2⟩)], sent) ∧
    (({} : Incoming Nat).run (forged :: sent)).2 = [7, 6, 9] :=
  ⟨⟨0, .content 7⟩, _, rfl, by decide +kernel⟩

/-- C60 is violated: any message of a peer for a height and round at which this node proposes makes it panic, before or after it proposes. -/
theorem C60_stream_violated (isFin : T → Bool) (k : Hnr) (p : T) (m : Msg T) (st : Streams T) (hst : st.lookup k = none) :
    (∃ st1 out, handleIncoming st k m = some (st1, out) ∧ createOutgoing isFin st1 k p = none) ∧
    (∃ st1 out, createOutgoing isFin st k p = some (st1, out) ∧ handleIncoming st1 k m = none) := by
  constructor
  · refine ⟨_, _, by unfold handleIncoming; rw [hst]; rfl, ?_⟩
    unfold createOutgoing
    rw [lookup_setStream, if_pos rfl]
    rfl
  · refine ⟨_, _, by unfold createOutgoing; rw [hst]; rfl, ?_⟩
    unfold handleIncoming
    rw [lookup_setStream, if_pos rfl]
    rfl

/-- C60: no other message into a stream panics. -/
theorem C60_stream_partial (st : Streams T) (k : Hnr) (m : Msg T) : handleIncoming st k m = none ↔ ∃ s, st.lookup k = some (.outgoing s) := by
  unfold handleIncoming
  cases h : st.lookup k with
  | none => simp
  | some x => cases x <;> simp

/-! ### Examples -/

example : ∃ st sent, gossip (· == 9) [] (1, 0) [5, 6, 9] = some (st, sent) ∧
    sent = [⟨0, .content 5⟩, ⟨1, .content 6⟩, ⟨2, .content 9⟩, ⟨3, .fin⟩] :=
  ⟨_, _, rfl, rfl⟩

example : (({} : Incoming Nat).run [⟨3, .fin⟩, ⟨2, .content 9⟩, ⟨0, .content 5⟩, ⟨0, .content 5⟩, ⟨1, .content 6⟩]).2 = [5, 6, 9] := by
  decide +kernel

end Verif.Cons
