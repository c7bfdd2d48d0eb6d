import Verif.Subs.StatusLemmas

/-!
# C83: what the transaction status subscription sends
-/

namespace Verif.Subs.Status

/-- **Statuses progress.**  Of two statuses that the client gets with no reorg notice between them, the later one is
further along: received, candidate, pre-confirmed, accepted on L2, accepted on L1, rejected.  In particular none comes
twice. -/
theorem C83_progress (s0 s : Sys) (acts : List Act) (h0 : Fresh s0) (h : run s0 acts = some s) (a b c : List Out) (r q : Report)
    (he : s.out = a ++ .status r :: b ++ .status q :: c) (hb : ∀ k, Out.reorg k ∉ b) : r.fin.num < q.fin.num := by
  have hm : Mono s := run_induct (P := fun _ s => Mono s) (s0 := s0)
    ⟨fun a r b e => by rw [h0.2.2.2.2.1] at e; simp at e, fun a r b q c e => by rw [h0.2.2.2.2.1] at e; simp at e⟩
    (fun _ _ _ _ _ hst hm => mono_grow (grow_step hst) hm) acts s h
  exact hm.prog a r b q c he hb

/-- **Statuses are true.**  Every status that the client gets was so at some point up to then: a candidate or pre-confirmed
one was in the pending data; one accepted on L2 was in the chain, in the block and with the execution status reported; one
accepted on L1 had been in the chain at or below the block that L1 had reached, or had been pre-confirmed with that
number. -/
theorem C83_founded (s0 s : Sys) (acts : List Act) (h0 : Fresh s0) (hp : PreOk s0.pre) (ha : ∀ a ∈ acts, a.preOk)
    (h : run s0 acts = some s) (r : Report) (hr : Out.status r ∈ s.out) :
    match r.fin with
    | .received | .rejected => r.exec = none
    | .candidate => r.exec = none ∧ ∃ as, as <+: acts ∧ ∃ u, run s0 as = some u ∧ u.pre = some r
    | .preConfirmed => ∃ as, as <+: acts ∧ ∃ u, run s0 as = some u ∧ u.pre = some r
    | .acceptedOnL2 => ∃ e, r.exec = some e ∧ ∃ as, as <+: acts ∧ ∃ u, run s0 as = some u ∧ u.chain[r.number]? = some (some e)
    | .acceptedOnL1 => ∃ e n, r.exec = some e ∧ n ≤ r.number ∧
        (∃ as, as <+: acts ∧ ∃ u, run s0 as = some u ∧ u.l1 = some r.number) ∧
        ((∃ as, as <+: acts ∧ ∃ u, run s0 as = some u ∧ u.chain[n]? = some (some e)) ∨
          ∃ as, as <+: acts ∧ ∃ u, run s0 as = some u ∧ u.pre = some ⟨n, .preConfirmed, some e⟩) :=
  (finv_run h0 hp acts s ha h).out r hr

/-- **Accepted on L1 is true if the transaction was never seen pre-confirmed.** -/
theorem C83_l1_partial (s0 s : Sys) (acts : List Act) (h0 : Fresh s0) (hp : PreOk s0.pre) (ha : ∀ a ∈ acts, a.preOk)
    (hn : ∀ as u r, as <+: acts → run s0 as = some u → u.pre = some r → r.fin ≠ .preConfirmed)
    (h : run s0 acts = some s) (r : Report) (hr : Out.status r ∈ s.out) (hf : r.fin = .acceptedOnL1) :
    ∃ e n, r.exec = some e ∧ n ≤ r.number ∧ (∃ as, as <+: acts ∧ ∃ u, run s0 as = some u ∧ u.l1 = some r.number) ∧
      ∃ as, as <+: acts ∧ ∃ u, run s0 as = some u ∧ u.chain[n]? = some (some e) := by
  have k := C83_founded s0 s acts h0 hp ha h r hr
  simp only [hf] at k
  obtain ⟨e, n, h1, h2, h3, h4⟩ := k
  refine ⟨e, n, h1, h2, h3, ?_⟩
  rcases h4 with h4 | ⟨as, h5, u, h6, h7⟩
  · exact h4
  · exact absurd rfl (hn as u _ h5 h6 h7)

/-- A world with one block on its chain, a subscription, and nothing known of the transaction. -/
def start (chain : List (Option Nat)) (l1 : Option Nat) (submitted : Option Nat) : Sys :=
  { chain := chain, l1 := l1, pre := none, submitted := submitted, pending := none, phase := .readDb, blocks := [], reorgs := [], last := none, out := [] }

theorem start_fresh (chain : List (Option Nat)) (l1 submitted : Option Nat) : Fresh (start chain l1 submitted) :=
  ⟨rfl, rfl, rfl, rfl, rfl, Or.inl rfl⟩

/-- All statuses in turn, then a reorg that takes the transaction back and a second inclusion. -/
example : ∃ s, run (start [none] none (some 0))
    [.readDb, .readPending, .openBlocks, .openReorgs, .setPre (some ⟨1, .candidate, none⟩), .takePending,
      .setPre (some ⟨1, .preConfirmed, some 7⟩), .takePending, .setPre none, .commit (some 7), .announce, .takeBlock,
      .commit none, .setL1 1, .announce, .takeBlock, .reorg 1, .announce, .takeReorg, .readDb, .readPending, .openBlocks,
      .openReorgs, .commit (some 8), .announce, .takeBlock] = some s ∧
    s.out = [.status ⟨0, .received, none⟩, .status ⟨1, .candidate, none⟩, .status ⟨1, .preConfirmed, some 7⟩,
      .status ⟨1, .acceptedOnL2, some 7⟩, .status ⟨1, .acceptedOnL1, some 7⟩, .reorg 1, .status ⟨0, .received, none⟩,
      .status ⟨1, .acceptedOnL2, some 8⟩, .status ⟨1, .acceptedOnL1, some 8⟩] := ⟨_, rfl, rfl⟩

/-- **A transaction that no block ever had can be reported as accepted on L1.**  It was pre-confirmed for block 1, then
dropped; blocks without it were accepted on L2 and L1. -/
theorem C83_l1_violated (e : Nat) : ∃ acts s, (∀ a ∈ acts, a.preOk) ∧ run (start [none] none none) acts = some s ∧
    Out.status ⟨1, .acceptedOnL1, some e⟩ ∈ s.out ∧
    ∀ as u, as <+: acts → run (start [none] none none) as = some u → ∀ n x : Nat, u.chain[n]? ≠ some (some x) := by
  let acts : List Act := [.setPre (some ⟨1, .preConfirmed, some e⟩), .readDb, .readPending, .openBlocks, .openReorgs, .setPre none,
    .commit none, .announce, .setL1 1, .takeBlock]
  refine ⟨acts, _, ?_, rfl, List.mem_append_right _ List.mem_cons_self, ?_⟩
  · intro a ha
    simp only [acts, List.mem_cons, List.not_mem_nil, or_false] at ha
    rcases ha with h | h | h | h | h | h | h | h | h | h <;> subst h <;> simp [Act.preOk, PreOk]
  · have key : ∀ (as : List Act) (u : Sys), run (start [none] none none) as = some u → as <+: acts → ∀ x ∈ u.chain, x = none := by
      refine run_induct (P := fun as u => as <+: acts → ∀ x ∈ u.chain, x = none) (fun _ x hx => List.mem_singleton.1 hx) ?_
      intro as a s t _ hst ih hpre x hx
      have hmem : a ∈ acts := hpre.subset (List.mem_append_right _ List.mem_cons_self)
      have ih' := ih ((List.prefix_append _ _).trans hpre)
      have hc : t.chain = s.chain ∨ t.chain = s.chain ++ [none] := by
        simp only [acts, List.mem_cons, List.not_mem_nil, or_false] at hmem
        rcases hmem with h | h | h | h | h | h | h | h | h | h <;> subst h <;> simp only [step] at hst
        · cases hst; exact Or.inl rfl
        · split at hst
          · cases hf : findTx s.chain 0 with
            | none => rw [hf] at hst; cases hst; exact Or.inl rfl
            | some p => rw [hf] at hst; cases hst; exact Or.inl (send_fields _ _).1
          · cases hst
        · split at hst <;> cases hst; exact Or.inl (sendOpt_fields _ _).1
        · split at hst <;> cases hst; exact Or.inl rfl
        · split at hst <;> cases hst; exact Or.inl rfl
        · cases hst; exact Or.inl rfl
        · split at hst <;> cases hst; exact Or.inr rfl
        · cases hp : s.pending with
          | none => rw [hp] at hst; cases hst
          | some note => rw [hp] at hst; cases hst; cases note <;> exact Or.inl rfl
        · cases hst; exact Or.inl rfl
        · split at hst
          · cases hb : s.blocks with
            | nil => rw [hb] at hst; cases hst
            | cons b rest => rw [hb] at hst; cases hst; exact Or.inl (onBlock_fields _ _ _).1
          · cases hst
      rcases hc with h | h
      · rw [h] at hx; exact ih' x hx
      · rw [h] at hx
        rcases List.mem_append.1 hx with k | k
        · exact ih' x k
        · exact List.mem_singleton.1 k
    intro as u hpre hr n x hn
    have := key as u hr hpre (some x) (List.mem_of_getElem? hn)
    cases this

/-! ### Reorg notices come first -/

/-- Between an announced reorg and its notice: only the pending data and the gateway are reported. -/
def Held (s : Sys) : Prop := PreOk s.pre ∧ ((s.phase = .listen ∧ s.reorgs ≠ []) ∨ s.phase = .done)

/-- Not a status that comes from a stored block. -/
def Unstored (l : List Out) : Prop := ∀ r, Out.status r ∈ l → r.fin ≠ .acceptedOnL2 ∧ r.fin ≠ .acceptedOnL1

theorem send_out (s : Sys) (r : Report) (hr : r.fin ≠ .acceptedOnL2 ∧ r.fin ≠ .acceptedOnL1) :
    ∃ new, (send s r).out = s.out ++ new ∧ Unstored new := by
  unfold send
  split
  · exact ⟨[], (List.append_nil _).symm, fun _ h => absurd h List.not_mem_nil⟩
  · refine ⟨[.status r], rfl, fun q hq => ?_⟩
    cases List.mem_singleton.1 hq
    exact hr

theorem held_step {s t : Sys} {a : Act} (ha : a.preOk) (hs : Held s) (h : step s a = some t) :
    (Held t ∧ ∃ new, t.out = s.out ++ new ∧ Unstored new) ∨ ∃ k, t.out = s.out ++ [.reorg k] := by
  obtain ⟨hp, hph⟩ := hs
  have same : ∃ new, s.out = s.out ++ new ∧ Unstored new := ⟨[], (List.append_nil _).symm, fun _ h => absurd h List.not_mem_nil⟩
  have notlisten : ∀ p, s.phase = p → p ≠ .listen → p ≠ .done → False := by
    intro p e h1 h2
    rcases hph with ⟨k, _⟩ | k
    · exact h1 (e.symm.trans k)
    · exact h2 (e.symm.trans k)
  cases a with
  | commit e => simp only [step] at h; split at h <;> cases h; exact Or.inl ⟨⟨hp, hph⟩, same⟩
  | reorg k => simp only [step] at h; split at h <;> cases h; exact Or.inl ⟨⟨hp, hph⟩, same⟩
  | announce =>
    simp only [step] at h
    cases hpe : s.pending with
    | none => rw [hpe] at h; cases h
    | some note =>
      rw [hpe] at h
      cases h
      cases note with
      | block n e => exact Or.inl ⟨⟨hp, hph⟩, same⟩
      | reorg k =>
        refine Or.inl ⟨⟨hp, ?_⟩, same⟩
        rcases hph with ⟨h1, h2⟩ | h1
        · left
          refine ⟨h1, ?_⟩
          simp only [announce, h1, if_true]
          simp
        · exact Or.inr h1
  | setL1 l => cases h; exact Or.inl ⟨⟨hp, hph⟩, same⟩
  | setPre r => cases h; exact Or.inl ⟨⟨ha, hph⟩, same⟩
  | submit n => cases h; exact Or.inl ⟨⟨hp, hph⟩, same⟩
  | readDb =>
    simp only [step] at h
    split at h
    · rename_i e; exact (notlisten _ e (by decide) (by decide)).elim
    · cases h
  | readPending =>
    simp only [step] at h
    split at h
    · rename_i e; exact (notlisten _ e (by decide) (by decide)).elim
    · cases h
  | openBlocks =>
    simp only [step] at h
    split at h
    · rename_i e; exact (notlisten _ e (by decide) (by decide)).elim
    · cases h
  | openReorgs =>
    simp only [step] at h
    split at h
    · rename_i e; exact (notlisten _ e (by decide) (by decide)).elim
    · cases h
  | tickRejected =>
    simp only [step] at h
    split at h <;> cases h
    refine Or.inl ⟨⟨?_, Or.inr rfl⟩, send_out s ⟨0, .rejected, none⟩ ⟨by decide, by decide⟩⟩
    change PreOk (send s _).pre
    rw [(send_fields s _).2.2.1]
    exact hp
  | takeReorg =>
    simp only [step] at h
    split at h
    · cases hr : s.reorgs with
      | nil => rw [hr] at h; cases h
      | cons k rest => rw [hr] at h; cases h; exact Or.inr ⟨k, rfl⟩
    · cases h
  | takePending =>
    simp only [step] at h
    split at h <;> cases h
    have hf := sendOpt_fields s s.pre
    refine Or.inl ⟨⟨by rw [hf.2.2.1]; exact hp, by rw [hf.2.2.2.2.2.1, hf.2.2.2.2.2.2.2]; exact hph⟩, ?_⟩
    cases hpre : s.pre with
    | none => exact same
    | some r =>
      rw [hpre] at hp
      refine send_out s r ?_
      rcases hp with ⟨k, _⟩ | ⟨k, _⟩ <;> rw [k] <;> exact ⟨by decide, by decide⟩
  | takeBlock =>
    simp only [step] at h
    split at h
    · rename_i e
      rcases hph with ⟨_, k⟩ | k
      · exact absurd e.2 k
      · rw [k] at e; cases e.1
    · cases h

theorem out_grows {s t : Sys} (g : Grow s t) : ∃ new, t.out = s.out ++ new := by
  induction g with
  | same h1 _ => exact ⟨[], by rw [h1, List.append_nil]⟩
  | sent r h1 _ _ => exact ⟨_, h1⟩
  | reorg k h1 _ => exact ⟨_, h1⟩
  | trans _ _ i1 i2 =>
    obtain ⟨a, h1⟩ := i1
    obtain ⟨b, h2⟩ := i2
    exact ⟨a ++ b, by rw [h2, h1, List.append_assoc]⟩

theorem run_out : ∀ (acts : List Act) {s t : Sys}, run s acts = some t → ∃ new, t.out = s.out ++ new
  | [], s, t, h => by cases h; exact ⟨[], (List.append_nil _).symm⟩
  | a :: as, s, t, h => by
    unfold run at h
    cases hs : step s a with
    | none => rw [hs] at h; cases h
    | some u =>
      rw [hs] at h
      obtain ⟨x, hx⟩ := out_grows (grow_step hs)
      obtain ⟨y, hy⟩ := run_out as h
      exact ⟨x ++ y, by rw [hy, hx, List.append_assoc]⟩

/-- **The notice comes before what replaces.**  Once a reorg was announced to a subscription that listens, no status of a
stored block, in particular none of a block announced after the reorg, is sent before the notice. -/
theorem C83_notice_first : ∀ (acts : List Act) (s t : Sys) (new : List Out), s.phase = .listen → s.reorgs ≠ [] → PreOk s.pre →
    (∀ a ∈ acts, a.preOk) → run s acts = some t → t.out = s.out ++ new → (∀ k, Out.reorg k ∉ new) →
    ∀ r, Out.status r ∈ new → r.fin ≠ .acceptedOnL2 ∧ r.fin ≠ .acceptedOnL1 := by
  intro acts s t new h1 h2 h3 ha h he hn
  have key : ∀ (acts : List Act) (s : Sys) (new : List Out), Held s → (∀ a ∈ acts, a.preOk) → run s acts = some t →
      t.out = s.out ++ new → (∀ k, Out.reorg k ∉ new) → Unstored new := by
    intro acts
    induction acts with
    | nil =>
      intro s new _ _ h he _
      cases h
      have : new = [] := by
        have := congrArg List.length he
        simp at this
        exact this
      subst this
      exact fun _ h => absurd h List.not_mem_nil
    | cons a as ih =>
      intro s new hs ha h he hn
      unfold run at h
      cases hst : step s a with
      | none => rw [hst] at h; cases h
      | some u =>
        rw [hst] at h
        obtain ⟨y, hy⟩ := run_out as h
        rcases held_step (ha a List.mem_cons_self) hs hst with ⟨hu, x, hx, hux⟩ | ⟨k, hx⟩
        · have e : new = x ++ y := by
            have e' : s.out ++ new = s.out ++ (x ++ y) := by rw [← he, hy, hx, List.append_assoc]
            exact List.append_cancel_left e'
          subst e
          have hy' := ih u y hu (fun b hb => ha b (List.mem_cons_of_mem _ hb)) h hy (fun k hk => hn k (List.mem_append_right _ hk))
          intro r hr
          rcases List.mem_append.1 hr with j | j
          · exact hux r j
          · exact hy' r j
        · have e : new = [.reorg k] ++ y := by
            have e' : s.out ++ new = s.out ++ ([.reorg k] ++ y) := by rw [← he, hy, hx, List.append_assoc]
            exact List.append_cancel_left e'
          subst e
          exact absurd (List.mem_append_left _ List.mem_cons_self) (hn k)
  exact key acts s new ⟨h3, Or.inl ⟨h1, h2⟩⟩ ha h he hn

/-- A listening subscription with a reorg announced and a new block with the transaction after it. -/
example : ∃ s t, run (start [none, some 7] none none) [.readDb, .openBlocks, .openReorgs, .reorg 1, .announce, .commit (some 8), .announce] = some s ∧
    s.phase = .listen ∧ s.reorgs = [1] ∧ s.blocks = [(1, some 8)] ∧ step s .takeBlock = none ∧
    run s [.takeReorg, .readDb] = some t ∧
    t.out = [.status ⟨1, .acceptedOnL2, some 7⟩, .reorg 1, .status ⟨1, .acceptedOnL2, some 8⟩] := ⟨_, _, rfl, rfl, rfl, rfl, rfl, rfl, rfl⟩

/-! ### Whether the status arrives -/

/-- Steps after which the chain still has every block it had, the gateway does not reject the transaction, and no second
block has it. -/
def Act.calm : Act → Prop
  | .reorg _ | .tickRejected => False
  | _ => True

/-- Every block on the chain with the transaction has been reported, or is on the way. -/
def Due (s : Sys) : Prop :=
  s.reorgs = [] ∧ (s.phase = .openReorgs ∨ s.phase = .listen) ∧ (∀ k, s.pending ≠ some (.reorg k)) ∧
    ∀ n e : Nat, s.chain[n]? = some (some e) →
      (∃ l, s.last = some l ∧ 3 ≤ l.fin.num) ∨ (n, some e) ∈ s.blocks ∨ s.pending = some (.block n (some e))

theorem last_send (s : Sys) (r : Report) : ∃ l, (send s r).last = some l ∧ r.fin.num ≤ l.fin.num ∧
    ∀ q, s.last = some q → q.fin.num ≤ l.fin.num := by
  unfold send
  split
  · rename_i h
    cases hl : s.last with
    | none => rw [hl] at h; cases h
    | some l =>
      rw [hl] at h
      simp only [Option.any_some, decide_eq_true_eq] at h
      exact ⟨l, rfl, h, fun q hq => by cases hq; exact Nat.le_refl _⟩
  · rename_i h
    refine ⟨r, rfl, Nat.le_refl _, fun q hq => ?_⟩
    rw [hq] at h
    simp only [Option.any_some, decide_eq_true_eq] at h
    omega

theorem last_sendOpt (s : Sys) (r : Option Report) {m : Nat} (h : ∃ l, s.last = some l ∧ m ≤ l.fin.num) :
    ∃ l, (sendOpt s r).last = some l ∧ m ≤ l.fin.num := by
  cases r with
  | none => exact h
  | some r =>
    obtain ⟨l, h1, h2⟩ := h
    obtain ⟨k, h3, _, h4⟩ := last_send s r
    exact ⟨k, h3, Nat.le_trans h2 (h4 l h1)⟩

theorem last_onBlock (s : Sys) (n : Nat) (e : Option Nat) {m : Nat} (h : ∃ l, s.last = some l ∧ m ≤ l.fin.num) :
    ∃ l, (onBlock s n e).last = some l ∧ m ≤ l.fin.num :=
  last_sendOpt _ _ (last_sendOpt _ _ (last_sendOpt _ _ h))

theorem last_onBlock_some (s : Sys) (n x : Nat) : ∃ l, (onBlock s n (some x)).last = some l ∧ 3 ≤ l.fin.num := by
  unfold onBlock
  refine last_sendOpt _ _ ?_
  obtain ⟨l, h1, h2, _⟩ := last_send (sendOpt s (s.submitted.map fun k => ⟨k, .received, none⟩)) ⟨n, .acceptedOnL2, some x⟩
  exact ⟨l, h1, h2⟩

theorem due_step {s t : Sys} {a : Act} (ha : a.calm) (hd : Due s) (h : step s a = some t) : Due t := by
  obtain ⟨h1, h2, h3, h4⟩ := hd
  cases a with
  | reorg k => exact ha.elim
  | tickRejected => exact ha.elim
  | commit e =>
    simp only [step] at h
    split at h
    · rename_i hp
      cases h
      refine ⟨h1, h2, fun k hk => (by cases hk), fun n x hn => ?_⟩
      by_cases hlt : n < s.chain.length
      · simp only [List.getElem?_append_left hlt] at hn
        rcases h4 n x hn with k | k | k
        · exact Or.inl k
        · exact Or.inr (Or.inl k)
        · rw [hp] at k; cases k
      · have hn' : n < (s.chain ++ [e]).length := (List.getElem?_eq_some_iff.1 hn).1
        simp at hn'
        have : n = s.chain.length := by omega
        subst this
        simp at hn
        subst hn
        exact Or.inr (Or.inr rfl)
    · cases h
  | announce =>
    simp only [step] at h
    cases hp : s.pending with
    | none => rw [hp] at h; cases h
    | some note =>
      rw [hp] at h
      cases h
      cases note with
      | reorg k => exact absurd hp (h3 k)
      | block m y =>
        have hb : (announce s (.block m y)).blocks = s.blocks ++ [(m, y)] := by
          simp only [announce]
          rw [if_pos h2]
        refine ⟨h1, h2, fun k hk => (by cases hk), fun n x hn => ?_⟩
        rw [hb]
        rcases h4 n x hn with k | k | k
        · exact Or.inl k
        · exact Or.inr (Or.inl (List.mem_append_left _ k))
        · rw [hp] at k
          cases k
          exact Or.inr (Or.inl (List.mem_append_right _ List.mem_cons_self))
  | setL1 l => cases h; exact ⟨h1, h2, h3, h4⟩
  | setPre r => cases h; exact ⟨h1, h2, h3, h4⟩
  | submit n => cases h; exact ⟨h1, h2, h3, h4⟩
  | readDb =>
    simp only [step] at h
    split at h
    · rename_i e; rw [e] at h2; rcases h2 with k | k <;> cases k
    · cases h
  | readPending =>
    simp only [step] at h
    split at h
    · rename_i e; rw [e] at h2; rcases h2 with k | k <;> cases k
    · cases h
  | openBlocks =>
    simp only [step] at h
    split at h
    · rename_i e; rw [e] at h2; rcases h2 with k | k <;> cases k
    · cases h
  | openReorgs => simp only [step] at h; split at h <;> cases h; exact ⟨h1, Or.inr rfl, h3, h4⟩
  | takeReorg =>
    simp only [step, h1] at h
    split at h <;> cases h
  | takePending =>
    simp only [step] at h
    split at h <;> cases h
    have hf := sendOpt_fields s s.pre
    refine ⟨by rw [hf.2.2.2.2.2.2.2]; exact h1, by rw [hf.2.2.2.2.2.1]; exact h2, by rw [hf.2.2.2.2.1]; exact h3, fun n e hn => ?_⟩
    rw [hf.1] at hn
    rw [hf.2.2.2.2.2.2.1, hf.2.2.2.2.1]
    exact (h4 n e hn).imp (last_sendOpt _ _) id
  | takeBlock =>
    simp only [step] at h
    split at h
    · cases hb : s.blocks with
      | nil => rw [hb] at h; cases h
      | cons b rest =>
        rw [hb] at h
        cases h
        have hf := onBlock_fields s b.1 b.2
        refine ⟨by simpa [hf.2.2.2.2.2.2.2] using h1, by simpa [hf.2.2.2.2.2.1] using h2, by simpa [hf.2.2.2.2.1] using h3, fun n e hn => ?_⟩
        simp only [hf.1] at hn
        simp only [hf.2.2.2.2.1]
        rcases h4 n e hn with k | k | k
        · exact Or.inl (last_onBlock _ _ _ k)
        · rw [hb] at k
          rcases List.mem_cons.1 k with k | k
          · subst k
            exact Or.inl (last_onBlock_some s n e)
          · exact Or.inr (Or.inl k)
        · exact Or.inr (Or.inr k)
    · cases h

theorem due_run : ∀ (acts : List Act) {s t : Sys}, Due s → (∀ a ∈ acts, a.calm) → run s acts = some t → Due t
  | [], s, t, hd, _, h => by cases h; exact hd
  | a :: as, s, t, hd, ha, h => by
    unfold run at h
    cases hs : step s a with
    | none => rw [hs] at h; cases h
    | some u =>
      rw [hs] at h
      exact due_run as (due_step (ha a List.mem_cons_self) hd hs) (fun b hb => ha b (List.mem_cons_of_mem _ hb)) h

/-- What was last sent is in the stream. -/
theorem last_mem {s0 s : Sys} (acts : List Act) (h0 : Fresh s0) (h : run s0 acts = some s) (l : Report) (hl : s.last = some l) :
    Out.status l ∈ s.out := by
  have key : ∀ {s t : Sys}, Grow s t → (∀ l, s.last = some l → Out.status l ∈ s.out) → ∀ l, t.last = some l → Out.status l ∈ t.out := by
    intro s t g
    induction g with
    | same h1 h2 => intro h l; rw [h1, h2]; exact h l
    | trans _ _ i1 i2 => exact fun h => i2 (i1 h)
    | sent r h1 h2 _ =>
      intro _ l hl
      rw [h2] at hl
      cases hl
      rw [h1]
      exact List.mem_append_right _ List.mem_cons_self
    | reorg k h1 h2 => intro _ l hl; rw [h2] at hl; cases hl
  exact run_induct (P := fun _ s => ∀ l, s.last = some l → Out.status l ∈ s.out) (s0 := s0)
    (fun l hl => by rw [h0.2.2.2.1] at hl; cases hl) (fun _ _ _ _ _ hst hm => key (grow_step hst) hm) acts s h l hl

/-- **Acceptance is reported** for every block that is committed, or still to be announced, when the channel is opened or
later: if the transaction is then on the chain, everything is announced and the queue is empty, a status of at least
accepted on L2 was sent.  `before` is the schedule up to the opening; no block on the chain at that point has the
transaction, or it is the one to be announced next; `after` takes no block back. -/
theorem C83_accepted (s0 u t : Sys) (before after : List Act) (h0 : Fresh s0) (hu : run s0 before = some u)
    (hph : u.phase = .openReorgs) (hr : u.reorgs = []) (hp : ∀ k, u.pending ≠ some (.reorg k))
    (hc : ∀ n e : Nat, u.chain[n]? = some (some e) → u.pending = some (.block n (some e)))
    (ha : ∀ a ∈ after, a.calm) (ht : run u after = some t) (hq : t.blocks = []) (hn : t.pending = none)
    (n e : Nat) (hin : t.chain[n]? = some (some e)) : ∃ r, Out.status r ∈ t.out ∧ 3 ≤ r.fin.num := by
  have hd : Due u := ⟨hr, Or.inl hph, hp, fun n e h => Or.inr (Or.inr (hc n e h))⟩
  obtain ⟨_, _, _, h4⟩ := due_run after hd ha ht
  have hrun : run s0 (before ++ after) = some t := by
    rw [run_append, hu]
    exact ht
  rcases h4 n e hin with ⟨l, h1, h2⟩ | h | h
  · exact ⟨l, last_mem _ h0 hrun l h1, h2⟩
  · rw [hq] at h; cases h
  · rw [hn] at h; cases h

example : ∃ u t, run (start [none] none none) [.readDb, .readPending, .openBlocks] = some u ∧ u.phase = .openReorgs ∧
    run u [.openReorgs, .commit (some 7), .announce, .takeBlock] = some t ∧ t.blocks = [] ∧ t.pending = none ∧
    t.chain = [none, some 7] ∧ t.out = [.status ⟨1, .acceptedOnL2, some 7⟩] := ⟨_, _, rfl, rfl, rfl, rfl, rfl, rfl, rfl⟩

/-- Steps after the transaction is on the chain: no reorg, no rejection, no second inclusion, and the pending data no
longer has it. -/
def Act.later : Act → Prop
  | .reorg _ | .tickRejected => False
  | .commit e => e = none
  | .setPre r => r = none
  | _ => True

/-- Nothing that is known or on the way says more than "received". -/
def Stuck (s : Sys) : Prop :=
  s.phase = .listen ∧ s.reorgs = [] ∧ s.pre = none ∧ (∀ b ∈ s.blocks, b.2 = none) ∧
    (∀ note, s.pending = some note → ∃ n, note = .block n none) ∧ (∀ l, s.last = some l → l.fin = .received ∧ l.exec = none) ∧
    ∀ r, Out.status r ∈ s.out → r.fin = .received

theorem stuck_send {s : Sys} (h : Stuck s) (k : Option Nat) : Stuck (sendOpt s (k.map fun k => ⟨k, .received, none⟩)) := by
  cases k with
  | none => exact h
  | some k =>
    obtain ⟨h1, h2, h3, h4, h5, h6, h7⟩ := h
    change Stuck (send s _)
    unfold send
    split
    · exact ⟨h1, h2, h3, h4, h5, h6, h7⟩
    · refine ⟨h1, h2, h3, h4, h5, fun l hl => (by cases hl; exact ⟨rfl, rfl⟩), fun r hr => ?_⟩
      rcases List.mem_append.1 hr with j | j
      · exact h7 r j
      · cases List.mem_singleton.1 j
        rfl

theorem stuck_onBlock {s : Sys} (h : Stuck s) (n : Nat) : Stuck (onBlock s n none) := by
  have h' := stuck_send h s.submitted
  unfold onBlock
  generalize sendOpt s (s.submitted.map fun k => ⟨k, .received, none⟩) = u at *
  change Stuck (sendOpt u (u.l1.bind fun l => u.last.bind fun r => if r.number ≤ l ∧ r.exec.isSome then some ⟨l, .acceptedOnL1, r.exec⟩ else none))
  have : (u.l1.bind fun l => u.last.bind fun r => if r.number ≤ l ∧ r.exec.isSome then some (⟨l, .acceptedOnL1, r.exec⟩ : Report) else none) = none := by
    cases u.l1 with
    | none => rfl
    | some l =>
      cases hl : u.last with
      | none => rfl
      | some r => simp [(h'.2.2.2.2.2.1 r hl).2]
  rw [this]
  exact h'

theorem stuck_step {s t : Sys} {a : Act} (ha : a.later) (hs : Stuck s) (h : step s a = some t) : Stuck t := by
  have hs' := hs
  obtain ⟨h1, h2, h3, h4, h5, h6, h7⟩ := hs
  cases a with
  | reorg k => exact ha.elim
  | tickRejected => exact ha.elim
  | commit e =>
    have he : e = none := ha
    subst he
    simp only [step] at h
    split at h <;> cases h
    exact ⟨h1, h2, h3, h4, fun note hn => (by cases hn; exact ⟨_, rfl⟩), h6, h7⟩
  | announce =>
    simp only [step] at h
    cases hp : s.pending with
    | none => rw [hp] at h; cases h
    | some note =>
      rw [hp] at h
      cases h
      obtain ⟨n, hn⟩ := h5 note hp
      subst hn
      refine ⟨h1, h2, h3, fun b hb => ?_, fun _ hn => (by cases hn), h6, h7⟩
      simp only [announce] at hb
      split at hb
      · rcases List.mem_append.1 hb with k | k
        · exact h4 b k
        · rw [List.mem_singleton.1 k]
      · exact h4 b hb
  | setL1 l => cases h; exact ⟨h1, h2, h3, h4, h5, h6, h7⟩
  | setPre r => cases h; exact ⟨h1, h2, ha, h4, h5, h6, h7⟩
  | submit n => cases h; exact ⟨h1, h2, h3, h4, h5, h6, h7⟩
  | readDb => simp [step, h1] at h
  | readPending => simp [step, h1] at h
  | openBlocks => simp [step, h1] at h
  | openReorgs => simp [step, h1] at h
  | takeReorg => simp [step, h1, h2] at h
  | takePending =>
    simp only [step, h1, if_true, h3] at h
    cases h
    exact hs'
  | takeBlock =>
    simp only [step, h1, h2, and_self, if_true] at h
    cases hb : s.blocks with
    | nil => rw [hb] at h; cases h
    | cons b rest =>
      rw [hb] at h
      cases h
      have hb2 : b.2 = none := h4 b (by rw [hb]; exact List.mem_cons_self)
      have hk : Stuck (onBlock s b.1 b.2) := by
        rw [hb2]
        exact stuck_onBlock hs' b.1
      obtain ⟨k1, k2, k3, k4, k5, k6, k7⟩ := hk
      refine ⟨k1, k2, k3, fun c hc => ?_, k5, k6, k7⟩
      exact h4 c (by rw [hb]; exact List.mem_cons_of_mem _ hc)

theorem stuck_run : ∀ (acts : List Act) {s t : Sys}, Stuck s → (∀ a ∈ acts, a.later) → run s acts = some t → Stuck t
  | [], s, t, hd, _, h => by cases h; exact hd
  | a :: as, s, t, hd, ha, h => by
    unfold run at h
    cases hs : step s a with
    | none => rw [hs] at h; cases h
    | some u =>
      rw [hs] at h
      exact stuck_run as (stuck_step (ha a List.mem_cons_self) hd hs) (fun b hb => ha b (List.mem_cons_of_mem _ hb)) h

/-- **Acceptance can go unreported for ever.**  The block with the transaction is committed and announced after the
database was read and before the channel is opened.  However long the program runs, whatever blocks follow and however
far L1 gets, the client gets nothing beyond "received". -/
theorem C83_missed_violated (x : Option Nat) (e : Nat) : ∃ acts s, run (start [none] none x) acts = some s ∧ s.phase = .listen ∧
    s.chain = [none, some e] ∧
    ∀ more t, (∀ a ∈ more, a.later) → run s more = some t → ∀ r, Out.status r ∈ t.out → r.fin = .received := by
  let acts : List Act := [.readDb, .commit (some e), .announce, .readPending, .openBlocks, .openReorgs]
  cases x with
  | none =>
    refine ⟨acts, _, rfl, rfl, rfl, fun more t hm ht r hr => (stuck_run more ?_ hm ht).2.2.2.2.2.2 r hr⟩
    exact ⟨rfl, rfl, rfl, fun b hb => absurd hb List.not_mem_nil, fun _ hn => (by cases hn), fun l hl => (by cases hl), fun r hr => absurd hr List.not_mem_nil⟩
  | some k =>
    refine ⟨acts, _, rfl, rfl, rfl, fun more t hm ht r hr => (stuck_run more ?_ hm ht).2.2.2.2.2.2 r hr⟩
    refine ⟨rfl, rfl, rfl, fun b hb => absurd hb List.not_mem_nil, fun _ hn => (by cases hn), fun l hl => (by cases hl; exact ⟨rfl, rfl⟩), fun r hr => ?_⟩
    have hr' : Out.status r ∈ [Out.status ⟨k, .received, none⟩] := hr
    cases List.mem_singleton.1 hr'
    rfl

end Verif.Subs.Status
