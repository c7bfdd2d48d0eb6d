import Verif.Events.RpcLemmas
/-
Pages and sessions of starknet_getEvents.
-/
namespace Verif.Events

section
variable {chain : List Body} {p : Pending}

/-- The stored part of a page, for a position in the stored part. -/
theorem stored_page {c : Cfg} {s : Sys} (v : View c s.db s.mem chain 0) (limit : Nat) (hl : 1 ≤ limit) (hf : Follows chain p)
    (r : Request) (hp : 1 ≤ r.chunk) (hk : r.keys.length ≤ keyLimit) (f t : Option Nat) (L : Nat)
    (hhead : headOf chain t = min L (chain.length - 1)) (tok : Option Token) (toP : Bool)
    (hP1 : toP = true → L = p.preConfirmed.number) (hP2 : toP = false → L < chain.length)
    (hle : ∀ t, tok = some t → f.getD 0 ≤ t.block ∧ t.block ≤ L)
    (hpos : (tok.getD ⟨f.getD 0, 0⟩).block < chain.length ∨ toP = false ∨ tok ≠ none)
    (hv : RValid chain p limit r.addrs r.keys L (tok.getD ⟨f.getD 0, 0⟩)) :
    ∃ out, storedEvents c s limit p ⟨f, t, r.addrs, trimKeys r.keys, r.chunk, 0⟩ toP tok = .ok out ∧
      PageOk chain p limit r L (tok.getD ⟨f.getD 0, 0⟩) out := by
  have hne := hf.1
  have hcpos : 0 < chain.length := List.length_pos_iff.2 hne
  have hge := hf.pc_ge
  have hk' : (trimKeys r.keys).length ≤ keyLimit := Nat.le_trans (trimKeys_length _) hk
  -- the position
  have hstart : ∃ f', storedStart f tok = .ok (f', (tok.getD ⟨f.getD 0, 0⟩).offset) ∧ f'.getD 0 = (tok.getD ⟨f.getD 0, 0⟩).block ∧
      (events c s.db s.mem false limit ⟨f', t, r.addrs, trimKeys r.keys, r.chunk, (tok.getD ⟨f.getD 0, 0⟩).offset⟩).1 =
        pageAt c limit ⟨f, t, r.addrs, r.keys, r.chunk, 0⟩ s tok := by
    cases tok with
    | none => exact ⟨f, rfl, rfl, rfl⟩
    | some k =>
      refine ⟨some k.block, ?_, rfl, rfl⟩
      have := (hle k rfl).1
      simp only [storedStart, Option.getD_some]
      rw [if_neg]
      cases f with
      | none => simp
      | some f => simp only [Option.getD_some] at this; simp; omega
  obtain ⟨f', h1, h2, h3⟩ := hstart
  have hstartOf : startOf ⟨f, t, r.addrs, r.keys, r.chunk, 0⟩ tok = tok.getD ⟨f.getD 0, 0⟩ := by cases tok <;> rfl
  generalize hPdef : tok.getD ⟨f.getD 0, 0⟩ = P at *
  unfold storedEvents
  simp only [h1]
  by_cases hblock : P.block < chain.length
  · -- inside the stored part
    have hvalid : Valid chain limit ⟨f, t, r.addrs, r.keys, r.chunk, 0⟩ P := by
      unfold RValid reach at hv
      rw [if_pos hblock, answerAt_stored (by omega), List.length_map] at hv
      unfold Valid
      simp only [hhead]
      rw [show min (min L (chain.length - 1)) (P.block + limit - 1) = min L (min (chain.length - 1) (P.block + limit - 1)) by omega]
      exact hv
    obtain ⟨page, g1, g2, g3, g4⟩ := page_step v limit hl ⟨f, t, r.addrs, r.keys, r.chunk, 0⟩ hp hk tok (by rw [hstartOf]; exact hvalid)
    rw [hstartOf] at g3 g4
    simp only [hhead] at g3 g4
    rw [h3, g1]
    simp only
    -- offsets inside the stored part
    have hoff : ∀ k : Token, k.block ≤ headOf chain t → Valid chain limit ⟨f, t, r.addrs, r.keys, r.chunk, 0⟩ k →
        k.offset ≤ (answer chain r.addrs r.keys k.block (min L (chain.length - 1))).length := by
      intro k hk hkv
      have := hkv.le_all hk hl
      simp only [hhead] at this
      exact this
    have hPoff : P.offset ≤ (answer chain r.addrs r.keys P.block (min L (chain.length - 1))).length := by
      by_cases hPL : P.block ≤ headOf chain t
      · exact hoff P hPL hvalid
      · unfold Valid at hvalid
        rw [answer_empty _ _ _ (by simp only; omega)] at hvalid
        simp at hvalid
        omega
    -- the rest of a position
    have hrest : ∀ k : Token, k.block ≤ chain.length → k.offset ≤ (answer chain r.addrs r.keys k.block (min L (chain.length - 1))).length →
        (answerAt chain p r.addrs r.keys k.block L).drop k.offset =
          ((answer chain r.addrs r.keys k.block (min L (chain.length - 1))).drop k.offset).map REvent.ofEmitted ++
            answerAt chain p r.addrs r.keys chain.length L := by
      intro k hkb hko
      by_cases hLc : L < chain.length
      · rw [Nat.min_eq_left (by omega), answerAt_stored hLc, answerAt_empty hLc, List.append_nil, List.map_drop]
      · rw [Nat.min_eq_right (by omega)] at hko ⊢
        rw [answerAt_split (m := chain.length - 1) (by omega) (by omega), show chain.length - 1 + 1 = chain.length by omega,
          answerAt_stored (by omega), List.drop_append_of_le_length (by rw [List.length_map]; exact hko), List.map_drop]
    cases htok : page.token with
    | some k =>
      simp only [Option.isNone_some, Bool.false_and, Bool.false_eq_true, if_false]
      refine ⟨_, rfl, by simp only [List.length_map]; exact g2, by simp, ?_⟩
      intro k' hk'
      simp only [Option.some.injEq] at hk'
      subst hk'
      obtain ⟨-, k1, k2, k3, k4, k5⟩ := g4 k htok
      have hkb : k.block < chain.length := by omega
      refine ⟨?_, ?_, k3, by omega, k5⟩
      · simp only
        rw [hrest P (by omega) hPoff, hrest k (by omega) (hoff k (by rw [hhead]; exact k4) k2), k1, List.map_append, List.append_assoc]
      · unfold RValid reach
        rw [if_pos hkb, answerAt_stored (by omega), List.length_map]
        unfold Valid at k2
        simp only [hhead] at k2
        rw [show min (min L (chain.length - 1)) (k.block + limit - 1) = min L (min (chain.length - 1) (k.block + limit - 1)) by omega] at k2
        exact k2
    | none =>
      have g3 := g3 htok
      cases toP with
      | false =>
        simp only [Option.isNone_none, Bool.and_false, Bool.false_eq_true, if_false]
        refine ⟨_, rfl, by simp only [List.length_map]; exact g2, fun _ => ?_, by simp⟩
        simp only
        rw [hrest P (by omega) hPoff, answerAt_empty (hP2 rfl), List.append_nil, g3]
      | true =>
        have hL := hP1 rfl
        subst hL
        simp only [Option.isNone_none, Bool.and_true, if_true]
        unfold appendPending
        have hzero : RValid chain p limit r.addrs r.keys p.preConfirmed.number ⟨chain.length, 0⟩ := by unfold RValid; simp
        by_cases hfull : (page.events.map REvent.ofEmitted).length < r.chunk
        · rw [if_pos hfull]
          have hfrom : pendingFrom p tok = .ok ⟨chain.length, 0⟩ := by
            cases tok with
            | none => simp only [pendingFrom, hf.start]
            | some k =>
              simp only [Option.getD_some] at hPdef
              subst hPdef
              simp only [pendingFrom]
              rw [if_neg (by omega), if_neg (by rw [hf.isPending]; omega), hf.start]
          unfold getPendingEvents
          rw [hfrom]
          simp only
          rw [List.length_map] at hfull ⊢
          obtain ⟨m1, m2, m3⟩ := pendingFill_spec (addrs := r.addrs) (keys := r.keys) hf ⟨chain.length, 0⟩
            (r.chunk - page.events.length) (by omega) (Nat.le_refl _) hge (by simp)
          simp only [List.drop_zero] at m2 m3
          refine ⟨_, rfl, by simp only [List.length_append, List.length_map]; omega, fun hn => ?_, fun k hk => ?_⟩
          · simp only at hn ⊢
            rw [hrest P (by omega) hPoff, g3, m2 hn]
          · simp only at hk
            obtain ⟨n1, n2, n3, n4, n5⟩ := m3 k hk
            refine ⟨?_, ?_, by omega, n3, fun e => by omega⟩
            · simp only
              rw [hrest P (by omega) hPoff, g3, n1, List.append_assoc]
            · unfold RValid reach
              rw [if_neg (by omega), Nat.min_eq_right n3, answerAt_one]
              exact n4
        · rw [if_neg hfull]
          rw [hf.start]
          refine ⟨_, rfl, by simp only [List.length_map]; exact g2, by simp, fun k hk => ?_⟩
          simp only [Option.some.injEq] at hk
          subst hk
          refine ⟨?_, hzero, by simp only; omega, hge, by simp only; omega⟩
          simp only [List.drop_zero]
          rw [hrest P (by omega) hPoff, g3]
  · -- beyond the stored part
    rw [page_beyond v limit hl _ hp hk' hne (by simp only; omega)]
    simp only [Option.isNone_none, Bool.true_and, List.map_nil]
    cases toP with
    | false =>
      have := hP2 rfl
      simp only [Bool.false_eq_true, if_false]
      exact ⟨_, rfl, pageOk_empty (by omega)⟩
    | true =>
      have hL := hP1 rfl
      subst hL
      simp only [if_true]
      rcases hpos with h | h | h
      · omega
      · simp at h
      · obtain ⟨k, rfl⟩ := Option.ne_none_iff_exists'.1 h
        have := (hle k rfl).2
        simp only [Option.getD_some] at hPdef
        subst hPdef
        unfold appendPending getPendingEvents
        rw [if_pos (by simp only [List.length_nil]; omega)]
        simp only [pendingFrom]
        rw [if_neg (by omega), if_pos (by rw [hf.isPending]; omega)]
        refine ⟨_, rfl, ?_⟩
        have := pageOk_pending hf hp (by omega) (hle k rfl).2 hv
        simp only [List.nil_append, List.length_nil, Nat.sub_zero]
        exact this

/-- One page of starknet_getEvents. -/
theorem page_rpc {c : Cfg} {s : Sys} (v : View c s.db s.mem chain 0) (limit : Nat) (hl : 1 ≤ limit) (hf : Follows chain p)
    (r : Request) (hp : 1 ≤ r.chunk) (hp' : r.chunk ≤ 1024) (hk : r.keys.length ≤ keyLimit) (hr : PlainRange chain p r) {a L : Nat}
    (ha : rangeFirst chain r.fromBlock = some a) (hL : rangeLast chain p r.toBlock = some L) (tok : Option Token)
    (hle : ∀ t, tok = some t → a ≤ t.block ∧ t.block ≤ L) (hv : RValid chain p limit r.addrs r.keys L (tok.getD ⟨a, 0⟩)) :
    ∃ out, getEvents c s limit p r tok = .ok out ∧ PageOk chain p limit r L (tok.getD ⟨a, 0⟩) out := by
  have hne := hf.1
  have hcpos : 0 < chain.length := List.length_pos_iff.2 hne
  have hge := hf.pc_ge
  obtain ⟨hT1, hT2⟩ := toPending_last hf hr hL
  have hempty : L < a → ∃ out, (Except.ok ([], none) : Except RpcError (List REvent × Option Token)) = .ok out ∧
      PageOk chain p limit r L (tok.getD ⟨a, 0⟩) out := by
    intro h
    refine ⟨_, rfl, pageOk_empty ?_⟩
    cases tok with
    | none => exact h
    | some t => have := hle t rfl; omega
  unfold getEvents
  rw [if_neg (by omega), if_neg (by omega)]
  simp only
  by_cases hfrom : r.fromBlock.map (replacePending p) = some .preConfirmed
  · rw [if_pos hfrom]
    -- the range starts with the pending blocks
    have ha' : a = chain.length := by
      cases hb : r.fromBlock with
      | none => rw [hb] at hfrom; simp at hfrom
      | some b =>
        rw [hb] at hfrom ha
        cases b with
        | number n =>
          simp only [Option.map_some, replacePending, Option.some.injEq] at hfrom
          simp only [rangeFirst, Option.some.injEq] at ha
          subst ha
          split at hfrom
          next hpen =>
            rw [hf.isPending] at hpen
            have hff := hf.2
            have h4 := hr.from_pre
            cases hpl : p.preLatest with
            | none => rw [hpl] at hff; simp only at hff; omega
            | some b =>
              rw [hpl] at hff h4
              simp only at hff
              have : n ≠ p.preConfirmed.number := fun e => h4 (by simp) (by rw [hb, e])
              omega
          next => simp at hfrom
        | stored n => simp [replacePending] at hfrom
        | latest => simp [replacePending] at hfrom
        | preConfirmed => simp only [rangeFirst, Option.some.injEq] at ha; omega
    subst ha'
    cases hto : toPending (r.toBlock.map (replacePending p)) with
    | false =>
      simp only [Bool.false_eq_true, if_false]
      exact hempty (hT2 hto)
    | true =>
      simp only [if_true]
      have := hT1 hto
      subst this
      unfold getPendingEvents
      have hpf : pendingFrom p tok = .ok (tok.getD ⟨chain.length, 0⟩) := by
        cases tok with
        | none => simp only [pendingFrom, hf.start]; rfl
        | some t =>
          have := hle t rfl
          simp only [pendingFrom]
          rw [if_neg (by omega), if_pos (by rw [hf.isPending]; omega)]
          rfl
      rw [hpf]
      refine ⟨_, rfl, pageOk_pending hf hp ?_ ?_ hv⟩
      · cases tok with
        | none => exact Nat.le_refl _
        | some t => exact (hle t rfl).1
      · cases tok with
        | none => exact hge
        | some t => exact (hle t rfl).2
  · rw [if_neg hfrom]
    by_cases hbey : beyondPending p (r.fromBlock.map (replacePending p)) (r.toBlock.map (replacePending p)) = true
    · rw [if_pos hbey]
      apply hempty
      unfold beyondPending at hbey
      split at hbey
      next n h1 h2 =>
        simp only [decide_eq_true_eq] at hbey
        have : L = p.preConfirmed.number := hT1 (by rw [h2]; rfl)
        cases hb : r.fromBlock with
        | none => rw [hb] at h1; simp at h1
        | some b =>
          rw [hb] at h1 ha
          cases b with
          | number m =>
            simp only [rangeFirst, Option.some.injEq] at ha
            simp only [Option.map_some, replacePending, Option.some.injEq] at h1
            split at h1
            · simp at h1
            · simp only [BlockId.number.injEq] at h1; omega
          | stored n => simp [replacePending] at h1
          | latest => simp [replacePending] at h1
          | preConfirmed => simp [replacePending] at h1
      next => simp at hbey
    · rw [if_neg hbey]
      -- the first block as a number
      have hmf : ∃ f, mapFrom (latestBlock s.db) (r.fromBlock.map (replacePending p)) = .ok f ∧ f.getD 0 = a ∧
          (chain.length ≤ a → toPending (r.toBlock.map (replacePending p)) = false) := by
        rw [v.latest, if_neg hne]
        cases hb : r.fromBlock with
        | none =>
          rw [hb] at ha
          simp only [rangeFirst, Option.some.injEq] at ha
          exact ⟨none, rfl, by simpa using ha, by omega⟩
        | some b =>
          rw [hb] at ha hfrom hbey
          cases b with
          | number n =>
            simp only [rangeFirst, Option.some.injEq] at ha
            subst ha
            simp only [Option.map_some, replacePending] at hfrom hbey ⊢
            by_cases hpen : isPending p n = true
            · rw [if_pos hpen] at hfrom; simp at hfrom
            rw [if_neg hpen] at hbey ⊢
            refine ⟨some n, rfl, rfl, fun hc => ?_⟩
            rw [hf.isPending] at hpen
            have h4 := hr.from_le
            cases hto : r.toBlock with
            | none => have := h4 hto n hb; omega
            | some b =>
              rw [hto] at hbey
              simp only [Option.map_some] at hbey ⊢
              generalize replacePending p b = b' at *
              cases b' with
              | preConfirmed => simp only [beyondPending, decide_eq_true_eq] at hbey; omega
              | _ => rfl
          | stored n =>
            obtain ⟨k, rfl, hk⟩ := hr.from_stored n hb
            simp only [rangeFirst, Option.some.injEq] at ha
            exact ⟨some k, rfl, ha, by omega⟩
          | latest =>
            simp only [rangeFirst, Option.some.injEq] at ha
            exact ⟨some (chain.length - 1), rfl, ha, by omega⟩
          | preConfirmed => simp [replacePending] at hfrom
      -- the last block as a number
      have hmt : ∃ t, mapTo (r.toBlock.map (replacePending p)) = .ok t ∧ headOf chain t = min L (chain.length - 1) ∧
          (∀ k, t = some k → L = k) := by
        cases hb : r.toBlock with
        | none =>
          rw [hb] at hL
          simp only [rangeLast, Option.some.injEq] at hL
          exact ⟨none, rfl, by simp only [headOf, queryTo]; omega, by simp⟩
        | some b =>
          rw [hb] at hL
          cases b with
          | number n =>
            simp only [rangeLast, Option.some.injEq] at hL
            subst hL
            simp only [Option.map_some, replacePending]
            by_cases hpen : isPending p n = true
            · rw [if_pos hpen]
              rw [hf.isPending] at hpen
              exact ⟨none, rfl, by simp only [headOf, queryTo]; omega, by simp⟩
            · rw [if_neg hpen]
              exact ⟨some n, rfl, rfl, by simp⟩
          | stored n =>
            obtain ⟨k, rfl, hk⟩ := hr.to_stored n hb
            simp only [rangeLast, Option.some.injEq] at hL
            subst hL
            exact ⟨some k, rfl, rfl, by simp⟩
          | latest =>
            simp only [rangeLast, Option.some.injEq] at hL
            exact ⟨none, rfl, by simp only [headOf, queryTo]; omega, by simp⟩
          | preConfirmed =>
            simp only [rangeLast, Option.some.injEq] at hL
            exact ⟨none, rfl, by simp only [headOf, queryTo]; omega, by simp⟩
      obtain ⟨f, f1, f2, f3⟩ := hmf
      obtain ⟨t, t1, t2, t3⟩ := hmt
      unfold rangeEvents
      rw [f1, t1]
      simp only
      by_cases hgt : crossed f t = true
      · rw [if_pos hgt]
        cases f with
        | none => simp [crossed] at hgt
        | some f =>
          cases t with
          | none => simp [crossed] at hgt
          | some t =>
            simp only [crossed, decide_eq_true_eq] at hgt
            have := t3 _ rfl
            simp only [Option.getD_some] at f2
            exact hempty (by omega)
      · rw [if_neg hgt]
        subst f2
        refine stored_page v limit hl hf r hp hk f t L t2 tok _ hT1 hT2 hle ?_ hv
        cases tok with
        | some k => exact .inr (.inr (by simp))
        | none =>
          by_cases h : f.getD 0 < chain.length
          · exact .inl h
          · exact .inr (.inl (f3 (by omega)))

end

/-! ### sessions on a node that does not change -/

theorem RValid.zero (chain : List Body) (p : Pending) (limit : Nat) (addrs : List Felt) (keys : List (List Felt)) (L b : Nat) :
    RValid chain p limit addrs keys L ⟨b, 0⟩ := by
  unfold RValid; simp

/-- The moments in which a request can be answered as it says. -/
structure Answerable (c : Cfg) (r : Request) (a : Nat) (w : Moment) : Prop where
  reached : Reached c w.ops w.sys
  follows : Follows w.chain w.pending
  plain : PlainRange w.chain w.pending r
  first : rangeFirst w.chain r.fromBlock = some a

theorem Answerable.view {c : Cfg} {r : Request} {a : Nat} {w : Moment} (h : Answerable c r a w) : View c w.sys.db w.sys.mem w.chain 0 :=
  h.reached.view

theorem Answerable.last {c : Cfg} {r : Request} {a : Nat} {w : Moment} (h : Answerable c r a w) :
    ∃ L, rangeLast w.chain w.pending r.toBlock = some L ∧ L ≤ w.pending.preConfirmed.number := by
  have hge := h.follows.pc_ge
  cases hb : r.toBlock with
  | none => exact ⟨_, rfl, Nat.le_refl _⟩
  | some b =>
    cases b with
    | number n => exact ⟨_, rfl, h.plain.to_le n hb⟩
    | stored n =>
      obtain ⟨k, rfl, hk⟩ := h.plain.to_stored n hb
      exact ⟨_, rfl, by omega⟩
    | latest => exact ⟨_, rfl, by omega⟩
    | preConfirmed => exact ⟨_, rfl, Nat.le_refl _⟩

theorem session_fixed {c : Cfg} {limit : Nat} (hl : 1 ≤ limit) {r : Request} (hp : 1 ≤ r.chunk) (hp' : r.chunk ≤ 1024)
    (hk : r.keys.length ≤ keyLimit) {a L : Nat} {w : Moment} (hw : Answerable c r a w)
    (hL : rangeLast w.chain w.pending r.toBlock = some L) {tok : Option Token} {ws : List Moment} {evs : List REvent}
    (h : Session c limit r tok ws evs) (hws : ∀ x ∈ ws, x = w) (hle : ∀ t, tok = some t → a ≤ t.block ∧ t.block ≤ L)
    (hv : RValid w.chain w.pending limit r.addrs r.keys L (tok.getD ⟨a, 0⟩)) :
    evs = (answerAt w.chain w.pending r.addrs r.keys (tok.getD ⟨a, 0⟩).block L).drop (tok.getD ⟨a, 0⟩).offset := by
  induction h with
  | @last tok x evs h =>
    have := hws x (by simp)
    subst this
    obtain ⟨out, h1, h2, h3, h4⟩ := page_rpc hw.view limit hl hw.follows r hp hp' hk hw.plain hw.first hL tok hle hv
    rw [h, Except.ok.injEq] at h1
    subst h1
    exact (h3 rfl).symm
  | @more tok x evs rest t ws h hr ih =>
    have := hws x (by simp)
    subst this
    obtain ⟨out, h1, h2, h3, h4⟩ := page_rpc hw.view limit hl hw.follows r hp hp' hk hw.plain hw.first hL tok hle hv
    rw [h, Except.ok.injEq] at h1
    subst h1
    obtain ⟨g1, g2, g3, g4, -⟩ := h4 t rfl
    have hPa : a ≤ (tok.getD ⟨a, 0⟩).block := by
      cases tok with
      | none => exact Nat.le_refl _
      | some k => exact (hle k rfl).1
    have := ih (fun y hy => hws y (by simp [hy])) (fun k hk => by simp only [Option.some.injEq] at hk; subst hk; omega) g2
    rw [this]
    exact g1.symm

theorem session_exists {c : Cfg} {limit : Nat} (hl : 1 ≤ limit) {r : Request} (hp : 1 ≤ r.chunk) (hp' : r.chunk ≤ 1024)
    (hk : r.keys.length ≤ keyLimit) {a L : Nat} {w : Moment} (hw : Answerable c r a w)
    (hL : rangeLast w.chain w.pending r.toBlock = some L) (x y : Nat) (tok : Option Token)
    (hle : ∀ t, tok = some t → a ≤ t.block ∧ t.block ≤ L)
    (hv : RValid w.chain w.pending limit r.addrs r.keys L (tok.getD ⟨a, 0⟩)) (hx : L - (tok.getD ⟨a, 0⟩).block ≤ x)
    (hy : (answerAt w.chain w.pending r.addrs r.keys (tok.getD ⟨a, 0⟩).block L).length - (tok.getD ⟨a, 0⟩).offset ≤ y) :
    ∃ k evs, Session c limit r tok (List.replicate k w) evs := by
  induction x using Nat.strongRecOn generalizing y tok with
  | _ x ihx =>
  induction y using Nat.strongRecOn generalizing tok with
  | _ y ihy =>
  obtain ⟨⟨evs, tok'⟩, h1, h2, h3, h4⟩ := page_rpc hw.view limit hl hw.follows r hp hp' hk hw.plain hw.first hL tok hle hv
  cases tok' with
  | none => exact ⟨1, evs, .last h1⟩
  | some t =>
    obtain ⟨g1, g2, g3, g4, g5⟩ := h4 t rfl
    have hPa : a ≤ (tok.getD ⟨a, 0⟩).block := by
      cases tok with
      | none => exact Nat.le_refl _
      | some k => exact (hle k rfl).1
    have hle' : ∀ t', some t = some t' → a ≤ t'.block ∧ t'.block ≤ L := by
      intro k hk; simp only [Option.some.injEq] at hk; subst hk; omega
    have hcomp : ∃ k evs, Session c limit r (some t) (List.replicate k w) evs := by
      by_cases hb : (tok.getD ⟨a, 0⟩).block = t.block
      · have ho := g5 hb
        have hoL : t.offset ≤ (answerAt w.chain w.pending r.addrs r.keys t.block L).length := by
          unfold RValid at g2
          have hreach : t.block ≤ reach w.chain limit t.block := by unfold reach; split <;> omega
          rw [answerAt_split (a := t.block) (m := min L (reach w.chain limit t.block)) (by omega) (by omega), List.length_append]
          omega
        rw [hb] at hx hy
        exact ihy ((answerAt w.chain w.pending r.addrs r.keys t.block L).length - t.offset) (by omega) (some t) hle' g2 hx (Nat.le_refl _)
      · exact ihx (L - t.block) (by omega) _ (some t) hle' g2 (Nat.le_refl _) (Nat.le_refl _)
    obtain ⟨k, rest, hs⟩ := hcomp
    exact ⟨k + 1, evs ++ rest, by rw [List.replicate_succ]; exact .more h1 hs⟩

/-! ### sessions on a node that moves on -/

/-- The wanted events of a block without the hash, which are a matter of its content. -/
def bareOf (addrs : List Felt) (keys : List (List Felt)) (n : Nat) (txs : List (Nat × Nat × List Event)) : List REvent :=
  (txs.flatMap fun t => t.2.2.zipIdx.map fun ei => (⟨ei.1, none, n, t.1, t.2.1, ei.2⟩ : REvent)).filter fun e => wanted addrs keys e.event

theorem wantedAt_bare (chain : List Body) (p : Pending) (addrs : List Felt) (keys : List (List Felt)) (n : Nat) :
    (wantedAt chain p addrs keys n).map REvent.noHash = bareOf addrs keys n (content chain p n) := by
  unfold wantedAt bareOf
  rw [show (fun e : REvent => wanted addrs keys e.event) = (fun e : REvent => wanted addrs keys e.event) ∘ REvent.noHash from rfl,
    ← List.filter_map, show (fun e : REvent => wanted addrs keys e.event) ∘ REvent.noHash = fun e : REvent => wanted addrs keys e.event from rfl]
  congr 1
  rw [List.map_flatMap]
  congr 1
  funext t
  rw [List.map_map]
  rfl

theorem bareOf_prefix {addrs : List Felt} {keys : List (List Felt)} {n : Nat} {xs ys : List (Nat × Nat × List Event)} (h : xs <+: ys) :
    bareOf addrs keys n xs <+: bareOf addrs keys n ys := by
  obtain ⟨zs, rfl⟩ := h
  unfold bareOf
  rw [List.flatMap_append, List.filter_append]
  exact List.prefix_append _ _

theorem answerAt_bare (chain : List Body) (p : Pending) (addrs : List Felt) (keys : List (List Felt)) (a b : Nat) :
    (answerAt chain p addrs keys a b).map REvent.noHash =
      (List.range' a (b + 1 - a)).flatMap fun n => bareOf addrs keys n (content chain p n) := by
  unfold answerAt
  rw [List.map_flatMap]
  congr 1
  funext n
  exact wantedAt_bare ..

theorem Moment.Extends.answer_eq {w w' : Moment} (h : w.Extends w') (addrs : List Felt) (keys : List (List Felt)) {a b : Nat}
    (hb : b < w.pending.preConfirmed.number) :
    (answerAt w'.chain w'.pending addrs keys a b).map REvent.noHash = (answerAt w.chain w.pending addrs keys a b).map REvent.noHash := by
  rw [answerAt_bare, answerAt_bare, List.flatMap_def, List.flatMap_def]
  congr 1
  apply List.map_congr_left
  intro n hn
  rw [List.mem_range'_1] at hn
  rw [h.2.2.1 n (by omega)]

theorem Moment.Extends.answer_prefix {w w' : Moment} (h : w.Extends w') (addrs : List Felt) (keys : List (List Felt)) {a b b' : Nat}
    (hb : b ≤ w.pending.preConfirmed.number) (hb' : b ≤ b') :
    (answerAt w.chain w.pending addrs keys a b).map REvent.noHash <+: (answerAt w'.chain w'.pending addrs keys a b').map REvent.noHash := by
  by_cases hab : b < a
  · rw [answerAt_empty hab]; exact List.nil_prefix
  have h1 : (answerAt w'.chain w'.pending addrs keys a b).map REvent.noHash <+: (answerAt w'.chain w'.pending addrs keys a b').map REvent.noHash := by
    rw [answerAt_split (b := b') (m := b) (by omega) hb', List.map_append]
    exact List.prefix_append _ _
  refine List.IsPrefix.trans ?_ h1
  by_cases hlt : b < w.pending.preConfirmed.number
  · rw [h.answer_eq addrs keys hlt]; exact List.prefix_refl _
  have hb : b = w.pending.preConfirmed.number := by omega
  have hlast : bareOf addrs keys b (content w.chain w.pending b) <+: bareOf addrs keys b (content w'.chain w'.pending b) :=
    bareOf_prefix (by rw [hb]; exact h.2.2.2)
  by_cases hae : a = b
  · subst hae
    rw [answerAt_one, answerAt_one, wantedAt_bare, wantedAt_bare]
    exact hlast
  · obtain ⟨b0, hb0⟩ : ∃ b0, b = b0 + 1 := ⟨b - 1, by omega⟩
    rw [answerAt_split (a := a) (b := b) (m := b0) (by omega) (by omega), answerAt_split (chain := w'.chain) (a := a) (b := b) (m := b0) (by omega) (by omega), ← hb0,
      answerAt_one, answerAt_one, List.map_append, List.map_append, wantedAt_bare, wantedAt_bare, h.answer_eq addrs keys (by omega)]
    exact (List.prefix_append_right_inj _).2 hlast

theorem RValid.grow {w w' : Moment} (h : w.Extends w') {limit : Nat} (hl : 1 ≤ limit) {addrs : List Felt} {keys : List (List Felt)} {L L' : Nat} {t : Token}
    (hL : L ≤ L') (hpc : L ≤ w.pending.preConfirmed.number) (hv : RValid w.chain w.pending limit addrs keys L t) :
    RValid w'.chain w'.pending limit addrs keys L' t := by
  unfold RValid at *
  have hlen := h.1
  have hreach : reach w.chain limit t.block ≤ reach w'.chain limit t.block := by
    unfold reach
    split <;> split <;> omega
  have := (h.answer_prefix addrs keys (a := t.block) (b := min L (reach w.chain limit t.block)) (b' := min L' (reach w'.chain limit t.block))
    (by omega) (by omega)).length_le
  rw [List.length_map, List.length_map] at this
  omega

theorem RValid.le_all {chain : List Body} {p : Pending} {limit : Nat} (hl : 1 ≤ limit) {addrs : List Felt} {keys : List (List Felt)} {L : Nat} {t : Token}
    (hv : RValid chain p limit addrs keys L t) : t.offset ≤ (answerAt chain p addrs keys t.block L).length := by
  unfold RValid at hv
  by_cases h : t.block ≤ L
  · have hreach : t.block ≤ reach chain limit t.block := by unfold reach; split <;> omega
    rw [answerAt_split (a := t.block) (m := min L (reach chain limit t.block)) (by omega) (by omega), List.length_append]
    omega
  · rw [answerAt_empty (by omega)] at hv
    simp only [List.length_nil] at hv
    omega

theorem rangeLast_mono {w w' : Moment} (h : w.Extends w') {to : Option BlockId} {L L' : Nat} (h1 : rangeLast w.chain w.pending to = some L)
    (h2 : rangeLast w'.chain w'.pending to = some L') : L ≤ L' := by
  obtain ⟨g1, g2, -⟩ := h
  cases to with
  | none => simp only [rangeLast, Option.some.injEq] at h1 h2; omega
  | some b =>
    cases b with
    | number n => simp only [rangeLast, Option.some.injEq] at h1 h2; omega
    | stored n => simp only [rangeLast] at h1 h2; rw [h1, Option.some.injEq] at h2; omega
    | latest => simp only [rangeLast, Option.some.injEq] at h1 h2; omega
    | preConfirmed => simp only [rangeLast, Option.some.injEq] at h1 h2; omega

/-- What is left after a page is the same later. -/
theorem rest_later {w w' : Moment} (h : w.Extends w') {addrs : List Felt} {keys : List (List Felt)} {L L' : Nat} {P t : Token} {evs : List REvent}
    (hL : L ≤ L') (hpc : L ≤ w.pending.preConfirmed.number) (hPt : P.block ≤ t.block) (htL : t.block ≤ L)
    (hP : P.offset ≤ (answerAt w.chain w.pending addrs keys P.block L).length)
    (ht : t.offset ≤ (answerAt w.chain w.pending addrs keys t.block L).length)
    (he : (answerAt w.chain w.pending addrs keys P.block L).drop P.offset = evs ++ (answerAt w.chain w.pending addrs keys t.block L).drop t.offset) :
    ((answerAt w'.chain w'.pending addrs keys P.block L').drop P.offset).map REvent.noHash =
      evs.map REvent.noHash ++ ((answerAt w'.chain w'.pending addrs keys t.block L').drop t.offset).map REvent.noHash := by
  have hsplit : ∀ (x : Moment) (M : Nat), t.block ≤ M → (answerAt x.chain x.pending addrs keys P.block M).map REvent.noHash =
      (if P.block < t.block then (answerAt x.chain x.pending addrs keys P.block (t.block - 1)).map REvent.noHash else []) ++
        (answerAt x.chain x.pending addrs keys t.block M).map REvent.noHash := by
    intro x M hM
    by_cases hlt : P.block < t.block
    · rw [if_pos hlt, answerAt_split (a := P.block) (m := t.block - 1) (b := M) (by omega) (by omega), List.map_append,
        show t.block - 1 + 1 = t.block by omega]
    · rw [if_neg hlt, show P.block = t.block by omega, List.nil_append]
  have hY : (if P.block < t.block then (answerAt w'.chain w'.pending addrs keys P.block (t.block - 1)).map REvent.noHash else []) =
      (if P.block < t.block then (answerAt w.chain w.pending addrs keys P.block (t.block - 1)).map REvent.noHash else []) := by
    by_cases hlt : P.block < t.block
    · rw [if_pos hlt, if_pos hlt, h.answer_eq addrs keys (by omega)]
    · rw [if_neg hlt, if_neg hlt]
  obtain ⟨Z, hZ⟩ := h.answer_prefix addrs keys (a := t.block) hpc hL
  have hPL : (answerAt w'.chain w'.pending addrs keys P.block L').map REvent.noHash =
      (answerAt w.chain w.pending addrs keys P.block L).map REvent.noHash ++ Z := by
    rw [hsplit w' L' (by omega), hsplit w L htL, hY, ← hZ, List.append_assoc]
  rw [List.map_drop, hPL, List.drop_append_of_le_length (by rw [List.length_map]; exact hP), ← List.map_drop, he, List.map_append,
    List.map_drop, List.map_drop, ← hZ, List.drop_append_of_le_length (by rw [List.length_map]; exact ht), List.append_assoc]

theorem session_spec {c : Cfg} {limit : Nat} (hl : 1 ≤ limit) {r : Request} (hp : 1 ≤ r.chunk) (hp' : r.chunk ≤ 1024)
    (hk : r.keys.length ≤ keyLimit) {a : Nat} {tok : Option Token} {ws : List Moment} {evs : List REvent}
    (h : Session c limit r tok ws evs) (hw : ∀ w ∈ ws, Answerable c r a w) (hg : ws.Pairwise Moment.Extends)
    (hv : ∀ w L, ws.head? = some w → rangeLast w.chain w.pending r.toBlock = some L →
      (∀ t, tok = some t → a ≤ t.block ∧ t.block ≤ L) ∧ RValid w.chain w.pending limit r.addrs r.keys L (tok.getD ⟨a, 0⟩)) :
    ∃ w L, ws.getLast? = some w ∧ rangeLast w.chain w.pending r.toBlock = some L ∧ evs.map REvent.noHash =
      ((answerAt w.chain w.pending r.addrs r.keys (tok.getD ⟨a, 0⟩).block L).drop (tok.getD ⟨a, 0⟩).offset).map REvent.noHash := by
  induction h with
  | @last tok w evs h =>
    have hw := hw w (by simp)
    obtain ⟨L, hL, -⟩ := hw.last
    obtain ⟨hle, hv⟩ := hv w L rfl hL
    obtain ⟨out, h1, h2, h3, h4⟩ := page_rpc hw.view limit hl hw.follows r hp hp' hk hw.plain hw.first hL tok hle hv
    rw [h, Except.ok.injEq] at h1
    subst h1
    exact ⟨w, L, rfl, hL, (congrArg (List.map REvent.noHash) (h3 rfl)).symm⟩
  | @more tok w evs rest t ws h hr ih =>
    have hw0 := hw w (by simp)
    obtain ⟨L, hL, hpc⟩ := hw0.last
    obtain ⟨hle, hv⟩ := hv w L rfl hL
    obtain ⟨out, h1, h2, h3, h4⟩ := page_rpc hw0.view limit hl hw0.follows r hp hp' hk hw0.plain hw0.first hL tok hle hv
    rw [h, Except.ok.injEq] at h1
    subst h1
    obtain ⟨g1, g2, g3, g4, -⟩ := h4 t rfl
    have hPa : a ≤ (tok.getD ⟨a, 0⟩).block := by
      cases tok with
      | none => exact Nat.le_refl _
      | some k => exact (hle k rfl).1
    rw [List.pairwise_cons] at hg
    obtain ⟨w', L', k1, k2, k3⟩ := ih (fun x hx => hw x (by simp [hx])) hg.2 (by
      intro x Lx hx hLx
      have hext := hg.1 x (List.mem_of_mem_head? hx)
      have := rangeLast_mono hext hL hLx
      refine ⟨fun k hk => ?_, g2.grow hext hl this hpc⟩
      simp only [Option.some.injEq] at hk
      subst hk
      omega)
    have hwm : w' ∈ ws := List.mem_of_getLast? k1
    have hext := hg.1 w' hwm
    refine ⟨w', L', by rw [List.getLast?_cons, k1]; rfl, k2, ?_⟩
    rw [List.map_append, k3]
    exact (rest_later hext (rangeLast_mono hext hL k2) hpc g3 g4 (hv.le_all hl) (g2.le_all hl) g1).symm

end Verif.Events
