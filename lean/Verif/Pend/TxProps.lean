import Verif.Pend.Props
/-!
# C85: queries about pending blocks, transactions

A transaction of a pending block that is executed is answered with its own receipt and the number of its block, one that is not executed yet
is a candidate, and every other transaction is answered from the chain. A transaction of the pre-latest block for which the gateway gives no
receipt makes the node panic.
-/
namespace Verif.Pend

/-- The numbers of the pending blocks that are shown on top of a chain of that length. -/
def shown (v9 : Bool) (len n : Nat) (pl : Option GLatest) : List Nat :=
  if v9 then (above len (pendingBlocks {} n pl)).map (·.1) else []

/-- The gateway gives one receipt, or its absence, for each transaction, and no transaction twice. -/
structure Aligned (txs : List Tx) (receipts : List (Option Rcpt)) : Prop where
  length : receipts.length = txs.length
  own : ∀ (i : Nat) (t : Tx) (r : Rcpt), txs[i]? = some t → receipts[i]? = some (some r) → r.tx = t.hash
  once : (txs.map (·.hash)).Nodup

/-- The transaction is not in the list. -/
def Absent (h : Nat) (txs : List Tx) : Prop := ∀ t ∈ txs, t.hash ≠ h

theorem find_none {h : Nat} {txs : List Tx} (hb : Absent h txs) : txs.find? (fun t => t.hash == h) = none := by
  rw [List.find?_eq_none]
  intro t ht
  simpa using hb t ht

theorem find_mem {txs : List Tx} (hn : (txs.map (·.hash)).Nodup) {t : Tx} (ht : t ∈ txs) :
    txs.find? (fun x => x.hash == t.hash) = some t := by
  induction txs with
  | nil => cases ht
  | cons x l ih =>
    rw [List.map_cons, List.nodup_cons] at hn
    rw [List.find?_cons]
    by_cases e : x.hash = t.hash
    · simp only [e, beq_self_eq_true]
      rcases List.mem_cons.1 ht with rfl | ht
      · rfl
      · exact absurd (List.mem_map.2 ⟨t, ht, e.symm⟩) hn.1
    · simp only [beq_eq_false_iff_ne.2 e]
      rcases List.mem_cons.1 ht with rfl | ht
      · exact absurd rfl e
      · exact ih hn.2 ht

theorem Aligned.tail {t : Tx} {o : Option Rcpt} {txs : List Tx} {rs : List (Option Rcpt)} (h : Aligned (t :: txs) (o :: rs)) :
    Aligned txs rs := by
  refine ⟨by simpa using h.length, fun i t r ht hr => h.own (i + 1) t r (by simpa using ht) (by simpa using hr), ?_⟩
  have := h.once
  rw [List.map_cons, List.nodup_cons] at this
  exact this.2

theorem Aligned.mem_hash {txs : List Tx} {rs : List (Option Rcpt)} (h : Aligned txs rs) {r : Rcpt} (hr : r ∈ rs.filterMap id) :
    r.tx ∈ txs.map (·.hash) := by
  simp only [List.mem_filterMap, id_eq, exists_eq_right] at hr
  obtain ⟨i, hi⟩ := List.mem_iff_getElem?.1 hr
  have hlt : i < rs.length := (List.getElem?_eq_some_iff.1 hi).1
  have hlt' : i < txs.length := by have := h.length; omega
  have ht : txs[i]? = some txs[i] := List.getElem?_eq_getElem hlt'
  rw [h.own i _ r ht hi]
  exact List.mem_map.2 ⟨_, List.getElem_mem hlt', rfl⟩

theorem filter_ext {α : Type} {p q : α → Bool} {l : List α} (h : ∀ x ∈ l, p x = q x) : l.filter p = l.filter q := List.filter_congr h

/-- The transactions that are executed are in the order of the receipts. -/
theorem Aligned.pairs {txs : List Tx} {rs : List (Option Rcpt)} (h : Aligned txs rs) :
    (txs.filter fun t => ((rs.filterMap id).map (·.tx)).contains t.hash).map (·.hash) = (rs.filterMap id).map (·.tx) := by
  induction txs generalizing rs with
  | nil =>
    cases rs with
    | nil => rfl
    | cons _ _ => exact absurd h.length (by simp)
  | cons t l ih =>
    cases rs with
    | nil => exact absurd h.length (by simp)
    | cons o rs =>
      have ht := h.tail
      have hd := ih ht
      have ho := h.once
      rw [List.map_cons, List.nodup_cons] at ho
      cases o with
      | none =>
        have hne : ((rs.filterMap id).map (·.tx)).contains t.hash = false := by
          rw [List.contains_eq_mem, decide_eq_false_iff_not]
          intro hm
          obtain ⟨r, hr, e⟩ := List.mem_map.1 hm
          exact ho.1 (e ▸ ht.mem_hash hr)
        rw [show (none :: rs).filterMap id = rs.filterMap id from rfl, List.filter_cons, if_neg (by rw [hne]; simp)]
        exact hd
      | some r =>
        have hr : r.tx = t.hash := h.own 0 t r rfl rfl
        rw [show (some r :: rs).filterMap id = r :: rs.filterMap id from rfl, List.map_cons, List.filter_cons, if_pos (by simp [hr]),
          List.map_cons, hr]
        congr 1
        rw [← hd]
        congr 1
        refine filter_ext fun x hx => ?_
        have : x.hash ≠ t.hash := fun e => ho.1 (e ▸ List.mem_map.2 ⟨x, hx, rfl⟩)
        rw [List.contains_cons, beq_eq_false_iff_ne.2 this, Bool.false_or, hd]

theorem Aligned.find_receipt {txs : List Tx} {rs : List (Option Rcpt)} (h : Aligned txs rs) {i : Nat} {t : Tx} {r : Rcpt}
    (ht : txs[i]? = some t) (hr : rs[i]? = some (some r)) : (rs.filterMap id).find? (fun x => x.tx == t.hash) = some r := by
  induction i generalizing txs rs with
  | zero =>
    cases rs with
    | nil => cases hr
    | cons o rs =>
      cases txs with
      | nil => cases ht
      | cons x l =>
        simp only [List.getElem?_cons_zero, Option.some.injEq] at hr ht
        subst hr; subst ht
        have := h.own 0 x r rfl rfl
        simp [this]
  | succ i ih =>
    cases rs with
    | nil => cases hr
    | cons o rs =>
      cases txs with
      | nil => cases ht
      | cons x l =>
        simp only [List.getElem?_cons_succ] at hr ht
        have hi := ih h.tail ht hr
        cases o with
        | none => exact hi
        | some q =>
          have hq := h.own 0 x q rfl rfl
          have ho := h.once
          rw [List.map_cons, List.nodup_cons] at ho
          have : q.tx ≠ t.hash := by
            rw [hq]
            exact fun e => ho.1 (e ▸ List.mem_map.2 ⟨t, List.mem_of_getElem? ht, rfl⟩)
          rw [show (some q :: rs).filterMap id = q :: rs.filterMap id from rfl, List.find?_cons, beq_eq_false_iff_ne.2 this]
          exact hi

theorem Aligned.no_receipt {txs : List Tx} {rs : List (Option Rcpt)} (h : Aligned txs rs) {i : Nat} {t : Tx}
    (ht : txs[i]? = some t) (hr : rs[i]? = some none) : ((rs.filterMap id).map (·.tx)).contains t.hash = false := by
  rw [List.contains_eq_mem, decide_eq_false_iff_not]
  intro hm
  obtain ⟨r, hrm, e⟩ := List.mem_map.1 hm
  simp only [List.mem_filterMap, id_eq, exists_eq_right] at hrm
  obtain ⟨j, hj⟩ := List.mem_iff_getElem?.1 hrm
  have hlt : j < txs.length := by
    have := (List.getElem?_eq_some_iff.1 hj).1
    have := h.length
    omega
  have htj : txs[j]? = some txs[j] := List.getElem?_eq_getElem hlt
  have hown := h.own j _ r htj hj
  have hlt' : i < txs.length := (List.getElem?_eq_some_iff.1 ht).1
  have hti : txs[i] = t := (List.getElem?_eq_some_iff.1 ht).2
  have : i = j := by
    have hnd := h.once
    have hi' : i < (txs.map (·.hash)).length := by simpa using hlt'
    have hj' : j < (txs.map (·.hash)).length := by simpa using hlt
    refine (List.getElem_inj (i := i) (j := j) (h₀ := hi') (h₁ := hj') hnd).1 ?_
    rw [List.getElem_map, List.getElem_map, hti, ← hown, e]
  subst this
  rw [hr] at hj
  cases hj

variable {g : GBlock} {n : Nat} {pl : Option GLatest} {w : Data}

/-- C85. Every reply of the gateway that gives each transaction its receipt or none is accepted, and then the transactions that are executed
and the receipts belong together one by one. -/
theorem C85_accepted (hal : Aligned g.txs g.receipts) (hp : ∀ p ∈ pl, p.number + 1 = n) :
    ∃ w, convert g n pl = .ok w ∧ w.txs.map (·.hash) = w.receipts.map (·.tx) ∧
      (∀ t, t ∈ w.txs ∨ t ∈ w.cand ↔ t ∈ g.txs) := by
  have hpair : (executed g).map (·.hash) = (given g).map (·.tx) := hal.pairs
  have hlen : (given g).length = (executed g).length := by
    have := congrArg List.length hpair
    simpa using this.symm
  have hpn : (pl.map fun p => p.number + 1).getD n = n := by
    cases pl with
    | none => rfl
    | some p => exact hp p rfl
  refine ⟨_, by rw [convert, if_neg (by omega), if_neg (by omega)], hpair, fun t => ?_⟩
  simp only [executed, candidates, List.mem_filter]
  cases ((given g).map (·.tx)).contains t.hash <;> simp

/-- What `get` shows. -/
theorem get_shown (h : convert g n pl = .ok w) (head root : Nat) (v9 : Bool) :
    ∃ d, get head root v9 w = .ok d ∧
      (n ∈ shown v9 (head + 1) n pl → d.txs = executed g ∧ d.receipts = given g ∧ d.cand = candidates g ∧ d.number = n) ∧
      (n ∉ shown v9 (head + 1) n pl → d.txs = [] ∧ d.cand = []) ∧
      d.preLatest = (pl.filter fun p => (shown v9 (head + 1) n pl).contains p.number).map fun p => { preLatest p with root } := by
  obtain ⟨-, hp, rfl⟩ := convert_ok h
  cases v9 with
  | false =>
    refine ⟨_, rfl, (fun hm => by cases hm), fun _ => ⟨rfl, rfl⟩, ?_⟩
    cases pl <;> rfl
  | true =>
    cases pl with
    | none =>
      simp only [get, if_true, Option.map_none]
      by_cases hn : n = head + 1
      · rw [if_pos hn]
        refine ⟨_, rfl, fun _ => ⟨rfl, rfl, rfl, rfl⟩, fun hm => absurd ?_ hm, rfl⟩
        simp [shown, above, pendingBlocks, hn]
      · rw [if_neg hn]
        refine ⟨_, rfl, fun hm => absurd hm ?_, fun _ => ⟨rfl, rfl⟩, rfl⟩
        simp only [shown, above, pendingBlocks, if_true, Option.map_none, Option.toList_none, List.nil_append]
        by_cases hle : head + 1 ≤ n <;> simp [hle, hn]
    | some p =>
      have hpn := hp p rfl
      simp only [get, if_true, Option.map_some, preLatest]
      by_cases h1 : p.number = head + 1
      · rw [if_pos h1, if_pos hpn]
        have hs : shown true (head + 1) n (some p) = [p.number, n] := by
          have h2 : head + 1 ≤ p.number := by omega
          have h3 : head + 1 ≤ n := by omega
          have h4 : head ≤ n := by omega
          simp [shown, above, pendingBlocks, h1, h3]
        refine ⟨_, rfl, fun _ => ⟨rfl, rfl, rfl, rfl⟩, fun hm => absurd ?_ hm, ?_⟩
        · rw [hs]; simp
        · rw [hs]; simp [Option.filter]
      · rw [if_neg h1]
        by_cases h2 : p.number = head
        · rw [if_pos h2, if_pos hpn]
          have hs : shown true (head + 1) n (some p) = [n] := by
            have h4 : ¬ head + 1 ≤ p.number := by omega
            have h3 : n = head + 1 := by omega
            simp [shown, above, pendingBlocks, h4, h3]
          refine ⟨_, rfl, fun _ => ⟨rfl, rfl, rfl, rfl⟩, fun hm => absurd ?_ hm, ?_⟩
          · rw [hs]; simp
          · rw [hs]
            have : p.number ≠ n := by omega
            simp [Option.filter, this]
        · rw [if_neg h2]
          have hs : shown true (head + 1) n (some p) = [] := by
            unfold shown above pendingBlocks
            by_cases hle : head + 1 ≤ p.number
            · have h3 : head + 1 ≤ n := by omega
              simp [hle, h1, h3]
            · have h3 : ¬ head + 1 ≤ n := by omega
              simp [hle, h3]
          refine ⟨_, rfl, fun hm => ?_, fun _ => ⟨rfl, rfl⟩, ?_⟩
          · rw [hs] at hm; cases hm
          · rw [hs]; rfl

variable (h : convert g n pl = .ok w) (head root : Nat) (v9 : Bool) (b : Bodies)

include h in
/-- C85. A transaction of the pre-confirmed block that is executed: its status, its receipt with the number of the block, and its body. -/
theorem C85_pre_confirmed (hal : Aligned g.txs g.receipts) (hs : n ∈ shown v9 (head + 1) n pl) {i : Nat} {t : Tx} {r : Rcpt}
    (ht : g.txs[i]? = some t) (hr : g.receipts[i]? = some (some r)) :
    getStatus head root v9 w b t.hash = .ok (some (.preConfirmed r.exec)) ∧ getReceipt head root v9 w b t.hash = .pending ⟨n, t, r⟩ ∧
    getTx head root v9 w b t.hash = some (some t) := by
  obtain ⟨d, hd, hsh, -, -⟩ := get_shown h head root v9
  obtain ⟨e1, e2, e3, e4⟩ := hsh hs
  have hfr : (given g).find? (fun x => x.tx == t.hash) = some r := hal.find_receipt ht hr
  have hex : t ∈ executed g := by
    refine List.mem_filter.2 ⟨List.mem_of_getElem? ht, ?_⟩
    rw [List.contains_eq_mem, decide_eq_true_iff]
    have hm := List.mem_of_find?_eq_some hfr
    have he := hal.own i t r ht hr
    exact List.mem_map.2 ⟨r, hm, he⟩
  have hnd : ((executed g).map (·.hash)).Nodup := hal.once.sublist ((List.filter_sublist (l := g.txs)).map _)
  have hft := find_mem hnd hex
  have hff : findFinal d t.hash = .ok (some ⟨n, t, r⟩) := by
    unfold findFinal withReceipt
    rw [e1, hft, e2]
    simp only
    rw [hfr, e4]
  refine ⟨?_, ?_, ?_⟩
  · unfold getStatus
    rw [hd]
    simp only
    rw [hff]
  · unfold getReceipt
    rw [hd]
    simp only
    rw [hff]
  · unfold getTx findTx
    rw [hd]
    simp only
    rw [e1, hft]
    rfl

/-- A stored transaction as the queries answer it. -/
def storedReceipt (b : Bodies) (h : Nat) : RcptAns :=
  match b.find h with
  | some (n, t, r) => .full n t r (b.onL1 n)
  | none => .notFound

/-- The status of a stored transaction. -/
def storedStatus (b : Bodies) (h : Nat) : Option Status :=
  (b.find h).map fun p => if b.onL1 p.1 then .onL1 p.2.2.exec else .onL2 p.2.2.exec

include h in
/-- C85. A transaction of the pre-confirmed block that is not executed yet: it is a candidate, its body is given, and it has no receipt (unless
the chain has one). -/
theorem C85_candidate (hal : Aligned g.txs g.receipts) (hs : n ∈ shown v9 (head + 1) n pl) {i : Nat} {t : Tx}
    (ht : g.txs[i]? = some t) (hr : g.receipts[i]? = some none) (hpl : ∀ p ∈ pl, Absent t.hash p.txs) :
    getStatus head root v9 w b t.hash = .ok (some .candidate) ∧ getReceipt head root v9 w b t.hash = storedReceipt b t.hash ∧
    getTx head root v9 w b t.hash = some (some t) := by
  obtain ⟨d, hd, hsh, -, hpre⟩ := get_shown h head root v9
  obtain ⟨e1, e2, e3, e4⟩ := hsh hs
  have hno : ((given g).map (·.tx)).contains t.hash = false := hal.no_receipt ht hr
  have hft : (executed g).find? (fun x => x.hash == t.hash) = none := by
    apply find_none
    intro x hx e
    have := (List.mem_filter.1 hx).2
    rw [e] at this
    exact absurd this (by rw [hno]; simp)
  have hca : t ∈ candidates g := List.mem_filter.2 ⟨List.mem_of_getElem? ht, by rw [hno]; rfl⟩
  have hnd : ((candidates g).map (·.hash)).Nodup := hal.once.sublist ((List.filter_sublist (l := g.txs)).map _)
  have hfc := find_mem hnd hca
  have hff : findFinal d t.hash = .ok none := by
    unfold findFinal
    rw [e1, hft, hpre]
    simp only
    cases pl with
    | none => rfl
    | some p =>
      rw [Option.filter_some]
      split
      · simp only [findFinalLatest, Option.map_some, preLatest]
        rw [find_none (hpl p rfl)]
      · rfl
  refine ⟨?_, ?_, ?_⟩
  · unfold getStatus
    rw [hd]
    simp only
    rw [hff]
    simp only
    rw [e3, if_pos]
    exact List.any_eq_true.2 ⟨t, hca, by simp⟩
  · unfold getReceipt storedReceipt
    rw [hd]
    simp only
    rw [hff]
    rcases b.find _ with _ | ⟨_, _, _⟩ <;> rfl
  · unfold getTx findTx
    rw [hd]
    simp only
    rw [e1, hft, e3, hfc]
    rfl

include h in
/-- C85. A transaction of the pre-latest block: as for the pre-confirmed block, with the number of the pre-latest block. -/
theorem C85_pre_latest {p : GLatest} (hp : pl = some p) (hal : Aligned p.txs (p.receipts.map some))
    (hs : p.number ∈ shown v9 (head + 1) n pl) {i : Nat} {t : Tx} {r : Rcpt} (ht : p.txs[i]? = some t) (hr : p.receipts[i]? = some r)
    (hg : Absent t.hash g.txs) :
    getStatus head root v9 w b t.hash = .ok (some (.preConfirmed r.exec)) ∧
    getReceipt head root v9 w b t.hash = .pending ⟨p.number, t, r⟩ ∧ getTx head root v9 w b t.hash = some (some t) := by
  obtain ⟨d, hd, hsh, hns, hpre⟩ := get_shown h head root v9
  subst hp
  rw [Option.filter_some, if_pos (by rw [List.contains_eq_mem, decide_eq_true_iff]; exact hs), Option.map_some] at hpre
  have hsub : ∀ x ∈ d.txs, x ∈ g.txs := by
    intro x hx
    by_cases hn : n ∈ shown v9 (head + 1) n (some p)
    · rw [(hsh hn).1] at hx
      exact (List.mem_filter.1 hx).1
    · rw [(hns hn).1] at hx
      cases hx
  have hsub' : ∀ x ∈ d.cand, x ∈ g.txs := by
    intro x hx
    by_cases hn : n ∈ shown v9 (head + 1) n (some p)
    · rw [(hsh hn).2.2.1] at hx
      exact (List.mem_filter.1 hx).1
    · rw [(hns hn).2] at hx
      cases hx
  have hft : d.txs.find? (fun x => x.hash == t.hash) = none := find_none fun x hx => hg x (hsub x hx)
  have hfc : d.cand.find? (fun x => x.hash == t.hash) = none := find_none fun x hx => hg x (hsub' x hx)
  have hfp : p.txs.find? (fun x => x.hash == t.hash) = some t := find_mem hal.once (List.mem_of_getElem? ht)
  have hfr : p.receipts.find? (fun x => x.tx == t.hash) = some r := by
    have := hal.find_receipt ht (r := r) (by rw [List.getElem?_map, hr]; rfl)
    rwa [show (p.receipts.map some).filterMap id = p.receipts by
      rw [List.filterMap_map]; exact List.filterMap_some] at this
  have hff : findFinal d t.hash = .ok (some ⟨p.number, t, r⟩) := by
    unfold findFinal
    rw [hft, hpre]
    simp only [findFinalLatest, preLatest, withReceipt]
    rw [hfp]
    simp only
    rw [hfr]
  refine ⟨?_, ?_, ?_⟩
  · unfold getStatus
    rw [hd]
    simp only
    rw [hff]
  · unfold getReceipt
    rw [hd]
    simp only
    rw [hff]
  · unfold getTx findTx
    rw [hd]
    simp only
    rw [hft, hfc, hpre]
    simp only [preLatest, Option.bind_some]
    rw [hfp]
    rfl

include h in
/-- C85 is violated: a transaction of the pre-latest block for which the gateway gives no receipt makes two queries panic. (Nothing checks that
the gateway gives one.) -/
theorem C85_pre_latest_violated {p : GLatest} (hp : pl = some p) (hs : p.number ∈ shown v9 (head + 1) n pl) {t : Tx} (ht : t ∈ p.txs)
    (hr : ∀ r ∈ p.receipts, r.tx ≠ t.hash) (hg : Absent t.hash g.txs) :
    getStatus head root v9 w b t.hash = .error .panic ∧ getReceipt head root v9 w b t.hash = .panic := by
  obtain ⟨d, hd, hsh, hns, hpre⟩ := get_shown h head root v9
  subst hp
  rw [Option.filter_some, if_pos (by rw [List.contains_eq_mem, decide_eq_true_iff]; exact hs), Option.map_some] at hpre
  have hsub : ∀ x ∈ d.txs, x ∈ g.txs := by
    intro x hx
    by_cases hn : n ∈ shown v9 (head + 1) n (some p)
    · rw [(hsh hn).1] at hx
      exact (List.mem_filter.1 hx).1
    · rw [(hns hn).1] at hx
      cases hx
  have hft : d.txs.find? (fun x => x.hash == t.hash) = none := find_none fun x hx => hg x (hsub x hx)
  have hfr : p.receipts.find? (fun x => x.tx == t.hash) = none := by
    rw [List.find?_eq_none]
    intro r hrm
    simpa using hr r hrm
  have hff : findFinal d t.hash = .error .panic := by
    unfold findFinal
    rw [hft, hpre]
    simp only [findFinalLatest, preLatest, withReceipt]
    cases hfp : p.txs.find? (fun x => x.hash == t.hash) with
    | none => exact absurd (List.find?_eq_none.1 hfp t ht) (by simp)
    | some y =>
      simp only
      rw [hfr]
  constructor
  · unfold getStatus
    rw [hd]
    simp only
    rw [hff]
  · unfold getReceipt
    rw [hd]
    simp only
    rw [hff]

/-- The stored bodies hold no transaction twice. -/
def Bodies.Once (b : Bodies) : Prop := ((b.blocks.flatMap id).map (·.1.hash)).Nodup

theorem find_stored {bs : List (List (Tx × Rcpt))} (hn : ((bs.flatMap id).map (·.1.hash)).Nodup) {m i : Nat} {blk : List (Tx × Rcpt)}
    {t : Tx} {r : Rcpt} (hb : bs[m]? = some blk) (hi : blk[i]? = some (t, r)) (k : Nat) :
    (bs.zipIdx k).findSome? (fun p => (p.1.find? fun x => x.1.hash == t.hash).map fun x => (p.2, x.1, x.2)) = some (k + m, t, r) := by
  induction bs generalizing m k with
  | nil => cases hb
  | cons x l ih =>
    rw [List.flatMap_cons, List.map_append, List.nodup_append] at hn
    rw [List.zipIdx_cons, List.findSome?_cons]
    cases m with
    | zero =>
      simp only [List.getElem?_cons_zero, Option.some.injEq] at hb
      subst hb
      have hfind : x.find? (fun y => y.1.hash == t.hash) = some (t, r) := by
        have hx := hn.1
        clear ih hn
        have hm := List.mem_of_getElem? hi
        clear hi
        simp only [id_eq] at hx
        induction x with
        | nil => cases hm
        | cons y z ih =>
          rw [List.map_cons, List.nodup_cons] at hx
          rw [List.find?_cons]
          rcases List.mem_cons.1 hm with rfl | hm
          · simp
          · have : y.1.hash ≠ t.hash := fun e => hx.1 (e ▸ List.mem_map.2 ⟨(t, r), hm, rfl⟩)
            rw [beq_eq_false_iff_ne.2 this]
            exact ih hx.2 hm
      rw [hfind]
      rfl
    | succ m =>
      simp only [List.getElem?_cons_succ] at hb
      have hfind : x.find? (fun y => y.1.hash == t.hash) = none := by
        rw [List.find?_eq_none]
        intro y hy
        have h1 : y.1.hash ∈ List.map (fun z => z.1.hash) (id x) := List.mem_map.2 ⟨y, hy, rfl⟩
        have h2 : t.hash ∈ List.map (fun z => z.1.hash) (l.flatMap id) :=
          List.mem_map.2 ⟨(t, r), List.mem_flatMap.2 ⟨blk, List.mem_of_getElem? hb, List.mem_of_getElem? hi⟩, rfl⟩
        simpa using hn.2.2 _ h1 _ h2
      rw [hfind]
      simp only [Option.map_none]
      rw [ih hn.2.1 hb (k + 1)]
      congr 2
      omega

theorem find_absent {bs : List (List (Tx × Rcpt))} {x : Nat} (ha : ∀ blk ∈ bs, ∀ q ∈ blk, q.1.hash ≠ x) (k : Nat) :
    (bs.zipIdx k).findSome? (fun p => (p.1.find? fun y => y.1.hash == x).map fun y => (p.2, y.1, y.2)) = none := by
  induction bs generalizing k with
  | nil => rfl
  | cons z l ih =>
    rw [List.zipIdx_cons, List.findSome?_cons]
    have : z.find? (fun y => y.1.hash == x) = none := by
      rw [List.find?_eq_none]
      intro y hy
      simpa using ha z List.mem_cons_self y hy
    rw [this]
    exact ih (fun blk hb => ha blk (List.mem_cons_of_mem _ hb)) (k + 1)

include h in
/-- What is not in a pending block that is shown is answered from the chain. -/
theorem not_pending {x : Nat} (hg : n ∈ shown v9 (head + 1) n pl → Absent x g.txs)
    (hpl : ∀ p ∈ pl, p.number ∈ shown v9 (head + 1) n pl → Absent x p.txs) :
    getStatus head root v9 w b x = .ok (storedStatus b x) ∧ getReceipt head root v9 w b x = storedReceipt b x ∧
    getTx head root v9 w b x = some ((b.find x).map (·.2.1)) := by
  obtain ⟨d, hd, hsh, hns, hpre⟩ := get_shown h head root v9
  have hft : Absent x d.txs := by
    intro t ht
    by_cases hn : n ∈ shown v9 (head + 1) n pl
    · rw [(hsh hn).1] at ht
      exact hg hn t (List.mem_filter.1 ht).1
    · rw [(hns hn).1] at ht
      cases ht
  have hfc : Absent x d.cand := by
    intro t ht
    by_cases hn : n ∈ shown v9 (head + 1) n pl
    · rw [(hsh hn).2.2.1] at ht
      exact hg hn t (List.mem_filter.1 ht).1
    · rw [(hns hn).2] at ht
      cases ht
  have hfp : ∀ q ∈ d.preLatest, Absent x q.txs := by
    intro q hq
    rw [hpre] at hq
    obtain ⟨p, hp, rfl⟩ := Option.map_eq_some_iff.1 hq
    obtain ⟨hp1, hp2⟩ := Option.filter_eq_some_iff.1 hp
    exact hpl p hp1 (by simpa using hp2)
  have hff : findFinal d x = .ok none := by
    unfold findFinal
    rw [find_none hft]
    simp only
    unfold findFinalLatest
    cases hq : d.preLatest with
    | none => rfl
    | some q =>
      simp only
      rw [find_none (hfp q hq)]
  refine ⟨?_, ?_, ?_⟩
  · unfold getStatus storedStatus
    rw [hd]
    simp only
    rw [hff]
    simp only
    rw [if_neg]
    intro hany
    obtain ⟨t, ht, he⟩ := List.any_eq_true.1 hany
    exact hfc t ht (by simpa using he)
  · unfold getReceipt storedReceipt
    rw [hd]
    simp only
    rw [hff]
    rcases b.find _ with _ | ⟨_, _, _⟩ <;> rfl
  · unfold getTx findTx
    rw [hd]
    simp only
    rw [find_none hft, find_none hfc]
    cases hq : d.preLatest with
    | none => rfl
    | some q =>
      simp only [Option.bind_some]
      rw [find_none (hfp q hq)]
      rfl

include h in
/-- C85. A stored transaction that no pending block holds which is shown: answered from the chain, with its block, and accepted on L1 exactly
if L1 accepted its block. -/
theorem C85_stored (ho : b.Once) {m i : Nat} {blk : List (Tx × Rcpt)} {t : Tx} {r : Rcpt} (hb : b.blocks[m]? = some blk)
    (hi : blk[i]? = some (t, r)) (hg : n ∈ shown v9 (head + 1) n pl → Absent t.hash g.txs)
    (hpl : ∀ p ∈ pl, p.number ∈ shown v9 (head + 1) n pl → Absent t.hash p.txs) :
    getReceipt head root v9 w b t.hash = .full m t r (decide (∃ l ∈ b.l1, m ≤ l)) ∧
    getTx head root v9 w b t.hash = some (some t) ∧
    ((∃ l ∈ b.l1, m ≤ l) → getStatus head root v9 w b t.hash = .ok (some (.onL1 r.exec))) ∧
    ((¬ ∃ l ∈ b.l1, m ≤ l) → getStatus head root v9 w b t.hash = .ok (some (.onL2 r.exec))) := by
  obtain ⟨h1, h2, h3⟩ := not_pending h head root v9 b hg hpl
  have hf : b.find t.hash = some (m, t, r) := by
    have := find_stored ho hb hi 0
    rwa [Nat.zero_add] at this
  refine ⟨?_, ?_, fun hl => ?_, fun hl => ?_⟩
  · rw [h2, storedReceipt, hf]
    rfl
  · rw [h3, hf]
    rfl
  · rw [h1, storedStatus, hf]
    have : b.onL1 m = true := decide_eq_true hl
    simp only [Option.map_some, this, if_true]
  · rw [h1, storedStatus, hf]
    have : b.onL1 m = false := decide_eq_false hl
    simp only [Option.map_some, this, Bool.false_eq_true, if_false]

include h in
/-- C85. A transaction that is neither stored nor in a pending block that is shown is not found; for its status the gateway is asked. -/
theorem C85_unknown {x : Nat} (hb : ∀ blk ∈ b.blocks, ∀ q ∈ blk, q.1.hash ≠ x)
    (hg : n ∈ shown v9 (head + 1) n pl → Absent x g.txs) (hpl : ∀ p ∈ pl, p.number ∈ shown v9 (head + 1) n pl → Absent x p.txs) :
    getReceipt head root v9 w b x = .notFound ∧ getTx head root v9 w b x = some none ∧ getStatus head root v9 w b x = .ok none := by
  obtain ⟨h1, h2, h3⟩ := not_pending h head root v9 b hg hpl
  have hf : b.find x = none := find_absent hb 0
  exact ⟨by rw [h2, storedReceipt, hf], by rw [h3, hf]; rfl, by rw [h1, storedStatus, hf]; rfl⟩

/-! ## An example: a chain of one block, the pre-latest block 1 and the pre-confirmed block 2, with a candidate -/

/-- One stored block that L1 has accepted. -/
def exBodies : Bodies := ⟨[[(⟨400, 0⟩, ⟨400, 0, 0⟩)]], some 0⟩

theorem exAligned : Aligned exBlock.txs exBlock.receipts := by
  refine ⟨by decide, fun i t r ht hr => ?_, by decide⟩
  match i with
  | 0 => simp [exBlock] at ht hr; subst ht; subst hr; rfl
  | 1 => simp [exBlock] at ht hr; subst ht; subst hr; rfl
  | 2 => simp [exBlock] at hr
  | i + 3 => simp [exBlock] at hr

theorem exAlignedLatest : Aligned exLatest.txs (exLatest.receipts.map some) := by
  refine ⟨by decide, fun i t r ht hr => ?_, by decide⟩
  match i with
  | 0 => simp [exLatest] at ht hr; subst ht; subst hr; rfl
  | i + 1 => simp [exLatest] at hr

example : ∃ w, convert exBlock 2 (some exLatest) = .ok w ∧ Aligned exBlock.txs exBlock.receipts ∧
    Aligned exLatest.txs (exLatest.receipts.map some) ∧ shown true 1 2 (some exLatest) = [1, 2] ∧ exBodies.Once ∧
    getReceipt 0 9 true w exBodies 601 = .pending ⟨2, ⟨601, 0⟩, ⟨601, 1, 0⟩⟩ ∧
    getStatus 0 9 true w exBodies 602 = .ok (some .candidate) ∧ getReceipt 0 9 true w exBodies 602 = .notFound ∧
    getReceipt 0 9 true w exBodies 500 = .pending ⟨1, ⟨500, 0⟩, ⟨500, 0, 0⟩⟩ ∧
    getReceipt 0 9 true w exBodies 400 = .full 0 ⟨400, 0⟩ ⟨400, 0, 0⟩ true ∧ getReceipt 0 9 true w exBodies 1 = .notFound := by
  refine ⟨_, rfl, exAligned, exAlignedLatest, by decide, by unfold Bodies.Once; decide, by decide, rfl, by decide, by decide, by decide, by decide⟩

/-- The pre-latest block without its receipt. -/
example : ∃ w, convert exBlock 2 (some { exLatest with receipts := [] }) = .ok w ∧
    1 ∈ shown true 1 2 (some { exLatest with receipts := [] }) ∧ Absent 500 exBlock.txs ∧
    getReceipt 0 9 true w exBodies 500 = .panic := by
  refine ⟨_, rfl, by decide, by unfold Absent; decide, by decide⟩

end Verif.Pend
