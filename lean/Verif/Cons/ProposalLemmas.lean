import Verif.Cons.ProposalSpec

/-! Lemmas for `ProposalProps`: what each part does to a slot in the states a proposal passes through. -/
namespace Verif.Proposals

variable {X C K : Type} [DecidableEq C]

/-- What the validator holds after the block info and some batches. -/
def accOf (i : Init) (bs : List (List X)) : Parts X C :=
  ⟨.init i :: bs.map .batch, true, false, some i.proposer, i.validRound⟩

/-- ... and after the closing part. -/
def finOf (i : Init) (bs : List (List X)) (f : Fin' C) : Parts X C :=
  ⟨.init i :: bs.map .batch ++ [.fin f], true, true, some i.proposer, i.validRound⟩

omit [DecidableEq C] in
theorem accept_init (i : Init) : (Parts.new : Parts X C).accept (.init i) = some (accOf i [], .accepted) := rfl

omit [DecidableEq C] in
theorem accept_batch (i : Init) (bs : List (List X)) (xs : List X) (hx : xs ≠ []) :
    (accOf i bs : Parts X C).accept (.batch xs) = some (accOf i (bs ++ [xs]), .accepted) := by
  cases xs with
  | nil => exact absurd rfl hx
  | cons x xs => simp [Parts.accept, Parts.acceptBatch, accOf]

omit [DecidableEq C] in
theorem accept_fin (i : Init) (bs : List (List X)) (f : Fin' C) (hb : bs ≠ []) :
    (accOf i bs : Parts X C).accept (.fin f) = some (finOf i bs f, .nonEmpty) := by
  cases bs with
  | nil => exact absurd rfl hb
  | cons b bs => simp [Parts.accept, Parts.acceptFin, accOf, finOf]

theorem shouldDefer_eq {known : Nat → Bool} {h : Nat} (h0 : h ≠ 0) (hm : h ≤ maxNumber) :
    shouldDefer known h = .ok (!known (h - 1)) := by
  unfold shouldDefer
  rw [if_neg h0, if_neg (by omega)]

variable (W : World X C K) {known : Nat → Bool} {h : Nat} (h0 : h ≠ 0) (hm : h ≤ maxNumber)

omit [DecidableEq C] in
theorem validateInfo_eq (hk : known (h - 1) = true) (i : Init) (hi : i.height = h) :
    validateInfo W known i = if W.infoOk i then .ok ⟨i, [], []⟩ else .error .bad := by
  unfold validateInfo
  rw [hi, if_neg (by simp [hk])]

section
include h0 hm

theorem init_after (hk : known (h - 1) = true) (i : Init) (hi : i.height = h) (st : Option (Stage X K))
    (d : Option (Deferred X C)) (e : Bool) (fi : Option (Block X K)) :
    handlePart W known h ⟨none, st, d, e, fi⟩ (.init i) =
      if W.infoOk i then .ok ⟨some (accOf i []), some (.batches ⟨i, [], []⟩), d, e, fi⟩ none
      else .skipped ⟨none, st, d, e, fi⟩ := by
  simp only [handlePart, Option.getD_none, accept_init, onPart, onInit, hi, if_neg (Nat.not_lt.2 hm),
    shouldDefer_eq h0 hm, hk, Bool.not_true, Except.bind, validateInfo_eq W hk i hi]
  cases W.infoOk i <;> simp [Except.map]

theorem init_before (hk : known (h - 1) = false) (i : Init) (hi : i.height = h) (st : Option (Stage X K))
    (d : Option (Deferred X C)) (e : Bool) (fi : Option (Block X K)) :
    handlePart W known h ⟨none, st, d, e, fi⟩ (.init i) =
      .ok ⟨some (accOf i []), some (.blockInfo i), d, e, fi⟩ none := by
  simp [handlePart, accept_init, onPart, onInit, hi, if_neg (Nat.not_lt.2 hm), shouldDefer_eq h0 hm, hk, Except.bind]

theorem batch_after (hk : known (h - 1) = true) (i : Init) (bs : List (List X)) (xs : List X) (hx : xs ≠ []) (r : Run X K)
    (e : Bool) (fi : Option (Block X K)) :
    handlePart W known h ⟨some (accOf i bs), some (.batches r), none, e, fi⟩ (.batch xs) =
      if W.execOk r.init r.done xs then
        .ok ⟨some (accOf i (bs ++ [xs])), some (.batches ⟨r.init, r.done ++ xs, r.declared ++ xs.filterMap W.declares⟩), none, true, fi⟩ none
      else .skipped ⟨none, none, none, e, fi⟩ := by
  simp only [handlePart, Option.getD_some, accept_batch i bs xs hx, onPart, onBatch, shouldDefer_eq h0 hm, hk,
    Bool.not_true, runBatch, Stage.running, Except.bind, Run.execute]
  cases W.execOk r.init r.done xs <;> rfl

theorem batch_before (hk : known (h - 1) = false) (i : Init) (bs : List (List X)) (xs : List X) (hx : xs ≠ []) (st : Stage X K)
    (d : Option (Deferred X C)) (e : Bool) (fi : Option (Block X K)) :
    handlePart W known h ⟨some (accOf i bs), some st, d, e, fi⟩ (.batch xs) =
      .ok ⟨some (accOf i (bs ++ [xs])), some st, some { d.getD {} with txs := (d.getD {}).txs ++ xs }, e, fi⟩ none := by
  simp only [handlePart, Option.getD_some, accept_batch i bs xs hx, onPart, onBatch, shouldDefer_eq h0 hm, hk,
    Bool.not_false]

theorem batch_blocked (hk : known (h - 1) = true) (i : Init) (bs : List (List X)) (xs : List X) (hx : xs ≠ [])
    (e : Bool) (fi : Option (Block X K)) :
    handlePart W known h ⟨some (accOf i bs), some (.blockInfo i), none, e, fi⟩ (.batch xs) =
      .skipped ⟨none, none, none, e, fi⟩ := by
  simp only [handlePart, Option.getD_some, accept_batch i bs xs hx, onPart, onBatch, shouldDefer_eq h0 hm, hk,
    Bool.not_true, runBatch, Stage.running, Except.bind]

theorem batch_resume (hk : known (h - 1) = true) (i : Init) (hi : i.height = h) (bs : List (List X)) (xs : List X) (hx : xs ≠ [])
    (txs : List X) (e : Bool) (fi : Option (Block X K)) (h1 : W.infoOk i = true) (h2 : W.execOk i [] (txs ++ xs) = true) :
    handlePart W known h ⟨some (accOf i bs), some (.blockInfo i), some ⟨txs, none, none⟩, e, fi⟩ (.batch xs) =
      .ok ⟨some (accOf i (bs ++ [xs])), some (.batches ⟨i, txs ++ xs, (txs ++ xs).filterMap W.declares⟩), none, true, fi⟩ none := by
  simp only [handlePart, Option.getD_some, accept_batch i bs xs hx, onPart, onBatch, shouldDefer_eq h0 hm, hk,
    Bool.not_true, runBatch, Stage.start, validateInfo_eq W hk i hi, h1, if_true, Except.bind, Run.execute, h2,
    countDeferred, List.nil_append]

theorem fin_before (hk : known (h - 1) = false) (i : Init) (bs : List (List X)) (hb : bs ≠ []) (f : Fin' C) (st : Stage X K)
    (d : Option (Deferred X C)) (e : Bool) (fi : Option (Block X K)) :
    handlePart W known h ⟨some (accOf i bs), some st, d, e, fi⟩ (.fin f) =
      .ok ⟨some (finOf i bs f), some st,
        some { d.getD {} with commitment := some ⟨f.commitment, i.proposer, i.validRound⟩, count := some f.count }, e, fi⟩ none := by
  simp only [handlePart, Option.getD_some, accept_fin i bs f hb, onPart, onFin, shouldDefer_eq h0 hm, hk,
    Bool.not_false, Parts.report, finOf]

omit h0 hm in
omit [DecidableEq C] in
theorem take_min (r : Run X K) (n : Nat) : processCount true n r = .ok { r with done := r.done.take n } := by
  unfold processCount
  rw [if_neg (by simp)]
  split
  · rfl
  · rw [List.take_of_length_le (by omega)]

theorem fin_after (hk : known (h - 1) = true) (i : Init) (bs : List (List X)) (hb : bs ≠ []) (f : Fin' C) (r : Run X K)
    (fi : Option (Block X K)) :
    handlePart W known h ⟨some (accOf i bs), some (.batches r), none, true, fi⟩ (.fin f) =
      if W.commitment r.init (r.done.take f.count) = f.commitment then
        .ok ⟨some (finOf i bs f), none, none, true, some ⟨r.init.height, some r.init, r.done.take f.count, r.declared⟩⟩
          (some ⟨f.commitment, i.proposer, i.validRound⟩)
      else .skipped ⟨none, none, none, true, fi⟩ := by
  simp only [handlePart, Option.getD_some, accept_fin i bs f hb, onPart, onFin, shouldDefer_eq h0 hm, hk,
    Bool.not_true, runFin, Stage.running, Except.bind, take_min, Run.finalize, Parts.report, finOf, startsExecution,
    Bool.or_false]
  by_cases hc : W.commitment r.init (r.done.take f.count) = f.commitment <;> simp [hc, Except.map]

theorem fin_resume (hk : known (h - 1) = true) (i : Init) (hi : i.height = h) (bs : List (List X)) (hb : bs ≠ []) (f : Fin' C)
    (txs : List X) (ht : txs ≠ []) (e : Bool) (fi : Option (Block X K)) (h1 : W.infoOk i = true) (h2 : W.execOk i [] txs = true)
    (h3 : W.commitment i (txs.take f.count) = f.commitment) :
    handlePart W known h ⟨some (accOf i bs), some (.blockInfo i), some ⟨txs, none, none⟩, e, fi⟩ (.fin f) =
      .ok ⟨some (finOf i bs f), none, none, true, some ⟨h, some i, txs.take f.count, txs.filterMap W.declares⟩⟩
          (some ⟨f.commitment, i.proposer, i.validRound⟩) := by
  have he : txs.isEmpty = false := by cases txs <;> simp_all
  simp only [handlePart, Option.getD_some, accept_fin i bs f hb, onPart, onFin, shouldDefer_eq h0 hm, hk,
    Bool.not_true, runFin, Stage.start, validateInfo_eq W hk i hi, h1, if_true, Except.bind, Run.executeDeferred, he,
    Run.execute, h2, Bool.not_false, Bool.or_true, take_min, List.nil_append, Option.getD_none, Run.finalize, h3,
    Parts.report, finOf, Except.map, startsExecution, hi, Bool.false_eq_true, if_false]

omit h0 hm in
theorem parent_resume (hk : known (h - 1) = true) (i : Init) (hi : i.height = h) (v : Option (Parts X C))
    (txs : List X) (ht : txs ≠ []) (e : Bool) (fi : Option (Block X K)) (h1 : W.infoOk i = true) (h2 : W.execOk i [] txs = true) :
    parentDecided W known true ⟨v, some (.blockInfo i), some ⟨txs, none, none⟩, e, fi⟩ =
      .ok ⟨v, some (.batches ⟨i, txs, txs.filterMap W.declares⟩), none, true, fi⟩ none := by
  have he : txs.isEmpty = false := by cases txs <;> simp_all
  simp [parentDecided, runDeferred, validateInfo_eq W hk i hi, h1, Except.bind, Run.executeDeferred, he,
    Run.execute, h2, countDeferred]

omit h0 hm in
theorem parent_final (hk : known (h - 1) = true) (i : Init) (hi : i.height = h) (v : Option (Parts X C))
    (txs : List X) (ht : txs ≠ []) (e : Bool) (fi : Option (Block X K)) (rep : Report C) (n : Nat) :
    parentDecided W known true ⟨v, some (.blockInfo i), some ⟨txs, some rep, some n⟩, e, fi⟩ =
      if W.infoOk i = true ∧ W.execOk i [] txs = true ∧ W.commitment i (txs.take n) = rep.commitment then
        .ok ⟨v, none, none, true, some ⟨h, some i, txs.take n, txs.filterMap W.declares⟩⟩ (some rep)
      else .stop := by
  have he : txs.isEmpty = false := by cases txs <;> simp_all
  cases h1 : W.infoOk i
  · simp [parentDecided, runDeferred, validateInfo_eq W hk i hi, h1, Except.bind]
  · cases h2 : W.execOk i [] txs
    · simp [parentDecided, runDeferred, validateInfo_eq W hk i hi, h1, h2, Except.bind, Run.executeDeferred, he, Run.execute]
    · by_cases hc : W.commitment i (txs.take n) = rep.commitment <;>
        simp [parentDecided, runDeferred, validateInfo_eq W hk i hi, h1, h2, Except.bind, Run.executeDeferred, he,
          Run.execute, countDeferred, take_min, Run.finalize, hc, Except.map, hi]

end

omit [DecidableEq C] in
theorem purged_accept (p : Part X C) (hp : ∀ i, p ≠ .init i) : (Parts.new : Parts X C).accept p = none := by
  cases p with
  | init i => exact absurd rfl (hp i)
  | batch xs => simp [Parts.accept, Parts.acceptBatch, Parts.new]
  | fin f => simp [Parts.accept, Parts.acceptFin, Parts.new]

theorem purged (p : Part X C) (hp : ∀ i, p ≠ .init i) (s : Slot X C K) (hs : s.parts = none) :
    handlePart W known h s p = .skipped s := by
  simp only [handlePart, hs, Option.getD_none, purged_accept p hp]
  cases s; simp_all

theorem process_append (s : Slot X C K) (a b : List (Event X C)) :
    process W h s (a ++ b) =
      (process W h s a).bind fun r => (process W h r.1 b).map fun q => (q.1, r.2 ++ q.2) := by
  induction a generalizing s with
  | nil => simp [process]
  | cons e a ih =>
    simp only [List.cons_append, process]
    cases step W h s e with
    | stop => rfl
    | skipped s' => exact ih s'
    | ok s' rep =>
      simp only [ih, Option.bind_map]
      cases process W h s' a with
      | none => rfl
      | some r => simp [List.append_assoc, Function.comp_def]

theorem process_purged (ps : List (Part X C)) (hp : ∀ p ∈ ps, ∀ i, p ≠ .init i) (s : Slot X C K) (hs : s.parts = none) :
    process W h s (ps.map (.part known)) = some (s, []) := by
  induction ps with
  | nil => rfl
  | cons p ps ih =>
    simp only [List.map_cons, process, step, purged W p (hp p (by simp)) s hs]
    exact ih fun q hq => hp q (by simp [hq])

/-- Batches executed one by one. -/
theorem process_batches (hseq : W.Sequential) (h0 : h ≠ 0) (hm : h ≤ maxNumber) (hk : known (h - 1) = true) (i : Init)
    (fi : Option (Block X K)) (bs' : List (List X)) (hfull : ∀ xs ∈ bs', xs ≠ []) :
    ∀ (bs : List (List X)) (r : Run X K) (e : Bool), W.execOk r.init r.done bs'.flatten = true →
      process W h ⟨some (accOf i bs), some (.batches r), none, e, fi⟩ ((bs'.map Part.batch).map (.part known)) =
        some (⟨some (accOf i (bs ++ bs')), some (.batches ⟨r.init, r.done ++ bs'.flatten,
          r.declared ++ bs'.flatten.filterMap W.declares⟩), none, e || !bs'.isEmpty, fi⟩, []) := by
  induction bs' with
  | nil => intro bs r e _; simp [process]
  | cons xs bs' ih =>
    intro bs r e hex
    rw [List.flatten_cons, hseq] at hex
    simp only [Bool.and_eq_true] at hex
    simp only [List.map_cons, process, step, batch_after W h0 hm hk i bs xs (hfull xs (by simp)), hex.1, if_true]
    rw [ih (fun x hx => hfull x (by simp [hx])) _ ⟨r.init, r.done ++ xs, _⟩ _ hex.2]
    simp [List.append_assoc]

/-- ... of which one fails. -/
theorem process_batches_bad (hseq : W.Sequential) (h0 : h ≠ 0) (hm : h ≤ maxNumber) (hk : known (h - 1) = true) (i : Init)
    (fi : Option (Block X K)) (bs' : List (List X)) (hfull : ∀ xs ∈ bs', xs ≠ []) (hne : bs' ≠ []) :
    ∀ (bs : List (List X)) (r : Run X K) (e : Bool), W.execOk r.init r.done bs'.flatten = false →
      ∃ e', process W h ⟨some (accOf i bs), some (.batches r), none, e, fi⟩ ((bs'.map Part.batch).map (.part known)) =
        some (⟨none, none, none, e', fi⟩, []) := by
  induction bs' with
  | nil => exact absurd rfl hne
  | cons xs bs' ih =>
    intro bs r e hex
    simp only [List.map_cons, process, step, batch_after W h0 hm hk i bs xs (hfull xs (by simp))]
    by_cases h1 : W.execOk r.init r.done xs = true
    · simp only [h1, if_true]
      by_cases hb : bs' = []
      · subst hb; simp [h1] at hex
      · rw [List.flatten_cons, hseq, h1, Bool.true_and] at hex
        obtain ⟨e', he'⟩ := ih (fun x hx => hfull x (by simp [hx])) hb (bs ++ [xs]) ⟨r.init, r.done ++ xs, r.declared ++ xs.filterMap W.declares⟩ true hex
        exact ⟨e', by rw [he']; rfl⟩
    · simp only [h1]
      refine ⟨e, process_purged W (bs'.map .batch) ?_ _ rfl⟩
      intro p hp i hpi
      simp [hpi] at hp

/-- Batches deferred one by one. -/
theorem process_deferred (h0 : h ≠ 0) (hm : h ≤ maxNumber) (hk : known (h - 1) = false) (i : Init) (e : Bool)
    (fi : Option (Block X K)) (bs' : List (List X)) (hfull : ∀ xs ∈ bs', xs ≠ []) :
    ∀ (bs : List (List X)) (txs : List X),
      process W h ⟨some (accOf i bs), some (.blockInfo i), some ⟨txs, none, none⟩, e, fi⟩ ((bs'.map Part.batch).map (.part known)) =
        some (⟨some (accOf i (bs ++ bs')), some (.blockInfo i), some ⟨txs ++ bs'.flatten, none, none⟩, e, fi⟩, []) := by
  induction bs' with
  | nil => intro bs txs; simp [process]
  | cons xs bs' ih =>
    intro bs txs
    simp only [List.map_cons, process, step, batch_before W h0 hm hk i bs xs (hfull xs (by simp)), Option.getD_some]
    rw [ih (fun x hx => hfull x (by simp [hx]))]
    simp [List.append_assoc]

/-- With the parent known, nothing is deferred. -/
theorem handlePart_none (h0 : h ≠ 0) (hm : h ≤ maxNumber) (hk : known (h - 1) = true) (s : Slot X C K) (hs : s.deferred = none)
    (p : Part X C) :
    match handlePart W known h s p with
    | .ok t _ => t.deferred = none
    | .skipped t => t.deferred = none
    | .stop => True := by
  have key : ∀ v a, (onPart W known h { s with parts := some v } v a p).1.deferred = none := by
    intro v a
    cases p with
    | init i => simp only [onPart]; split <;> exact hs
    | batch xs =>
      simp only [onPart, onBatch]
      split
      · exact hs
      · simp only [shouldDefer_eq h0 hm, hk, Bool.not_true]
        split <;> rfl
    | fin f =>
      simp only [onPart]
      split
      · simp only [onFin, shouldDefer_eq h0 hm, hk, Bool.not_true]
        split
        · rfl
        · split
          · rfl
          · split <;> rfl
          · rfl
      · split <;> exact hs
  unfold handlePart
  cases e : (s.parts.getD .new).accept p with
  | none => exact hs
  | some r =>
    obtain ⟨v, a⟩ := r
    have := key v a
    simp only
    cases ho : onPart W known h { s with parts := some v } v a p with
    | mk t o =>
      rw [ho] at this
      cases o with
      | ok rep => exact this
      | error f => cases f <;> first | exact this | trivial

theorem parent_noop (last : Bool) (s : Slot X C K) (hs : s.deferred = none) : parentDecided W known last s = .ok s none := by
  simp [parentDecided, hs]

/-- Hearing about the parent when nothing is deferred changes nothing. -/
theorem process_insert (h0 : h ≠ 0) (hm : h ≤ maxNumber) (hk : known (h - 1) = true) (last : Bool) (ps qs : List (Part X C))
    (s : Slot X C K) (hs : s.deferred = none) :
    process W h s (ps.map (.part known) ++ .parent known last :: qs.map (.part known)) =
      process W h s ((ps ++ qs).map (.part known)) := by
  induction ps generalizing s with
  | nil =>
    simp only [List.map_nil, List.nil_append, process, step, parent_noop W last s hs]
    cases process W h s (qs.map (.part known)) <;> simp
  | cons p ps ih =>
    simp only [List.map_cons, List.cons_append, process, step]
    have := handlePart_none W h0 hm hk s hs p
    cases e : handlePart W known h s p with
    | stop => rfl
    | skipped t => rw [e] at this; exact ih t this
    | ok t rep => rw [e] at this; simp only [ih t this]

/-- The rest of a good proposal whose first batches have been executed. -/
theorem process_rest (hseq : W.Sequential) (h0 : h ≠ 0) (hm : h ≤ maxNumber) (hk : known (h - 1) = true) (i : Init)
    (bs1 bs2 : List (List X)) (f : Fin' C) (e : Bool) (fi : Option (Block X K)) (hfull : ∀ xs ∈ bs2, xs ≠ [])
    (hne : bs1 ++ bs2 ≠ []) (he : e = true ∨ bs2 ≠ []) (hex : bs2 = [] ∨ W.execOk i bs1.flatten bs2.flatten = true)
    (hc : W.commitment i ((bs1 ++ bs2).flatten.take f.count) = f.commitment) :
    process W h ⟨some (accOf i bs1), some (.batches ⟨i, bs1.flatten, bs1.flatten.filterMap W.declares⟩), none, e, fi⟩
        ((bs2.map Part.batch ++ [Part.fin f]).map (.part known)) =
      some (⟨some (finOf i (bs1 ++ bs2) f), none, none, true, some ⟨i.height, some i, (bs1 ++ bs2).flatten.take f.count,
        (bs1 ++ bs2).flatten.filterMap W.declares⟩⟩, [⟨f.commitment, i.proposer, i.validRound⟩]) := by
  rw [List.map_append, process_append]
  have h1 : process W h ⟨some (accOf i bs1), some (.batches ⟨i, bs1.flatten, bs1.flatten.filterMap W.declares⟩), none, e, fi⟩
      ((bs2.map Part.batch).map (.part known)) = some (⟨some (accOf i (bs1 ++ bs2)), some (.batches ⟨i, (bs1 ++ bs2).flatten,
        (bs1 ++ bs2).flatten.filterMap W.declares⟩), none, true, fi⟩, []) := by
    by_cases hb : bs2 = []
    · subst hb
      simp only [ne_eq, not_true_eq_false, or_false] at he
      simp [process, he]
    · rw [process_batches W hseq h0 hm hk i fi bs2 hfull bs1 _ e (by simpa [hb] using hex)]
      simp [hb]
  rw [h1]
  simp only [Option.bind_some, List.map_cons, List.map_nil, process, step, fin_after W h0 hm hk i _ hne f, hc, if_true]
  simp

/-- A proposal deferred up to some batch. -/
theorem process_deferred_init (h0 : h ≠ 0) (hm : h ≤ maxNumber) (hk : known (h - 1) = false) (i : Init) (hi : i.height = h)
    (s : Slot X C K) (hp : s.parts = none) (hd : s.deferred = none) (bs : List (List X)) (hb : bs ≠ [])
    (hfull : ∀ xs ∈ bs, xs ≠ []) :
    process W h s ((Part.init i :: bs.map Part.batch).map (.part known)) =
      some (⟨some (accOf i bs), some (.blockInfo i), some ⟨bs.flatten, none, none⟩, s.executing, s.final⟩, []) := by
  obtain ⟨sp, st, sd, se, sf⟩ := s
  simp only at hp hd
  subst hp hd
  cases bs with
  | nil => exact absurd rfl hb
  | cons xs bs =>
    simp only [List.map_cons, process, step, init_before W h0 hm hk i hi,
      batch_before W h0 hm hk i [] xs (hfull xs (by simp)), Option.getD_none, List.nil_append]
    rw [process_deferred W h0 hm hk i se sf bs (fun x hx => hfull x (by simp [hx])) [xs] xs]
    simp

end Verif.Proposals
