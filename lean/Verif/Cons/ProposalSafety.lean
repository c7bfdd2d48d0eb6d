import Verif.Cons.ProposalProps

/-!
# Proposals: what ends the task, and what the block that is kept has to do with what was reported
-/
namespace Verif.Proposals

variable {X C K : Type} [DecidableEq C]

/-! ## C60: no message of a peer ends the task -/

/-- Block info waiting for its parent is for the height of the slot. -/
private def Inv (h : Nat) (s : Slot X C K) : Prop := ∀ i, s.stage = some (.blockInfo i) → i.height = h

omit [DecidableEq C] in
private theorem validate_bad (W : World X C K) (known : Nat → Bool) (h : Nat) (i : Init) (hi : i.height = h)
    (hd : shouldDefer known h = .ok false) : validateInfo W known i ≠ .error .fatal := by
  intro hv
  unfold validateInfo at hv
  rw [hi] at hv
  split at hv
  · rename_i hc
    unfold shouldDefer at hd
    rw [if_neg hc.1] at hd
    split at hd
    · cases hd
    · rw [hc.2] at hd; cases hd
  · split at hv <;> cases hv

omit [DecidableEq C] in
private theorem start_bad (W : World X C K) (known : Nat → Bool) (h : Nat) (st : Stage X K)
    (hi : ∀ i, st = .blockInfo i → i.height = h) (hd : shouldDefer known h = .ok false) : st.start W known ≠ .error .fatal := by
  cases st with
  | blockInfo i => exact validate_bad W known h i (hi i rfl) hd
  | batches r => simp [Stage.start]

omit [DecidableEq C] in
private theorem execute_bad (W : World X C K) (r : Run X K) (xs : List X) : r.execute W xs ≠ .error .fatal := by
  unfold Run.execute; split <;> simp

omit [DecidableEq C] in
private theorem count_bad (n : Option Nat) (r : Run X K) : countDeferred true n r ≠ .error .fatal := by
  cases n with
  | none => simp [countDeferred]
  | some n => simp [countDeferred, take_min]

omit [DecidableEq C] in
private theorem bind_bad {α β : Type} (x : Except Fail α) (f : α → Except Fail β) (hx : x ≠ .error .fatal)
    (hf : ∀ a, f a ≠ .error .fatal) : x.bind f ≠ .error .fatal := by
  cases x with
  | error e => simpa [Except.bind] using hx
  | ok a => exact hf a

omit [DecidableEq C] in
private theorem runBatch_bad (W : World X C K) (known : Nat → Bool) (h : Nat) (st : Stage X K) (d : Option (Deferred X C)) (xs : List X)
    (hi : ∀ i, st = .blockInfo i → i.height = h) (hd : shouldDefer known h = .ok false) :
    runBatch W known st d xs ≠ .error .fatal := by
  cases d with
  | none =>
    refine bind_bad _ _ ?_ fun r => execute_bad W r xs
    cases st <;> simp [Stage.running]
  | some d =>
    exact bind_bad _ _ (start_bad W known h st hi hd) fun r => bind_bad _ _ (execute_bad W r _) fun r => count_bad _ r

private theorem onPart_ok (W : World X C K) (known : Nat → Bool) (h : Nat) (hm : h ≤ maxNumber) (s : Slot X C K) (hs : Inv h s)
    (v : Parts X C) (a : Accepted) (p : Part X C) (hp : ∀ i, p = .init i → i.height = h) :
    (onPart W known h { s with parts := some v } v a p).2 ≠ .error .fatal ∧
      Inv h (onPart W known h { s with parts := some v } v a p).1 := by
  have hsd : ∃ b, shouldDefer known h = .ok b := by
    unfold shouldDefer
    split
    · exact ⟨_, rfl⟩
    · rw [if_neg (by omega)]; exact ⟨_, rfl⟩
  obtain ⟨b, hb⟩ := hsd
  have hnil : ∀ (t : Slot X C K), t.stage = none → Inv h t := fun t ht i hi => by rw [ht] at hi; cases hi
  cases p with
  | init i =>
    have hi := hp i rfl
    have hon : onInit W known i ≠ .error .fatal ∧ ∀ j, onInit W known i = .ok (.blockInfo j) → j.height = h := by
      unfold onInit
      rw [hi, if_neg (by omega), hb]
      cases b with
      | true =>
        refine ⟨by simp [Except.bind], ?_⟩
        intro j hj
        simp only [Except.bind, if_true, Except.ok.injEq, Stage.blockInfo.injEq] at hj
        rw [← hj]; exact hi
      | false =>
        have := validate_bad W known h i hi hb
        simp only [Except.bind, Bool.false_eq_true, if_false]
        cases hv : validateInfo W known i with
        | error e => cases e <;> simp_all [Except.map]
        | ok r => simp [Except.map]
    simp only [onPart]
    cases ho : onInit W known i with
    | error e =>
      rw [ho] at hon
      cases e with
      | bad => exact ⟨by simp, hs⟩
      | fatal => exact absurd rfl hon.1
    | ok st =>
      refine ⟨by simp, ?_⟩
      intro j hj
      simp only [Option.some.injEq] at hj
      exact hon.2 j (by rw [ho, hj])
  | batch xs =>
    simp only [onPart, onBatch]
    cases hst : s.stage with
    | none => exact ⟨by simp, hnil _ rfl⟩
    | some st =>
      simp only [hb]
      cases b with
      | true => exact ⟨by simp, fun i hi => hs i (by simpa [hst] using hi)⟩
      | false =>
        have := runBatch_bad W known h st s.deferred xs (fun i hi => hs i (by rw [hst, hi])) hb
        simp only
        cases hr : runBatch W known st s.deferred xs with
        | error e =>
          rw [hr] at this
          cases e with
          | bad => exact ⟨by simp, hnil _ rfl⟩
          | fatal => exact absurd rfl this
        | ok r => exact ⟨by simp, fun i hi => by simp at hi⟩
  | fin f =>
    cases a with
    | nonEmpty =>
      simp only [onPart, onFin, hb]
      cases b with
      | true => exact ⟨by simp, fun i hi => hs i (by simpa using hi)⟩
      | false =>
        simp only
        cases hst : s.stage with
        | none => exact ⟨by simp, hnil _ (by simp)⟩
        | some st =>
          have := start_bad W known h st (fun i hi => hs i (by rw [hst, hi])) hb
          simp only
          split
          · exact ⟨by simp, hnil _ rfl⟩
          · split
            · rename_i heq; exact absurd heq this
            · exact ⟨by simp, hnil _ rfl⟩
          · exact ⟨by simp, hnil _ rfl⟩
    | accepted =>
      simp only [onPart, emptyBlock, if_neg (Nat.not_lt.2 hm)]
      exact ⟨by simp, fun i hi => hs i (by simpa using hi)⟩
    | empty =>
      simp only [onPart, emptyBlock, if_neg (Nat.not_lt.2 hm)]
      exact ⟨by simp, fun i hi => hs i (by simpa using hi)⟩

/-- **C60** partial. As long as block infos are for the height of their stream, and that height is a block number, no
sequence of parts ends the task: not wrong order, not bad transactions, not wrong commitments, whatever is known about the
parent at any moment. Missing: heights that disagree (`C60_number_violated`, `C60_parent_violated`) and what happens to deferred
parts when the parent is decided (`C60_deferred_violated`). -/
theorem C60_parts_partial (W : World X C K) (h : Nat) (hm : h ≤ maxNumber) (es : List (Event X C)) (ha : HeightsAgree h es)
    (hp : ∀ e ∈ es, ∃ known p, e = Event.part known p) : (process W h {} es).isSome := by
  have key : ∀ (es : List (Event X C)) (s : Slot X C K), Inv h s → HeightsAgree h es →
      (∀ e ∈ es, ∃ known p, e = Event.part known p) → (process W h s es).isSome := by
    intro es
    induction es with
    | nil => intro s _ _ _; rfl
    | cons e es ih =>
      intro s hs ha hp
      obtain ⟨known, p, rfl⟩ := hp e (by simp)
      have ha' : HeightsAgree h es := fun k i hi => ha k i (by simp [hi])
      have hp' : ∀ e ∈ es, ∃ known p, e = Event.part known p := fun e he => hp e (by simp [he])
      simp only [process, step, handlePart]
      cases hacc : (s.parts.getD .new).accept p with
      | none => exact ih _ (fun i hi => hs i (by simpa using hi)) ha' hp'
      | some r =>
        obtain ⟨v, a⟩ := r
        have hon := onPart_ok W known h hm s hs v a p (fun i hi => ha known i (by simp [hi]))
        simp only
        cases ho : onPart W known h { s with parts := some v } v a p with
        | mk t o =>
          rw [ho] at hon
          cases o with
          | ok rep => simpa using ih t hon.2 ha' hp'
          | error f =>
            cases f with
            | bad => exact ih _ (fun i hi => hon.2 i (by simpa using hi)) ha' hp'
            | fatal => exact absurd rfl hon.1
  exact key es {} (fun i hi => by simp at hi) ha hp

/-- **C60** violated by a stream for a height that is not a block number: any block info for a lower height whose parent
is not known, followed by any batch, or by the closing part, ends the task. Nothing about the proposal has to be valid. -/
theorem C60_number_violated (W : World X C K) (h : Nat) (hh : maxNumber + 1 < h) (known : Nat → Bool) (i : Init)
    (hi : i.height ≠ 0) (hi' : i.height ≤ maxNumber) (hk : known (i.height - 1) = false) :
    (∀ xs : List X, xs ≠ [] → process W h {} [.part known (.init i), .part known (.batch xs)] = none) ∧
      (∀ f : Fin' C, process W h {} [.part known (.init i), .part known (.fin f)] = none) := by
  have h1 : handlePart W known h ({} : Slot X C K) (.init i) =
      .ok ⟨some (accOf i []), some (.blockInfo i), none, false, none⟩ none := by
    simp [handlePart, accept_init, onPart, onInit, if_neg (Nat.not_lt.2 hi'), shouldDefer_eq hi hi', hk, Except.bind]
  have h2 : shouldDefer known h = .error .fatal := by
    unfold shouldDefer
    rw [if_neg (by omega), if_pos (by omega)]
  constructor
  · intro xs hx
    simp only [process, step, h1]
    simp only [handlePart, Option.getD_some, accept_batch i [] xs hx, onPart, onBatch, h2]
    rfl
  · intro f
    simp only [process, step, h1]
    have : (accOf i ([] : List (List X)) : Parts X C).accept (.fin f) = some (finOf i [] f, .empty) := rfl
    simp only [handlePart, Option.getD_some, this, onPart, emptyBlock, if_pos (show maxNumber < h by omega)]
    rfl

/-- **C60** violated by a block info for another height than its stream: it waits with one batch until the parent of the
stream's height is decided, and then the check of the block info, whose own parent is not known, ends the task. -/
theorem C60_parent_violated (W : World X C K) (h : Nat) (h0 : h ≠ 0) (hm : h ≤ maxNumber) (before after : Nat → Bool)
    (hl : Learns before after h) (i : Init) (hi : i.height ≠ 0) (hi' : i.height ≤ maxNumber) (hb : before (i.height - 1) = false)
    (ha : after (i.height - 1) = false) (xs : List X) (hx : xs ≠ []) :
    process W h {} [.part before (.init i), .part before (.batch xs), .parent after true] = none := by
  have h1 : handlePart W before h ({} : Slot X C K) (.init i) =
      .ok ⟨some (accOf i []), some (.blockInfo i), none, false, none⟩ none := by
    simp [handlePart, accept_init, onPart, onInit, if_neg (Nat.not_lt.2 hi'), shouldDefer_eq hi hi', hb, Except.bind]
  simp only [process, step, h1, batch_before W h0 hm hl.before i [] xs hx]
  simp [parentDecided, runDeferred, validateInfo, hi, ha, Except.bind]

/-! ## C61: the block that is kept -/

/-- What is true of a block that was executed, and of the commitment it was reported with. -/
structure Matches (W : World X C K) (b : Block X K) (c : C) (i : Init) : Prop where
  init : b.init = some i
  number : b.number = i.height
  info : W.infoOk i = true
  commit : W.commitment i b.txs = c
  declared : (b.txs.filterMap W.declares).Sublist b.declared

private structure RunOk (W : World X C K) (r : Run X K) : Prop where
  info : W.infoOk r.init = true
  declared : (r.done.filterMap W.declares).Sublist r.declared

private def StageOk (W : World X C K) (s : Slot X C K) : Prop := ∀ r, s.stage = some (.batches r) → RunOk W r

omit [DecidableEq C] in
private theorem validate_ok (W : World X C K) (known : Nat → Bool) (i : Init) (r : Run X K) (h : validateInfo W known i = .ok r) :
    RunOk W r := by
  unfold validateInfo at h
  split at h
  · cases h
  · split at h
    · cases h; exact ⟨by assumption, by simp⟩
    · cases h

omit [DecidableEq C] in
private theorem execute_ok (W : World X C K) (r r' : Run X K) (xs : List X) (hr : RunOk W r) (h : r.execute W xs = .ok r') : RunOk W r' := by
  unfold Run.execute at h
  split at h
  · cases h
    refine ⟨hr.info, ?_⟩
    simpa using hr.declared
  · cases h

omit [DecidableEq C] in
private theorem processCount_ok (W : World X C K) (e : Bool) (n : Nat) (r r' : Run X K) (hr : RunOk W r)
    (h : processCount e n r = .ok r') : RunOk W r' := by
  unfold processCount at h
  split at h
  · cases h
  · split at h
    · cases h
      refine ⟨hr.info, ?_⟩
      simp only [Run.rollback]
      exact ((List.take_sublist n r.done).filterMap _).trans hr.declared
    · cases h; exact hr

omit [DecidableEq C] in
private theorem countDeferred_ok (W : World X C K) (e : Bool) (n : Option Nat) (r r' : Run X K) (hr : RunOk W r)
    (h : countDeferred e n r = .ok r') : RunOk W r' := by
  cases n with
  | none => simp only [countDeferred] at h; cases h; exact hr
  | some n => exact processCount_ok W e n r r' hr h

omit [DecidableEq C] in
private theorem executeDeferred_ok (W : World X C K) (r r' : Run X K) (xs : List X) (hr : RunOk W r)
    (h : r.executeDeferred W xs = .ok r') : RunOk W r' := by
  unfold Run.executeDeferred at h
  split at h
  · cases h; exact hr
  · exact execute_ok W r r' xs hr h

omit [DecidableEq C] in
private theorem bind_ok' {α β : Type} {x : Except Fail α} {f : α → Except Fail β} {b : β} (h : x.bind f = .ok b) :
    ∃ a, x = .ok a ∧ f a = .ok b := by
  cases x with
  | error e => cases h
  | ok a => exact ⟨a, rfl, h⟩

omit [DecidableEq C] in
private theorem start_ok (W : World X C K) (known : Nat → Bool) (st : Stage X K) (hs : ∀ r, st = .batches r → RunOk W r) (r : Run X K)
    (h : st.start W known = .ok r) : RunOk W r := by
  cases st with
  | blockInfo i => exact validate_ok W known i r h
  | batches r' => simp only [Stage.start] at h; cases h; exact hs r rfl

omit [DecidableEq C] in
private theorem running_ok (W : World X C K) (st : Stage X K) (hs : ∀ r, st = .batches r → RunOk W r) (r : Run X K)
    (h : st.running = .ok r) : RunOk W r := by
  cases st with
  | blockInfo i => cases h
  | batches r' => simp only [Stage.running] at h; cases h; exact hs r rfl

omit [DecidableEq C] in
private theorem runBatch_ok (W : World X C K) (known : Nat → Bool) (st : Stage X K) (hs : ∀ r, st = .batches r → RunOk W r)
    (d : Option (Deferred X C)) (xs : List X) (r : Run X K) (h : runBatch W known st d xs = .ok r) : RunOk W r := by
  cases d with
  | none =>
    obtain ⟨r1, e1, e2⟩ := bind_ok' h
    exact execute_ok W r1 r xs (running_ok W st hs r1 e1) e2
  | some d =>
    obtain ⟨r1, e1, e2⟩ := bind_ok' h
    obtain ⟨r2, e3, e4⟩ := bind_ok' e2
    exact countDeferred_ok W true _ r2 r (execute_ok W r1 r2 _ (start_ok W known st hs r1 e1) e3) e4

private theorem finalize_ok (W : World X C K) (r : Run X K) (c : C) (b : Block X K) (hr : RunOk W r) (h : r.finalize W c = .ok b) :
    ∃ i, Matches W b c i := by
  unfold Run.finalize at h
  split at h
  · cases h
    exact ⟨r.init, rfl, rfl, hr.info, by assumption, hr.declared⟩
  · cases h

private theorem runFin_ok (W : World X C K) (known : Nat → Bool) (e : Bool) (st : Stage X K) (hs : ∀ r, st = .batches r → RunOk W r)
    (d : Option (Deferred X C)) (rep : Report C) (n : Nat) (b : Block X K) (rep' : Report C)
    (h : runFin W known e st d rep n = .ok (b, rep')) : ∃ i, Matches W b rep'.commitment i := by
  have map_ok : ∀ (x : Except Fail (Block X K)) (q : Report C), (x.map fun b => (b, q)) = .ok (b, rep') → x = .ok b ∧ q = rep' := by
    intro x q hx
    cases x with
    | error e => cases hx
    | ok b' => cases hx; exact ⟨rfl, rfl⟩
  cases d with
  | none =>
    obtain ⟨r1, e1, e2⟩ := bind_ok' h
    obtain ⟨r2, e3, e4⟩ := bind_ok' e2
    obtain ⟨e5, rfl⟩ := map_ok _ _ e4
    exact finalize_ok W r2 _ b (processCount_ok W e n r1 r2 (running_ok W st hs r1 e1) e3) e5
  | some d =>
    obtain ⟨r1, e1, e2⟩ := bind_ok' h
    obtain ⟨r2, e3, e4⟩ := bind_ok' e2
    obtain ⟨r3, e5, e6⟩ := bind_ok' e4
    obtain ⟨e7, rfl⟩ := map_ok _ _ e6
    exact finalize_ok W r3 _ b (processCount_ok W _ n r2 r3 (executeDeferred_ok W r1 r2 _ (start_ok W known st hs r1 e1) e3) e5) e7

private theorem runDeferred_ok (W : World X C K) (known : Nat → Bool) (e : Bool) (st : Stage X K) (d : Deferred X C) (r : Run X K)
    (o : Option (Block X K × Report C)) (h : runDeferred W known e st d = .ok (r, o)) :
    RunOk W r ∧ ∀ b rep, o = some (b, rep) → ∃ i, Matches W b rep.commitment i := by
  cases st with
  | batches r' => cases h
  | blockInfo i =>
    obtain ⟨r1, e1, e2⟩ := bind_ok' h
    obtain ⟨r2, e3, e4⟩ := bind_ok' e2
    obtain ⟨r3, e5, e6⟩ := bind_ok' e4
    have hr3 := countDeferred_ok W _ _ r2 r3 (executeDeferred_ok W r1 r2 _ (validate_ok W known i r1 e1) e3) e5
    cases hc : d.commitment with
    | none =>
      rw [hc] at e6
      cases e6
      exact ⟨hr3, fun b rep hb => by cases hb⟩
    | some rep =>
      rw [hc] at e6
      simp only at e6
      cases hf : r3.finalize W rep.commitment with
      | error e => rw [hf] at e6; cases e6
      | ok b =>
        rw [hf] at e6
        cases e6
        refine ⟨hr3, ?_⟩
        intro b' rep' hb
        cases hb
        exact finalize_ok W _ _ b hr3 hf

/-- What one step does to the block that is kept. -/
private def Kept (W : World X C K) (h : Nat) (s t : Slot X C K) (rep : Option (Report C)) : Prop :=
  match rep with
  | none => t.final = s.final
  | some rep => ∃ b, t.final = some b ∧ (b = ⟨h, none, [], []⟩ ∨ ∃ i, Matches W b rep.commitment i)

private theorem onPart_kept (W : World X C K) (known : Nat → Bool) (h : Nat) (s : Slot X C K) (hs : StageOk W s)
    (v : Parts X C) (a : Accepted) (p : Part X C) :
    StageOk W (onPart W known h s v a p).1 ∧
      (match (onPart W known h s v a p).2 with
        | .ok rep => Kept W h s (onPart W known h s v a p).1 rep
        | .error _ => (onPart W known h s v a p).1.final = s.final) := by
  have hnil : ∀ (t : Slot X C K), t.stage = none → StageOk W t := fun t ht i hi => by rw [ht] at hi; cases hi
  cases p with
  | init i =>
    simp only [onPart]
    cases ho : onInit W known i with
    | error e => exact ⟨hs, rfl⟩
    | ok st =>
      refine ⟨?_, rfl⟩
      intro r hr
      simp only [Option.some.injEq] at hr
      subst hr
      unfold onInit at ho
      split at ho
      · cases ho
      · obtain ⟨b, e1, e2⟩ := bind_ok' ho
        split at e2
        · cases e2
        · cases hv : validateInfo W known i with
          | error e => rw [hv] at e2; cases e2
          | ok r' =>
            rw [hv] at e2
            cases e2
            exact validate_ok W known i r hv
  | batch xs =>
    simp only [onPart, onBatch]
    cases hst : s.stage with
    | none => exact ⟨hs, rfl⟩
    | some st =>
      simp only
      cases hb : shouldDefer known h with
      | error e => exact ⟨hnil _ rfl, rfl⟩
      | ok b =>
        cases b with
        | true => exact ⟨fun r hr => hs r (by simpa [hst] using hr), rfl⟩
        | false =>
          simp only
          cases hr : runBatch W known st s.deferred xs with
          | error e => exact ⟨hnil _ rfl, rfl⟩
          | ok r =>
            refine ⟨?_, rfl⟩
            intro r' hr'
            simp only [Option.some.injEq, Stage.batches.injEq] at hr'
            subst hr'
            exact runBatch_ok W known st (fun q hq => hs q (by rw [hst, hq])) s.deferred xs r hr
  | fin f =>
    have hempty : StageOk W (match emptyBlock (X := X) (K := K) h with
        | .ok b => (({ s with final := some b } : Slot X C K), (Except.ok (some (v.report f.commitment)) : Except Fail (Option (Report C))))
        | .error e => (s, .error e)).1 ∧
        (match (match emptyBlock (X := X) (K := K) h with
        | .ok b => (({ s with final := some b } : Slot X C K), (Except.ok (some (v.report f.commitment)) : Except Fail (Option (Report C))))
        | .error e => (s, .error e)).2 with
          | .ok rep => Kept W h s (match emptyBlock (X := X) (K := K) h with
            | .ok b => (({ s with final := some b } : Slot X C K), (Except.ok (some (v.report f.commitment)) : Except Fail (Option (Report C))))
            | .error e => (s, .error e)).1 rep
          | .error _ => (match emptyBlock (X := X) (K := K) h with
            | .ok b => (({ s with final := some b } : Slot X C K), (Except.ok (some (v.report f.commitment)) : Except Fail (Option (Report C))))
            | .error e => (s, .error e)).1.final = s.final) := by
      unfold emptyBlock
      split
      · rename_i hb
        split at hb
        · cases hb
        · cases hb
          exact ⟨fun r hr => hs r (by simpa using hr), ⟨_, rfl, .inl rfl⟩⟩
      · exact ⟨hs, rfl⟩
    cases a with
    | accepted => exact hempty
    | empty => exact hempty
    | nonEmpty =>
      simp only [onPart, onFin]
      cases hb : shouldDefer known h with
      | error e => exact ⟨hs, rfl⟩
      | ok b =>
        cases b with
        | true => exact ⟨fun r hr => hs r (by simpa using hr), rfl⟩
        | false =>
          simp only
          cases hst : s.stage with
          | none => exact ⟨hnil _ (by simp), rfl⟩
          | some st =>
            simp only
            cases hr : runFin W known s.executing st s.deferred (v.report f.commitment) f.count with
            | ok q =>
              obtain ⟨b, rep⟩ := q
              refine ⟨hnil _ rfl, b, rfl, .inr ?_⟩
              exact runFin_ok W known _ st (fun q hq => hs q (by rw [hst, hq])) _ _ _ b rep hr
            | error e =>
              cases e with
              | bad => exact ⟨hnil _ rfl, rfl⟩
              | fatal =>
                simp only
                split <;> exact ⟨hnil _ rfl, rfl⟩

private theorem step_kept (W : World X C K) (h : Nat) (s : Slot X C K) (hs : StageOk W s) (e : Event X C) :
    match step W h s e with
    | .stop => True
    | .skipped t => StageOk W t ∧ t.final = s.final
    | .ok t rep => StageOk W t ∧ Kept W h s t rep := by
  cases e with
  | part known p =>
    simp only [step, handlePart]
    cases hacc : (s.parts.getD .new).accept p with
    | none => exact ⟨fun r hr => hs r (by simpa using hr), rfl⟩
    | some q =>
      obtain ⟨v, a⟩ := q
      have hon := onPart_kept W known h { s with parts := some v } (fun r hr => hs r (by simpa using hr)) v a p
      simp only
      cases ho : onPart W known h { s with parts := some v } v a p with
      | mk t o =>
        rw [ho] at hon
        cases o with
        | ok rep => exact ⟨hon.1, hon.2⟩
        | error f =>
          cases f with
          | bad => exact ⟨fun r hr => hon.1 r (by simpa using hr), hon.2⟩
          | fatal => trivial
  | parent known last =>
    simp only [step, parentDecided]
    cases hd : s.deferred with
    | none => exact ⟨hs, rfl⟩
    | some d =>
      cases last with
      | false => exact ⟨fun r hr => hs r (by simpa using hr), rfl⟩
      | true =>
        simp only [Bool.true_eq_false, if_false]
        cases hst : s.stage with
        | none => trivial
        | some st =>
          simp only
          cases hr : runDeferred W known s.executing st d with
          | error e => trivial
          | ok q =>
            obtain ⟨r, o⟩ := q
            obtain ⟨h1, h2⟩ := runDeferred_ok W known _ st d r o hr
            cases o with
            | none =>
              refine ⟨?_, rfl⟩
              intro r' hr'
              simp only [Option.some.injEq, Stage.batches.injEq] at hr'
              subst hr'
              exact h1
            | some q =>
              obtain ⟨b, rep⟩ := q
              refine ⟨fun r' hr' => by simp at hr', b, rfl, .inr (h2 b rep rfl)⟩

/-- **C61** partial. Whatever arrives in whatever order: the block that is kept is the one of the commitment reported
last. It is either the empty block of the height, or it was executed from block info that was checked, its commitment is
the one that was reported, and every class its transactions declare comes with it. Missing: the commitment of an empty block
(`C61_empty_violated`), its number (`C61_number_violated`), classes beyond its own (`C61_classes_violated`), and the block of an
earlier report (`C61_replaced_violated`). -/
theorem C61_kept_partial (W : World X C K) (h : Nat) (es : List (Event X C)) (t : Slot X C K) (rs : List (Report C))
    (hr : process W h {} es = some (t, rs)) :
    (rs = [] → t.final = none) ∧
      ∀ rep, rs.getLast? = some rep →
        ∃ b, t.final = some b ∧ (b = ⟨h, none, [], []⟩ ∨ ∃ i, Matches W b rep.commitment i) := by
  have key : ∀ (es : List (Event X C)) (s t : Slot X C K) (rs : List (Report C)), StageOk W s → process W h s es = some (t, rs) →
      (rs = [] → t.final = s.final) ∧ ∀ rep, rs.getLast? = some rep →
        ∃ b, t.final = some b ∧ (b = ⟨h, none, [], []⟩ ∨ ∃ i, Matches W b rep.commitment i) := by
    intro es
    induction es with
    | nil =>
      intro s t rs _ hr
      simp only [process, Option.some.injEq, Prod.mk.injEq] at hr
      obtain ⟨rfl, rfl⟩ := hr
      exact ⟨fun _ => rfl, fun rep hrep => by cases hrep⟩
    | cons e es ih =>
      intro s t rs hs hr
      have hk := step_kept W h s hs e
      simp only [process] at hr
      cases hst : step W h s e with
      | stop => rw [hst] at hr; cases hr
      | skipped u =>
        rw [hst] at hk hr
        obtain ⟨i1, i2⟩ := ih u t rs hk.1 hr
        exact ⟨fun h0 => (i1 h0).trans hk.2, i2⟩
      | ok u rep =>
        rw [hst] at hk hr
        simp only [Option.map_eq_some_iff] at hr
        obtain ⟨⟨t', rs'⟩, hp, hq⟩ := hr
        simp only [Prod.mk.injEq] at hq
        obtain ⟨rfl, rfl⟩ := hq
        obtain ⟨i1, i2⟩ := ih u t' rs' hk.1 hp
        cases rep with
        | none =>
          simp only [Option.toList_none, List.nil_append]
          exact ⟨fun h0 => (i1 h0).trans hk.2, i2⟩
        | some rep =>
          simp only [Option.toList_some, List.cons_append, List.nil_append]
          refine ⟨fun h0 => by simp at h0, ?_⟩
          intro rep' hrep
          cases hrs : rs' with
          | nil =>
            rw [hrs] at hrep
            simp only [List.getLast?_singleton, Option.some.injEq] at hrep
            subst hrep
            rw [i1 hrs]
            exact hk.2
          | cons a l =>
            rw [hrs] at hrep i2
            rw [List.getLast?_cons_cons] at hrep
            exact i2 rep' hrep
  exact key es {} t rs (fun r hr => by simp at hr) hr

/-- **C61** violated, replacement: two good proposals for one height and round, the second sent after a closing part too
many, are both reported, and only the block of the second is kept. If the engine decides the first, the other block is stored. -/
theorem C61_replaced_violated (W : World X C K) (hseq : W.Sequential) (p q : Proposal X C) (h : Nat) (hp : p.WellFormed h)
    (hq : q.WellFormed h) (gp : p.Good W) (gq : q.Good W) (known : Nat → Bool) (hk : known (h - 1) = true) :
    ∃ t b, process W h {} (atOnce known (p.parts ++ .fin p.fin :: q.parts)) = some (t, [p.report, q.report]) ∧
      t.final = some b ∧ q.Stored W b := by
  obtain ⟨t1, b1, e1, -, -⟩ := C59_accepted W hseq p h hp gp known hk {} rfl rfl
  have e0 := atOnce_exact W hseq p h hp gp known hk {} rfl rfl
  obtain ⟨t2, b2, e2, e3, e4⟩ := C59_accepted W hseq q h hq gq known hk
    ⟨none, none, none, true, some ⟨p.init.height, some p.init, p.executed, p.txs.filterMap W.declares⟩⟩ rfl rfl
  refine ⟨t2, b2, ?_, e3, e4⟩
  unfold atOnce at e0 e2 ⊢
  rw [List.map_append, process_append, e0]
  simp only [Option.bind_some, List.map_cons, process, step]
  have : (finOf p.init p.batches p.fin).accept (.fin p.fin) = none := by simp [Parts.accept, Parts.acceptFin, finOf]
  simp only [handlePart, Option.getD_some, this]
  rw [e2]
  rfl

/-- **C61** violated, number: a proposal for a block `j` that is good is reported and kept for the height of its stream,
whatever that is. -/
theorem C61_number_violated (W : World X C K) (hseq : W.Sequential) (p : Proposal X C) (j h : Nat) (hp : p.WellFormed j)
    (gp : p.Good W) (h0 : h ≠ 0) (hm : h ≤ maxNumber) (known : Nat → Bool) (hj : known (j - 1) = true) (hk : known (h - 1) = true) :
    ∃ t b, process W h {} (atOnce known p.parts) = some (t, [p.report]) ∧ t.final = some b ∧ b.number = j := by
  obtain ⟨i, bs, f⟩ := p
  obtain ⟨ha, hpos, hmax, hs, hf⟩ := hp
  obtain ⟨g1, g2, g3⟩ := gp
  simp only [Proposal.txs, Proposal.executed] at *
  have h1 : handlePart W known h ({} : Slot X C K) (.init i) =
      .ok ⟨some (accOf i []), some (.batches ⟨i, [], []⟩), none, false, none⟩ none := by
    simp [handlePart, accept_init, onPart, onInit, ha, if_neg (Nat.not_lt.2 hmax), shouldDefer_eq hpos hmax, hj, Except.bind,
      validateInfo_eq W hj i ha, g1, Except.map]
  simp only [atOnce, Proposal.parts, List.map_cons, process, step, h1]
  have := process_rest W hseq h0 hm hk i [] bs f false none hf (by simpa using hs) (.inr hs) (.inr (by simpa using g2)) (by simpa using g3)
  simp only [List.flatten_nil, List.filterMap_nil, List.nil_append] at this
  rw [this]
  exact ⟨_, _, rfl, rfl, ha⟩

/-- **C61** violated, classes: the block that is kept comes with a class none of its transactions declares, whenever a
transaction the proposer left out declares one that the others do not. -/
theorem C61_classes_violated (W : World X C K) (hseq : W.Sequential) (p : Proposal X C) (h : Nat) (hp : p.WellFormed h)
    (gp : p.Good W) (known : Nat → Bool) (hk : known (h - 1) = true) (x : X) (k : K) (hx : x ∈ p.txs.drop p.fin.count)
    (hxk : W.declares x = some k) (hn : ∀ y ∈ p.executed, W.declares y ≠ some k) :
    ∃ t b, process W h {} (atOnce known p.parts) = some (t, [p.report]) ∧ t.final = some b ∧ k ∈ b.declared ∧
      ∀ y ∈ b.txs, W.declares y ≠ some k := by
  refine ⟨_, _, atOnce_exact W hseq p h hp gp known hk {} rfl rfl, rfl, ?_, hn⟩
  simp only [List.mem_filterMap]
  exact ⟨x, List.mem_of_mem_drop hx, hxk⟩

/-- **C61** violated, empty blocks: block info and closing part are enough to have any commitment at all reported. If the
parent is not known yet, not even the block info is looked at, before or after. -/
theorem C61_empty_violated (W : World X C K) (h : Nat) (h0 : h ≠ 0) (hm : h ≤ maxNumber) (known : Nat → Bool)
    (hk : known (h - 1) = false) (i : Init) (hi : i.height = h) (f : Fin' C) :
    ∃ t, process W h {} (atOnce known [Part.init i, .fin f]) = some (t, [⟨f.commitment, i.proposer, i.validRound⟩]) ∧
      t.final = some ⟨h, none, [], []⟩ := by
  simp only [atOnce, List.map_cons, List.map_nil, process, step, init_before W h0 hm hk i hi]
  have : (accOf i ([] : List (List X)) : Parts X C).accept (.fin f) = some (finOf i [] f, .empty) := rfl
  simp only [handlePart, Option.getD_some, this, onPart, emptyBlock, if_neg (Nat.not_lt.2 hm)]
  exact ⟨_, rfl, rfl⟩

/-! ## A concrete world

Transactions are numbers, transaction 13 fails, 7 declares class 70, the commitment is the list of transactions, and
timestamps (`info`) must not be zero. -/

def toy : World Nat (List Nat) Nat where
  infoOk i := i.info != 0
  execOk _ _ xs := xs.all (· != 13)
  commitment _ xs := xs
  declares x := if x = 7 then some 70 else none

theorem toy_sequential : toy.Sequential := by
  intro i d a b
  simp [toy]

def toyInit : Init := ⟨5, 1, none, 9⟩
def toyGood : Proposal Nat (List Nat) := ⟨toyInit, [[1, 2], [3, 7]], ⟨[1, 2, 3], 3⟩⟩
def toyBad : Proposal Nat (List Nat) := ⟨toyInit, [[1, 2], [13]], ⟨[1, 2, 13], 3⟩⟩

example : toyGood.WellFormed 5 ∧ toyGood.Good toy :=
  ⟨⟨rfl, by decide, by decide, by decide, by decide⟩, ⟨by decide, by decide, by decide⟩⟩

example : toyBad.WellFormed 5 ∧ ¬ toyBad.Good toy :=
  ⟨⟨rfl, by decide, by decide, by decide, by decide⟩, fun h => by simpa using (show (false : Bool) = true from h.exec)⟩

example : Learns (· < 4) (· < 5) 5 := ⟨by decide, by decide⟩

example : (7 ∈ toyGood.txs.drop toyGood.fin.count) ∧ toy.declares 7 = some 70 ∧ ∀ y ∈ toyGood.executed, toy.declares y ≠ some 70 := by
  decide

example : HeightsAgree 5 (atOnce (· < 5) toyBad.parts) := by
  intro known i hi
  simp [atOnce, toyBad, Proposal.parts] at hi
  rw [hi.2]; rfl

/-- **C59** violated by what an earlier proposal left behind: a proposal whose first batch was deferred is dropped after a
second block info; the batch stays, and is executed in front of the next proposal, which is good but then has another
commitment and is lost. Without the leftover it is reported. -/
theorem C59_stale_violated :
    (process toy 5 {} ([.part (· < 4) (.init toyInit), .part (· < 4) (.batch [8]), .part (· < 4) (.init toyInit)] ++
        atOnce (· < 5) toyGood.parts)).map Prod.snd = some [] ∧
      (process toy 5 {} (atOnce (· < 5) toyGood.parts)).map Prod.snd = some [toyGood.report] := by
  constructor <;> decide

/-- **C59** violated for lower rounds: a good proposal of a round that is not the last one deferred for its height is
dropped when the parent is decided, even if its closing part had arrived. -/
theorem C59_round_violated (W : World X C K) (p : Proposal X C) (h : Nat) (hp : p.WellFormed h) (before after : Nat → Bool)
    (hl : Learns before after h) :
    ∃ t, process W h {} (p.parts.map (.part before) ++ [.parent after false]) = some (t, []) ∧ t.final = none ∧ t.deferred = none := by
  have e : p.parts = (.init p.init :: p.batches.map .batch) ++ [.fin p.fin] := rfl
  rw [e, List.map_append, process_append, process_append,
    process_deferred_init W hp.pos hp.max hl.before p.init hp.height {} rfl rfl _ hp.some hp.full]
  simp only [Option.bind_some, List.map_cons, List.map_nil, process, step,
    fin_before W hp.pos hp.max hl.before p.init _ hp.some]
  exact ⟨_, rfl, rfl, rfl⟩

end Verif.Proposals
