import Verif.Subs.Status

namespace Verif.Subs.Status

theorem run_snoc (a : Act) : ∀ (as : List Act) (s : Sys), run s (as ++ [a]) = (run s as).bind fun t => step t a
  | [], s => by
    change (step s a).bind (fun t => some t) = _
    cases h : step s a <;> simp [run, h]
  | b :: as, s => by
    change (step s b).bind _ = ((step s b).bind _).bind _
    cases step s b with
    | none => rfl
    | some t => exact run_snoc a as t

theorem run_append (bs : List Act) : ∀ (as : List Act) (s : Sys), run s (as ++ bs) = (run s as).bind fun t => run t bs
  | [], s => rfl
  | a :: as, s => by
    change (step s a).bind _ = ((step s a).bind _).bind _
    cases step s a with
    | none => rfl
    | some t => exact run_append bs as t

/-- Induction over schedules, last step last. -/
theorem run_induct {P : List Act → Sys → Prop} {s0 : Sys} (h0 : P [] s0)
    (hs : ∀ as a s t, run s0 as = some s → step s a = some t → P as s → P (as ++ [a]) t) :
    ∀ (as : List Act) (s : Sys), run s0 as = some s → P as s := by
  intro as
  induction h : as.length generalizing as with
  | zero =>
    intro s hr
    have : as = [] := List.length_eq_zero_iff.1 h
    subst this
    cases hr
    exact h0
  | succ n ih =>
    intro s hr
    have hne : as ≠ [] := by
      intro e
      rw [e] at h
      cases h
    have e := List.dropLast_concat_getLast hne
    rw [← e, run_snoc] at hr
    cases hm : run s0 as.dropLast with
    | none =>
      rw [hm] at hr
      cases hr
    | some u =>
      rw [hm] at hr
      rw [← e]
      exact hs _ _ u s hm hr (ih as.dropLast (by simp [h]) u hm)

/-- What a step adds to what was sent: reports, each above the last one; or a reorg notice, which forgets the last. -/
inductive Grow : Sys → Sys → Prop where
  | same {s t : Sys} : t.out = s.out → t.last = s.last → Grow s t
  | sent {s t : Sys} (r : Report) : t.out = s.out ++ [.status r] → t.last = some r → (∀ l, s.last = some l → l.fin.num < r.fin.num) → Grow s t
  | reorg {s t : Sys} (k : Nat) : t.out = s.out ++ [.reorg k] → t.last = none → Grow s t
  | trans {s t u : Sys} : Grow s t → Grow t u → Grow s u

theorem grow_send (s : Sys) (r : Report) : Grow s (send s r) := by
  unfold send
  split
  · exact .same rfl rfl
  · rename_i h
    refine .sent r rfl rfl ?_
    intro l hl
    rw [hl] at h
    simp only [Option.any_some, decide_eq_true_eq] at h
    omega

theorem grow_sendOpt (s : Sys) (r : Option Report) : Grow s (sendOpt s r) := by
  cases r with
  | none => exact .same rfl rfl
  | some r => exact grow_send s r

theorem grow_onBlock (s : Sys) (n : Nat) (e : Option Nat) : Grow s (onBlock s n e) :=
  .trans (.trans (grow_sendOpt _ _) (grow_sendOpt _ _)) (grow_sendOpt _ _)

theorem grow_step {s t : Sys} {a : Act} (h : step s a = some t) : Grow s t := by
  cases a with
  | commit e => simp only [step] at h; split at h <;> cases h; exact .same rfl rfl
  | reorg k => simp only [step] at h; split at h <;> cases h; exact .same rfl rfl
  | announce =>
    simp only [step] at h
    cases hp : s.pending with
    | none => rw [hp] at h; cases h
    | some note =>
      rw [hp] at h
      cases h
      cases note <;> exact .same rfl rfl
  | setL1 l => cases h; exact .same rfl rfl
  | setPre r => cases h; exact .same rfl rfl
  | submit n => cases h; exact .same rfl rfl
  | readDb =>
    simp only [step] at h
    split at h
    · cases hf : findTx s.chain 0 with
      | none => rw [hf] at h; cases h; exact .same rfl rfl
      | some p => rw [hf] at h; cases h; exact .trans (grow_send s _) (.same rfl rfl)
    · cases h
  | readPending => simp only [step] at h; split at h <;> cases h; exact .trans (grow_sendOpt s _) (.same rfl rfl)
  | openBlocks => simp only [step] at h; split at h <;> cases h; exact .same rfl rfl
  | openReorgs => simp only [step] at h; split at h <;> cases h; exact .same rfl rfl
  | tickRejected => simp only [step] at h; split at h <;> cases h; exact .trans (grow_send s _) (.same rfl rfl)
  | takeReorg =>
    simp only [step] at h
    split at h
    · cases hr : s.reorgs with
      | nil => rw [hr] at h; cases h
      | cons k rest => rw [hr] at h; cases h; exact .reorg k rfl rfl
    · cases h
  | takePending => simp only [step] at h; split at h <;> cases h; exact grow_sendOpt s _
  | takeBlock =>
    simp only [step] at h
    split at h
    · cases hb : s.blocks with
      | nil => rw [hb] at h; cases h
      | cons b rest => rw [hb] at h; cases h; exact .trans (grow_onBlock s _ _) (.same rfl rfl)
    · cases h

/-- No reorg notice in this part of the stream. -/
def NoReorg (l : List Out) : Prop := ∀ k, Out.reorg k ∉ l

/-- The last report is at least every report since the last reorg notice, and those progress. -/
structure Mono (s : Sys) : Prop where
  top : ∀ a r b, s.out = a ++ .status r :: b → NoReorg b → ∃ l, s.last = some l ∧ r.fin.num ≤ l.fin.num
  prog : ∀ a r b q c, s.out = a ++ .status r :: b ++ .status q :: c → NoReorg b → r.fin.num < q.fin.num

theorem snoc_split {l a : List Out} {x y : Out} {b : List Out} (h : l ++ [x] = a ++ y :: b) :
    (b = [] ∧ x = y ∧ a = l) ∨ ∃ b', b = b' ++ [x] ∧ l = a ++ y :: b' := by
  rcases List.eq_nil_or_concat b with hb | ⟨b', z, hb⟩
  · subst hb
    have := List.append_inj' h rfl
    exact Or.inl ⟨rfl, by simpa using this.2, this.1.symm⟩
  · subst hb
    right
    rw [List.concat_eq_append] at h ⊢
    have h' : l ++ [x] = (a ++ y :: b') ++ [z] := by simpa using h
    have := List.append_inj' h' rfl
    have hz : x = z := by simpa using this.2
    exact ⟨b', by rw [hz], this.1⟩

theorem mono_grow {s t : Sys} (g : Grow s t) : Mono s → Mono t := by
  induction g with
  | same h1 h2 =>
    intro m
    exact ⟨fun a r b => by rw [h1, h2]; exact m.top a r b, fun a r b q c => by rw [h1]; exact m.prog a r b q c⟩
  | trans _ _ ih1 ih2 => exact fun m => ih2 (ih1 m)
  | @sent s t r h1 h2 h3 =>
    intro m
    refine ⟨?_, ?_⟩
    · intro a q b he hb
      rw [h1] at he
      refine ⟨r, h2, ?_⟩
      rcases snoc_split he with ⟨_, e, _⟩ | ⟨b', e1, e2⟩
      · cases e
        exact Nat.le_refl _
      · obtain ⟨l, hl, hle⟩ := m.top a q b' e2 (fun k hk => hb k (by rw [e1]; exact List.mem_append_left _ hk))
        exact Nat.le_of_lt (Nat.lt_of_le_of_lt hle (h3 l hl))
    · intro a p b q c he hb
      rw [h1] at he
      rcases snoc_split he with ⟨_, e, e2⟩ | ⟨c', e1, e2⟩
      · cases e
        obtain ⟨l, hl, hle⟩ := m.top a p b e2.symm hb
        exact Nat.lt_of_le_of_lt hle (h3 l hl)
      · exact m.prog a p b q c' e2 hb
  | @reorg s t k h1 h2 =>
    intro m
    refine ⟨?_, ?_⟩
    · intro a q b he hb
      rw [h1] at he
      rcases snoc_split he with ⟨_, e, _⟩ | ⟨b', e1, _⟩
      · cases e
      · exact absurd (by rw [e1]; exact List.mem_append_right _ List.mem_cons_self) (hb k)
    · intro a p b q c he hb
      rw [h1] at he
      rcases snoc_split he with ⟨_, e, _⟩ | ⟨c', e1, e2⟩
      · cases e
      · exact m.prog a p b q c' e2 hb

theorem findTx_get : ∀ (c : List (Option Nat)) (o n e : Nat), findTx c o = some (n, e) → o ≤ n ∧ c[n - o]? = some (some e)
  | [], o, n, e, h => by cases h
  | some x :: rest, o, n, e, h => by
    cases h
    simp
  | none :: rest, o, n, e, h => by
    have ih := findTx_get rest (o + 1) n e h
    refine ⟨by omega, ?_⟩
    have : n - o = (n - (o + 1)) + 1 := by omega
    rw [this, List.getElem?_cons_succ]
    exact ih.2

theorem findTx_none : ∀ (c : List (Option Nat)) (o : Nat), findTx c o = none → ∀ n e : Nat, c[n]? ≠ some (some e)
  | [], _, _, n, e => by simp
  | some x :: rest, o, h, n, e => by cases h
  | none :: rest, o, h, n, e => by
    cases n with
    | zero => simp
    | succ n => rw [List.getElem?_cons_succ]; exact findTx_none rest (o + 1) h n e

/-- At some point of the schedule, up to now, this held. -/
def At (s0 : Sys) (acts : List Act) (P : Sys → Prop) : Prop := ∃ as, as <+: acts ∧ ∃ u, run s0 as = some u ∧ P u

theorem At.mono {s0 : Sys} {acts : List Act} {P : Sys → Prop} (a : Act) (h : At s0 acts P) : At s0 (acts ++ [a]) P := by
  obtain ⟨as, h1, h2⟩ := h
  exact ⟨as, h1.trans (List.prefix_append _ _), h2⟩

/-- What a report rests on. -/
def Founded (s0 : Sys) (acts : List Act) (r : Report) : Prop :=
  match r.fin with
  | .received | .rejected => r.exec = none
  | .candidate => r.exec = none ∧ At s0 acts fun u => u.pre = some r
  | .preConfirmed => At s0 acts fun u => u.pre = some r
  | .acceptedOnL2 => ∃ e, r.exec = some e ∧ At s0 acts fun u => u.chain[r.number]? = some (some e)
  | .acceptedOnL1 => ∃ e n, r.exec = some e ∧ n ≤ r.number ∧ (At s0 acts fun u => u.l1 = some r.number) ∧
      ((At s0 acts fun u => u.chain[n]? = some (some e)) ∨ At s0 acts fun u => u.pre = some ⟨n, .preConfirmed, some e⟩)

theorem Founded.mono {s0 : Sys} {acts : List Act} {r : Report} (a : Act) (h : Founded s0 acts r) : Founded s0 (acts ++ [a]) r := by
  unfold Founded at h ⊢
  cases hf : r.fin with
  | received => simp only [hf] at h ⊢; exact h
  | rejected => simp only [hf] at h ⊢; exact h
  | candidate => simp only [hf] at h ⊢; exact ⟨h.1, h.2.mono a⟩
  | preConfirmed => simp only [hf] at h ⊢; exact h.mono a
  | acceptedOnL2 => simp only [hf] at h ⊢; obtain ⟨e, h1, h2⟩ := h; exact ⟨e, h1, h2.mono a⟩
  | acceptedOnL1 =>
    simp only [hf] at h ⊢
    obtain ⟨e, n, h1, h2, h3, h4⟩ := h
    exact ⟨e, n, h1, h2, h3.mono a, h4.imp (At.mono a) (At.mono a)⟩

structure FInv (s0 : Sys) (acts : List Act) (s : Sys) : Prop where
  pre : PreOk s.pre
  note : ∀ n e, s.pending = some (.block n (some e)) → At s0 acts fun u => u.chain[n]? = some (some e)
  blocks : ∀ n e, (n, some e) ∈ s.blocks → At s0 acts fun u => u.chain[n]? = some (some e)
  last : ∀ r, s.last = some r → Founded s0 acts r
  out : ∀ r, Out.status r ∈ s.out → Founded s0 acts r

theorem FInv.mono {s0 : Sys} {acts : List Act} {s : Sys} (a : Act) (h : FInv s0 acts s) : FInv s0 (acts ++ [a]) s :=
  ⟨h.pre, fun n e k => (h.note n e k).mono a, fun n e k => (h.blocks n e k).mono a, fun r k => (h.last r k).mono a,
    fun r k => (h.out r k).mono a⟩

theorem FInv.send {s0 : Sys} {acts : List Act} {s : Sys} {r : Report} (h : FInv s0 acts s)
    (hr : (∃ l, s.last = some l ∧ r.fin.num ≤ l.fin.num) ∨ Founded s0 acts r) : FInv s0 acts (send s r) := by
  unfold Status.send
  split
  · exact h
  · rename_i hn
    rcases hr with ⟨l, hl, hle⟩ | hf
    · rw [hl] at hn
      simp only [Option.any_some, decide_eq_true_eq] at hn
      exact absurd hle hn
    · refine ⟨h.pre, h.note, h.blocks, fun q hq => ?_, fun q hq => ?_⟩
      · cases hq
        exact hf
      · rcases List.mem_append.1 hq with k | k
        · exact h.out q k
        · cases List.mem_singleton.1 k
          exact hf

theorem FInv.sendOpt {s0 : Sys} {acts : List Act} {s : Sys} {r : Option Report} (h : FInv s0 acts s)
    (hr : ∀ q, r = some q → (∃ l, s.last = some l ∧ q.fin.num ≤ l.fin.num) ∨ Founded s0 acts q) : FInv s0 acts (sendOpt s r) := by
  cases r with
  | none => exact h
  | some q => exact h.send (hr q rfl)

theorem send_fields (s : Sys) (r : Report) : (send s r).chain = s.chain ∧ (send s r).l1 = s.l1 ∧ (send s r).pre = s.pre ∧
    (send s r).submitted = s.submitted ∧ (send s r).pending = s.pending ∧ (send s r).phase = s.phase ∧
    (send s r).blocks = s.blocks ∧ (send s r).reorgs = s.reorgs := by
  unfold send
  split <;> exact ⟨rfl, rfl, rfl, rfl, rfl, rfl, rfl, rfl⟩

theorem sendOpt_fields (s : Sys) (r : Option Report) : (sendOpt s r).chain = s.chain ∧ (sendOpt s r).l1 = s.l1 ∧
    (sendOpt s r).pre = s.pre ∧ (sendOpt s r).submitted = s.submitted ∧ (sendOpt s r).pending = s.pending ∧
    (sendOpt s r).phase = s.phase ∧ (sendOpt s r).blocks = s.blocks ∧ (sendOpt s r).reorgs = s.reorgs := by
  cases r with
  | none => exact ⟨rfl, rfl, rfl, rfl, rfl, rfl, rfl, rfl⟩
  | some r => exact send_fields s r

theorem onBlock_fields (s : Sys) (n : Nat) (e : Option Nat) : (onBlock s n e).chain = s.chain ∧ (onBlock s n e).l1 = s.l1 ∧
    (onBlock s n e).pre = s.pre ∧ (onBlock s n e).submitted = s.submitted ∧ (onBlock s n e).pending = s.pending ∧
    (onBlock s n e).phase = s.phase ∧ (onBlock s n e).blocks = s.blocks ∧ (onBlock s n e).reorgs = s.reorgs := by
  unfold onBlock
  simp only [sendOpt_fields]
  exact ⟨trivial, trivial, trivial, trivial, trivial, trivial, trivial, trivial⟩

/-- A report with an execution status is of one of three kinds. -/
theorem founded_exec {s0 : Sys} {acts : List Act} {r : Report} (h : Founded s0 acts r) (he : r.exec.isSome = true) :
    (∃ e, r = ⟨r.number, .preConfirmed, some e⟩ ∧ At s0 acts fun u => u.pre = some ⟨r.number, .preConfirmed, some e⟩) ∨
      (∃ e, r.exec = some e ∧ r.fin = .acceptedOnL2 ∧ At s0 acts fun u => u.chain[r.number]? = some (some e)) ∨
      r.fin = .acceptedOnL1 := by
  obtain ⟨n, f, x⟩ := r
  unfold Founded at h
  cases f with
  | received => simp only at h; rw [h] at he; cases he
  | rejected => simp only at h; rw [h] at he; cases he
  | candidate => have h1 : x = none := h.1; subst h1; cases he
  | preConfirmed =>
    left
    cases x with
    | none => cases he
    | some e => exact ⟨e, rfl, h⟩
  | acceptedOnL2 =>
    right; left
    obtain ⟨e, h1, h2⟩ := h
    exact ⟨e, h1, rfl, h2⟩
  | acceptedOnL1 => right; right; rfl

theorem FInv.onBlock {s0 : Sys} {acts : List Act} {s : Sys} {n : Nat} {e : Option Nat} (h : FInv s0 acts s)
    (hs : run s0 acts = some s) (hb : ∀ x, e = some x → At s0 acts fun u => u.chain[n]? = some (some x)) :
    FInv s0 acts (onBlock s n e) := by
  have h1 := h.sendOpt (r := s.submitted.map fun k => ⟨k, .received, none⟩) (fun q hq => by
    right
    cases hk : s.submitted with
    | none => rw [hk] at hq; cases hq
    | some k => rw [hk] at hq; cases hq; exact rfl)
  have h2 := h1.sendOpt (r := e.map fun x => ⟨n, .acceptedOnL2, some x⟩) (fun q hq => by
    right
    cases hk : e with
    | none => rw [hk] at hq; cases hq
    | some k => rw [hk] at hq; cases hq; exact ⟨k, rfl, hb k hk⟩)
  unfold Status.onBlock
  apply h2.sendOpt
  intro q hq
  rw [(sendOpt_fields _ _).2.1, (sendOpt_fields _ _).2.1] at hq
  cases hl : s.l1 with
  | none => rw [hl] at hq; cases hq
  | some l =>
    rw [hl] at hq
    generalize hu : Status.sendOpt (Status.sendOpt s (s.submitted.map fun k => ⟨k, .received, none⟩)) (e.map fun x => ⟨n, .acceptedOnL2, some x⟩) = u at *
    cases hr : u.last with
    | none => rw [hr] at hq; cases hq
    | some r =>
      rw [hr] at hq
      simp only [Option.bind] at hq
      split at hq
      · rename_i hc
        cases hq
        rcases founded_exec (h2.last r hr) hc.2 with ⟨x, hx, hat⟩ | ⟨x, hx, _, hat⟩ | hx
        · right
          refine ⟨x, r.number, ?_, hc.1, ⟨acts, List.prefix_rfl, s, hs, hl⟩, Or.inr hat⟩
          rw [hx]
        · right
          exact ⟨x, r.number, hx, hc.1, ⟨acts, List.prefix_rfl, s, hs, hl⟩, Or.inl hat⟩
        · left
          refine ⟨r, rfl, ?_⟩
          rw [hx]
          exact Nat.le_refl _
      · cases hq

theorem FInv.setPhase {s0 : Sys} {acts : List Act} {s : Sys} (p : Phase) (h : FInv s0 acts s) : FInv s0 acts { s with phase := p } :=
  ⟨h.pre, h.note, h.blocks, h.last, h.out⟩

theorem founded_pre {s0 : Sys} {acts : List Act} {s : Sys} (h : FInv s0 acts s) (hs : run s0 acts = some s) (r : Report)
    (hr : s.pre = some r) : Founded s0 acts r := by
  have hat : At s0 acts fun u => u.pre = some r := ⟨acts, List.prefix_rfl, s, hs, hr⟩
  have hp := h.pre
  rw [hr] at hp
  unfold Founded
  rcases hp with ⟨h1, h2⟩ | ⟨h1, h2⟩
  · simp only [h1]; exact ⟨h2, hat⟩
  · simp only [h1]; exact hat

theorem finv_step {s0 : Sys} {acts : List Act} {s t : Sys} {a : Act} (hs : run s0 acts = some s) (h : step s a = some t)
    (ha : a.preOk) (hI : FInv s0 acts s) : FInv s0 (acts ++ [a]) t := by
  have ht : run s0 (acts ++ [a]) = some t := by
    rw [run_snoc, hs]
    exact h
  cases a with
  | commit e =>
    simp only [step] at h
    split at h
    · cases h
      have hI' := hI.mono (.commit e)
      refine ⟨hI'.pre, fun n x hn => ?_, hI'.blocks, hI'.last, hI'.out⟩
      cases hn
      refine ⟨_, List.prefix_rfl, _, ht, ?_⟩
      simp
    · cases h
  | reorg k =>
    simp only [step] at h
    split at h
    · cases h
      have hI' := hI.mono (.reorg k)
      exact ⟨hI'.pre, fun n x hn => (by cases hn), hI'.blocks, hI'.last, hI'.out⟩
    · cases h
  | announce =>
    simp only [step] at h
    have hI' := hI.mono .announce
    cases hp : s.pending with
    | none => rw [hp] at h; cases h
    | some note =>
      rw [hp] at h
      cases h
      cases note with
      | block n e =>
        refine ⟨hI'.pre, fun _ _ hn => (by cases hn), fun m x hm => ?_, hI'.last, hI'.out⟩
        simp only [announce] at hm
        split at hm
        · rcases List.mem_append.1 hm with k | k
          · exact hI'.blocks m x k
          · cases List.mem_singleton.1 k
            exact hI'.note n x hp
        · exact hI'.blocks m x hm
      | reorg k => exact ⟨hI'.pre, fun _ _ hn => (by cases hn), hI'.blocks, hI'.last, hI'.out⟩
  | setL1 l => cases h; have hI' := hI.mono (.setL1 l); exact ⟨hI'.pre, hI'.note, hI'.blocks, hI'.last, hI'.out⟩
  | setPre r => cases h; have hI' := hI.mono (.setPre r); exact ⟨ha, hI'.note, hI'.blocks, hI'.last, hI'.out⟩
  | submit n => cases h; have hI' := hI.mono (.submit n); exact ⟨hI'.pre, hI'.note, hI'.blocks, hI'.last, hI'.out⟩
  | readDb =>
    simp only [step] at h
    split at h
    · cases hf : findTx s.chain 0 with
      | none => rw [hf] at h; cases h; exact (hI.mono _).setPhase _
      | some p =>
        rw [hf] at h
        cases h
        refine FInv.setPhase _ ((hI.send (Or.inr ?_)).mono _)
        have hg := (findTx_get s.chain 0 p.1 p.2 hf).2
        have hat : At s0 acts fun u => u.chain[p.1]? = some (some p.2) := ⟨acts, List.prefix_rfl, s, hs, hg⟩
        unfold stored
        cases hl : s.l1 with
        | none => exact ⟨p.2, rfl, hat⟩
        | some l =>
          simp only
          split
          · rename_i hle
            exact ⟨p.2, p.1, rfl, hle, ⟨acts, List.prefix_rfl, s, hs, hl⟩, Or.inl hat⟩
          · exact ⟨p.2, rfl, hat⟩
    · cases h
  | readPending =>
    simp only [step] at h
    split at h
    · cases h
      refine FInv.setPhase _ ((hI.sendOpt ?_).mono _)
      intro q hq
      right
      unfold unstored at hq
      cases hpre : s.pre with
      | some r =>
        rw [hpre] at hq
        cases hq
        exact founded_pre hI hs _ hpre
      | none =>
        rw [hpre] at hq
        simp only at hq
        cases hk : s.submitted with
        | none => rw [hk] at hq; cases hq
        | some k => rw [hk] at hq; cases hq; exact rfl
    · cases h
  | openBlocks => simp only [step] at h; split at h <;> cases h; exact (hI.mono _).setPhase _
  | openReorgs => simp only [step] at h; split at h <;> cases h; exact (hI.mono _).setPhase _
  | tickRejected =>
    simp only [step] at h
    split at h <;> cases h
    have hf : Founded s0 acts ⟨0, .rejected, none⟩ := rfl
    exact FInv.setPhase _ ((hI.send (Or.inr hf)).mono _)
  | takeReorg =>
    simp only [step] at h
    split at h
    · cases hr : s.reorgs with
      | nil => rw [hr] at h; cases h
      | cons k rest =>
        rw [hr] at h
        cases h
        have hI' := hI.mono .takeReorg
        refine ⟨hI'.pre, hI'.note, fun _ _ hn => absurd hn List.not_mem_nil, fun _ hn => (by cases hn), fun r hr => ?_⟩
        rcases List.mem_append.1 hr with k | k
        · exact hI'.out r k
        · cases List.mem_singleton.1 k
    · cases h
  | takePending =>
    simp only [step] at h
    split at h <;> cases h
    refine (hI.sendOpt ?_).mono _
    intro q hq
    exact Or.inr (founded_pre hI hs q hq)
  | takeBlock =>
    simp only [step] at h
    split at h
    · cases hb : s.blocks with
      | nil => rw [hb] at h; cases h
      | cons b rest =>
        rw [hb] at h
        cases h
        have hI' := (hI.onBlock (n := b.1) (e := b.2) hs (fun x hx => hI.blocks b.1 x (by
          rw [hb, ← hx]; exact List.mem_cons_self))).mono .takeBlock
        refine ⟨hI'.pre, hI'.note, fun n x hn => ?_, hI'.last, hI'.out⟩
        exact (hI.mono _).blocks n x (by rw [hb]; exact List.mem_cons_of_mem _ hn)
    · cases h

theorem finv_run {s0 : Sys} (h0 : Fresh s0) (hp0 : PreOk s0.pre) (acts : List Act) (s : Sys) (ha : ∀ a ∈ acts, a.preOk)
    (h : run s0 acts = some s) : FInv s0 acts s := by
  have := run_induct (P := fun as s => (∀ a ∈ as, a.preOk) → FInv s0 as s) (s0 := s0) (fun _ => ?_) (fun as a s t hs hst ih hok => ?_) acts s h
  · exact this ha
  · obtain ⟨_, hb, _, hl, ho, hp⟩ := h0
    refine ⟨hp0, fun n e hn => ?_, fun n e hn => ?_, fun r hr => ?_, fun r hr => ?_⟩
    · rcases hp with k | ⟨k, hk⟩ | ⟨x, hk, hc⟩
      · rw [k] at hn; cases hn
      · rw [hk] at hn; cases hn
      · rw [hk] at hn
        cases hn
        exact ⟨[], List.prefix_rfl, s0, rfl, hc⟩
    · rw [hb] at hn; cases hn
    · rw [hl] at hr; cases hr
    · rw [ho] at hr; cases hr
  · exact finv_step hs hst (hok a (List.mem_append_right _ List.mem_cons_self)) (ih fun b hb => hok b (List.mem_append_left _ hb))

end Verif.Subs.Status
