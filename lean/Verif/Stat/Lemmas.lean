import Verif.Stat.Spec

/-! # Helper lemmas for C107 -/

namespace Verif.Stat

theorem run_append (s : Sys) (as bs : List Act) :
    run s (as ++ bs) = (run s as).bind fun t => run t bs := by
  induction as generalizing s with
  | nil => rfl
  | cons a as ih =>
    simp only [List.cons_append, run]
    cases step s a with
    | none => rfl
    | some t => exact ih t

/-- An invariant of every step is one of every run. -/
theorem run_inv (P : Sys → Prop) (hstep : ∀ s a t, P s → step s a = some t → P t) :
    ∀ (acts : List Act) (s t : Sys), P s → run s acts = some t → P t := by
  intro acts
  induction acts with
  | nil => intro s t hs h; cases h; exact hs
  | cons a as ih =>
    intro s t hs h
    simp only [run] at h
    cases hst : step s a with
    | none => simp [hst] at h
    | some u =>
      simp only [hst, Option.bind_some] at h
      exact ih u t (hstep s a u hs hst) h

theorem noBlock_snoc {l : List Note} {x : Note} (hl : NoBlock l) (hx : ∀ b, x ≠ .block b) :
    NoBlock (l ++ [x]) := by
  intro b hb
  rcases List.mem_append.mp hb with h | h
  · exact hl b h
  · exact hx b (List.mem_singleton.mp h).symm

theorem noHead_snoc {l : List Note} {x : Note} (hl : NoHead l) (hx : ∀ b, x ≠ .head b) :
    NoHead (l ++ [x]) := by
  intro b hb
  rcases List.mem_append.mp hb with h | h
  · exact hl b h
  · exact hx b (List.mem_singleton.mp h).symm

theorem lastBlock_snoc {l : List Note} {x : Note} {b : Blk} (hl : LastBlock l b)
    (hx : ∀ b, x ≠ .block b) : LastBlock (l ++ [x]) b := by
  obtain ⟨pre, post, rfl, h⟩ := hl
  exact ⟨pre, post ++ [x], by simp, noBlock_snoc h hx⟩

theorem lastBlock_block (l : List Note) (b : Blk) : LastBlock (l ++ [.block b]) b :=
  ⟨l, [], rfl, fun _ h => by cases h⟩

theorem current_snoc {st : Blk} {l : List Note} {x : Note} {b : Blk} (hl : Current st l b)
    (hx : ∀ b, x ≠ .block b) : Current st (l ++ [x]) b := by
  obtain ⟨pre, h, post, rfl, hp, hb⟩ := hl
  refine ⟨pre, h, post ++ [x], by simp, hp, ?_⟩
  rcases hb with hb | ⟨hb, e⟩
  · exact .inl (lastBlock_snoc hb hx)
  · exact .inr ⟨noBlock_snoc hb hx, e⟩

theorem current_block {st : Blk} {l : List Note} {b c : Blk} (hl : Current st l b) :
    Current st (l ++ [.block c]) c := by
  obtain ⟨pre, h, post, rfl, hp, _⟩ := hl
  exact ⟨pre, h, post ++ [.block c], by simp, hp, .inl (lastBlock_block _ _)⟩

theorem current_first {st : Blk} {l : List Note} (h : Blk) (hl : NoHead l) :
    Current st (l ++ [.head h]) st :=
  ⟨l, h, [], rfl, hl, .inr ⟨(by intro _ h; cases h), rfl⟩⟩

theorem highest_head (l : List Note) (h : Blk) : Highest (l ++ [.head h]) h :=
  ⟨l, h, [], rfl, (by intro _ h; cases h), .inl rfl, Nat.le_refl _, (by intro _ h; cases h)⟩

theorem highest_reorg {l : List Note} {b : Blk} (t : Nat) (hl : Highest l b) :
    Highest (l ++ [.reorg t]) b := by
  obtain ⟨pre, h, post, rfl, hp, hb, hn, hc⟩ := hl
  refine ⟨pre, h, post ++ [.reorg t], by simp, noHead_snoc hp (fun _ => by simp), ?_, hn, ?_⟩
  · rcases hb with hb | hb
    · exact .inl hb
    · exact .inr (by simp [hb])
  · intro c h; apply hc; simpa using h

theorem highest_block_low {l : List Note} {b c : Blk} (hl : Highest l b) (hcb : c.num ≤ b.num) :
    Highest (l ++ [.block c]) b := by
  obtain ⟨pre, h, post, rfl, hp, hb, hn, hc⟩ := hl
  refine ⟨pre, h, post ++ [.block c], by simp, noHead_snoc hp (fun _ => by simp), ?_, hn, ?_⟩
  · rcases hb with hb | hb
    · exact .inl hb
    · exact .inr (by simp [hb])
  · intro d h
    rcases List.mem_append.mp h with h | h
    · exact hc d h
    · cases List.mem_singleton.mp h; exact hcb

theorem highest_block_high {l : List Note} {b c : Blk} (hl : Highest l b) (hcb : b.num ≤ c.num) :
    Highest (l ++ [.block c]) c := by
  obtain ⟨pre, h, post, rfl, hp, hb, hn, hc⟩ := hl
  refine ⟨pre, h, post ++ [.block c], by simp, noHead_snoc hp (fun _ => by simp), .inr (by simp),
    by omega, ?_⟩
  intro d h
  rcases List.mem_append.mp h with h | h
  · have := hc d h; omega
  · cases List.mem_singleton.mp h; exact Nat.le_refl _

theorem hashesTell_prefix {l : List Note} {x : Note} (h : HashesTell (l ++ [x])) : HashesTell l :=
  fun a b ha hb => h a b (by rcases ha with h | h <;> simp [h]) (by rcases hb with h | h <;> simp [h])

/-- The status against the history. -/
structure Inv (s : Sys) : Prop where
  none : s.status = none → NoHead s.log
  starting : ∀ st, s.status = some st → st.starting = s.starting
  current : ∀ st, s.status = some st → Current s.starting s.log st.current
  origin : ∀ st, s.status = some st → Note.head st.highest ∈ s.log ∨ Note.block st.highest ∈ s.log
  highest : ∀ st, s.status = some st → HashesTell s.log → Highest s.log st.highest

theorem inv_init (chain : List Blk) (g : Blk) (w : Bool) : Inv (init chain g w) := by
  constructor <;> simp [init, NoHead]

theorem inv_step (s : Sys) (a : Act) (t : Sys) (hs : Inv s) (h : step s a = some t) : Inv t := by
  obtain ⟨h1, h2, h3, h4, h5⟩ := hs
  cases a with
  | poll b => cases h; exact ⟨h1, h2, h3, h4, h5⟩
  | take =>
    simp only [step] at h
    split at h
    · cases h; exact ⟨h1, h2, h3, h4, h5⟩
    · cases h
  | publish =>
    simp only [step] at h
    cases ht : s.taken with
    | none => simp [ht] at h
    | some b =>
      simp only [ht, Option.some.injEq] at h
      subst h
      cases hst : s.status with
      | none =>
        refine ⟨by simp, ?_, ?_, ?_, ?_⟩ <;> intro st e <;> cases e
        · rfl
        · exact current_first b (h1 hst)
        · simp [publishHead]
        · intro _; exact highest_head _ _
      | some st0 =>
        refine ⟨by simp, ?_, ?_, ?_, ?_⟩ <;> intro st e <;> cases e <;> simp only [publishHead]
        · split <;> exact h2 st0 hst
        · split <;> exact current_snoc (h3 st0 hst) (fun _ => by simp)
        · split
          · simp
          · rcases h4 _ hst with h | h <;> simp [h]
        · intro ht
          split
          · exact highest_head _ _
          · rename_i hh
            have e : st0.highest = b := by
              apply ht _ _ _ (.inl (by simp)) (by simpa using hh)
              rcases h4 _ hst with h | h <;> simp [h]
            rw [e]
            exact highest_head _ _
  | receive b =>
    simp only [step] at h
    split at h
    · split at h
      · cases h; exact ⟨h1, h2, h3, h4, h5⟩
      · cases h
        cases hst : s.status with
        | none =>
          refine ⟨fun _ => noHead_snoc (h1 hst) (fun _ => by simp), ?_, ?_, ?_, ?_⟩ <;>
            intro st e <;> cases e
        | some st0 =>
          refine ⟨by simp [acceptBlock], ?_, ?_, ?_, ?_⟩ <;> intro st e <;>
            simp only [acceptBlock, Option.some.injEq] at e <;> subst e
          · split <;> exact h2 st0 hst
          · split <;> exact current_block (h3 st0 hst)
          · split
            · simp
            · rcases h4 _ hst with h | h <;> simp [h]
          · intro ht
            have := h5 _ hst (hashesTell_prefix ht)
            split
            · rename_i hle; exact highest_block_high this hle
            · rename_i hle; exact highest_block_low this (by simp only; omega)
    · cases h
  | commit =>
    simp only [step] at h
    split at h
    · cases h
    · split at h
      · cases h
      · cases h; exact ⟨h1, h2, h3, h4, h5⟩
  | fail =>
    simp only [step] at h
    split at h
    · cases h
    · cases h; exact ⟨h1, h2, h3, h4, h5⟩
  | reorg tail =>
    simp only [step] at h
    split at h
    · split at h
      · cases h; exact ⟨h1, h2, h3, h4, h5⟩
      · cases h
        refine ⟨fun e => noHead_snoc (h1 e) (fun _ => by simp), h2, ?_, ?_, ?_⟩ <;> intro st e
        · exact current_snoc (h3 _ e) (fun _ => by simp)
        · rcases h4 _ e with h | h <;> simp [h]
        · intro ht; exact highest_reorg _ (h5 _ e (hashesTell_prefix ht))
    · cases h
  | setReady => cases h; exact ⟨h1, h2, h3, h4, h5⟩

theorem inv_reach {chain g w acts s} (h : Reach chain g w acts s) : Inv s :=
  run_inv Inv inv_step acts _ s (inv_init chain g w) h

/-- The starting block does not change. -/
theorem starting_step (x : Blk) (s : Sys) (a : Act) (t : Sys) (hs : s.starting = x)
    (h : step s a = some t) : t.starting = x := by
  cases a <;> simp only [step] at h
  all_goals repeat' split at h
  all_goals first | (cases h; exact hs) | cases h

theorem starting_reach {chain g w acts s} (h : Reach chain g w acts s) :
    s.starting = chain.head?.getD ⟨0, 0⟩ :=
  run_inv (fun s => s.starting = chain.head?.getD ⟨0, 0⟩) (starting_step _) acts _ s rfl h

/-- The history only grows. -/
theorem log_step (s : Sys) (a : Act) (t : Sys) (h : step s a = some t) :
    ∃ x, t.log = s.log ++ x := by
  cases a <;> simp only [step] at h
  all_goals repeat' split at h
  all_goals first
    | (cases h; exact ⟨_, rfl⟩)
    | (cases h; exact ⟨[], (List.append_nil _).symm⟩)
    | cases h

/-! ## The stored chain -/

/-- If the last change of the chain in the history is the block `b`, then `b` is being stored or is
the newest stored block. -/
def ChainInv (s : Sys) : Prop :=
  ∀ pre b post, s.log = pre ++ .block b :: post → NoBlock post → NoReorg post →
    s.storing = some b ∨ (s.storing = none ∧ s.chain.head? = some b)

theorem snoc_split {l pre post : List Note} {x y : Note} (h : l ++ [x] = pre ++ y :: post) :
    (post = [] ∧ l = pre ∧ x = y) ∨ ∃ p, post = p ++ [x] ∧ l = pre ++ y :: p := by
  rcases List.eq_nil_or_concat post with rfl | ⟨p, z, rfl⟩
  · left
    have := List.append_inj' h rfl
    exact ⟨rfl, this.1, by simpa using this.2⟩
  · right
    have h' : l ++ [x] = (pre ++ y :: p) ++ [z] := by simpa using h
    have := List.append_inj' h' rfl
    obtain ⟨h1, h2⟩ := this
    exact ⟨p, by simp at h2; simp [h2], h1⟩

theorem chain_step (s : Sys) (a : Act) (t : Sys) (hs : ChainInv s) (h : step s a = some t) :
    ChainInv t := by
  cases a with
  | poll b => cases h; exact hs
  | take =>
    simp only [step] at h
    split at h <;> cases h
    exact hs
  | publish =>
    simp only [step] at h
    split at h
    · cases h
    · cases h
      intro pre b post e hb hr
      rcases snoc_split e with ⟨_, _, e1⟩ | ⟨p, rfl, e1⟩
      · cases e1
      · exact hs pre b p e1 (fun c hc => hb c (by simp [hc])) (fun c hc => hr c (by simp [hc]))
  | receive b =>
    simp only [step] at h
    split at h
    · split at h
      · cases h; exact hs
      · cases h
        intro pre c post e hb hr
        rcases snoc_split e with ⟨_, _, e⟩ | ⟨p, rfl, e⟩
        · cases e; exact .inl rfl
        · exact absurd (by simp) (hb b)
    · cases h
  | commit =>
    simp only [step] at h
    split at h
    · cases h
    · rename_i x hx
      split at h
      · cases h
      · cases h
        intro pre c post e hb hr
        rcases hs pre c post e hb hr with h | h
        · rw [hx] at h; cases h; exact .inr ⟨rfl, rfl⟩
        · rw [hx] at h; cases h.1
  | fail =>
    simp only [step] at h
    split at h
    · cases h
    · cases h; exact hs
  | reorg tail =>
    simp only [step] at h
    split at h
    · split at h
      · cases h; exact hs
      · cases h
        intro pre c post e hb hr
        rcases snoc_split e with ⟨_, _, e⟩ | ⟨p, rfl, e⟩
        · cases e
        · exact absurd (by simp) (hr tail)
    · cases h
  | setReady => cases h; exact hs

theorem chain_reach {chain g w acts s} (h : Reach chain g w acts s) : ChainInv s := by
  refine run_inv ChainInv chain_step acts _ s ?_ h
  intro pre b post e
  simp [init] at e

/-! ## Without the status task -/

theorem unwatched_step (s : Sys) (a : Act) (t : Sys)
    (hs : s.watching = false ∧ s.taken = none ∧ s.status = none) (h : step s a = some t) :
    t.watching = false ∧ t.taken = none ∧ t.status = none := by
  obtain ⟨h1, h2, h3⟩ := hs
  cases a with
  | poll b => cases h; exact ⟨h1, h2, h3⟩
  | take => simp [step, h1] at h
  | publish => simp [step, h2] at h
  | receive b =>
    simp only [step] at h
    split at h
    · split at h
      · cases h; exact ⟨h1, h2, h3⟩
      · cases h; exact ⟨h1, h2, by simp [h3, acceptBlock]⟩
    · cases h
  | commit =>
    simp only [step] at h
    split at h
    · cases h
    · split at h <;> cases h
      exact ⟨h1, h2, h3⟩
  | fail =>
    simp only [step] at h
    split at h <;> cases h
    exact ⟨h1, h2, h3⟩
  | reorg tail =>
    simp only [step] at h
    split at h
    · split at h <;> cases h <;> exact ⟨h1, h2, h3⟩
    · cases h
  | setReady => cases h; exact ⟨h1, h2, h3⟩

/-! ## Readiness -/

theorem ready_step (s : Sys) (a : Act) (t : Sys) (hs : s.ready = true) (h : step s a = some t) :
    t.ready = true := by
  cases a <;> simp only [step] at h
  all_goals repeat' split at h
  all_goals first | (cases h; exact hs) | (cases h; rfl) | cases h

end Verif.Stat
