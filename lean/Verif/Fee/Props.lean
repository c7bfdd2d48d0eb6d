import Verif.Fee.Lemmas

/-!
C80: fee estimates and simulations of transactions with L2 gas.
-/

namespace Verif.Fee

variable {S : Type}

/-! ### Specification -/

namespace Spec

/-- The run is cut short for lack of gas. -/
def RunsOut : Run S → Prop
  | .done _ reverted outOfGas _ => reverted = true ∧ outOfGas = true
  | .error outOfGas => outOfGas = true

/-- A larger limit never makes a transaction run out of gas. -/
def Monotone (exec : Nat → Run S) : Prop := ∀ l l', l ≤ l' → RunsOut (exec l') → RunsOut (exec l)

/-- Transactions run one after the other, each once and on the state that the one before left. For each the
L2 gas of its estimate (`limit`) and whether it reverted. -/
inductive Ran (strict : Bool) : S → List (Tx S) → List (Nat × Bool) → S → Prop where
  | nil (s : S) : Ran strict s [] [] s
  | cons {s after s' : S} {t : Tx S} {ts : List (Tx S)} {limit gas : Nat} {reverted o : Bool} {rs : List (Nat × Bool)}
      (own : Nat) (run : t.exec s own = .done gas reverted o after) (fails : strict = true → reverted = false)
      (search : t.accounted s = true → ¬ RunsOut (t.exec s limit) ∧
        own = if t.chargeFee = true ∧ t.initial < limit then t.initial else limit)
      (plain : t.accounted s = false → own = t.initial ∧ limit = gas)
      (rest : Ran strict after ts rs s') : Ran strict s (t :: ts) ((limit, reverted) :: rs) s'

end Spec

open Spec

/-- A case: 3 000 000 units are used but 5 300 000 are needed on the way; more than 9 000 000 are not covered.
The state counts the runs. -/
def caseExec (l : Nat) : Run Nat :=
  if 9000000 < l then .error false
  else if l < 5300000 then .done l true true 1
  else .done 3000000 false false 1

theorem sim_ok {strict : Bool} {r : Run S} {gas : Nat} {rev : Bool} {after : S} (h : simulate strict r = .ok gas rev after) :
    ¬ RunsOut r ∧ (∃ o, r = .done gas rev o after) ∧ (strict = true → rev = false) := by
  cases r with
  | done g rv o a =>
    simp only [simulate] at h
    split at h
    · cases h
    · next h1 =>
      split at h
      · cases h
      · next h2 =>
        cases h
        refine ⟨fun hr => h1 ?_, ⟨o, rfl⟩, fun hs => ?_⟩
        · simp only [RunsOut] at hr; simp [hr.1, hr.2]
        · subst hs; simpa using h2
  | error o => cases o <;> cases h

theorem sim_oog {strict : Bool} {r : Run S} : simulate strict r = .outOfGas ↔ RunsOut r := by
  cases r with
  | done g rv o a =>
    simp only [simulate, RunsOut]
    cases rv <;> cases o <;> cases strict <;> simp
  | error o => cases o <;> simp [simulate, RunsOut]

/-- What the search does, once it is given 65 rounds. -/
theorem find_spec (sim : Nat → Sim S) (epsilon top fuel : Nat) (ht : top < 2 ^ 64) (hf : 65 ≤ fuel)
    (h64 : ∀ g r a, sim top = .ok g r a → g < 2 ^ 64) :
    findLimit sim epsilon top fuel ≠ .unfinished ∧
    ((∀ g r a, sim top = .ok g r a → g ≤ top ∨ ∀ l, top ≤ l → sim l ≠ .outOfGas) → findLimit sim epsilon top fuel ≠ .panic) ∧
    ∀ limit gas reverted after, findLimit sim epsilon top fuel = .ok limit gas reverted after →
      sim limit = .ok gas reverted after ∧
      ∃ used r0 a0, sim top = .ok used r0 a0 ∧
        (limit = sat64 (used + percentOf epsilon used) ∨
          (limit ≤ top ∧ sim (sat64 (used + percentOf epsilon used)) = .outOfGas ∧
            ∃ l, used ≤ l ∧ l ≤ limit ∧ limit ≤ l + 500000 ∧ (l = used ∨ sim l = .outOfGas))) := by
  unfold findLimit
  cases h0 : sim top with
  | error => exact ⟨by simp, by simp, fun _ _ _ _ h => (by simp at h)⟩
  | outOfGas => exact ⟨by simp, by simp, fun _ _ _ _ h => (by simp at h)⟩
  | ok used r0 a0 =>
    simp only
    have hu := h64 used r0 a0 h0
    have hadj : used ≤ sat64 (used + percentOf epsilon used) := by unfold sat64; omega
    cases h1 : sim (sat64 (used + percentOf epsilon used)) with
    | error => exact ⟨by simp, by simp, fun _ _ _ _ h => (by simp at h)⟩
    | ok g r a =>
      simp only
      rw [if_pos hadj]
      refine ⟨by simp, by simp, ?_⟩
      intro limit gas reverted after h
      cases h
      exact ⟨h1, used, r0, a0, rfl, .inl rfl⟩
    | outOfGas =>
      simp only
      by_cases hle : used ≤ top
      · unfold midpoint
        rw [if_pos hle]
        simp only
        have spec := rounds_spec sim 64 { lower := used, upper := top, current := used + (top - used + 1) / 2 }
          ⟨hle, rfl, ⟨used, r0, a0, h0⟩⟩ (by simp only; omega)
        have hmono : rounds sim fuel { lower := used, upper := top, current := used + (top - used + 1) / 2 } =
            rounds sim 65 { lower := used, upper := top, current := used + (top - used + 1) / 2 } := by
          apply rounds_mono sim 65 _ fuel hf
          intro s' h
          rcases spec with h' | ⟨_, _, _, _, h', _⟩ <;> rw [h'] at h <;> cases h
        rw [hmono]
        rcases spec with h | ⟨l, g, r, a, h, f⟩
        · rw [h]; exact ⟨by simp, by simp, fun _ _ _ _ h => (by simp at h)⟩
        · rw [h]
          simp only
          have := f.lo
          simp only at this
          rw [if_pos this]
          refine ⟨by simp, by simp, ?_⟩
          intro limit gas reverted after h
          cases h
          exact ⟨f.ok, used, r0, a0, rfl, .inr ⟨f.hi, h1, f.near⟩⟩
      · unfold midpoint
        rw [if_neg hle]
        refine ⟨by simp, ?_, fun _ _ _ _ h => (by simp at h)⟩
        intro hp
        exfalso
        rcases hp used r0 a0 rfl with h | h
        · exact hle h
        · exact h _ (by omega) h1

/-! ### Theorems -/

/-- C80. The search ends, whatever the transaction does: 65 rounds are enough, more make no difference. -/
theorem C80_terminates (exec : Nat → Run S) (strict chargeFee : Bool) (initial top epsilon : Nat)
    (ht : top < 2 ^ 64) (h64 : ∀ g r o a, exec top = .done g r o a → g < 2 ^ 64) (fuel : Nat) (hf : 65 ≤ fuel) :
    findAndExecute exec strict chargeFee initial top epsilon fuel ≠ .unfinished := by
  have h := (find_spec (fun l => simulate strict (exec l)) epsilon top fuel ht hf (by
    intro g r a h
    obtain ⟨_, ⟨o, ho⟩, _⟩ := sim_ok h
    exact h64 g r o a ho)).1
  unfold findAndExecute
  split
  · split
    · split <;> simp
    · simp
  · next r hr => exact h

example : findAndExecute caseExec true false 0 9000000 10 65 ≠ .unfinished :=
  C80_terminates _ _ _ _ _ _ (by decide) (by intro g r o a h; simp [caseExec] at h; omega) 65 (Nat.le_refl _)

/-- C80. Nor does it panic, if a transaction uses no more gas than its limit, or else does not run out of gas
with larger limits. -/
theorem C80_no_panic (exec : Nat → Run S) (strict chargeFee : Bool) (initial top epsilon : Nat)
    (ht : top < 2 ^ 64) (h64 : ∀ g r o a, exec top = .done g r o a → g < 2 ^ 64)
    (use : ∀ g r o a, exec top = .done g r o a → g ≤ top ∨ ∀ l, top ≤ l → ¬ RunsOut (exec l)) (fuel : Nat) (hf : 65 ≤ fuel) :
    findAndExecute exec strict chargeFee initial top epsilon fuel ≠ .panic := by
  have h := (find_spec (fun l => simulate strict (exec l)) epsilon top fuel ht hf (by
    intro g r a h
    obtain ⟨_, ⟨o, ho⟩, _⟩ := sim_ok h
    exact h64 g r o a ho)).2.1 (by
    intro g r a h
    obtain ⟨_, ⟨o, ho⟩, _⟩ := sim_ok h
    rcases use g r o a ho with h' | h'
    · exact .inl h'
    · exact .inr (fun l hl hs => h' l hl (sim_oog.mp hs)))
  unfold findAndExecute
  split
  · split
    · split <;> simp
    · simp
  · next r hr => exact h

example : ∀ g r o a, caseExec 9000000 = .done g r o a → g ≤ 9000000 := by
  intro g r o a h; simp [caseExec] at h; omega

/-- C80. With the limit that is found the transaction does not run out of gas; and the result handed back,
with the state left behind, is that of one run: with that limit, or with the transaction's own one if a fee
is charged and the limit found is larger. -/
theorem C80_sufficient (exec : Nat → Run S) (strict chargeFee : Bool) (initial top epsilon fuel : Nat)
    (ht : top < 2 ^ 64) (h64 : ∀ g r o a, exec top = .done g r o a → g < 2 ^ 64) (hf : 65 ≤ fuel)
    (limit gas : Nat) (reverted : Bool) (after : S)
    (h : findAndExecute exec strict chargeFee initial top epsilon fuel = .ok limit gas reverted after) :
    ¬ RunsOut (exec limit) ∧ (strict = true → reverted = false) ∧
    ∃ o, exec (if chargeFee = true ∧ initial < limit then initial else limit) = .done gas reverted o after := by
  have spec := (find_spec (fun l => simulate strict (exec l)) epsilon top fuel ht hf (by
    intro g r a h
    obtain ⟨_, ⟨o, ho⟩, _⟩ := sim_ok h
    exact h64 g r o a ho)).2.2
  unfold findAndExecute at h
  split at h
  · next l g r a hl =>
    obtain ⟨hok, _⟩ := spec l g r a hl
    obtain ⟨h1, ⟨o, h2⟩, h3⟩ := sim_ok hok
    split at h
    · next hc =>
      have hc' : chargeFee = true ∧ initial < l := by simpa using hc
      cases hx : execute strict (exec initial) with
      | none => rw [hx] at h; cases h
      | some x =>
        obtain ⟨g', r', a'⟩ := x
        rw [hx] at h
        cases h
        cases hi : exec initial with
        | error o => rw [hi] at hx; cases hx
        | done g1 r1 o1 a1 =>
          rw [hi] at hx
          simp only [execute] at hx
          split at hx
          · cases hx
          · next hs =>
            cases hx
            refine ⟨h1, fun e => ?_, o1, by rw [if_pos hc', hi]⟩
            subst e; simpa using hs
    · next hc =>
      cases h
      have hc' : ¬ (chargeFee = true ∧ initial < limit) := by simpa using hc
      exact ⟨h1, h3, o, by rw [if_neg hc', h2]⟩
  · next hr => exact absurd h (by intro e; exact hr limit gas reverted after e)

example : findAndExecute caseExec true false 0 9000000 10 65 = .ok 5625000 3000000 false 1 := by decide

example : findAndExecute caseExec false true 4000000 9000000 10 65 = .ok 5625000 4000000 true 1 := by decide

/-- C80. The limit is near the least one: it is what the transaction uses and the configured percentage of
it, or that does not suffice, and then the limit is at most 500 000 above one that does not suffice either
(or above what is used) and not above the largest. -/
theorem C80_near (exec : Nat → Run S) (strict chargeFee : Bool) (initial top epsilon fuel : Nat)
    (ht : top < 2 ^ 64) (h64 : ∀ g r o a, exec top = .done g r o a → g < 2 ^ 64) (hf : 65 ≤ fuel)
    (limit gas : Nat) (reverted : Bool) (after : S)
    (h : findAndExecute exec strict chargeFee initial top epsilon fuel = .ok limit gas reverted after) :
    ∃ used r o a, exec top = .done used r o a ∧
      (limit = min (used + used * epsilon / 100) (2 ^ 64 - 1) ∨
        (limit ≤ top ∧ RunsOut (exec (min (used + used * epsilon / 100) (2 ^ 64 - 1))) ∧
          ∃ l, used ≤ l ∧ l ≤ limit ∧ limit ≤ l + 500000 ∧ (l = used ∨ RunsOut (exec l)))) := by
  have spec := (find_spec (fun l => simulate strict (exec l)) epsilon top fuel ht hf (by
    intro g r a h
    obtain ⟨_, ⟨o, ho⟩, _⟩ := sim_ok h
    exact h64 g r o a ho)).2.2
  have hl : ∃ g r a, findLimit (fun l => simulate strict (exec l)) epsilon top fuel = .ok limit g r a := by
    unfold findAndExecute at h
    split at h
    · next l g r a hl =>
      split at h
      · split at h
        · cases h; exact ⟨_, _, _, hl⟩
        · cases h
      · cases h; exact ⟨_, _, _, hl⟩
    · next hr => exact absurd h (by intro e; exact hr limit gas reverted after e)
  obtain ⟨g, r, a, hl⟩ := hl
  obtain ⟨_, used, r0, a0, hu, hc⟩ := spec limit g r a hl
  obtain ⟨_, ⟨o, ho⟩, _⟩ := sim_ok hu
  refine ⟨used, r0, o, a0, ho, ?_⟩
  rcases hc with hc | ⟨h1, h2, l, h3, h4, h5, h6⟩
  · exact .inl hc
  · refine .inr ⟨h1, sim_oog.mp h2, l, h3, h4, h5, ?_⟩
    rcases h6 with h6 | h6
    · exact .inl h6
    · exact .inr (sim_oog.mp h6)

example : RunsOut (caseExec (min (3000000 + 3000000 * 10 / 100) (2 ^ 64 - 1))) ∧ RunsOut (caseExec 5250000) := by
  constructor <;> simp [caseExec, RunsOut]

/-- C80. For a transaction to which more gas does no harm: every limit that is 500 000 below the one found,
or lower, does not suffice, unless the one found is what is used and the percentage. And the L2 gas of the
estimate suffices. -/
theorem C80_estimate (exec : Nat → Run S) (mono : Monotone exec) (strict chargeFee : Bool) (initial top epsilon fuel : Nat)
    (ht : top < 2 ^ 64) (h64 : ∀ g r o a, exec top = .done g r o a → g < 2 ^ 64) (hf : 65 ≤ fuel)
    (limit gas : Nat) (reverted : Bool) (after : S) (toL1 : Nat → Nat) (g minimal : Gas) (hg : g.l2 = limit)
    (h : findAndExecute exec strict chargeFee initial top epsilon fuel = .ok limit gas reverted after) :
    ¬ RunsOut (exec (estimateGas toL1 true g minimal).l2) ∧
    ((∃ used r o a, exec top = .done used r o a ∧ limit = min (used + used * epsilon / 100) (2 ^ 64 - 1)) ∨
      ∀ l, l + 500000 ≤ limit → RunsOut (exec l)) := by
  obtain ⟨h1, _⟩ := C80_sufficient exec strict chargeFee initial top epsilon fuel ht h64 hf limit gas reverted after h
  obtain ⟨used, r, o, a, hu, hc⟩ := C80_near exec strict chargeFee initial top epsilon fuel ht h64 hf limit gas reverted after h
  refine ⟨?_, ?_⟩
  · intro hr
    refine h1 (mono limit _ ?_ hr)
    unfold estimateGas
    simp only [if_true]
    omega
  · rcases hc with hc | ⟨_, h2, l, h3, h4, h5, h6⟩
    · exact .inl ⟨used, r, o, a, hu, hc⟩
    · refine .inr ?_
      intro l' hl'
      have hl : RunsOut (exec l) := by
        rcases h6 with rfl | h6
        · have := h64 _ _ _ _ hu
          exact mono l _ (by omega) h2
        · exact h6
      exact mono l' l (by omega) hl

example : Monotone caseExec := by
  intro l l' hl h
  unfold caseExec at h ⊢
  split at h
  · simp [RunsOut] at h
  · split at h
    · rw [if_neg (by omega), if_pos (by omega)]; simp [RunsOut]
    · simp [RunsOut] at h

/-- C80. If a fee is charged, and gas beyond the limit found makes no difference, the result is that of
running the transaction with its own limit. -/
theorem C80_own_limit (exec : Nat → Run S) (strict : Bool) (initial top epsilon fuel : Nat)
    (ht : top < 2 ^ 64) (h64 : ∀ g r o a, exec top = .done g r o a → g < 2 ^ 64) (hf : 65 ≤ fuel)
    (limit gas : Nat) (reverted : Bool) (after : S)
    (h : findAndExecute exec strict true initial top epsilon fuel = .ok limit gas reverted after)
    (same : ∀ l, limit ≤ l → l ≤ top → exec l = exec limit) (hi : initial ≤ top) :
    ∃ o, exec initial = .done gas reverted o after := by
  obtain ⟨_, _, o, ho⟩ := C80_sufficient exec strict true initial top epsilon fuel ht h64 hf limit gas reverted after h
  refine ⟨o, ?_⟩
  split at ho
  · exact ho
  · next hn =>
    rw [same initial (by simp at hn; exact hn) hi]
    exact ho

example : findAndExecute caseExec false true 8000000 9000000 10 65 = .ok 5625000 3000000 false 1 ∧
    caseExec 8000000 = .done 3000000 false false 1 := by decide

theorem rounds_error (sim : Nat → Sim S) : ∀ (fuel : Nat) (s : Search), rounds sim fuel s = .error → ∃ l, sim l = .error := by
  intro fuel
  induction fuel with
  | zero => intro s h; cases h
  | succ fuel ih =>
    intro s h
    unfold rounds at h
    cases hr : round sim s with
    | again s' => rw [hr] at h; exact ih s' h
    | found _ _ _ _ => rw [hr] at h; cases h
    | panic => rw [hr] at h; cases h
    | error =>
      refine ⟨s.current, ?_⟩
      unfold round at hr
      cases hc : sim s.current with
      | error => rfl
      | ok g r a =>
        rw [hc] at hr
        simp only at hr
        split at hr
        · cases hr
        · split at hr
          · cases hr
          · split at hr <;> cases hr
      | outOfGas =>
        rw [hc] at hr
        simp only at hr
        split at hr <;> cases hr

theorem find_error (sim : Nat → Sim S) (epsilon top fuel : Nat) (h : findLimit sim epsilon top fuel = .error) :
    sim top = .outOfGas ∨ ∃ l, sim l = .error := by
  unfold findLimit at h
  cases h0 : sim top with
  | error => exact .inr ⟨top, h0⟩
  | outOfGas => exact .inl rfl
  | ok used r0 a0 =>
    rw [h0] at h
    simp only at h
    cases h1 : sim (sat64 (used + percentOf epsilon used)) with
    | error => exact .inr ⟨_, h1⟩
    | ok g r a => rw [h1] at h; simp only at h; split at h <;> cases h
    | outOfGas =>
      rw [h1] at h
      simp only at h
      split at h
      · cases h
      · split at h
        · split at h <;> cases h
        · next h2 => exact .inr (rounds_error _ _ _ h2)
        · cases h
        · cases h

/-- C80. A transaction that does not run out of gas with the largest limit, and that the executor runs with
whatever limit, gets an answer; also if it reverts, unless that is to be an error. -/
theorem C80_answers (exec : Nat → Run S) (strict chargeFee : Bool) (initial top epsilon fuel : Nat) (ht : top < 2 ^ 64) (hf : 65 ≤ fuel)
    (runs : ∀ l, ∃ g r o a, exec l = .done g r o a ∧ (g < 2 ^ 64 ∧ (l = top → g ≤ l)) ∧ (strict = true → r = true → o = true ∧ l ≠ initial))
    (enough : ¬ RunsOut (exec top)) :
    ∃ limit gas reverted after, findAndExecute exec strict chargeFee initial top epsilon fuel = .ok limit gas reverted after := by
  have h64 : ∀ g r o a, exec top = .done g r o a → g < 2 ^ 64 ∧ g ≤ top := by
    intro g r o a h
    obtain ⟨g', r', o', a', e, h1, _⟩ := runs top
    rw [h] at e; cases e; exact ⟨h1.1, h1.2 rfl⟩
  have noerr : ∀ l, simulate strict (exec l) ≠ .error := by
    intro l
    obtain ⟨g, r, o, a, e, _, h⟩ := runs l
    rw [e]
    simp only [simulate]
    cases r <;> cases o <;> cases strict <;> simp_all
  have hu := C80_terminates exec strict chargeFee initial top epsilon ht (fun g r o a h => (h64 g r o a h).1) fuel hf
  have hp := C80_no_panic exec strict chargeFee initial top epsilon ht (fun g r o a h => (h64 g r o a h).1)
    (fun g r o a h => .inl (h64 g r o a h).2) fuel hf
  have he : findLimit (fun l => simulate strict (exec l)) epsilon top fuel ≠ .error := by
    intro h
    rcases find_error _ _ _ _ h with h' | ⟨l, hl⟩
    · exact enough (sim_oog.mp h')
    · exact noerr l hl
  unfold findAndExecute at hu hp ⊢
  cases hl : findLimit (fun l => simulate strict (exec l)) epsilon top fuel with
  | error => exact absurd hl he
  | panic => rw [hl] at hp; exact absurd rfl hp
  | unfinished => rw [hl] at hu; exact absurd rfl hu
  | ok limit gas reverted after =>
    simp only
    split
    · next hc =>
      obtain ⟨g, r, o, a, e, _, h⟩ := runs initial
      have : ¬ ((strict && r) = true) := by
        intro hs
        simp only [Bool.and_eq_true] at hs
        exact (h hs.1 hs.2).2 rfl
      rw [e]
      simp only [execute]
      rw [if_neg this]
      exact ⟨_, _, _, _, rfl⟩
    · exact ⟨_, _, _, _, rfl⟩

/-- A transaction that reverts, and needs 2 000 000 units for that. -/
example : findAndExecute (fun l => if l < 2000000 then .done l true true () else .done 1000000 true false ()) false true 5000000 9000000 10 65 =
    .ok 2000000 1000000 true () := by decide

/-! ### What fails without need -/

/-- C80, violated. What is used plus the percentage may be more than the account can pay for. The run with
that limit is refused, and so is the estimate or simulation, although the transaction with its own limit
runs. -/
theorem C80_balance_violated (exec : Nat → Run S) (strict chargeFee : Bool) (initial top epsilon fuel used : Nat) (after : S)
    (enough : ∀ l, used ≤ l → l ≤ top → exec l = .done used false false after) (poor : ∀ l, top < l → exec l = .error false)
    (hut : used ≤ top) (hx : top < min (used + used * epsilon / 100) (2 ^ 64 - 1)) (hi : used ≤ initial) (hi' : initial ≤ top) :
    exec initial = .done used false false after ∧
    findAndExecute exec strict chargeFee initial top epsilon fuel = .error := by
  refine ⟨enough initial hi hi', ?_⟩
  unfold findAndExecute findLimit
  have e0 := enough top hut (Nat.le_refl _)
  have e : exec (sat64 (used + percentOf epsilon used)) = .error false := poor _ hx
  cases strict <;> simp [simulate, e0, e]

example : findAndExecute (fun l => if 100 < l then .error false else if 95 ≤ l then .done 95 false false () else .done l true true ())
    false true 100 100 10 65 = .error ∧
    (covered 1000 0 10 = 100 ∧ 100 * 10 ≤ 1000) := by decide

/-- C80, violated. A transaction that reverts for lack of gas with the largest limit, or with the text
"Out of gas" for any reason, is an error where others that revert are simulated. -/
theorem C80_revert_violated (exec : Nat → Run S) (chargeFee : Bool) (initial top epsilon fuel gas gas' : Nat) (after after' : S)
    (h : exec top = .done gas true true after) (own : exec initial = .done gas' true true after') :
    findAndExecute exec false chargeFee initial top epsilon fuel = .error ∧
    execute false (exec initial) = some (gas', true, after') := by
  constructor
  · unfold findAndExecute findLimit
    simp [h, simulate]
  · simp [own, execute]

example : findAndExecute (fun _ => .done 7 true true ()) false true 100 1000 10 65 = .error :=
  (C80_revert_violated _ true 100 1000 10 65 7 7 () () rfl rfl).1

/-! ### What the balance covers -/

/-- C80. The largest limit is covered by the balance, and the next one is not, unless the limit is the largest
number or gas is free. -/
theorem C80_covered (balance rest price : Nat) (h : rest < balance) :
    covered balance rest price * price + rest ≤ balance ∧
    (covered balance rest price < 2 ^ 64 - 1 → 0 < price → balance < (covered balance rest price + 1) * price + rest) := by
  unfold covered
  rw [if_pos h]
  by_cases hp : price = 0
  · subst hp
    refine ⟨by simp; omega, fun _ h => (by omega)⟩
  · have hm : max price 1 = price := by omega
    rw [hm]
    have hdiv := Nat.div_add_mod (balance - rest) price
    have hmod := Nat.mod_lt (balance - rest) (show 0 < price by omega)
    have hle : min ((balance - rest) / price) (2 ^ 64 - 1) * price ≤ (balance - rest) / price * price :=
      Nat.mul_le_mul_right _ (Nat.min_le_left _ _)
    have hcomm := Nat.mul_comm price ((balance - rest) / price)
    refine ⟨by omega, ?_⟩
    intro hlt _
    have e : min ((balance - rest) / price) (2 ^ 64 - 1) = (balance - rest) / price := by omega
    rw [e, Nat.add_mul]
    omega

example : covered 1000 300 13 = 53 ∧ 53 * 13 + 300 ≤ 1000 ∧ 1000 < 54 * 13 + 300 := by decide

/-! ### Several transactions -/

theorem one_spec (strict : Bool) (epsilon fuel : Nat) (hf : 65 ≤ fuel) (s : S) (t : Tx S)
    (ht : t.top s < 2 ^ 64) (h64 : ∀ g r o a, t.exec s (t.top s) = .done g r o a → g < 2 ^ 64) :
    let one : Found S :=
      if t.accounted s then findAndExecute (t.exec s) strict t.chargeFee t.initial (t.top s) epsilon fuel
      else
        match execute strict (t.exec s t.initial) with
        | some (gas, reverted, after) => .ok gas gas reverted after
        | none => .error
    one ≠ .unfinished ∧
    ∀ limit gas reverted after, one = .ok limit gas reverted after →
      ∃ own o, t.exec s own = .done gas reverted o after ∧ (strict = true → reverted = false) ∧
        (t.accounted s = true → ¬ RunsOut (t.exec s limit) ∧
          own = if t.chargeFee = true ∧ t.initial < limit then t.initial else limit) ∧
        (t.accounted s = false → own = t.initial ∧ limit = gas) := by
  intro one
  cases ha : t.accounted s with
  | true =>
    have hone : one = findAndExecute (t.exec s) strict t.chargeFee t.initial (t.top s) epsilon fuel := by
      show (if t.accounted s then _ else _) = _
      rw [ha]; rfl
    rw [hone]
    refine ⟨C80_terminates (t.exec s) strict t.chargeFee t.initial (t.top s) epsilon ht h64 fuel hf, ?_⟩
    intro limit gas reverted after h
    obtain ⟨h1, h2, o, h3⟩ := C80_sufficient (t.exec s) strict t.chargeFee t.initial (t.top s) epsilon fuel ht h64 hf limit gas reverted after h
    exact ⟨_, o, h3, h2, fun _ => ⟨h1, rfl⟩, fun e => (by cases e)⟩
  | false =>
    cases hx : t.exec s t.initial with
    | error o =>
      have hone : one = .error := by
        show (if t.accounted s then _ else _) = _
        rw [ha, hx]; rfl
      rw [hone]
      exact ⟨by simp, fun _ _ _ _ h => (by cases h)⟩
    | done g r o a =>
      by_cases hs : (strict && r) = true
      · have hone : one = .error := by
          show (if t.accounted s then _ else _) = _
          rw [ha, hx]; simp only [execute, hs]; rfl
        rw [hone]
        exact ⟨by simp, fun _ _ _ _ h => (by cases h)⟩
      · have hone : one = .ok g g r a := by
          show (if t.accounted s then _ else _) = _
          rw [ha, hx]; simp only [execute]; rw [if_neg hs]; rfl
        rw [hone]
        refine ⟨by simp, ?_⟩
        intro limit gas reverted after h
        cases h
        exact ⟨t.initial, o, hx, fun e => (by subst e; simpa using hs), fun e => (by cases e), fun _ => ⟨rfl, rfl⟩⟩

/-- C80. An answer for several transactions has one result per transaction, and these are what running the
transactions once each, one after the other, gives. -/
theorem C80_several (strict : Bool) (epsilon fuel : Nat) (hf : 65 ≤ fuel) (ts : List (Tx S))
    (ht : ∀ t ∈ ts, ∀ s, t.top s < 2 ^ 64) (h64 : ∀ t ∈ ts, ∀ s g r o a, t.exec s (t.top s) = .done g r o a → g < 2 ^ 64) :
    ∀ (i : Nat) (s : S),
      runAll strict epsilon fuel i s ts ≠ .unfinished ∧
      (∀ rs s', runAll strict epsilon fuel i s ts = .ok rs s' → Ran strict s ts rs s' ∧ rs.length = ts.length) ∧
      ∀ k, runAll strict epsilon fuel i s ts = .error k → i ≤ k ∧ k < i + ts.length ∧
        ∃ rs s', Ran strict s (ts.take (k - i)) rs s' := by
  induction ts with
  | nil =>
    intro i s
    refine ⟨by simp [runAll], ?_, fun k h => (by cases h)⟩
    intro rs s' h
    cases h
    exact ⟨.nil s, rfl⟩
  | cons t ts ih =>
    intro i s
    obtain ⟨hu, hok⟩ := one_spec strict epsilon fuel hf s t (ht t List.mem_cons_self s) (h64 t List.mem_cons_self s)
    have ih := ih (fun t' h => ht t' (List.mem_cons_of_mem _ h)) (fun t' h => h64 t' (List.mem_cons_of_mem _ h))
    unfold runAll
    simp only
    split
    · next limit gas reverted after hone =>
      obtain ⟨own, o, h1, h2, h3, h4⟩ := hok limit gas reverted after hone
      obtain ⟨ih1, ih2, ih3⟩ := ih (i + 1) after
      cases hr : runAll strict epsilon fuel (i + 1) after ts with
      | unfinished => exact absurd hr ih1
      | panic => exact ⟨by simp, fun _ _ h => (by cases h), fun _ h => (by cases h)⟩
      | error k =>
        refine ⟨by simp, fun _ _ h => (by cases h), ?_⟩
        intro k' h
        cases h
        obtain ⟨h5, h6, rs, s', h7⟩ := ih3 k hr
        refine ⟨by omega, by simp only [List.length_cons]; omega, (limit, reverted) :: rs, s', ?_⟩
        obtain ⟨j, hj⟩ : ∃ j, k - i = j + 1 := ⟨k - i - 1, by omega⟩
        rw [hj, List.take_succ_cons]
        refine .cons own h1 h2 h3 h4 ?_
        have : k - (i + 1) = j := by omega
        rw [← this]; exact h7
      | ok rs s' =>
        refine ⟨by simp, ?_, fun _ h => (by cases h)⟩
        intro rs' s'' h
        cases h
        obtain ⟨h5, h6⟩ := ih2 rs s' hr
        exact ⟨.cons own h1 h2 h3 h4 h5, by simp only [List.length_cons, h6]⟩
    · refine ⟨by simp, fun _ _ h => (by cases h), ?_⟩
      intro k h
      cases h
      refine ⟨Nat.le_refl _, by simp, [], s, ?_⟩
      rw [Nat.sub_self]
      exact .nil s
    · exact ⟨by simp, fun _ _ h => (by cases h), fun _ h => (by cases h)⟩
    · next hone => exact absurd hone hu

/-- Two transactions; the second one is run without L2 gas. -/
example : runAll true 10 65 0 0 [⟨fun s l => if l < 5300000 then .done l true true s else .done 3000000 false false (s + 1), 0, false,
      fun _ => 9000000, fun _ => true⟩, ⟨fun s _ => .done 40 false false (s + 10), 0, false, fun _ => 0, fun _ => false⟩] =
    .ok [(5625000, false), (40, false)] 11 := by decide

end Verif.Fee
