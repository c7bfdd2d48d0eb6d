import Verif.State.Reverse
/-
C16: reverse state updates.
-/
namespace Verif.State
open Verif.Db

theorem asOf_ne_none_of {β γ : Type} {f : β → Option γ} {us : List β} {n : Nat} :
    asOf f us n ≠ none ↔ ∃ i, i ≤ n ∧ us[i]?.bind f ≠ none := by
  constructor
  · intro h
    cases hc : asOf f us n with
    | none => exact absurd hc h
    | some v =>
      obtain ⟨i, h1, h2, _⟩ := asOf_eq_some.1 hc
      exact ⟨i, h1, by rw [h2]; simp⟩
  · rintro ⟨i, h1, h2⟩ hc
    exact h2 (asOf_eq_none.1 hc i h1)

/-- A system contract never has a class. -/
theorem system_no_class {us : List Update} (hw : ∀ u ∈ us, u.WF) {a : Addr} (ha : isSystem a = true) (n : Nat) :
    asOf (·.classOf a) us n = none := by
  rw [asOf_eq_none]
  intro i _
  cases hu : us[i]? with
  | none => rfl
  | some u =>
    have hm := List.mem_of_getElem? hu
    have hn : u.contracts.lookup a = none := by
      apply lookup_eq_none
      intro p hp e
      have := (hw u hm).notSystem p hp
      rw [e, ha] at this
      exact absurd this (by decide)
    simp [Update.classOf, Update.classUpdOf, hn]

/-- A criterion for `DeployedFirst` that can be evaluated. -/
theorem deployedFirst_of {us : List Update} (hw : ∀ u ∈ us, u.WF)
    (h : ∀ i, i < us.length → ∀ p ∈ (us[i]?.map (·.contracts)).getD [], (asOf (·.classOf p.1) us i).isSome) :
    DeployedFirst us := by
  intro i a ha hx
  cases hu : us[i]? with
  | none => rw [hu] at hx; simp at hx
  | some u =>
    have hi : i < us.length := (List.getElem?_eq_some_iff.1 hu).1
    cases hl : u.contracts.lookup a with
    | none =>
      exfalso
      have hs : u.system.lookup a = none := by
        apply lookup_eq_none
        intro p hp e
        have := (hw u (List.mem_of_getElem? hu)).isSystem p hp
        rw [e, ha] at this
        exact absurd this (by decide)
      rw [hu] at hx
      simp [Update.nonceOf, Update.storageOf, hl, hs] at hx
    | some c =>
      have := h i hi (a, c) (by rw [hu]; exact lookup_mem hl)
      exact Option.isSome_iff_ne_none.1 this

/-- **C16.** After any history of blocks, reorgs and pruning, applying the reverse updates for the blocks above
`target` to the state of the contracts at `hd` gives, for every contract, its state at `target`, and never hits the
missing class panic, as long as the history at `target` is retained. -/
theorem C16_reverse_updates (ops : List Op) (hw : OpsOk ops) (hdep : DeployedFirst (Track.run ops).updates)
    (hd target : Nat) (hlo : (Track.run ops).lo ≤ target) (hle : target ≤ hd) (a : Addr) :
    revertContracts (run ops) hd target (stateAt (Track.run ops).updates hd) a =
      some (stateAt (Track.run ops).updates target a) := by
  have g := good_run ops hw
  have hwf : ∀ u ∈ (Track.run ops).updates, u.WF := by
    intro u hu
    unfold Track.updates at hu
    obtain ⟨p, hp, rfl⟩ := List.mem_map.1 hu
    exact chain_wf ops hw p hp
  have hnonce : (contractNonce (run ops) (.number target) a) = asOf (·.nonceOf a) (Track.run ops).updates target :=
    (reads_after_history ops hw (.number target) hlo a 0).2.1
  have hclass : (contractClass (run ops) (.number target) a) = asOf (·.classOf a) (Track.run ops).updates target :=
    (reads_after_history ops hw (.number target) hlo a 0).2.2
  generalize hus : (Track.run ops).updates = us at *
  have hin : ∀ {r : Nat × Val} {k : Key}, r ∈ storageRows (run ops) a k → us[r.1]?.bind (·.storageOf a k) ≠ none := by
    intro r k hr
    have := (g.storage a k).sound r hr
    rw [hus] at this
    rw [this]; simp
  have hinN : ∀ {r : Nat × Nonce}, r ∈ nonceRows (run ops) a → us[r.1]?.bind (·.nonceOf a) ≠ none := by
    intro r hr
    have := (g.nonce a).sound r hr
    rw [hus] at this
    rw [this]; simp
  -- storage after the reverse update
  have hsto : ∀ k, setAll (stateAt us hd a).storage (((reverseStorage (run ops) hd target).lookup a).getD []) k =
      (stateAt us target a).storage k := by
    intro k
    by_cases hk : ∃ r ∈ storageRows (run ops) a k, target < r.1 ∧ r.1 ≤ hd
    · apply setAll_of_mem
      · refine (g.mem_reverseStorage hlo a k _).2 ⟨hk, ?_⟩
        rw [hus]; rfl
      · intro w hww
        have := ((g.mem_reverseStorage hlo a k w).1 hww).2
        rw [this, hus]; rfl
    · rw [setAll_of_not_mem]
      · have := (g.storage a k).unchanged hlo hle hk
        rw [hus] at this
        simp only [stateAt, this]
      · intro w hww
        exact hk ((g.mem_reverseStorage hlo a k w).1 hww).1
  have hnUn : ¬ (a ∈ (reverseNonce (run ops) hd target).map (·.1)) →
      asOf (·.nonceOf a) us hd = asOf (·.nonceOf a) us target := by
    intro hn
    have := (g.nonce a).unchanged hlo hle (by
      intro hk
      exact hn (List.mem_map.2 ⟨_, (g.mem_reverseNonce hlo a _).2 ⟨hk, rfl⟩, rfl⟩))
    rwa [hus] at this
  have hcUn : ¬ (a ∈ updatedKeys (run ops).contracts hd target) →
      asOf (·.classOf a) us hd = asOf (·.classOf a) us target := by
    intro hn
    have := (g.cls a).unchanged hlo hle (by
      intro hk
      exact hn ((Good.updated_class a).2 hk))
    rwa [hus] at this
  have hstoSome : ∀ l, (reverseStorage (run ops) hd target).lookup a = some l →
      l = [] ∨ ∃ k, ∃ r ∈ storageRows (run ops) a k, target < r.1 ∧ r.1 ≤ hd := by
    intro l hl
    cases l with
    | nil => exact .inl rfl
    | cons p ps =>
      right
      refine ⟨p.1, ((g.mem_reverseStorage hlo a p.1 p.2).1 ?_).1⟩
      rw [hl]; simp
  have hn : revNonce (run ops) target a (if decide (a ∈ (reverseNonce (run ops) hd target).map (·.1)) = true
      then asOf (·.nonceOf a) us target else none) = (asOf (·.nonceOf a) us target).getD 0 := by
    split
    · unfold revNonce
      split
      · rename_i x hx; rw [hx]; rfl
      · rename_i hx; rw [hnonce, hx]
    · unfold revNonce; rw [hnonce]
  unfold revertContracts
  rw [reverseContracts_lookup g hlo a, hus]
  simp only
  by_cases hc : a ∈ updatedKeys (run ops).contracts hd target
  · simp only [hc, decide_true, ite_true]
    cases ho : asOf (·.classOf a) us target with
    | none =>
      simp only [revertContract]
      have hsys : isSystem a = false := by
        apply Classical.byContradiction
        intro hs
        rw [Bool.not_eq_false] at hs
        obtain ⟨r, hr, _⟩ := (Good.updated_class a).1 hc
        have h1 := (g.cls a).sound r hr
        rw [hus] at h1
        have h2 := system_no_class hwf hs r.1
        rw [asOf_eq_none] at h2
        rw [h2 r.1 (Nat.le_refl _)] at h1
        simp at h1
      have hnothing : ∀ i, i ≤ target → ¬ (us[i]?.bind (·.nonceOf a) ≠ none ∨ ∃ k, us[i]?.bind (·.storageOf a k) ≠ none) := by
        intro i hi hx
        obtain ⟨j, hj, hj2⟩ := asOf_ne_none_of.1 (hdep i a hsys hx)
        exact hj2 (asOf_eq_none.1 ho j (by omega))
      have h1 : asOf (·.nonceOf a) us target = none := by
        rw [asOf_eq_none]
        intro i hi
        exact Classical.byContradiction fun h => hnothing i hi (.inl h)
      have h2 : ∀ k, asOf (·.storageOf a k) us target = none := by
        intro k
        rw [asOf_eq_none]
        intro i hi
        exact Classical.byContradiction fun h => hnothing i hi (.inr ⟨k, h⟩)
      simp only [stateAt, ho, h1, h2, Option.getD_none]
    | some c =>
      simp only [revertContract, revClass, Option.map_some, ClassUpd.hash, Option.some.injEq]
      rw [hn]
      simp only [stateAt, ho, CState.mk.injEq, true_and]
      funext k
      exact hsto k
  · simp only [hc, decide_false, Bool.false_eq_true, ite_false]
    by_cases hx : (decide (a ∈ (reverseNonce (run ops) hd target).map (·.1)) ||
        ((reverseStorage (run ops) hd target).lookup a).isSome) = true
    · rw [if_pos hx]
      simp only [revertContract]
      have hcls : revClass (run ops) target a none = some (asOf (·.classOf a) us target) ∨
          ((reverseStorage (run ops) hd target).lookup a = some [] ∧ a ∉ (reverseNonce (run ops) hd target).map (·.1)) := by
        unfold revClass
        simp only
        cases hs : isSystem a with
        | true =>
          left
          rw [if_pos rfl, system_no_class hwf hs]
        | false =>
          rw [if_neg (by decide), hclass]
          have hex : (∃ i, target < i ∧ i ≤ hd ∧
              (us[i]?.bind (·.nonceOf a) ≠ none ∨ ∃ k, us[i]?.bind (·.storageOf a k) ≠ none)) ∨
              ((reverseStorage (run ops) hd target).lookup a = some [] ∧ a ∉ (reverseNonce (run ops) hd target).map (·.1)) := by
            by_cases h1 : a ∈ (reverseNonce (run ops) hd target).map (·.1)
            · left
              obtain ⟨p, hp, rfl⟩ := List.mem_map.1 h1
              obtain ⟨⟨r, hr, h2, h3⟩, _⟩ := (g.mem_reverseNonce hlo p.1 p.2).1 hp
              exact ⟨r.1, h2, h3, .inl (hinN hr)⟩
            · cases hl : (reverseStorage (run ops) hd target).lookup a with
              | none => simp [h1, hl] at hx
              | some l =>
                rcases hstoSome l hl with rfl | ⟨k, r, hr, h2, h3⟩
                · exact .inr ⟨rfl, h1⟩
                · exact .inl ⟨r.1, h2, h3, .inr ⟨k, hin hr⟩⟩
          rcases hex with ⟨i, h1, h2, h3⟩ | h
          · left
            have h4 := hdep i a hs h3
            have h5 : asOf (·.classOf a) us hd ≠ none := by
              obtain ⟨j, hj, hj2⟩ := asOf_ne_none_of.1 h4
              exact asOf_ne_none_of.2 ⟨j, by omega, hj2⟩
            rw [hcUn hc] at h5
            cases ho : asOf (·.classOf a) us target with
            | none => exact absurd ho h5
            | some c => rfl
          · exact .inr h
      rcases hcls with hcls | ⟨hbad, _⟩
      · rw [hcls]
        simp only [Option.map_some, Option.some.injEq]
        rw [hn]
        simp only [stateAt, CState.mk.injEq, true_and]
        funext k
        exact hsto k
      · exact absurd hbad (reverseStorage_ne_nil _ _ _ _)
    · rw [if_neg hx]
      simp only [Bool.or_eq_true, decide_eq_true_eq, not_or, Bool.not_eq_true, Option.isSome_eq_false_iff,
        Option.isNone_iff_eq_none] at hx
      simp only [Option.some.injEq]
      simp only [stateAt, hcUn hc, hnUn hx.1, CState.mk.injEq, true_and]
      funext k
      have := hsto k
      rw [hx.2] at this
      exact this

/-- The hypotheses hold of the sample history and a reorg from block 3 to block 0, in which contract 8 is deleted
and contract 7 gets an old storage value back. -/
example : OpsOk sampleOps ∧ DeployedFirst (Track.run sampleOps).updates ∧ (Track.run sampleOps).lo ≤ 0 ∧
    ((revertContracts (run sampleOps) 3 0 (stateAt (Track.run sampleOps).updates 3) 7).map fun s => (s.cls, s.nonce, s.storage 1)) = some (some 50, 0, 11) ∧
    ((revertContracts (run sampleOps) 3 0 (stateAt (Track.run sampleOps).updates 3) 8).map fun s => (s.cls, s.nonce, s.storage 1)) = some (none, 0, 0) ∧
    (stateAt (Track.run sampleOps).updates 3 7).storage 1 = 99 := by
  refine ⟨sampleOps_ok, deployedFirst_of ?_ (by decide), ?_⟩
  · intro u hu
    obtain ⟨p, hp, rfl⟩ := List.mem_map.1 hu
    exact chain_wf _ sampleOps_ok p hp
  · decide

end Verif.State
