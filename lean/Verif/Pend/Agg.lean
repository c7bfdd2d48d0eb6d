import Verif.Pend.Lemmas
import Verif.State.Props
/-!
# What the merged update says about a lawful list of differences
-/
namespace Verif.Pend
open Verif.Diff (SU)

/-- What is deployed was not mentioned by an earlier difference. -/
def Fresh (ds : List GDiff) : Prop := ∀ l d r, ds = l ++ d :: r → ∀ a, d.deploys a ≠ none → ∀ e ∈ l, ¬ e.Mentions a

theorem Lawful.freshDs {us : List State.Update} {ds : List GDiff} (h : Lawful us ds) : Fresh ds :=
  fun l d r e a ha => (h.fresh l d r e a ha).2

theorem Fresh.tail {p : GDiff} {ds : List GDiff} (h : Fresh (p :: ds)) : Fresh ds := by
  intro l d r e a ha x hx
  exact h (p :: l) d r (by rw [e]; rfl) a ha x (List.mem_cons_of_mem _ hx)

theorem Fresh.init {l : List GDiff} {x : GDiff} (h : Fresh (l ++ [x])) : Fresh l := by
  intro l' d r e a ha y hy
  exact h l' d (r ++ [x]) (by rw [e]; simp) a ha y hy

theorem Fresh.last {l : List GDiff} {x : GDiff} (h : Fresh (l ++ [x])) {a : Nat} (ha : x.deploys a ≠ none) (e : GDiff) (he : e ∈ l) :
    ¬ e.Mentions a := h l x [] rfl a ha e he

theorem not_mentions {d : GDiff} {a : Nat} (h : ¬ d.Mentions a) :
    d.nonceOf a = none ∧ d.deploys a = none ∧ d.replaces a = none ∧ d.classOf a = none ∧ ∀ k, d.storageOf a k = none := by
  unfold GDiff.Mentions at h
  simp only [not_or, Decidable.not_not, not_exists] at h
  have hc := h.2.1
  have : d.replaces a = none ∧ d.deploys a = none := by
    unfold GDiff.classOf at hc
    rwa [Option.or_eq_none_iff] at hc
  exact ⟨h.1, this.2, this.1, hc, h.2.2⟩

/-- Classes: replacements count before deployments, and nothing is deployed after it was replaced. -/
theorem fresh_class (ds : List GDiff) (h : Fresh ds) (a : Nat) :
    lastSays (·.classOf a) ds = (lastSays (·.replaces a) ds).or (lastSays (·.deploys a) ds) := by
  induction ds using snoc_induction with
  | h0 => rfl
  | h1 l x ih =>
    rw [lastSays_snoc, lastSays_snoc, lastSays_snoc, ih h.init]
    unfold GDiff.classOf
    cases hd : x.deploys a with
    | none => rw [Option.or_none, Option.none_or, Option.or_assoc]
    | some c =>
      have hl := h.last (a := a) (by rw [hd]; simp)
      have h1 : lastSays (·.replaces a) l = none := (lastSays_none _ _).2 fun e he => (not_mentions (hl e he)).2.2.1
      have h2 : lastSays (·.deploys a) l = none := (lastSays_none _ _).2 fun e he => (not_mentions (hl e he)).2.1
      rw [h1, h2]
      simp

/-- The merged update says what the differences say. -/
structure AggOk (ds : List GDiff) (u : SU) : Prop where
  nonce : ∀ a, vN u a = lastSays (·.nonceOf a) ds
  cls : ∀ a, (vC u a).map (·.hash) = lastSays (·.classOf a) ds
  zero : ∀ a, zeroIf (vC u a) = if lastSays (·.deploys a) ds ≠ none ∧ lastSays (·.replaces a) ds = none then some 0 else none
  user : ∀ a k, State.isSystem a = false → vS u a k = lastSays (·.storageOf a k) ds ∧ vY u a k = none
  system : ∀ a k, State.isSystem a = true → vS u a k = none ∧ vC u a = none ∧ vY u a k = lastSays (·.storageOf a k) ds

theorem agg_nil : AggOk [] {} :=
  ⟨fun _ => rfl, fun _ => rfl, fun _ => rfl, fun _ _ _ => ⟨rfl, rfl⟩, fun _ _ _ => ⟨rfl, rfl, rfl⟩⟩

theorem agg_total (g : GBlock) (h : ∀ d ∈ txDiffs g, d.Ok) (hf : Fresh (txDiffs g)) : AggOk (txDiffs g) (toSU (total g)) := by
  have hv := fun a k => total_views g h a k
  refine ⟨fun a => (hv a 0).1, fun a => ?_, fun a => ?_, fun a k hs => ?_, fun a k hs => ?_⟩
  · rw [(hv a 0).2.1, fresh_class _ hf]
    cases lastSays (·.replaces a) (txDiffs g) <;> cases lastSays (·.deploys a) (txDiffs g) <;> rfl
  · rw [(hv a 0).2.1]
    cases lastSays (·.replaces a) (txDiffs g) <;> cases lastSays (·.deploys a) (txDiffs g) <;> simp [zeroIf]
  · have := (hv a k).2.2
    rw [hs] at this
    exact this
  · have h1 := (hv a k).2.2
    rw [hs] at h1
    refine ⟨h1.1, ?_, h1.2⟩
    have hr : ∀ d ∈ txDiffs g, d.replaces a = none ∧ d.deploys a = none := by
      intro d hd
      have := ((h d hd).system a hs).2
      unfold GDiff.classOf at this
      rwa [Option.or_eq_none_iff] at this
    rw [(hv a k).2.1, (lastSays_none _ _).2 fun d hd => (hr d hd).1, (lastSays_none _ _).2 fun d hd => (hr d hd).2]
    rfl

theorem agg_apply (p : GDiff) (hp : p.Ok) (g : GBlock) (h : ∀ d ∈ txDiffs g, d.Ok) (hf : Fresh (p :: txDiffs g)) :
    AggOk (p :: txDiffs g) (Diff.apply (toSU p) (toSU (total g))) := by
  have hg := agg_total g h hf.tail
  have hn := toSU_nodup (total g)
  have hs := toSU_storeOk (total g)
  have hcons : ∀ {γ : Type} (f : GDiff → Option γ), lastSays f (p :: txDiffs g) = (lastSays f (txDiffs g)).or (f p) := by
    intro γ f
    have := lastSays_append f [p] (txDiffs g)
    rw [List.singleton_append] at this
    rw [this]
    unfold lastSays
    rw [List.reverse_singleton, List.findSome?_singleton]
  refine ⟨fun a => ?_, fun a => ?_, fun a => ?_, fun a k h0 => ?_, fun a k h0 => ?_⟩
  · rw [apply_nonce _ _ hn.1, hg.nonce, toSU_nonce p hp.nonces, hcons]
  · rw [apply_class _ _ hn.1, Option.map_or, hg.cls, toSU_class, hcons]
    unfold GDiff.classOf
    cases p.replaces a <;> cases p.deploys a <;> rfl
  · rw [apply_class _ _ hn.1, toSU_class p, hcons, hcons]
    have hz := hg.zero a
    have hc := hg.cls a
    rw [fresh_class _ hf.tail] at hc
    cases hv : vC (toSU (total g)) a with
    | none =>
      rw [hv] at hc
      have hc' := Option.or_eq_none_iff.1 hc.symm
      rw [hc'.1, hc'.2]
      cases p.replaces a <;> cases p.deploys a <;> simp [zeroIf]
    | some c =>
      rw [hv] at hz hc
      rw [Option.some_or, hz]
      cases hd : lastSays (·.deploys a) (txDiffs g) with
      | none =>
        rw [hd, Option.or_none] at hc
        have : lastSays (·.replaces a) (txDiffs g) = some c.hash := hc.symm
        rw [this]
        simp
      | some x =>
        -- deployed by a transaction: the pre-latest block does not mention the contract
        have hm : ∃ d ∈ txDiffs g, d.deploys a ≠ none := by
          apply Classical.byContradiction
          intro hne
          have : lastSays (·.deploys a) (txDiffs g) = none := (lastSays_none _ _).2 fun d hd => by
            apply Classical.byContradiction
            intro hx
            exact hne ⟨d, hd, hx⟩
          rw [hd] at this
          cases this
        obtain ⟨d, hdm, hdd⟩ := hm
        obtain ⟨l, r, e⟩ := List.append_of_mem hdm
        have hpm := hf (p :: l) d r (by rw [e]; rfl) a hdd p List.mem_cons_self
        rw [(not_mentions hpm).2.1, (not_mentions hpm).2.2.1, Option.or_none, Option.or_none]
  · have h1 := hg.user a k h0
    rw [apply_storage _ _ hn.1 hs, apply_system' _ _ hn.2 hs, h1.1, h1.2, toSU_storage p hp.storage, toSU_system, hcons, h0]
    exact ⟨rfl, rfl⟩
  · have h1 := hg.system a k h0
    have h2 := (hp.system a h0).2
    unfold GDiff.classOf at h2
    rw [Option.or_eq_none_iff] at h2
    rw [apply_storage _ _ hn.1 hs, apply_system' _ _ hn.2 hs, apply_class _ _ hn.1, h1.1, h1.2.1, h1.2.2, toSU_storage p hp.storage,
      toSU_system, toSU_class p, hcons, h0, h2.1, h2.2]
    exact ⟨rfl, rfl, rfl⟩

/-! ## The data that a query gets -/

theorem convert_ok {g : GBlock} {n : Nat} {pl : Option GLatest} {w : Data} (h : convert g n pl = .ok w) :
    (given g).length = (executed g).length ∧ (∀ p ∈ pl, p.number + 1 = n) ∧
    w = { txs := executed g, receipts := given g, preLatest := pl.map preLatest, cand := candidates g, su := toSU (total g), root := 0,
          agg := Diff.apply ((pl.map fun p => toSU p.diff).getD {}) (toSU (total g)), number := n } := by
  unfold convert at h
  split at h
  · cases h
  · rename_i h1
    split at h
    · cases h
    · rename_i h2
      refine ⟨Decidable.not_not.1 h1, ?_, ?_⟩
      · intro p hp
        cases pl with
        | none => cases hp
        | some q =>
          cases hp
          exact Decidable.not_not.1 h2
      · cases h
        rfl

/-- The blocks of the data that count are those that `get` keeps. -/
theorem get_agg {g : GBlock} {n : Nat} {pl : Option GLatest} {w : Data} (h : convert g n pl = .ok w) (hg : ∀ d ∈ allDiffs g pl, d.Ok)
    (v9 : Bool) (head root : Nat) (hf : Fresh (pendingDiffs v9 (head + 1) g n pl)) :
    ∃ d, get head root v9 w = .ok d ∧ AggOk (pendingDiffs v9 (head + 1) g n pl) d.agg := by
  obtain ⟨-, hp, rfl⟩ := convert_ok h
  cases v9 with
  | false => exact ⟨_, rfl, agg_nil⟩
  | true =>
    have htx : ∀ d ∈ txDiffs g, d.Ok := fun d hd => hg d (List.mem_append_right _ hd)
    cases pl with
    | none =>
      have hpd : pendingDiffs true (head + 1) g n none = if n = head + 1 then txDiffs g else [] := by
        simp only [pendingDiffs, pendingBlocks, above, Option.map_none, Option.toList_none, List.nil_append, List.filter_cons, List.filter_nil,
          if_true]
        by_cases hn : n = head + 1
        · subst hn
          simp [txDiffs]
        · by_cases hle : head + 1 ≤ n
          · simp [hle, hn]
          · simp [hle, hn]
      rw [hpd] at hf ⊢
      by_cases hn : n = head + 1
      · rw [if_pos hn] at hf ⊢
        refine ⟨_, by simp only [get, Option.map_none, if_true]; rw [if_pos hn], agg_total g htx hf⟩
      · rw [if_neg hn]
        refine ⟨_, by simp only [get, Option.map_none, if_true]; rw [if_neg hn], agg_nil⟩
    | some p =>
      have hn := hp p rfl
      have hpo : p.diff.Ok := hg _ (by simp [allDiffs])
      have hpd : pendingDiffs true (head + 1) g n (some p) =
          if p.number = head + 1 then p.diff :: txDiffs g else if p.number = head then txDiffs g else [] := by
        simp only [pendingDiffs, pendingBlocks, above, Option.map_some, Option.toList_some, List.singleton_append, List.filter_cons,
          List.filter_nil, if_true]
        by_cases h1 : p.number = head + 1
        · have h2 : head + 1 ≤ n := by omega
          simp [h1, h2, txDiffs]
        · by_cases h2 : p.number = head
          · have h3 : ¬ head + 1 ≤ p.number := by omega
            have h4 : head + 1 ≤ n := by omega
            have h5 : n = head + 1 := by omega
            have h6 : ¬ head = head + 1 := by omega
            have h7 : ¬ head + 1 ≤ head := by omega
            rw [h2, h5]
            simp [txDiffs, h7]
          · by_cases h3 : head + 1 ≤ p.number
            · have h4 : head + 1 ≤ n := by omega
              simp [h3, h4, h1, h2]
            · have h4 : ¬ head + 1 ≤ n := by omega
              simp [h3, h4, h1, h2]
      rw [hpd] at hf ⊢
      by_cases h1 : p.number = head + 1
      · rw [if_pos h1] at hf ⊢
        refine ⟨_, by simp only [get, Option.map_some, if_true, preLatest]; rw [if_pos h1, if_pos hn], ?_⟩
        exact agg_apply p.diff hpo g htx hf
      · rw [if_neg h1] at hf ⊢
        by_cases h2 : p.number = head
        · rw [if_pos h2] at hf ⊢
          refine ⟨_, by simp only [get, Option.map_some, if_true, preLatest]; rw [if_neg h1, if_pos h2, if_pos hn], ?_⟩
          exact agg_total g htx hf
        · rw [if_neg h2]
          refine ⟨_, by simp only [get, Option.map_some, if_true, preLatest]; rw [if_neg h1, if_neg h2], ?_⟩
          exact agg_nil

/-! ## The database -/

open State (Op OpsOk Track run)

theorem at_latest {γ : Type} (tr : Track) (f : State.Update → Option γ) : tr.at f .latest = lastSays f tr.updates := by
  unfold Track.at Track.resolve State.asOf lastSays
  simp only [Option.bind_some]
  rw [List.take_of_length_le]
  unfold Track.updates
  rw [List.length_map]
  omega

theorem db_reads (ops : List Op) (hw : OpsOk ops) (hc : (Track.run ops).chain ≠ []) (a k : Nat) :
    State.head (run ops) = some ((Track.run ops).chain.length - 1) ∧
    State.contractNonce (run ops) .latest a = lastSays (·.nonceOf a) (Track.run ops).updates ∧
    State.contractClass (run ops) .latest a = lastSays (·.classOf a) (Track.run ops).updates ∧
    (State.storageValueWithBlock (run ops) .latest a k).map (·.1) = lastSays (·.storageOf a k) (Track.run ops).updates ∧
    State.contractExists (run ops) .latest a = (lastSays (·.classOf a) (Track.run ops).updates).isSome := by
  have h := State.reads_after_history ops hw .latest trivial a k
  have he := State.C15_contract_exists ops hw .latest trivial a
  have hh := (State.good_run ops hw).head
  rw [if_neg hc] at hh
  rw [at_latest, at_latest, at_latest] at h
  rw [at_latest] at he
  exact ⟨hh, h.2.1, h.2.2, h.1, he⟩

/-- Without a deployment among the pending differences, a contract that they replace is on the chain. -/
theorem known_chain {us : List State.Update} {ds : List GDiff} (h : Lawful us ds) (a : Nat) (hd : lastSays (·.deploys a) ds = none)
    (hc : lastSays (·.classOf a) ds ≠ none) : lastSays (·.classOf a) us ≠ none := by
  have key : ∀ l : List GDiff, ∀ r, ds = l ++ r → lastSays (·.classOf a) l ≠ none → lastSays (·.classOf a) us ≠ none := by
    intro l
    induction l using snoc_induction with
    | h0 => intro r e hn; exact absurd rfl hn
    | h1 l x ih =>
      intro r e hn
      have e' : ds = l ++ x :: r := by rw [e]; simp
      rw [lastSays_snoc] at hn
      have hx : x.deploys a = none := (lastSays_none _ _).1 hd x (by rw [e']; simp)
      cases hr : x.replaces a with
      | none =>
        have : x.classOf a = none := by unfold GDiff.classOf; rw [hr, hx]; rfl
        rw [this, Option.none_or] at hn
        exact ih _ e' hn
      | some c =>
        rcases h.known l x r e' a (by rw [hr]; simp) with h1 | h1
        · exact absurd hx h1
        · unfold classAt says at h1
          cases hl : lastSays (·.classOf a) l with
          | none => rw [hl, Option.none_or] at h1; exact h1
          | some y => exact ih _ e' (by rw [hl]; simp)
  exact key ds [] (by simp) hc

theorem chain_silent {us : List State.Update} {a : Nat} (h : ¬ ChainMentions us a) :
    lastSays (·.nonceOf a) us = none ∧ lastSays (·.classOf a) us = none ∧ ∀ k, lastSays (·.storageOf a k) us = none := by
  have h' : ∀ u ∈ us, u.nonceOf a = none ∧ u.classOf a = none ∧ ∀ k, u.storageOf a k = none := by
    intro u hu
    refine ⟨?_, ?_, fun k => ?_⟩ <;> apply Classical.byContradiction <;> intro hn
    · exact h ⟨u, hu, .inl hn⟩
    · exact h ⟨u, hu, .inr (.inl hn)⟩
    · exact h ⟨u, hu, .inr (.inr ⟨k, hn⟩)⟩
  exact ⟨(lastSays_none _ _).2 fun u hu => (h' u hu).1, (lastSays_none _ _).2 fun u hu => (h' u hu).2.1,
    fun k => (lastSays_none _ _).2 fun u hu => (h' u hu).2.2 k⟩

theorem deployed_mem {ds : List GDiff} {a : Nat} (h : lastSays (·.deploys a) ds ≠ none) : ∃ d ∈ ds, d.deploys a ≠ none := by
  apply Classical.byContradiction
  intro hne
  refine h ((lastSays_none _ _).2 fun d hd => ?_)
  apply Classical.byContradiction
  intro hx
  exact hne ⟨d, hd, hx⟩

theorem Lawful.silent {us : List State.Update} {ds : List GDiff} (h : Lawful us ds) {a : Nat} (hd : lastSays (·.deploys a) ds ≠ none) :
    lastSays (·.nonceOf a) us = none ∧ lastSays (·.classOf a) us = none ∧ ∀ k, lastSays (·.storageOf a k) us = none := by
  obtain ⟨d, hdm, hdd⟩ := deployed_mem hd
  obtain ⟨l, r, e⟩ := List.append_of_mem hdm
  exact chain_silent (h.fresh l d r e a hdd).1

end Verif.Pend
