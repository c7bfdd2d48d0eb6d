import Verif.Gate.Url

namespace Verif.Gate

open Verif.Crypto (Bytes toHexStr)
open Verif.Gate.Spec

section
variable {E V : Type} (s : Sent) (rdErr : Bytes → Option E) (rd : Bytes → Option V) (raw : Bytes → V) (asBytes : Bool)

/-- An attempt is repeated exactly if what came back does not settle the call. -/
theorem settles_iff (n : Net) :
    Settles rdErr rd asBytes n ↔
      (∀ e, answer rdErr rd raw asBytes n = .error e → retryCondition e = false) := by
  cases n with
  | noResponse e =>
    constructor
    · rintro ⟨st, b, h, _⟩; exact absurd h (by simp)
    · intro h; exact absurd (h (.net e) rfl) (by simp [retryCondition])
  | response st body =>
    simp only [answer, parseRaw]
    by_cases h1 : st = 500 ∨ st = 400
    · simp only [h1, if_true]
      cases body with
      | error e =>
        constructor
        · rintro ⟨st', b, h, _⟩; exact absurd h (by simp)
        · intro h
          cases e with
          | decode => exact absurd (h _ rfl) (by simp [retryCondition])
          | timeout => exact absurd (h _ rfl) (by simp [retryCondition])
          | connect => exact absurd (h _ rfl) (by simp [retryCondition])
          | body => exact absurd (h _ rfl) (by simp [retryCondition])
          | status n => exact absurd (h _ rfl) (by simp [retryCondition])
          | other => exact absurd (h _ rfl) (by simp [retryCondition])
      | ok b =>
        cases hr : rdErr b with
        | none =>
          simp only [hr]
          constructor
          · rintro ⟨st', b', h, h2⟩
            simp only [Net.response.injEq, Except.ok.injEq] at h
            obtain ⟨rfl, rfl⟩ := h
            rcases h2 with ⟨_, h3⟩ | ⟨h3, _⟩
            · exact absurd hr h3
            · omega
          · intro h; exact absurd (h _ rfl) (by simp [retryCondition])
        | some e =>
          simp only [hr]
          constructor
          · intro _ e' he
            simp only [Except.error.injEq] at he
            subst he
            rfl
          · intro _
            exact ⟨st, b, rfl, Or.inl ⟨by omega, by simp [hr]⟩⟩
    · simp only [h1, if_false]
      by_cases h2 : 400 ≤ st ∧ st < 600
      · simp only [h2, and_self, if_true]
        constructor
        · rintro ⟨st', b', h, h3⟩
          simp only [Net.response.injEq] at h
          omega
        · intro h; exact absurd (h _ rfl) (by simp [retryCondition])
      · simp only [h2, if_false]
        cases body with
        | error e =>
          constructor
          · rintro ⟨st', b, h, _⟩; exact absurd h (by simp)
          · intro h; exact absurd (h _ rfl) (by simp [retryCondition])
        | ok b =>
          cases asBytes with
          | true =>
            simp only [if_true]
            exact ⟨fun _ e he => absurd he (by simp), fun _ => ⟨st, b, rfl, Or.inr ⟨by omega, Or.inl rfl⟩⟩⟩
          | false =>
            simp only [Bool.false_eq_true, if_false]
            cases hr : rd b with
            | none =>
              simp only
              constructor
              · rintro ⟨st', b', h, h3⟩
                simp only [Net.response.injEq, Except.ok.injEq] at h
                obtain ⟨rfl, rfl⟩ := h
                rcases h3 with ⟨h3, _⟩ | ⟨_, h3 | h3⟩
                · omega
                · simp at h3
                · exact absurd hr h3
              · intro h; exact absurd (h _ rfl) (by simp [retryCondition])
            | some v =>
              simp only
              exact ⟨fun _ e he => absurd he (by simp), fun _ => ⟨st, b, rfl, Or.inr ⟨by omega, Or.inr (by simp [hr])⟩⟩⟩

end

/-- The wait before the attempt after the `n`-th. -/
def waitAfter : Nat → Backoff → Nat
  | 0, b => b.next.1
  | n + 1, b => waitAfter n b.next.2

section
variable {E V : Type} (s : Sent) (att : Net → Except (SeqErr E) V) (env : Nat → Net)

def Retries (i : Nat) : Prop := ∃ e, att (env i) = .error e ∧ retryCondition e = true

theorem loop_settled : ∀ k fuel i b, (∀ j, j < k → Retries att env (i + j)) → ¬ Retries att env (i + k) → k < fuel →
    retryLoop s att env fuel i b =
      ⟨List.replicate (k + 1) s, (List.range k).map (fun n => waitAfter n b), some (att (env (i + k)))⟩ := by
  intro k
  induction k with
  | zero =>
    intro fuel i b _ hn hf
    obtain ⟨fuel, rfl⟩ : ∃ f, fuel = f + 1 := ⟨fuel - 1, by omega⟩
    simp only [Nat.add_zero] at hn ⊢
    simp only [retryLoop]
    cases ha : att (env i) with
    | ok v => rfl
    | error e =>
      have : retryCondition e = false := by
        cases hc : retryCondition e with
        | false => rfl
        | true => exact absurd ⟨e, ha, hc⟩ hn
      simp only [this, Bool.false_eq_true, if_false]
      rfl
  | succ k ih =>
    intro fuel i b hr hn hf
    obtain ⟨fuel, rfl⟩ : ∃ f, fuel = f + 1 := ⟨fuel - 1, by omega⟩
    obtain ⟨e, he, hc⟩ := hr 0 (by omega)
    simp only [Nat.add_zero] at he
    have hi := ih fuel (i + 1) b.next.2
      (fun j hj => by have := hr (j + 1) (by omega); rwa [show i + (j + 1) = i + 1 + j by omega] at this)
      (by rwa [show i + 1 + k = i + (k + 1) by omega]) (by omega)
    simp only [retryLoop, he, hc, if_true, hi]
    rw [show i + 1 + k = i + (k + 1) by omega, List.range_succ_eq_map]
    simp only [List.replicate_succ, List.map_cons, List.map_map, waitAfter]
    rfl

theorem loop_unsettled : ∀ fuel i b, (∀ j, j < fuel → Retries att env (i + j)) →
    retryLoop s att env fuel i b =
      ⟨List.replicate fuel s, (List.range fuel).map (fun n => waitAfter n b), none⟩ := by
  intro fuel
  induction fuel with
  | zero => intro i b _; rfl
  | succ fuel ih =>
    intro i b hr
    obtain ⟨e, he, hc⟩ := hr 0 (by omega)
    simp only [Nat.add_zero] at he
    have hi := ih (i + 1) b.next.2
      (fun j hj => by have := hr (j + 1) (by omega); rwa [show i + (j + 1) = i + 1 + j by omega] at this)
    simp only [retryLoop, he, hc, if_true, hi]
    rw [List.range_succ_eq_map]
    simp only [List.replicate_succ, List.map_cons, List.map_map, waitAfter]
    rfl

end

/-! ### Waits -/

/-- The first three waits, and then always the same. -/
theorem waitAfter_backoff0 (n : Nat) : waitAfter n backoff0 = min (2 ^ (n + 1)) 10 * 1000 := by
  have fix : ∀ n, waitAfter n ⟨16, 2, 1000, some 10000⟩ = 10000 := by
    intro n
    induction n with
    | zero => decide
    | succ n ih =>
      simp only [waitAfter]
      exact ih
  match n with
  | 0 => decide
  | 1 => decide
  | 2 => decide
  | n + 3 =>
    have e : waitAfter (n + 3) backoff0 = waitAfter n ⟨16, 2, 1000, some 10000⟩ := rfl
    rw [e, fix n]
    have : 2 ^ (n + 3 + 1) = 2 ^ n * 16 := by rw [show n + 3 + 1 = n + 4 by omega, Nat.pow_add]
    have : 0 < 2 ^ n := Nat.two_pow_pos n
    omega

/-! ### Refreshing -/

theorem refresh_current {c : Client} {f : Found} (h : f.builds = true)
    (hc : c.madeFor = (c.gatewayAddrs, c.feederAddrs)) :
    (refresh c f).1.madeFor = ((refresh c f).1.gatewayAddrs, (refresh c f).1.feederAddrs) := by
  simp only [refresh]
  cases hg : f.gateway with
  | none => simpa using hc
  | some ga =>
    cases hf : f.feeder with
    | none => simpa using hc
    | some fa =>
      simp only [h, if_true]
      split
      · rfl
      · rename_i hch
        simp only [Bool.or_eq_true, bne_iff_ne, ne_eq, not_or, Decidable.not_not] at hch
        simp only [hc, hch.1, hch.2]

theorem refreshes_current (fs : List Found) : ∀ c : Client, (∀ f ∈ fs, f.builds = true) →
    c.madeFor = (c.gatewayAddrs, c.feederAddrs) →
    (refreshes c fs).madeFor = ((refreshes c fs).gatewayAddrs, (refreshes c fs).feederAddrs) := by
  induction fs with
  | nil => intro c _ h; exact h
  | cons f fs ih =>
    intro c hb hc
    exact ih _ (fun g hg => hb g (by simp [hg])) (refresh_current (hb f (by simp)) hc)

end Verif.Gate
