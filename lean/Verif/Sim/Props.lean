import Verif.Sim.Lemmas

/-!
# Calls, estimates and simulations: the theorems (C101)
-/
namespace Verif.Sim
open Verif.Submit (Bound Bounds Da Invoke0 Invoke1 Invoke3 Declare1 Declare2 Declare3 Deploy1 Deploy3)

variable {S O R : Type} {env : Env S O R}

/-! ## For the examples -/

/-- A library that lists the hashes of what it has run. -/
def demoEnv : Env (List Nat) (Nat × Nat) (List Nat) :=
  ⟨fun c => some (c + 1), fun c => some (c + 2), fun _ => some 5, fun c => some (c + 3), fun k v => some (k + v), fun _ => 7, fun _ => 8, fun _ => true,
    fun cd salt ch => cd.length + salt + ch, fun c q => (match c with
      | .invokeV1 _ s _ _ n => 1000 * s + n
      | .l1Handler a _ _ cd => a + cd.length
      | _ => 1) + if q then 500 else 0, fun _ => true, fun c v => [c.number, v.upTo.getD 99],
    fun _ st s e => if e.api = .invoke1 0 [] 9 9 [] then .failed else .ok (e.hash, if st then 1 else 0) (e.hash :: s), fun s => s,
    fun _ _ a sel cd => if a = 5 then .noContract else if sel = 6 then .noEntryPoint else if sel = 7 then .returned true [entrypointNotFound]
      else .returned false cd, fun v => v, []⟩

def demoHdr (n : Nat) : Hdr := ⟨n, n + 100, n, 1, 2, 3, 0, 5, 6, 77, ver 0 13 2 1, true⟩
def demoDb : Db := ⟨(List.range 13).map demoHdr, some 11, [(3, 2)]⟩
/-- A node that has kept three blocks only. -/
def prunedDb : Db := ⟨[demoHdr 10, demoHdr 11, demoHdr 12], some 11, [(3, 2)]⟩
def demoTx (s n : Nat) : Tx := .invoke1 ⟨1, 4, [8], n, s, [1, 2]⟩

theorem joined_err {α : Type} {r : Res α} {e : Err} (h : r.joined = .error e) : r = .err e ∨ (r = .panic ∧ e = .internal) := by
  cases r with
  | ok a => simp [Res.joined] at h
  | err e' => left; simp only [Res.joined, Except.error.injEq] at h; rw [h]
  | panic => right; exact ⟨rfl, by simpa [Res.joined] using h.symm⟩

/-! ## Limits -/

/-- What is answered had no list that is too long. -/
theorem C101_limits {db : Db} {pend : Option Pending} {id : Id} {txs : List Tx} {fl : List Flag} {sv : Bool} :
    ((∃ a, simulate env db pend id txs fl = .ok a) → ∀ t ∈ txs, Short t) ∧ ((∃ a, estimate env db pend id txs sv = .ok a) → ∀ t ∈ txs, Short t) := by
  constructor
  · rintro ⟨a, h⟩
    unfold simulate at h
    cases hc : checkLimits txs with
    | none => exact limits_none.1 hc
    | some e => rw [hc] at h; simp at h
  · rintro ⟨a, h⟩
    unfold estimate at h
    cases hc : checkLimits txs with
    | none => exact limits_none.1 hc
    | some e => rw [hc] at h; simp at h

example : ∃ a, simulate demoEnv demoDb none .latest [demoTx 1 2] [] = .ok a := ⟨_, rfl⟩
example : ∃ a, estimate demoEnv demoDb none .latest [demoTx 1 2] false = .ok a := ⟨_, rfl⟩

/-- If a list is too long the answer names the first transaction with such a list: with one of calldata if there is any, else of signatures.
Nothing is run. -/
theorem C101_too_long {db : Db} {pend : Option Pending} {id : Id} {txs : List Tx} {fl : List Flag} {sv : Bool} (h : ¬ ∀ t ∈ txs, Short t) :
    ∃ sig i t cd sg, simulate env db pend id txs fl = .error (.limit sig (some i)) ∧ estimate env db pend id txs sv = .error (.limit sig (some i)) ∧
      txs[i]? = some t ∧ t.lists = some (cd, sg) ∧ 10000 < (if sig then sg else cd).length ∧
      (∀ (j : Nat) (t' : Tx) (cd' sg' : List Nat), j < i → txs[j]? = some t' → t'.lists = some (cd', sg') →
        (if sig then sg' else cd').length ≤ 10000) ∧
      (sig = true → ∀ t' ∈ txs, ∀ cd' sg', t'.lists = some (cd', sg') → cd'.length ≤ 10000) := by
  rw [← limits_none] at h
  unfold simulate estimate
  unfold checkLimits at h ⊢
  cases h1 : txs.findIdx? calldataExceeded with
  | some i =>
    obtain ⟨hi, hc, hb⟩ := List.findIdx?_eq_some_iff_getElem.1 h1
    obtain ⟨cd, sg, hl, hx⟩ := (cd_exceeded _).1 hc
    refine ⟨false, i, txs[i], cd, sg, rfl, rfl, by simp [hi], hl, by simpa using hx, ?_, by simp⟩
    intro j t' cd' sg' hj ht' hl'
    obtain ⟨hjl, rfl⟩ := List.getElem?_eq_some_iff.1 ht'
    refine Nat.not_lt.1 fun hlt => hb j hj ?_
    exact (cd_exceeded _).2 ⟨cd', sg', hl', by simpa using hlt⟩
  | none =>
    have h1' := List.findIdx?_eq_none_iff.1 h1
    cases h2 : txs.findIdx? signatureExceeded with
    | none => rw [h1, h2] at h; exact absurd rfl h
    | some i =>
      obtain ⟨hi, hc, hb⟩ := List.findIdx?_eq_some_iff_getElem.1 h2
      obtain ⟨cd, sg, hl, hx⟩ := (sig_exceeded _).1 hc
      refine ⟨true, i, txs[i], cd, sg, rfl, rfl, by simp [hi], hl, by simpa using hx, ?_, ?_⟩
      · intro j t' cd' sg' hj ht' hl'
        obtain ⟨hjl, rfl⟩ := List.getElem?_eq_some_iff.1 ht'
        refine Nat.not_lt.1 fun hlt => hb j hj ?_
        exact (sig_exceeded _).2 ⟨cd', sg', hl', by simpa using hlt⟩
      · intro _ t' ht' cd' sg' hl'
        refine Nat.not_lt.1 fun hlt => ?_
        have := (cd_exceeded t').2 ⟨cd', sg', hl', hlt⟩
        rw [h1' t' ht'] at this; simp at this

example : ¬ ∀ t ∈ [demoTx 1 2, .invoke1 ⟨1, 4, [8], 3, 1, List.replicate 10001 0⟩], Short t := by
  intro h
  have := (h _ (List.Mem.tail _ (List.Mem.head _)) _ _ rfl).1
  rw [List.length_replicate] at this
  omega

/-! ## What is run -/

/-- A simulation: the block of the request, the transactions of the request in their order, each on the state that the one before left, starting
from the state after that block (with what is pending on it, if the pre-confirmed block is asked for). Initial reads are given if asked for. -/
theorem C101_simulate (hp : Felts env) {db : Db} {pend : Option Pending} {id : Id} {txs : List Tx} {fl : List Flag} {os : List O} {r : Option R}
    (h : simulate env db pend id txs fl = .ok (os, r)) : ∃ x u ctx es s', Names db pend id x u ∧ About env db x true ctx ∧
      es.length = txs.length ∧ (∀ (i : Nat) (t : Tx) (e : ExecTx), txs[i]? = some t → es[i]? = some e →
        IsFor env (decide (Flag.skipValidate ∈ fl)) (decide (Flag.skipFeeCharge ∈ fl)) t e) ∧
      Runs env ctx false (env.start ctx ⟨some x.number, u⟩) es os s' ∧ os.length = txs.length ∧
      r = if Flag.returnInitialReads ∈ fl then some (env.reads s') else none := by
  unfold simulate at h
  split at h
  · exact absurd h (by simp)
  have h := joined_ok h
  unfold simulateTask at h
  obtain ⟨⟨x, u⟩, hn, h⟩ := bind_ok h
  obtain ⟨es, hes, h⟩ := bind_ok h
  obtain ⟨⟨ctx, v⟩, hc, h⟩ := bind_ok h
  obtain ⟨⟨os', s'⟩, hr, h⟩ := bind_ok h
  obtain ⟨ha, hv⟩ := context_ok hc
  have hl := mapAll_ok hes
  have h := Res.ok.inj h
  simp only [Prod.mk.injEq] at h
  obtain ⟨h1, h2⟩ := h
  subst h1
  have hrun := runAll_ok hr
  rw [hv] at hrun
  refine ⟨x, u, ctx, es, s', named_ok hn, ha, hl.1, ?_, hrun, by rw [runs_length hrun, hl.1], ?_⟩
  · intro i t e ht he
    have := mapTx_ok hp (hl.2 i t e ht he)
    simpa [List.contains_eq_mem] using this
  · rw [← h2]; simp [List.contains_eq_mem]

theorem demoFelts : Felts ({ demoEnv with rawAddress := fun cd salt ch => (cd.length + salt + ch) % 1000 } : Env (List Nat) (Nat × Nat) (List Nat)) := by
  intro cd salt ch
  have := Nat.mod_lt (cd.length + salt + ch) (show 0 < 1000 by omega)
  show (cd.length + salt + ch) % 1000 < _
  omega

def demo : Env (List Nat) (Nat × Nat) (List Nat) := { demoEnv with rawAddress := fun cd salt ch => (cd.length + salt + ch) % 1000 }

example : Felts demo := demoFelts
example : simulate demo demoDb none (.number 12) [demoTx 1 2, demoTx 3 4] [.returnInitialReads] =
    .ok ([(1002, 0), (3004, 0)], some [3004, 1002, 12, 12]) := rfl
example : simulate demo demoDb (some ⟨demoHdr 13, ⟨[4], 0⟩⟩) .preConfirmed [demoTx 1 2] [.skipValidate] = .ok ([(1002, 0)], none) := rfl

/-- An estimate: the same, never charging the fee, and a transaction that reverts is an error. -/
theorem C101_estimate (hp : Felts env) {db : Db} {pend : Option Pending} {id : Id} {txs : List Tx} {sv : Bool} {os : List O}
    (h : estimate env db pend id txs sv = .ok os) : ∃ x u ctx es s', Names db pend id x u ∧ About env db x true ctx ∧
      es.length = txs.length ∧ (∀ (i : Nat) (t : Tx) (e : ExecTx), txs[i]? = some t → es[i]? = some e → IsFor env sv true t e) ∧
      Runs env ctx true (env.start ctx ⟨some x.number, u⟩) es os s' ∧ os.length = txs.length := by
  unfold estimate at h
  split at h
  · exact absurd h (by simp)
  have h := joined_ok h
  unfold estimateTask at h
  obtain ⟨⟨x, u⟩, hn, h⟩ := bind_ok h
  obtain ⟨es, hes, h⟩ := bind_ok h
  obtain ⟨⟨ctx, v⟩, hc, h⟩ := bind_ok h
  obtain ⟨⟨os', s'⟩, hr, h⟩ := bind_ok h
  obtain ⟨ha, hv⟩ := context_ok hc
  have hl := mapAll_ok hes
  have h := Res.ok.inj h
  subst h
  have hrun := runAll_ok hr
  rw [hv] at hrun
  exact ⟨x, u, ctx, es, s', named_ok hn, ha, hl.1, fun i t e ht he => mapTx_ok hp (hl.2 i t e ht he), hrun, by rw [runs_length hrun, hl.1]⟩

example : estimate demo demoDb none (.hash 112) [demoTx 1 2, demoTx 3 4] true = .ok [(1002, 1), (3004, 1)] := rfl

/-- A call: the entry point is run in the block of the request on the state after it; data for blobs is not priced. What it returns is the answer. -/
theorem C101_call {db : Db} {pend : Option Pending} {id : Id} {a sel : Nat} {cd data : List Nat} (h : call env db pend id a sel cd = .ok data) :
    ∃ x u ctx, Names db pend id x u ∧ About env db x false ctx ∧ env.call ctx ⟨some x.number, u⟩ a sel cd = .returned false data ∧
      cd.length ≤ 10000 ∧ a < 2 ^ 251 := by
  unfold call at h
  split at h
  · exact absurd h (by simp)
  rename_i hlen
  have h := joined_ok h
  unfold callTask at h
  obtain ⟨⟨x, u⟩, hn, h⟩ := bind_ok h
  obtain ⟨⟨ctx, v⟩, hc, h⟩ := bind_ok h
  obtain ⟨ha, hv⟩ := context_ok hc
  subst hv
  simp only at h
  split at h
  · rename_i hlt
    refine ⟨x, u, ctx, named_ok hn, ha, ?_, Nat.not_lt.1 hlen, hlt⟩
    generalize env.call ctx ⟨some x.number, u⟩ a sel cd = r at h
    unfold callAnswer at h
    split at h
    · exact absurd h (by simp)
    · exact absurd h (by simp)
    · exact absurd h (by simp)
    · split at h <;> exact absurd h (by simp)
    · exact absurd h (by simp)
    · rw [Res.ok.inj h]
  · exact absurd h (by simp)

example : call demo demoDb none .l1Accepted 3 4 [5, 6] = .ok [5, 6] := rfl

/-- The errors of a call say what the library said. -/
theorem C101_call_error {db : Db} {pend : Option Pending} {id : Id} {a sel : Nat} {cd : List Nat} {e : Err} (h : call env db pend id a sel cd = .error e) :
    (10000 < cd.length ∧ e = .limit false none) ∨
    (cd.length ≤ 10000 ∧ (¬ ∃ x u, Names db pend id x u) ∧ e = if id = .preConfirmed then .internal else .blockNotFound) ∨
    (∃ x u, Names db pend id x u ∧ (e = .internal ∨ (e = .custom ∧ 2 ^ 251 ≤ a) ∨ ∃ ctx, About env db x false ctx ∧ a < 2 ^ 251 ∧
      ((e = .contractNotFound ∧ env.call ctx ⟨some x.number, u⟩ a sel cd = .noContract) ∨
       (e = .entrypointNotFound ∧ (env.call ctx ⟨some x.number, u⟩ a sel cd = .noEntryPoint ∨
          env.call ctx ⟨some x.number, u⟩ a sel cd = .returned true [entrypointNotFound])) ∨
       (e = .contractError ∧ (env.call ctx ⟨some x.number, u⟩ a sel cd = .error ∨ ∃ d, d ≠ [entrypointNotFound] ∧
          env.call ctx ⟨some x.number, u⟩ a sel cd = .returned true d))))) := by
  unfold call at h
  split at h
  · rename_i hl
    exact .inl ⟨hl, by simpa using h.symm⟩
  rename_i hlen
  right
  rcases joined_err h with h | ⟨h, he⟩
  · unfold callTask at h
    rcases bind_err h with h | ⟨⟨x, u⟩, hn, h⟩
    · exact .inl ⟨Nat.not_lt.1 hlen, named_err h⟩
    right
    refine ⟨x, u, named_ok hn, ?_⟩
    rcases bind_err h with h | ⟨⟨ctx, v⟩, hc, h⟩
    · exact .inl (context_err h)
    right
    obtain ⟨ha, hv⟩ := context_ok hc
    subst hv
    simp only at h
    split at h
    · rename_i hlt
      refine .inr ⟨ctx, ha, hlt, ?_⟩
      generalize env.call ctx ⟨some x.number, u⟩ a sel cd = r at h
      unfold callAnswer at h
      split at h
      · exact .inr (.inl ⟨by simpa using h.symm, .inl rfl⟩)
      · exact .inl ⟨by simpa using h.symm, rfl⟩
      · exact .inr (.inr ⟨by simpa using h.symm, .inl rfl⟩)
      · rename_i y
        split at h
        · rename_i hy
          exact .inr (.inl ⟨by simpa using h.symm, .inr (by rw [hy])⟩)
        · rename_i hy
          exact .inr (.inr ⟨by simpa using h.symm, .inr ⟨[y], by simpa using hy, rfl⟩⟩)
      · rename_i d hd
        refine .inr (.inr ⟨by simpa using h.symm, .inr ⟨d, ?_, rfl⟩⟩)
        intro hd'
        exact hd _ hd'
      · exact absurd h (by simp)
    · rename_i hge
      exact .inl ⟨by simpa using h.symm, by omega⟩
  · right
    unfold callTask at h
    rcases bind_panic h with h | ⟨⟨x, u⟩, hn, h⟩
    · exact absurd h named_panic
    exact ⟨x, u, named_ok hn, .inl he⟩

example : call demo demoDb none .latest 5 4 [] = .error .contractNotFound ∧ call demo demoDb none .latest 3 6 [] = .error .entrypointNotFound ∧
    call demo demoDb none (.number 40) 3 6 [] = .error .blockNotFound := ⟨rfl, rfl, rfl⟩

/-- The estimate for a message from L1: the handler named is run with the sender and then the payload, with nonce 0 and a paid fee of 1. There is one
estimate. From version 0.10 of the API on the contract must be there at the block. -/
theorem C101_message {api : Nat} {db : Db} {pend : Option Pending} {id : Id} {m : Message} {o : O} (h : estimateMessage env api db pend id m = .ok o) :
    ∃ x u ctx e s', Names db pend id x u ∧ About env db x true ctx ∧ m.payload.length ≤ 10000 ∧
      e.api.says = [("l1_handler", .num 0), ("nonce", .num 0), ("contract_address", .num m.target), ("entry_point_selector", .num m.selector),
        ("calldata", .nums (m.sender :: m.payload))] ∧
      (∃ c, c.says = e.api.says ∧ e.hash = env.txHash c false) ∧ e.paidFee = some 1 ∧ e.classInfo = none ∧ e.deployed = none ∧
      e.flags = ⟨false, true, true, true⟩ ∧ env.run ctx true (env.start ctx ⟨some x.number, u⟩) e = .ok o s' ∧
      (10 ≤ api → ∃ n ≤ x.number, (m.target, n) ∈ db.contracts) := by
  unfold estimateMessage at h
  split at h
  · exact absurd h (by simp)
  rename_i hlen
  cases hj : (messageTask env api db pend id m).joined with
  | error e => rw [hj] at h; exact absurd h (by simp)
  | ok l =>
    rw [hj] at h
    have hl : l = [o] := by
      cases l with
      | nil => simp at h
      | cons y l => cases l with
        | nil => simp only [Except.ok.injEq] at h; rw [h]
        | cons z l => simp at h
    subst hl
    have h := joined_ok hj
    unfold messageTask at h
    obtain ⟨⟨x, u⟩, hn, h⟩ := bind_ok h
    simp only at h
    split at h
    · exact absurd h (by simp)
    rename_i hex
    obtain ⟨e, he, h⟩ := bind_ok h
    obtain ⟨⟨ctx, v⟩, hc, h⟩ := bind_ok h
    obtain ⟨ha, hv⟩ := context_ok hc
    subst hv
    have hm : (runAll env ctx true 0 (env.start ctx ⟨some x.number, u⟩) [e]).bind (fun r => Res.ok r.1) = .ok [o] := by
      revert h
      generalize (runAll env ctx true 0 (env.start ctx ⟨some x.number, u⟩) [e]).bind (fun r => Res.ok r.1) = q
      intro h
      unfold messageErr at h
      split at h
      · exact absurd h (by simp)
      · exact h
    obtain ⟨⟨os, s'⟩, hr, hm⟩ := bind_ok hm
    have hm := Res.ok.inj hm
    change os = [o] at hm
    subst hm
    have hrun := runAll_ok hr
    have hok : ∃ s', env.run ctx true (env.start ctx ⟨some x.number, u⟩) e = .ok o s' := by
      cases hrun with
      | cons _ s1 _ _ _ _ _ hq hrest => exact ⟨s1, hq⟩
    obtain ⟨s1, hok⟩ := hok
    unfold messageTx at he
    simp only [toApi] at he
    obtain ⟨api', ha', he⟩ := bind_ok he
    obtain ⟨k, hk, ha'⟩ := bind_ok ha'
    have ha' := Res.ok.inj ha'
    subst ha'
    obtain ⟨rfl, _⟩ := key_ok hk
    split at he
    case isFalse => exact absurd he (by simp)
    have he := Res.ok.inj he
    subst he
    refine ⟨x, u, ctx, _, s1, named_ok hn, ha, Nat.not_lt.1 hlen, rfl, ⟨.l1Handler m.target m.selector 0 (m.sender :: m.payload), rfl, rfl⟩, rfl, rfl, rfl, rfl, hok, ?_⟩
    intro hv
    by_cases hx : db.contractExists m.target x.number = false
    · exact absurd ⟨hv, hx⟩ hex
    · have hx : db.contractExists m.target x.number = true := by simpa using hx
      unfold Db.contractExists at hx
      obtain ⟨⟨c, n⟩, hmem, hcn⟩ := List.any_eq_true.1 hx
      simp only [Bool.and_eq_true, decide_eq_true_eq] at hcn
      obtain ⟨rfl, hn'⟩ := hcn
      exact ⟨n, hn', hmem⟩

example : estimateMessage demo 10 demoDb none .latest ⟨9, 3, 4, [1, 2]⟩ = .ok (6, 1) := rfl
example : estimateMessage demo 10 demoDb none .latest ⟨9, 4, 4, [1, 2]⟩ = .error .contractNotFound := rfl

/-! ## Errors -/

/-- "Block not found" is answered exactly if nothing is too long and the id names no block. -/
theorem C101_block_not_found {db : Db} {pend : Option Pending} {id : Id} {txs : List Tx} {fl : List Flag} {sv : Bool} :
    (simulate env db pend id txs fl = .error .blockNotFound ↔ (∀ t ∈ txs, Short t) ∧ id ≠ .preConfirmed ∧ ¬ ∃ x u, Names db pend id x u) ∧
    (estimate env db pend id txs sv = .error .blockNotFound ↔ (∀ t ∈ txs, Short t) ∧ id ≠ .preConfirmed ∧ ¬ ∃ x u, Names db pend id x u) := by
  have back : id ≠ .preConfirmed → (¬ ∃ x u, Names db pend id x u) → named db pend id = .err .blockNotFound := by
    intro hid hno
    cases hn : named db pend id with
    | panic => exact absurd hn named_panic
    | err e => have := (named_err hn).2; rw [if_neg hid] at this; rw [this]
    | ok a => exact absurd ⟨a.1, a.2, named_ok hn⟩ hno
  have fwd : ∀ {e}, named db pend id = .err e → e = .blockNotFound → id ≠ .preConfirmed ∧ ¬ ∃ x u, Names db pend id x u := by
    intro e hn he
    obtain ⟨h1, h2⟩ := named_err hn
    refine ⟨?_, h1⟩
    intro hid; rw [if_pos hid, he] at h2; simp at h2
  constructor
  · constructor
    · intro h
      have hl : checkLimits txs = none := by
        cases hc : checkLimits txs with
        | none => rfl
        | some e =>
          unfold simulate at h; rw [hc] at h
          simp only [Except.error.injEq] at h
          subst h
          unfold checkLimits at hc
          split at hc
          · simp at hc
          · split at hc <;> simp at hc
      refine ⟨limits_none.1 hl, ?_⟩
      unfold simulate at h; rw [hl] at h
      rcases joined_err h with h | ⟨_, h⟩
      · unfold simulateTask at h
        rcases bind_err h with h | ⟨x, _, h⟩
        · exact fwd h rfl
        rcases bind_err h with h | ⟨x, _, h⟩
        · exact absurd (mapAll_err h) (by simp)
        rcases bind_err h with h | ⟨x, _, h⟩
        · exact absurd (context_err h) (by simp)
        rcases bind_err h with h | ⟨x, _, h⟩
        · rcases runAll_err h with ⟨n, h⟩ | h | h <;> simp at h
        · exact absurd h (by simp)
      · simp at h
    · rintro ⟨hs, hid, hno⟩
      unfold simulate
      rw [limits_none.2 hs]
      simp only [simulateTask, back hid hno, Res.bind, Res.joined]
  · constructor
    · intro h
      have hl : checkLimits txs = none := by
        cases hc : checkLimits txs with
        | none => rfl
        | some e =>
          unfold estimate at h; rw [hc] at h
          simp only [Except.error.injEq] at h
          subst h
          unfold checkLimits at hc
          split at hc
          · simp at hc
          · split at hc <;> simp at hc
      refine ⟨limits_none.1 hl, ?_⟩
      unfold estimate at h; rw [hl] at h
      rcases joined_err h with h | ⟨_, h⟩
      · unfold estimateTask at h
        rcases bind_err h with h | ⟨x, _, h⟩
        · exact fwd h rfl
        rcases bind_err h with h | ⟨x, _, h⟩
        · exact absurd (mapAll_err h) (by simp)
        rcases bind_err h with h | ⟨x, _, h⟩
        · exact absurd (context_err h) (by simp)
        rcases bind_err h with h | ⟨x, _, h⟩
        · rcases runAll_err h with ⟨n, h⟩ | h | h <;> simp at h
        · exact absurd h (by simp)
      · simp at h
    · rintro ⟨hs, hid, hno⟩
      unfold estimate
      rw [limits_none.2 hs]
      simp only [estimateTask, back hid hno, Res.bind, Res.joined]

example : simulate demo demoDb none (.number 40) [demoTx 1 2] [] = .error .blockNotFound ∧
    simulate demo demoDb none (.number 12) [demoTx 1 2] [] ≠ .error .blockNotFound := ⟨rfl, by intro h; cases h⟩

/-- An error of a transaction carries its index: those before it were run, and it failed on the state that they left. -/
theorem C101_failed (hp : Felts env) {db : Db} {pend : Option Pending} {id : Id} {txs : List Tx} {fl : List Flag} {n : Nat}
    (h : simulate env db pend id txs fl = .error (.transaction n)) : ∃ x u ctx pre e post os s', Names db pend id x u ∧ About env db x true ctx ∧
      pre.length = n ∧ (pre ++ e :: post).length = txs.length ∧ (∀ (i : Nat) (t : Tx) (e' : ExecTx), txs[i]? = some t →
        (pre ++ e :: post)[i]? = some e' → IsFor env (decide (Flag.skipValidate ∈ fl)) (decide (Flag.skipFeeCharge ∈ fl)) t e') ∧
      Runs env ctx false (env.start ctx ⟨some x.number, u⟩) pre os s' ∧ env.run ctx false s' e = .failed := by
  unfold simulate at h
  split at h
  · rename_i e hc
    simp only [Except.error.injEq] at h
    subst h
    unfold checkLimits at hc
    split at hc
    · simp at hc
    · split at hc <;> simp at hc
  rcases joined_err h with h | ⟨_, h⟩
  · unfold simulateTask at h
    rcases bind_err h with h | ⟨⟨x, u⟩, hn, h⟩
    · have := (named_err h).2
      split at this <;> simp at this
    rcases bind_err h with h | ⟨es, hes, h⟩
    · exact absurd (mapAll_err h) (by simp)
    rcases bind_err h with h | ⟨⟨ctx, v⟩, hc, h⟩
    · exact absurd (context_err h) (by simp)
    rcases bind_err h with h | ⟨r, _, h⟩
    · obtain ⟨ha, hv⟩ := context_ok hc
      have hl := mapAll_ok hes
      obtain ⟨pre, e, post, os, s', h1, h2, h3, h4⟩ := runAll_failed h
      rw [hv] at h3
      subst h1
      refine ⟨x, u, ctx, pre, e, post, os, s', named_ok hn, ha, by omega, hl.1, ?_, h3, h4⟩
      intro i t e' ht he
      have := mapTx_ok hp (hl.2 i t e' ht he)
      simpa [List.contains_eq_mem] using this
    · exact absurd h (by simp)
  · simp at h

example : simulate demo demoDb none .latest [demoTx 1 2, .invoke1 ⟨1, 0, [], 9, 9, []⟩, demoTx 1 3] [] = .error (.transaction 1) := rfl

/-- What is answered for the first transactions does not depend on those after them. -/
theorem C101_prefix {db : Db} {pend : Option Pending} {id : Id} {txs more : List Tx} {fl : List Flag} {os : List O} {r : Option R}
    (h : simulate env db pend id (txs ++ more) fl = .ok (os, r)) : ∃ r', simulate env db pend id txs fl = .ok (os.take txs.length, r') := by
  have hs := C101_limits (env := env) (sv := false).1 ⟨_, h⟩
  have hs' : ∀ t ∈ txs, Short t := fun t ht => hs t (by simp [ht])
  unfold simulate at h ⊢
  rw [limits_none.2 hs] at h
  rw [limits_none.2 hs']
  have h := joined_ok h
  unfold simulateTask at h ⊢
  obtain ⟨⟨x, u⟩, hn, h⟩ := bind_ok h
  obtain ⟨es, hes, h⟩ := bind_ok h
  obtain ⟨⟨ctx, v⟩, hc, h⟩ := bind_ok h
  obtain ⟨⟨os', s'⟩, hr, h⟩ := bind_ok h
  have h := Res.ok.inj h
  simp only [Prod.mk.injEq] at h
  obtain ⟨h1, _⟩ := h
  obtain ⟨e1, e2, hee, he1⟩ := mapAll_append hes
  rw [hee] at hr
  rw [← h1]
  obtain ⟨s'', hrun⟩ := runs_prefix (runAll_ok hr)
  rw [(mapAll_ok he1).1] at hrun
  have hrun := runAll_of_runs hrun 0
  simp only at hc hrun
  refine ⟨if fl.contains .returnInitialReads then some (env.reads s'') else none, ?_⟩
  simp only [hn, he1, hc, hrun, Res.bind, Res.joined]

example : simulate demo demoDb none .latest ([demoTx 1 2] ++ [demoTx 1 3]) [] = .ok ([(1002, 0), (1003, 0)], none) := rfl

/-- If the block is there with the block ten before it, what is sent can be run, and the library runs it, then there is an answer. -/
theorem C101_answers (hp : Felts env) (hi : ∀ i, env.infoOk i = true) (hfa : ∀ e, env.fromApiOk e = true)
    (hr : ∀ ctx st s e, ∃ o s', env.run ctx st s e = .ok o s') {db : Db} (ho : OneEach db) {pend : Option Pending} {id : Id} {x : Hdr} {u : Option Upd}
    (hn : Names db pend id x u) (hseq : x.sequencer < 2 ^ 251) (hten : 10 ≤ x.number → ∃ y ∈ db.headers, y.number + 10 = x.number) {txs : List Tx}
    (hs : ∀ t ∈ txs, Short t) (hf : ∀ t ∈ txs, Fit env t) (fl : List Flag) (sv : Bool) :
    (∃ a, simulate env db pend id txs fl = .ok a) ∧ ∃ a, estimate env db pend id txs sv = .ok a := by
  have hn := named_of ho hn
  obtain ⟨cv, hc⟩ := context_fit (env := env) (u := u) (kzg := true) hseq hten
  constructor
  · obtain ⟨es, hes⟩ := mapAll_fit hp hi hfa (sv := fl.contains .skipValidate) (sf := fl.contains .skipFeeCharge) hf
    obtain ⟨r, hrun⟩ := runAll_fit hr cv.1 false 0 (env.start cv.1 cv.2) es
    refine ⟨(r.1, if fl.contains .returnInitialReads then some (env.reads r.2) else none), ?_⟩
    unfold simulate
    rw [limits_none.2 hs]
    simp only [simulateTask, hn, hes, hc, hrun, Res.bind, Res.joined]
  · obtain ⟨es, hes⟩ := mapAll_fit hp hi hfa (sv := sv) (sf := true) hf
    obtain ⟨r, hrun⟩ := runAll_fit hr cv.1 true 0 (env.start cv.1 cv.2) es
    refine ⟨r.1, ?_⟩
    unfold estimate
    rw [limits_none.2 hs]
    simp only [estimateTask, hn, hes, hc, hrun, Res.bind, Res.joined]

example : ∀ t ∈ [demoTx 1 2, .declare3 ⟨3, [], 1, ⟨⟨1, 1⟩, ⟨1, 1⟩, none⟩, 0, [], [], .l1, .l1, 6, 7, 8⟩], Short t ∧ Fit demo t := by
  intro t ht
  simp only [List.mem_cons, List.not_mem_nil, or_false] at ht
  rcases ht with rfl | rfl
  · refine ⟨?_, ⟨?_, ?_, ?_, ?_, ?_⟩⟩
    · intro cd sig h; simp only [demoTx, Tx.lists, Option.some.injEq, Prod.mk.injEq] at h; obtain ⟨rfl, rfl⟩ := h; simp
    · intro a h; simp only [demoTx, Tx.address, Option.some.injEq] at h; omega
    · intro a h; simp only [demoTx, Tx.fee, Option.some.injEq] at h; omega
    · intro c h; simp [demoTx, Tx.cls] at h
    · intro c h; simp [demoTx, Tx.cls] at h
    · intro c h; simp [demoTx, Tx.cls] at h
  · refine ⟨?_, ⟨?_, ?_, ?_, ?_, ?_⟩⟩
    · intro cd sig h; simp [Tx.lists] at h
    · intro a h; simp only [Tx.address, Option.some.injEq] at h; omega
    · intro a h; simp [Tx.fee] at h
    · intro c h; exact ⟨_, rfl⟩
    · intro c _ h; simp [Tx.sierra] at h
    · intro c _ _; exact ⟨_, _, _, rfl, rfl, rfl⟩
example : OneEach prunedDb ∧ Names demoDb none (.number 12) (demoHdr 12) none ∧ (demoHdr 12).sequencer < 2 ^ 251 ∧
    ∃ y ∈ demoDb.headers, y.number + 10 = 12 := by
  refine ⟨?_, .number (demoHdr 12) (by decide), by decide, demoHdr 2, by decide, rfl⟩
  intro h hh h' hh' he
  simp only [prunedDb, List.mem_cons, List.not_mem_nil, or_false] at hh hh'
  rcases hh with rfl | rfl | rfl <;> rcases hh' with rfl | rfl | rfl <;> first | rfl | (simp [demoHdr] at he)

/-- Nothing panics for addresses that are addresses. (For others see `C101_address_violated`.) -/
theorem C101_no_panic_partial (hp : Felts env) {db : Db} {pend : Option Pending} {id : Id} {txs : List Tx} (fl : List Flag) (sv : Bool)
    (ha : ∀ t ∈ txs, ∀ a, t.address = some a → a < 2 ^ 251) (hseq : ∀ x u, Names db pend id x u → x.sequencer < 2 ^ 251) :
    simulateTask env db pend id txs fl ≠ .panic ∧ estimateTask env db pend id txs sv ≠ .panic := by
  have hmap : ∀ {sv sf} (ts : List Tx), (∀ t ∈ ts, ∀ a, t.address = some a → a < 2 ^ 251) → mapAll env sv sf ts ≠ .panic := by
    intro sv sf ts
    induction ts with
    | nil => intro _ h; simp [mapAll] at h
    | cons t ts ih =>
      intro hts h
      simp only [mapAll] at h
      rcases bind_panic h with h | ⟨e, _, h⟩
      · unfold mapTx at h
        rcases bind_panic h with h | ⟨i, _, h⟩
        · exact info_panic h
        rcases bind_panic h with h | ⟨d, _, h⟩
        · exact deployedKey_panic hp h
        rcases bind_panic h with h | ⟨c, hv, h⟩
        · exact variant_panic h
        rcases bind_panic h with h | ⟨a, _, h⟩
        · exact toApi_panic (hts t (by simp)) hv h
        · simp only at h; split at h <;> simp at h
      rcases bind_panic h with h | ⟨es, _, h⟩
      · exact ih (fun t ht => hts t (by simp [ht])) h
      · exact absurd h (by simp)
  have hctx : ∀ {x u}, Names db pend id x u → context env db x u true ≠ .panic := by
    intro x u hx h
    unfold context at h
    generalize forVersion env x.version = k at h
    rcases bind_panic h with h | ⟨_, _, h⟩
    · have := key_panic h; have := hseq _ _ hx; omega
    rcases bind_panic h with h | ⟨_, _, h⟩
    · unfold oldHash at h
      split at h
      · rcases bind_panic h with h | ⟨_, _, h⟩
        · exact orErr_panic h
        · exact absurd h (by simp)
      · exact absurd h (by simp)
    · exact absurd h (by simp)
  constructor
  · intro h
    unfold simulateTask at h
    rcases bind_panic h with h | ⟨⟨x, u⟩, hn, h⟩
    · exact named_panic h
    rcases bind_panic h with h | ⟨_, _, h⟩
    · exact hmap txs ha h
    rcases bind_panic h with h | ⟨_, _, h⟩
    · exact hctx (named_ok hn) h
    rcases bind_panic h with h | ⟨_, _, h⟩
    · exact runAll_panic h
    · exact absurd h (by simp)
  · intro h
    unfold estimateTask at h
    rcases bind_panic h with h | ⟨⟨x, u⟩, hn, h⟩
    · exact named_panic h
    rcases bind_panic h with h | ⟨_, _, h⟩
    · exact hmap txs ha h
    rcases bind_panic h with h | ⟨_, _, h⟩
    · exact hctx (named_ok hn) h
    rcases bind_panic h with h | ⟨_, _, h⟩
    · exact runAll_panic h
    · exact absurd h (by simp)

example : ∀ t ∈ [demoTx 1 2], ∀ a, t.address = some a → a < 2 ^ 251 := by
  intro t ht a h
  simp only [List.mem_cons, List.not_mem_nil, or_false] at ht
  subst ht
  simp only [demoTx, Tx.address, Option.some.injEq] at h; omega
example : ∀ x u, Names prunedDb none .latest x u → x.sequencer < 2 ^ 251 := by
  intro x u h
  cases h with
  | latest _ hx _ =>
    simp only [prunedDb, List.mem_cons, List.not_mem_nil, or_false] at hx
    rcases hx with rfl | rfl | rfl <;> decide

/-! ## Constants and flags -/

/-- The constants are those of the greatest known version up to the one of the block, where the operator's come first. -/
theorem C101_constants (v : Nat) : Governs env v (forVersion env v) := governs v

example : forVersion demo (ver 0 13 1 5) = ver 0 13 1 1 ∧ forVersion demo (ver 0 12 0 0) = ver 0 13 0 0 ∧ forVersion demo (ver 0 15 0 0) = ver 0 14 2 0 ∧
    forVersion { demo with custom := [(ver 0 13 1 3, 42)] } (ver 0 13 1 5) = 42 := by decide

/-- Initial reads can be asked for from version 0.10 of the API on, and only the three flags are flags. -/
theorem C101_flags (api : Nat) (s : String) (f : Flag) : parseFlag api s = some f ↔
    (s = "SKIP_FEE_CHARGE" ∧ f = .skipFeeCharge) ∨ (s = "SKIP_VALIDATE" ∧ f = .skipValidate) ∨
    (s = "RETURN_INITIAL_READS" ∧ 10 ≤ api ∧ f = .returnInitialReads) := by
  unfold parseFlag
  constructor
  · intro h
    split at h
    · rename_i hs; exact .inl ⟨hs, by simpa using h.symm⟩
    split at h
    · rename_i hs; exact .inr (.inl ⟨hs, by simpa using h.symm⟩)
    split at h
    · rename_i hs; exact .inr (.inr ⟨hs.1, hs.2, by simpa using h.symm⟩)
    · simp at h
  · rintro (⟨rfl, rfl⟩ | ⟨rfl, rfl⟩ | ⟨rfl, ha, rfl⟩)
    · simp
    · simp
    · simp [ha]

example : parseFlag 9 "RETURN_INITIAL_READS" = none ∧ parseFlag 10 "RETURN_INITIAL_READS" = some .returnInitialReads := by decide

/-! ## Gaps -/

/-- F92: a block that is there cannot be used if the block ten before it has been pruned: whatever is asked, the answer is an internal error. -/
theorem C101_pruned_violated {db : Db} {pend : Option Pending} {x : Hdr} (ho : OneEach db) (hx : x ∈ db.headers) (hten : 10 ≤ x.number)
    (hold : ∀ y ∈ db.headers, y.number + 10 ≠ x.number) (txs : List Tx) (hs : ∀ t ∈ txs, Short t) (fl : List Flag) (sv : Bool) (a sel : Nat)
    (cd : List Nat) (hcd : cd.length ≤ 10000) :
    simulate env db pend (.number x.number) txs fl = .error .internal ∧ estimate env db pend (.number x.number) txs sv = .error .internal ∧
    call env db pend (.number x.number) a sel cd = .error .internal := by
  have hn := named_of ho (pend := pend) (.number x hx)
  have hold' : oldHash db x.number = .err .internal := by
    unfold oldHash
    rw [if_pos hten]
    cases hb : db.byNumber (x.number - 10) with
    | none => rfl
    | some y =>
      obtain ⟨h1, h2⟩ := byNumber_some hb
      exact absurd (by omega) (hold y h1)
  have hctx : ∀ kzg, context env db x none kzg = .err .internal ∨ context env db x none kzg = .panic := by
    intro kzg
    unfold context
    generalize forVersion env x.version = k
    rw [hold']
    unfold key
    split
    · exact .inl rfl
    · exact .inr rfl
  have hmap : ∀ sv sf, (∃ es, mapAll env sv sf txs = .ok es) ∨ mapAll env sv sf txs = .err .internal ∨ mapAll env sv sf txs = .panic := by
    intro sv sf
    cases h : mapAll env sv sf txs with
    | ok es => exact .inl ⟨es, rfl⟩
    | err e => rw [mapAll_err h]; exact .inr (.inl rfl)
    | panic => exact .inr (.inr rfl)
  refine ⟨?_, ?_, ?_⟩
  · unfold simulate
    rw [limits_none.2 hs]
    rcases hmap (fl.contains .skipValidate) (fl.contains .skipFeeCharge) with ⟨es, hes⟩ | hes | hes
    · rcases hctx true with hc | hc <;> simp only [simulateTask, hn, hes, hc, Res.bind, Res.joined]
    · simp only [simulateTask, hn, hes, Res.bind, Res.joined]
    · simp only [simulateTask, hn, hes, Res.bind, Res.joined]
  · unfold estimate
    rw [limits_none.2 hs]
    rcases hmap sv true with ⟨es, hes⟩ | hes | hes
    · rcases hctx true with hc | hc <;> simp only [estimateTask, hn, hes, hc, Res.bind, Res.joined]
    · simp only [estimateTask, hn, hes, Res.bind, Res.joined]
    · simp only [estimateTask, hn, hes, Res.bind, Res.joined]
  · unfold call
    rw [if_neg (by unfold limit; omega)]
    rcases hctx false with hc | hc <;> simp only [callTask, hn, hc, Res.bind, Res.joined]

example : demoHdr 12 ∈ prunedDb.headers ∧ (∀ y ∈ prunedDb.headers, y.number + 10 ≠ (demoHdr 12).number) ∧
    call demo prunedDb none .latest 3 4 [] = .error .internal ∧ call demo demoDb none .latest 3 4 [] = .ok [] := ⟨by decide, by decide, rfl, rfl⟩

/-- F93: a sender of 251 bits or more is taken for an address when the request is read, and ends in a panic: the answer is an internal error, not one
about the request. -/
theorem C101_address_violated {db : Db} {pend : Option Pending} {id : Id} {x : Hdr} {u : Option Upd} (ho : OneEach db) (hn : Names db pend id x u)
    (t : Invoke3) (hs : Short (.invoke3 t)) (hge : 2 ^ 251 ≤ t.sender) (txs : List Tx) (htxs : ∀ t ∈ txs, Short t) (fl : List Flag) (sv : Bool) :
    simulateTask env db pend id (.invoke3 t :: txs) fl = .panic ∧
    simulate env db pend id (.invoke3 t :: txs) fl = .error .internal ∧ estimate env db pend id (.invoke3 t :: txs) sv = .error .internal := by
  have hn := named_of ho hn
  have hm : ∀ sv sf, mapAll env sv sf (.invoke3 t :: txs) = .panic := by
    intro sv sf
    have hk : key t.sender = .panic := by unfold key; rw [if_neg (by omega)]
    simp only [mapAll, mapTx, classInfo, deployedKey, variant, toApi, hk, Res.bind]
  have hall : ∀ t' ∈ Tx.invoke3 t :: txs, Short t' := by
    intro t' ht'
    rcases List.mem_cons.1 ht' with rfl | h
    · exact hs
    · exact htxs t' h
  have hp : simulateTask env db pend id (.invoke3 t :: txs) fl = .panic := by
    simp only [simulateTask, hn, hm, Res.bind]
  refine ⟨hp, ?_, ?_⟩
  · unfold simulate
    rw [limits_none.2 hall, hp]
    rfl
  · unfold estimate
    rw [limits_none.2 hall]
    simp only [estimateTask, hn, hm, Res.bind, Res.joined]

example : Short (.invoke3 ⟨3, [], 1, ⟨⟨1, 1⟩, ⟨1, 1⟩, none⟩, 0, [], [], .l1, .l1, 2 ^ 251, [], [], []⟩) := by
  intro cd sig h
  simp only [Tx.lists, Option.some.injEq, Prod.mk.injEq] at h
  obtain ⟨rfl, rfl⟩ := h
  simp

/-- F94: an entry point that is there and fails with the one word "ENTRYPOINT_NOT_FOUND" is reported as not being there. -/
theorem C101_entry_point_violated {db : Db} {pend : Option Pending} {id : Id} {x : Hdr} {u : Option Upd} (ho : OneEach db) (hn : Names db pend id x u)
    (hseq : x.sequencer < 2 ^ 251) (hten : 10 ≤ x.number → ∃ y ∈ db.headers, y.number + 10 = x.number) {a sel : Nat} {cd : List Nat}
    (ha : a < 2 ^ 251) (hcd : cd.length ≤ 10000) (hcall : ∀ ctx v, env.call ctx v a sel cd = .returned true [entrypointNotFound]) :
    call env db pend id a sel cd = .error .entrypointNotFound := by
  have hn := named_of ho hn
  obtain ⟨cv, hc⟩ := context_fit (env := env) (u := u) (kzg := false) hseq hten
  unfold call
  rw [if_neg (by unfold limit; omega)]
  simp only [callTask, hn, hc, Res.bind, if_pos ha, hcall, callAnswer, if_true, Res.joined]

example : (∀ ctx v, demo.call ctx v 3 7 [] = .returned true [entrypointNotFound]) ∧ call demo demoDb none .latest 3 7 [] = .error .entrypointNotFound :=
  ⟨fun _ _ => rfl, rfl⟩

/-- F95: a contract that a pending block deploys is "not found" for the estimate of a message on the pre-confirmed block, from version 0.10 of the API
on. -/
theorem C101_pending_contract_violated {db : Db} {p : Pending} {m : Message} {api : Nat} (hapi : 10 ≤ api) (hlen : m.payload.length ≤ 10000)
    (_hdep : m.target ∈ p.update.deployed) (hno : ∀ n, (m.target, n) ∉ db.contracts) :
    estimateMessage env api db (some p) .preConfirmed m = .error .contractNotFound := by
  have hx : db.contractExists m.target p.header.number = false := by
    cases h : db.contractExists m.target p.header.number with
    | false => rfl
    | true =>
      unfold Db.contractExists at h
      obtain ⟨⟨c, n⟩, hmem, hcn⟩ := List.any_eq_true.1 h
      simp only [Bool.and_eq_true, decide_eq_true_eq] at hcn
      obtain ⟨rfl, _⟩ := hcn
      exact absurd hmem (hno n)
  unfold estimateMessage
  rw [if_neg (by unfold limit; omega)]
  simp only [messageTask, named, orErr, Res.bind, if_pos (And.intro hapi hx), Res.joined]

example : estimateMessage demo 10 demoDb (some ⟨demoHdr 13, ⟨[4], 0⟩⟩) .preConfirmed ⟨9, 4, 4, []⟩ = .error .contractNotFound ∧
    estimateMessage demo 9 demoDb (some ⟨demoHdr 13, ⟨[4], 0⟩⟩) .preConfirmed ⟨9, 4, 4, []⟩ = .ok (5, 1) := ⟨rfl, rfl⟩

end Verif.Sim
