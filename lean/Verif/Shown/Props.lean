import Verif.Shown.Diffs
import Verif.Block.TxProps
/-!
# What the JSON-RPC API shows is what is stored (C93)
-/
namespace Verif.Shown
open Verif.Shown.Spec
open Verif.Block (F P Txn Bound V3 Msg Event Header Hashes Chain)
open Verif.Diff (SU CUpd ClassUpd)

/-! ## Numbers -/

/-- C93, numbers. A number of `w` bytes is written in the one way that the specification allows, by both writers of hexadecimal text, and a client reads
it back. -/
theorem C93_hex (w n : Nat) (h : n < 256 ^ w) :
    Canonical (hexStripped (beBytes w n)) ∧ number (hexStripped (beBytes w n)) = some n ∧
      hexSerde (beBytes w n) = hexStripped (beBytes w n) := by
  refine ⟨stripped_canonical _ (beBytes_lt w n), ?_, serde_stripped _ (beBytes_lt w n)⟩
  rw [number_stripped _ (beBytes_lt w n), value_beBytes w n h]

example : (2 ^ 251 + 17 * 2 ^ 192) < 256 ^ 32 := by decide
example : hexStripped (beBytes 32 0) = "0x0".toList ∧ hexStripped (beBytes 32 0x0a0b) = "0xa0b".toList ∧
    hexSerde (beBytes 8 256) = "0x100".toList := by decide

/-- C93, numbers in requests. A field element is read from text exactly if it has at most 64 digits of either case, after `0x` or not, and
their value is below the prime; that value is read. Missing: a text without a digit is to be refused. -/
theorem C93_hex_read_partial (s : List Char) (n : Nat) :
    readFelt P s = some n ↔ (digitsOf s).length ≤ 64 ∧ (all digit (digitsOf s)).map (value 16) = some n ∧ n < P := by
  have e := fromHexStr_value 32 s
  unfold readFelt
  by_cases h : (digitsOf s).length ≤ 64
  · rw [if_pos (by omega)] at e
    cases hd : all digit (digitsOf s) with
    | none =>
      rw [hd] at e
      cases hf : fromHexStr 32 s with
      | none => simp
      | some b => rw [hf] at e; simp at e
    | some d =>
      rw [hd] at e
      cases hf : fromHexStr 32 s with
      | none => rw [hf] at e; simp at e
      | some b =>
        rw [hf] at e
        simp only [Option.map_some, Option.some.injEq] at e
        simp only [Option.bind_some, e, Option.map_some, Option.some.injEq, h, true_and]
        by_cases hp : value 16 d < P
        · rw [if_pos hp]
          simp only [Option.some.injEq]
          exact ⟨fun g => ⟨g, g ▸ hp⟩, fun g => g.1⟩
        · rw [if_neg hp]
          simp only [reduceCtorEq, false_iff, not_and]
          rintro rfl
          exact hp
  · rw [if_neg (by omega)] at e
    cases hf : fromHexStr 32 s with
    | none => simp [h]
    | some b => rw [hf] at e; simp at e

example : readFelt P "0x00fF".toList = some 255 ∧ readFelt P "ff".toList = some 255 ∧ readFelt P "0xfg".toList = none := by decide +kernel

/-- A text without a digit is not a number, and is read as zero; a number of 64 bits may have a plus sign. -/
theorem C93_hex_read_violated :
    (number [] = none ∧ readFelt P [] = some 0 ∧ readU128 [] = some 0) ∧
    (number ['0', 'x'] = none ∧ readFelt P ['0', 'x'] = some 0 ∧ readU128 ['0', 'x'] = some 0) ∧
    (∀ s n, readU64 ('0' :: 'x' :: s) = some n → s.head? ≠ some '+' → readU64 ('0' :: 'x' :: '+' :: s) = some n ∧
      number ('0' :: 'x' :: '+' :: s) = none) := by
  refine ⟨by decide +kernel, by decide +kernel, ?_⟩
  intro s n h hs
  constructor
  · rw [← h]
    unfold readU64 fromStrRadix16
    cases s with
    | nil => simp
    | cons c s =>
      have hc : c ≠ '+' := by rintro rfl; exact hs rfl
      simp
      split
      · rename_i heq; injection heq with h1 h2; exact absurd h1 hc
      · rfl
  · have : digit '+' = none := by decide
    simp [number, all, this]

/-- C93: the three kinds of numbers in requests, if written as in answers, are read back. -/
theorem C93_hex_roundtrip :
    (∀ n, n < P → readFelt P (hexStripped (beBytes 32 n)) = some n) ∧ (∀ n, n < 2 ^ 64 → readU64 (hexStripped (beBytes 8 n)) = some n) ∧
      ∀ n, n < 2 ^ 128 → readU128 (hexStripped (beBytes 16 n)) = some n := by
  refine ⟨fun n h => ?_, fun n h => ?_, fun n h => ?_⟩
  · rw [C93_hex_read_partial]
    have hP : P < 256 ^ 32 := by decide
    obtain ⟨h1, h2, -⟩ := stripped_digits 32 n (by decide) (by omega)
    exact ⟨h1, h2, h⟩
  · obtain ⟨-, h2, h3, d, ds, hd⟩ := stripped_digits 8 n (by decide) (by omega)
    rw [hd] at h2 h3 ⊢
    simp only [digitsOf] at h2 h3
    simp only [readU64]
    unfold fromStrRadix16
    have hne : d ≠ '+' := by rintro rfl; exact h3 rfl
    split
    · rename_i heq; injection heq with e1 _; exact absurd e1 hne
    · simp only [parseDigits_spec]
      obtain ⟨l, hl, rfl⟩ := Option.map_eq_some_iff.mp h2
      simp [hl, foldl16_value, h]
  · rw [readU128, fromHexStr_value]
    obtain ⟨h1, h2, -⟩ := stripped_digits 16 n (by decide) (by omega)
    rw [if_pos h1, h2]

example : readU64 "0xff".toList = some 255 ∧ readU128 (hexStripped (beBytes 16 (2 ^ 127))) = some (2 ^ 127) := by decide +kernel

/-! ## Transactions -/

theorem dataGas_same {v : Ver} {x : V3} (h : v.ge .v08 = true ∧ x.l1DataGas ≠ none) : dataGas v x.l1DataGas = x.l1DataGas := by
  obtain ⟨h1, h2⟩ := h
  cases e : x.l1DataGas with
  | none => exact absurd e h2
  | some d => simp [dataGas, h1]

theorem seen_full (h : Hashes) (v : Ver) (pf : Bool) (t : Txn) (ha : t.withAddress h = t)
    (hd : ∀ x ∈ v3Of t, v.ge .v08 = true ∧ x.l1DataGas ≠ none) (hp : proofFactsOf t = [] ∨ (pf = true ∧ v.ge .v10 = true)) :
    (seenTx v pf t).withAddress h = shownPart t := by
  cases t with
  | declareV3 t => simp only [seenTx, Txn.withAddress, shownPart, dataGas_same (hd t.v3 rfl)]
  | deployV0 t => exact ha
  | deployV1 t => exact ha
  | deployAccountV1 t => exact ha
  | deployAccountV3 t =>
    simp only [seenTx, dataGas_same (hd t.v3 rfl)]
    exact ha
  | invokeV3 t =>
    simp only [seenTx, Txn.withAddress, shownPart, dataGas_same (hd t.v3 rfl)]
    rcases hp with hp | ⟨h1, h2⟩
    · simp only [proofFactsOf] at hp
      simp [← hp]
    · simp [h1, h2]
  | _ => rfl

/-- C93, transactions. From what is shown of a stored transaction, in an answer of its own or with its hash in a block, a client gets the
transaction back: its kind, its version and all of its fields. The address of a deployed contract follows from the rest. Missing: only from
version 0.8 on and with a bound for data gas, if the transaction is of version 3, and proof facts only from 0.10 on and if asked for; and the
two fields that no answer has. -/
theorem C93_transaction_partial (h : Hashes) (v : Ver) (pf : Bool) (hash : F) (t : Txn) (ht : ∀ x ∈ v3Of t, x.Ok) (ha : t.withAddress h = t)
    (hd : ∀ x ∈ v3Of t, v.ge .v08 = true ∧ x.l1DataGas ≠ none) (hp : proofFactsOf t = [] ∨ (pf = true ∧ v.ge .v10 = true)) :
    fullTx h (showTx v pf t) = some (shownPart t) ∧ fullTx h (showTxHash v pf hash t) = some (shownPart t) ∧
      (Spec.get "transaction_hash" (showTxHash v pf hash t)).bind elem = some hash := by
  have e := seen_full h v pf t ha hd hp
  refine ⟨?_, ?_, (txHash_read v pf hash t ht).2⟩
  · rw [fullTx, tx_plain v pf t ht, Option.map_some, e]
  · rw [fullTx, (txHash_read v pf hash t ht).1, Option.map_some, e]

/-- C93: a client can check a transaction against its hash by computing the hash from what is shown. -/
theorem C93_transaction_hash_partial (h : Hashes) (v : Ver) (pf : Bool) (chainId : F) (t : Txn) (ht : ∀ x ∈ v3Of t, x.Ok) (ha : t.withAddress h = t)
    (hd : ∀ x ∈ v3Of t, v.ge .v08 = true ∧ x.l1DataGas ≠ none) (hp : proofFactsOf t = [] ∨ (pf = true ∧ v.ge .v10 = true)) :
    (fullTx h (showTx v pf t)).map (·.hash h chainId false) = some (t.hash h chainId false) := by
  rw [(C93_transaction_partial h v pf 0 t ht ha hd hp).1]
  cases t <;> rfl

/-- An invoke transaction for examples. -/
def exampleV3 : V3 := ⟨false, true, ⟨5, 7⟩, ⟨0, 0⟩, some ⟨11, 13⟩, 3, [8]⟩

def exampleTx : Txn := .invokeV3 ⟨[1, 2], 3, exampleV3, [], [9, 10], 77, [4]⟩

example : (∀ x ∈ v3Of exampleTx, x.Ok) ∧ exampleTx.withAddress Verif.Block.toyHashes = exampleTx ∧
    (∀ x ∈ v3Of exampleTx, Ver.v10.ge .v08 = true ∧ x.l1DataGas ≠ none) ∧ proofFactsOf exampleTx ≠ [] := by
  refine ⟨?_, rfl, ?_, by decide⟩ <;> intro x hx <;> simp only [exampleTx, v3Of, Option.mem_def, Option.some.injEq] at hx <;> subst hx
  · exact ⟨by simp [exampleV3, Bound.Ok], by simp [exampleV3, Bound.Ok], by simp [exampleV3, Bound.Ok], by decide⟩
  · exact ⟨rfl, by decide⟩

/-- No bound for data gas and a bound of zero are shown alike at every version, and below 0.8 all bounds are, though the hashes of the
transactions differ unless the hash function collides. -/
theorem C93_data_gas_violated (h : Hashes) (v : Ver) (pf : Bool) (chainId : F) (t : Txn) (ht : v3Of t ≠ none) :
    showTx v pf (withDataGas none t) = showTx v pf (withDataGas (some ⟨0, 0⟩) t) ∧
    (v.ge .v08 = false → ∀ d d', showTx v pf (withDataGas d t) = showTx v pf (withDataGas d' t)) ∧
    ((withDataGas none t).hash h chainId false = (withDataGas (some ⟨0, 0⟩) t).hash h chainId false →
      ∃ l l', l ≠ l' ∧ h.many l = h.many l') := by
  have b1 : ∀ x : V3, showBounds v { x with l1DataGas := none } = showBounds v { x with l1DataGas := some ⟨0, 0⟩ } := fun _ => rfl
  have b2 : v.ge .v08 = false → ∀ (x : V3) d d', showBounds v { x with l1DataGas := d } = showBounds v { x with l1DataGas := d' } := by
    intro hv x d d'
    simp [showBounds, hv]
  have key : ∀ (pre : String) (q : Bool) (s n c : F) (x : V3) (data pfs : List F),
      Verif.Block.v3Hash h pre q s n c { x with l1DataGas := none } data pfs =
        Verif.Block.v3Hash h pre q s n c { x with l1DataGas := some ⟨0, 0⟩ } data pfs → ∃ l l', l ≠ l' ∧ h.many l = h.many l' := by
    intro pre q s n c x data pfs e
    by_cases hl : Verif.Block.feeHash h { x with l1DataGas := none } = Verif.Block.feeHash h { x with l1DataGas := some ⟨0, 0⟩ }
    · exact ⟨_, _, by
        intro hh
        have := congrArg List.length hh
        simp at this, hl⟩
    · refine ⟨_, _, ?_, e⟩
      intro hh
      simp only [List.cons_append, List.nil_append, List.cons.injEq] at hh
      exact hl hh.2.2.2.1
  cases t with
  | declareV3 t =>
    refine ⟨rfl, fun hv d d' => ?_, key _ _ _ _ _ t.v3 _ _⟩
    simp only [withDataGas, showTx, b2 hv t.v3 d d']
  | deployAccountV3 t =>
    refine ⟨rfl, fun hv d d' => ?_, key _ _ _ _ _ t.v3 _ _⟩
    simp only [withDataGas, showTx, b2 hv t.v3 d d']
  | invokeV3 t =>
    refine ⟨rfl, fun hv d d' => ?_, key _ _ _ _ _ t.v3 _ _⟩
    simp only [withDataGas, showTx, b2 hv t.v3 d d']
  | _ => exact absurd rfl ht

example : v3Of exampleTx ≠ none := by decide

/-- Proof facts are not shown below 0.10 or if not asked for: transactions that differ in them alone look the same. -/
theorem C93_proof_facts_violated (v : Ver) (pf : Bool) (hv : pf = false ∨ v.ge .v10 = false) (t : Verif.Block.InvokeV3) (facts : List F) :
    showTx v pf (.invokeV3 { t with proofFacts := facts }) = showTx v pf (.invokeV3 t) := by
  have : (pf && v.ge .v10) = false := by rcases hv with rfl | hv <;> simp_all
  simp only [showTx, this, Bool.false_eq_true, if_false]

/-! ## Receipts -/

/-- C93, receipts. From what is shown of a stored receipt a client gets back the kind and the hash of the transaction, the fee and its currency
(FRI exactly for transactions of version 3), the finality, the messages and the events in their order, whether and why it was reverted, and the
address of the deployed contract; and with it the block. -/
theorem C93_receipt (h : Hashes) (hh : ∀ b, h.keccak b < 2 ^ 256) (v : Ver) (bh : Option F) (bn : Nat) (hash : F) (t : Txn) (r : Rcpt)
    (es : List Event) (f : Finality) :
    ∃ s, receipt (showReceipt h v hash t r es f) = some s ∧ receipt (showReceiptAt h v bh bn hash t r es f) = some s ∧
      s.kind = kindOf t ∧ s.hash = hash ∧ s.fee = r.fee ∧ (s.unit = .fri ↔ v3Of t ≠ none) ∧ s.finality = f ∧ s.messages = r.messages ∧
      s.events = es ∧ s.reverted = r.reverted ∧ s.address = addressOf t ∧
      opt "block_hash" elem (showReceiptAt h v bh bn hash t r es f) = some bh ∧
      opt "block_number" num (showReceiptAt h v bh bn hash t r es f) =
        some (if v.ge .v09 = false ∧ bh = none then none else some bn) := by
  obtain ⟨post, e, hp, hb, hnum⟩ : ∃ post, showReceiptAt h v bh bn hash t r es f = mk (flat (showReceipt h v hash t r es f) ++ post) ∧
      (∀ k, k ≠ "block_hash" → k ≠ "block_number" → last k post = none) ∧ last "block_hash" post = bh.map hexF ∧
      last "block_number" post = if v.ge .v09 = false ∧ bh = none then none else some (.num bn) := by
    refine ⟨_, by unfold showReceiptAt; rw [List.append_assoc], ?_, ?_, ?_⟩
    · intro k h1 h2
      cases bh <;> cases v.ge .v09 <;> simp [last, Ne.symm h1, Ne.symm h2]
    · cases bh <;> cases v.ge .v09 <;> simp [last]
    · cases bh <;> cases v.ge .v09 <;> simp [last]
  have hn : ∀ k, k = "block_hash" ∨ k = "block_number" → last k (flat (showReceipt h v hash t r es f)) = none := by
    intro k hk
    have hc := last_common v hash t r es f k (by rcases hk with rfl | rfl <;> simp)
    rw [showReceipt_fields, last_flat]
    unfold receiptFields
    cases t <;> simp only [last_append, hc] <;> rcases hk with rfl | rfl <;> simp [last]
  refine ⟨seenReceipt h hash t r es f, receipt_plain h hh v hash t r es f, ?_, rfl, rfl, rfl, ?_, rfl, rfl, rfl, rfl, rfl, ?_, ?_⟩
  · rw [e]
    exact receipt_read h hh v hash t r es f _ hp
  · cases t <;> simp [seenReceipt, versionOf, v3Of]
  · rw [e, opt_mk, last_append, hn _ (.inl rfl), hb]
    cases bh <;> simp [elem_hexF]
  · rw [e, opt_mk, last_append, hn _ (.inr rfl), hnum]
    cases bh <;> cases v.ge .v09 <;> simp [num_num]

example : ∃ h : Hashes, ∀ b, h.keccak b < 2 ^ 256 := ⟨⟨fun _ _ => 0, fun _ _ => 0, fun _ => 0, fun b => b.length % 7⟩, fun b => by
  show b.length % 7 < _
  omega⟩

/-- C93, resources. From 0.8 on the three amounts of gas are shown; before, the steps, the memory holes and the counters of seven builtins and
of the segment arena, and, from 0.7 on, the gas for data availability. Missing: four builtins are never shown, and none of them since 0.8. -/
theorem C93_resources_partial (h : Hashes) (v : Ver) (hash : F) (t : Txn) (r : Rcpt) (es : List Event) (f : Finality) :
    ∃ j, Spec.get "execution_resources" (showReceipt h v hash t r es f) = some j ∧
      (v.ge .v08 = true → gasUsed j = some ⟨r.resources.l1Gas, r.resources.l1DataGas, r.resources.l2Gas⟩) ∧
      (v.ge .v08 = false → counters j = some ⟨r.resources.steps, r.resources.memoryHoles, r.resources.builtins.rangeCheck,
        r.resources.builtins.pedersen, r.resources.builtins.poseidon, r.resources.builtins.ecOp, r.resources.builtins.ecdsa,
        r.resources.builtins.bitwise, r.resources.builtins.keccak, r.resources.builtins.segmentArena,
        if v = .v06 then none else some (r.resources.daL1Gas, r.resources.daL1DataGas)⟩) := by
  have g := (fields_common h v hash t r es f [] (by intros; rfl)).resources
  rw [List.append_nil] at g
  refine ⟨showResources v r.resources, ?_, gas_read v r.resources, counters_read v r.resources⟩
  rw [showReceipt_fields] at g ⊢
  rw [get_mk, ← last_flat]
  exact g

/-- C93, messages. The receipt of an L1 handler transaction shows the hash of the message that it handles, as the contract on Ethereum computes
it; other receipts show none. -/
theorem C93_message_hash (h : Hashes) (hh : ∀ b, h.keccak b < 2 ^ 256) (v : Ver) (hash : F) (t : Txn) (r : Rcpt) (es : List Event) (f : Finality)
    (ht : ∀ l, t = .l1Handler l → l.calldata ≠ [] ∧ l.calldata.length < 2 ^ 64) :
    (receipt (showReceipt h v hash t r es f)).map (·.messageHash) = some ((messageOf t).map (Spec.messageHash h)) := by
  rw [receipt_plain h hh, Option.map_some]
  congr 1
  cases t with
  | l1Handler l =>
    obtain ⟨h1, h2⟩ := ht l rfl
    obtain ⟨a, s, n, cd⟩ := l
    cases cd with
    | nil => exact absurd rfl h1
    | cons x xs =>
      simp only [seenReceipt, messageOf, Shown.messageHash, List.head?_cons, Option.map_some, List.drop_one, List.tail_cons, Spec.messageHash]
      rw [messageBytes_spec]
      simp only [List.length_cons] at h2
      omega
  | _ => rfl

/-- C93: different messages have different hashes unless Keccak collides. -/
theorem C93_message_unique (h : Hashes) (m m' : F × F × F × F × List F) (hm : m.2.2.2.2.length < 2 ^ 64) (hm' : m'.2.2.2.2.length < 2 ^ 64)
    (e : Spec.messageHash h m = Spec.messageHash h m') : m = m' ∨ ∃ x y, x ≠ y ∧ h.keccak x = h.keccak y := by
  obtain ⟨a, b, c, d, l⟩ := m
  obtain ⟨a', b', c', d', l'⟩ := m'
  by_cases hw : ([a.val, b.val, c.val, d.val, l.length] ++ l.map (·.val)) = ([a'.val, b'.val, c'.val, d'.val, l'.length] ++ l'.map (·.val))
  · left
    simp only [List.cons_append, List.nil_append, List.cons.injEq] at hw
    obtain ⟨h1, h2, h3, h4, -, h5⟩ := hw
    have hl : l = l' := by
      have key : ∀ l l' : List F, l.map (·.val) = l'.map (·.val) → l = l' := by
        intro l
        induction l with
        | nil => intro l' e; cases l' with
          | nil => rfl
          | cons => simp at e
        | cons x l ih =>
          intro l' e
          cases l' with
          | nil => simp at e
          | cons y l' =>
            simp only [List.map_cons, List.cons.injEq] at e
            rw [Fin.ext e.1, ih l' e.2]
      exact key l l' h5
    rw [Fin.ext h1, Fin.ext h2, Fin.ext h3, Fin.ext h4, hl]
  · right
    refine ⟨_, _, fun he => hw (words_inj ?_ ?_ he), e⟩ <;>
    · intro n hn
      have hP : P < 2 ^ 256 := by decide
      simp only [List.cons_append, List.nil_append, List.mem_cons, List.mem_map] at hn
      rcases hn with rfl | rfl | rfl | rfl | rfl | ⟨y, -, rfl⟩
      · omega
      · omega
      · omega
      · omega
      · simp only at hm hm'; omega
      · have := y.isLt; omega

example : Spec.messageHash Verif.Block.toyHashes (1, 2, 3, 4, [5, 6]) ≠ Spec.messageHash Verif.Block.toyHashes (1, 2, 3, 4, [6, 5]) := by
  decide +kernel

/-! ## Headers and blocks -/

/-- C93, headers. From 0.10 on a client gets back the whole header of a block since Starknet 0.13.2, alone or in a block with transactions or
receipts, and so can check its hash. Missing: the versions before 0.10, which have no commitments and counts, and older blocks. -/
theorem C93_header_partial (h : Hashes) (v : Ver) (pf l1 : Bool) (b : Header) (body : Body) (hb : b.Ok) (hv : v.ge .v10 = true)
    (hver : Verif.Block.before b.version Verif.Block.v0132 = false) :
    header (showHeader v b) = some b ∧ header (showBlockTxs v pf l1 b body) = some b ∧ header (showBlockReceipts h v pf l1 b body) = some b := by
  refine ⟨?_, blockTxs_header v pf l1 b body hb hv hver, blockReceipts_header h v pf l1 b body hb hv hver⟩
  unfold showHeader
  refine header_read v b hb hv hver _ ?_
  intro k _
  rw [showHeader, last_flat]

example : Verif.Block.toyHeader.Ok ∧ Verif.Block.before Verif.Block.toyHeader.version Verif.Block.v0132 = false := ⟨by constructor <;> decide, by decide⟩

/-- Of the blocks before Starknet 0.13.2 the commitments to the transactions and events are shown as zero, though they are stored and the hash of the
block covers them. -/
theorem C93_header_violated (v : Ver) (b : Header) (hver : Verif.Block.before b.version Verif.Block.v0132 = true) (x y : F) :
    showHeader v { b with eventCommitment := x, transactionCommitment := y } = showHeader v b := by
  simp only [showHeader, hver, if_true]

/-- A block of that time. -/
def oldHeader : Header :=
  let b := { Verif.Block.toyHeader with version := ⟨0, 13, 1, 0⟩, number := 900 }
  { b with hash := Verif.Block.hashPre0132 Verif.Block.toyHashes b }

/-- Of two headers that look the same one has its hash and the other not. -/
theorem C93_header_unchecked_violated : ∃ b b' : Header, (∀ v, showHeader v b = showHeader v b') ∧
    Verif.Block.verifyBlockHash Verif.Block.toyHashes b .sepoliaTestnet 0 = some true ∧
    Verif.Block.verifyBlockHash Verif.Block.toyHashes b' .sepoliaTestnet 0 = some false :=
  ⟨oldHeader, { oldHeader with eventCommitment := oldHeader.eventCommitment + 1 },
    fun v => (C93_header_violated v oldHeader (by decide) (oldHeader.eventCommitment + 1) oldHeader.transactionCommitment).symm,
    by decide +kernel, by decide +kernel⟩

/-- C93, blocks. A block with transactions lists all of them in their order with their hashes; one with receipts lists each transaction with its receipt;
both say whether the block is accepted on L1. -/
theorem C93_block (h : Hashes) (hh : ∀ b, h.keccak b < 2 ^ 256) (v : Ver) (pf l1 : Bool) (b : Header) (body : Body)
    (hf : ∀ x ∈ body, ∀ y ∈ v3Of x.2.1, y.Ok) :
    (∃ l, blockTxs (showBlockTxs v pf l1 b body) = some (l, if l1 then .acceptedOnL1 else .acceptedOnL2) ∧
      l.map (·.1) = body.map (·.1) ∧ l.map (fun x => some x.2) = body.map fun x => Spec.tx (showTx v pf x.2.1)) ∧
    ∃ l, blockReceipts (showBlockReceipts h v pf l1 b body) = some (l, if l1 then .acceptedOnL1 else .acceptedOnL2) ∧
      l.map (fun x => some x.1) = (body.map fun x => Spec.tx (showTx v pf x.2.1)) ∧
      l.map (fun x => some x.2) =
        body.map fun x => receipt (showReceipt h v x.1 x.2.1 x.2.2.1 x.2.2.2 (if l1 then .acceptedOnL1 else .acceptedOnL2)) := by
  refine ⟨⟨_, blockTxs_read v pf l1 b body hf, ?_, ?_⟩, _, blockReceipts_read h hh v pf l1 b body hf, ?_, ?_⟩
  · rw [List.map_map]; rfl
  · rw [List.map_map]
    exact List.map_congr_left fun x hx => (tx_plain v pf x.2.1 (hf x hx)).symm
  · rw [List.map_map]
    exact List.map_congr_left fun x hx => (tx_plain v pf x.2.1 (hf x hx)).symm
  · rw [List.map_map]
    exact List.map_congr_left fun x hx => (receipt_plain h hh v x.1 x.2.1 x.2.2.1 x.2.2.2 _).symm

/-! ## State updates -/

/-- C93, state updates. The changes that are listed are those of the state update, each of them once: storage of ordinary and system contracts, new and
replaced classes, nonces, declared and migrated classes; with the hash of the block and the two roots. Missing: migrated classes only from 0.10 on. -/
theorem C93_state_update_partial (v : Ver) (bh old new : F) (u : SU) (hr : InRange u) (hm : Maps u) :
    ∃ d l, Spec.get "state_diff" (showUpdate v bh old new u) = some d ∧ changes d = some l ∧ l.Nodup ∧
      (∀ c, c ∈ l ↔ Changes u c ∧ (v.ge .v10 = false → ∀ a b, c ≠ .migrate a b)) ∧
      (Spec.get "block_hash" (showUpdate v bh old new u)).bind elem = some bh ∧
      (Spec.get "old_root" (showUpdate v bh old new u)).bind elem = some old ∧
      (Spec.get "new_root" (showUpdate v bh old new u)).bind elem = some new := by
  refine ⟨showDiff v u, seenChanges v u, ?_, changes_read v u hr, changes_nodup v u hm, mem_changes v u, ?_, ?_, ?_⟩ <;>
    simp [showUpdate, get_mk, last, elem_hexF]

/-- A state update for examples. -/
def exampleUpdate : SU :=
  ⟨[(5, ⟨[(1, 2), (3, 0)], some (.deploy 7), some 1⟩), (6, ⟨[], some (.replace 8), none⟩)], [(1, [(9, 10)])], [20], [(21, 22)], [(23, 24)]⟩

example : InRange exampleUpdate ∧ Maps exampleUpdate := by
  have hP : 100 < P := by decide
  refine ⟨⟨?_, ?_, ?_, ?_, ?_⟩, ⟨by decide, by decide, by decide, ?_, ?_, by decide, by decide, by decide⟩⟩
  · intro a c h
    simp only [exampleUpdate, List.mem_cons, Prod.mk.injEq, List.not_mem_nil, or_false] at h
    rcases h with ⟨rfl, rfl⟩ | ⟨rfl, rfl⟩
    · refine ⟨by omega, ?_, ?_, ?_⟩
      · intro k v h
        simp only [List.mem_cons, Prod.mk.injEq, List.not_mem_nil, or_false] at h
        omega
      · intro n h; simp at h; omega
      · intro n h; simp at h; subst h; show 7 < P; omega
    · refine ⟨by omega, by simp, by simp, ?_⟩
      intro n h; simp at h; subst h; show 8 < P; omega
  · intro a s h
    simp only [exampleUpdate, List.mem_cons, Prod.mk.injEq, List.not_mem_nil, or_false] at h
    obtain ⟨rfl, rfl⟩ := h
    refine ⟨by omega, ?_⟩
    intro k v h
    simp only [List.mem_cons, Prod.mk.injEq, List.not_mem_nil, or_false] at h
    omega
  · intro c h
    simp only [exampleUpdate, List.mem_cons, List.not_mem_nil, or_false] at h
    omega
  · intro c x h
    simp only [exampleUpdate, List.mem_cons, Prod.mk.injEq, List.not_mem_nil, or_false] at h
    omega
  · intro c x h
    simp only [exampleUpdate, List.mem_cons, Prod.mk.injEq, List.not_mem_nil, or_false] at h
    omega
  · intro a c h
    simp only [exampleUpdate, List.mem_cons, Prod.mk.injEq, List.not_mem_nil, or_false] at h
    rcases h with ⟨rfl, rfl⟩ | ⟨rfl, rfl⟩ <;> decide
  · intro a s h
    simp only [exampleUpdate, List.mem_cons, Prod.mk.injEq, List.not_mem_nil, or_false] at h
    obtain ⟨rfl, rfl⟩ := h
    decide

end Verif.Shown
