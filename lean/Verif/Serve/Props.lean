import Verif.Serve.StreamLemmas
import Verif.Block.TxProps
/-!
# C90: blocks served to peers arrive
-/
namespace Verif.Serve

open Verif.Sync Verif.Block
open Verif.State (Update Op OpsOk NoPrune CleanReorgs ChainOk Track isSystem)

variable {P T E : Type}

/-! ## Which blocks are in an answer -/

/-- **C90.** The answer to a request holds the items of the blocks asked for, in the order asked for, at most a hundred blocks, up to the first
that is not stored, and then the end mark. A request for a block hash that is not known, or for a number that is none, gets the end mark. -/
theorem C90_answer (numberOf : Nat → Option Nat) (handler : Nat → List T × Handled) (has : Nat → Bool) (items : Nat → List T)
    (hh : ∀ n, handler n = if has n then (items n, .next) else ([], .missing)) (it : Iteration)
    (hb : ∀ h n, numberOf h = some n → n < 2 ^ 63) :
    iterate numberOf handler it =
      match it.start with
      | .number n => if n < 2 ^ 63 then ((servedBlocks has n it.step it.limit it.forward).flatMap items).map some ++ [none] else [none]
      | .hash h => match numberOf h with
        | some n => ((servedBlocks has n it.step it.limit it.forward).flatMap items).map some ++ [none]
        | none => [none] := by
  cases hs : it.start with
  | number n =>
    by_cases hn : n < 2 ^ 63
    · simp only [if_pos hn]
      exact iterate_eq numberOf handler has items hh it n hn (by rw [hs]; exact if_pos hn)
    · simp only [if_neg hn]
      unfold iterate
      split
      · rfl
      · have : startNumber numberOf it.start = none := by rw [hs]; exact if_neg hn
        rw [this]
  | hash h =>
    simp only
    cases hn : numberOf h with
    | some n => exact iterate_eq numberOf handler has items hh it n (hb h n hn) (by rw [hs]; exact hn)
    | none =>
      simp only
      unfold iterate
      split
      · rfl
      · have : startNumber numberOf it.start = none := by rw [hs]; exact hn
        rw [this]

/-- Each of the servers answers in this way: headers of the blocks with a signature; the transactions if they can be sent; events; state
diffs; the classes if the definitions are there. -/
theorem C90_servers (header : Nat → Option Header) (signature : Nat → Option Sig) (body : Nat → Option (List Entry))
    (update : Nat → Option Update) (n : Nat) :
    (headerHandler header signature n =
      if (header n).isSome && (signature n).isSome then
        (((header n).toList.flatMap fun h => (signature n).toList.map fun g => headerToDto h g), .next) else ([], .missing)) ∧
    (eventHandler body n =
      if (body n).isSome then (((body n).getD []).flatMap fun e => e.events.map fun v => (e.hash, v), .next) else ([], .missing)) ∧
    (diffHandler update n =
      if (update n).isSome then ((update n).toList.flatMap diffMessages, .next) else ([], .missing)) ∧
    ((∀ es, body n = some es → ∀ e ∈ es, e.Sendable) →
      txHandler body n = if (body n).isSome then ((sendTxs ((body n).getD [])).1, .next) else ([], .missing)) := by
  refine ⟨?_, ?_, ?_, fun hs => ?_⟩
  · unfold headerHandler
    cases header n <;> cases signature n <;> rfl
  · unfold eventHandler
    cases body n <;> rfl
  · unfold diffHandler
    cases update n <;> simp
  · unfold txHandler
    cases hb : body n with
    | none => rfl
    | some es =>
      have := (sendTxs_ok (hs es hb)).1
      simp only [Option.isSome_some, if_true, Option.getD_some]
      exact Prod.ext rfl this

/-- The end mark comes once, at the end, and only an answer that failed is without it. -/
theorem C90_end (numberOf : Nat → Option Nat) (handler : Nat → List T × Handled) (it : Iteration) :
    ∃ items : List T, iterate numberOf handler it = items.map some ++ [none] ∨
      (iterate numberOf handler it = items.map some ∧ ∃ n, (handler n).2 = .failed) := by
  unfold iterate
  split
  · exact ⟨[], .inl rfl⟩
  · split
    · exact ⟨[], .inl rfl⟩
    · rename_i n _
      cases hf : (serveLoop handler it.step it.forward (min it.limit maxServed) n).2 with
      | true => exact ⟨(serveLoop handler it.step it.forward (min it.limit maxServed) n).1, .inl (by simp only [hf, if_true])⟩
      | false =>
        exact ⟨(serveLoop handler it.step it.forward (min it.limit maxServed) n).1, .inr ⟨by simp only [hf, Bool.false_eq_true, if_false, List.append_nil], serveLoop_end handler _ _ _ _ hf⟩⟩

/-- A definition that is missing fails the answer, and the classes before it are sent. -/
theorem C90_class_missing {C : Type} (definition : Nat → Option C) (hs : List Nat) (h : Nat) (more : List Nat) (cs : List C)
    (hd : hs.map definition = cs.map some) (hn : definition h = none) :
    sendClasses definition (hs ++ h :: more) = (hs.zip cs, .failed) := by
  induction hs generalizing cs with
  | nil => cases cs <;> simp_all [sendClasses]
  | cons x hs ih =>
    cases cs with
    | nil => simp at hd
    | cons c cs =>
      simp only [List.map_cons, List.cons.injEq] at hd
      simp [sendClasses, hd.1, ih cs hd.2]

/-! ## Headers -/

/-- **C90.** A header with its signature arrives unchanged. -/
theorem C90_header (h : Header) (g : Sig) (h1 : h.number < 2 ^ 63) (h2 : h.timestamp < 2 ^ 63) :
    headerFromDto (headerToDto h g) = some (h, g) := header_trip h1 h2

theorem range_split {α : Type} (f : Nat → α) (a b : Nat) :
    (List.range (a + b)).map f = (List.range a).map f ++ (List.range b).map fun i => f (a + i) := by
  rw [List.range_add, List.map_append, List.map_map]
  rfl

theorem headers_reply (numberOf : Nat → Option Nat) (header : Nat → Option Header) (signature : Nat → Option Sig) (hd : Nat → Header) (sg : Nat → Sig)
    (lo hi : Nat) (hhi : hi < 2 ^ 63)
    (hs : ∀ n, lo ≤ n → n ≤ hi → header n = some (hd n) ∧ signature n = some (sg n) ∧ (hd n).number < 2 ^ 63 ∧ (hd n).timestamp < 2 ^ 63)
    (reverse : Bool) (start : Nat) (hlo : lo ≤ start) (hs2 : start ≤ hi) :
    (iterate numberOf (headerHandler header signature)
        (makeHeaderRequest start (if reverse then lo else hi) (!reverse))).map headerResp =
      ((List.range (min (if reverse then start + 1 - lo else hi + 1 - start) 100)).map fun i =>
        HeaderResp.header (hd (if reverse then start - i else start + i), sg (if reverse then start - i else start + i))) ++ [.fin] := by
  let has : Nat → Bool := fun n => (header n).isSome && (signature n).isSome
  have hhas : ∀ n, lo ≤ n → n ≤ hi → has n = true := by
    intro n h1 h2
    obtain ⟨g1, g2, _⟩ := hs n h1 h2
    simp [has, g1, g2]
  have hst : startNumber numberOf (makeHeaderRequest start (if reverse then lo else hi) (!reverse)).start = some start :=
    if_pos (show start < 2 ^ 63 by omega)
  rw [iterate_eq numberOf _ has (fun n => (header n).toList.flatMap fun h => (signature n).toList.map fun g => headerToDto h g)
    (fun n => (C90_servers header signature (fun _ => none) (fun _ => none) n).1)
    (makeHeaderRequest start (if reverse then lo else hi) (!reverse)) start (by omega) hst]
  have item : ∀ n, lo ≤ n → n ≤ hi → ((header n).toList.flatMap fun h => (signature n).toList.map fun g => headerToDto h g) =
      [headerToDto (hd n) (sg n)] := by
    intro n h1 h2
    obtain ⟨g1, g2, _⟩ := hs n h1 h2
    simp [g1, g2]
  have fin : ∀ l : List Nat, (∀ n ∈ l, lo ≤ n ∧ n ≤ hi) →
      ((l.flatMap fun n => (header n).toList.flatMap fun h => (signature n).toList.map fun g => headerToDto h g).map some ++ [none]).map
        headerResp = (l.map fun n => HeaderResp.header (hd n, sg n)) ++ [.fin] := by
    intro l hl
    rw [List.map_append]
    congr 1
    induction l with
    | nil => rfl
    | cons n l ih =>
      obtain ⟨h1, h2⟩ := hl n List.mem_cons_self
      rw [List.flatMap_cons, item n h1 h2, List.singleton_append, List.map_cons, List.map_cons, ih fun m hm => hl m (List.mem_cons_of_mem _ hm),
        List.map_cons]
      congr 1
      obtain ⟨_, _, g3, g4⟩ := hs n h1 h2
      simp only [headerResp, header_trip g3 g4]
  cases reverse with
  | false =>
    simp only [Bool.false_eq_true, if_false, Bool.not_false]
    have e : servedBlocks has start (makeHeaderRequest start hi true).step (makeHeaderRequest start hi true).limit
        (makeHeaderRequest start hi true).forward = List.range' start (min (hi + 1 - start) 100) :=
      served_range has start hi _ (by simp [makeHeaderRequest, hs2, maxAsked]) hs2 hhi fun n h1 h2 => hhas n (by omega) h2
    rw [e, fin _ (by intro n hn; rw [List.mem_range'_1] at hn; omega), List.range'_eq_map_range, List.map_map]
    rfl
  | true =>
    simp only [if_true, Bool.not_true]
    have e : servedBlocks has start (makeHeaderRequest start lo false).step (makeHeaderRequest start lo false).limit
        (makeHeaderRequest start lo false).forward = (List.range (min (start + 1 - lo) 100)).map fun i => start - i := by
      refine served_down has start lo _ ?_ hlo (by omega) fun n h1 h2 => hhas n h1 (by omega)
      simp only [makeHeaderRequest, maxAsked]
      split
      · omega
      · rfl
    rw [e, fin _ (by intro n hn; rw [List.mem_map] at hn; obtain ⟨i, hi2, rfl⟩ := hn; rw [List.mem_range] at hi2; omega), List.map_map]
    rfl

/-- **C90.** A node that asks an honest node for the headers of a range of blocks, in either direction, gets all of them, unchanged and in order,
a hundred at a time. -/
theorem C90_headers (numberOf : Nat → Option Nat) (header : Nat → Option Header) (signature : Nat → Option Sig) (hd : Nat → Header) (sg : Nat → Sig)
    (lo hi : Nat) (hhi : hi < 2 ^ 63)
    (hs : ∀ n, lo ≤ n → n ≤ hi → header n = some (hd n) ∧ signature n = some (sg n) ∧ (hd n).number < 2 ^ 63 ∧ (hd n).timestamp < 2 ^ 63)
    (reverse : Bool) (peer : P) :
    ∀ (rounds start : Nat), lo ≤ start → start ≤ hi → (if reverse then start + 1 - lo else hi + 1 - start) ≤ 100 * rounds →
      ∃ next : Int, headerFetch reverse (if reverse then lo else hi : Nat) peer
        (fun s => (iterate numberOf (headerHandler header signature)
          (makeHeaderRequest s.toNat (if reverse then lo else hi) (!reverse))).map headerResp) rounds start =
        ((List.range (if reverse then start + 1 - lo else hi + 1 - start)).map fun i =>
          (peer, hd (if reverse then start - i else start + i), sg (if reverse then start - i else start + i)), next, true) := by
  intro rounds
  induction rounds with
  | zero => intro start h1 h2 h3; cases reverse <;> simp at h3 <;> omega
  | succ rounds ih =>
    intro start h1 h2 h3
    simp only [headerFetch, Int.toNat_natCast]
    rw [headers_reply numberOf header signature hd sg lo hi hhi hs reverse start h1 h2]
    generalize htot : (if reverse then start + 1 - lo else hi + 1 - start) = total at h3
    have hmap : ((List.range (min total 100)).map fun i =>
        HeaderResp.header (hd (if reverse then start - i else start + i), sg (if reverse then start - i else start + i))) =
        ((List.range (min total 100)).map fun i =>
          (hd (if reverse then start - i else start + i), sg (if reverse then start - i else start + i))).map HeaderResp.header := by
      rw [List.map_map]; rfl
    have hrem : remaining reverse start ((if reverse then lo else hi : Nat) : Int) = total := by
      unfold remaining
      cases reverse with
      | false => simp only [Bool.false_eq_true, if_false] at htot ⊢; omega
      | true => simp only [if_true] at htot ⊢; omega
    have hrep := headerReply_list reverse ((if reverse then lo else hi : Nat) : Int) peer ((List.range (min total 100)).map fun i =>
          (hd (if reverse then start - i else start + i), sg (if reverse then start - i else start + i))) start
          (by rw [hrem]; simp only [List.length_map, List.length_range]; omega)
    rw [hmap, hrep]
    simp only [List.map_map, List.length_map, List.length_range, hrem]
    by_cases hle : total ≤ 100
    · rw [if_pos (by simp; omega)]
      refine ⟨if reverse then start - (min total 100 : Nat) else start + (min total 100 : Nat), ?_⟩
      rw [show min total 100 = total by omega]
      rfl
    · rw [if_neg (by simp; omega)]
      have hm : min total 100 = 100 := by omega
      rw [hm]
      obtain ⟨k, hk⟩ : ∃ k, total = 100 + k := ⟨total - 100, by omega⟩
      cases reverse with
      | false =>
        simp only [Bool.false_eq_true, if_false] at htot ⊢
        obtain ⟨next, hn⟩ := ih (start + 100) (by omega) (by omega) (by simp only [Bool.false_eq_true, if_false]; omega)
        simp only [Bool.false_eq_true, if_false] at hn
        refine ⟨next, ?_⟩
        have he : ((start : Int) + ((100 : Nat) : Int)) = ((start + 100 : Nat) : Int) := by omega
        rw [he, hn]
        congr 1
        rw [show hi + 1 - (start + 100) = total - 100 by omega, hk, range_split, Nat.add_sub_cancel_left]
        congr 1
        apply List.map_congr_left
        intro i _
        simp [Nat.add_assoc]
      | true =>
        simp only [if_true] at htot ⊢
        obtain ⟨next, hn⟩ := ih (start - 100) (by omega) (by omega) (by simp only [if_true]; omega)
        simp only [if_true] at hn
        refine ⟨next, ?_⟩
        have he : ((start : Int) - ((100 : Nat) : Int)) = ((start - 100 : Nat) : Int) := by omega
        rw [he, hn]
        congr 1
        rw [show start - 100 + 1 - lo = total - 100 by omega, hk, range_split, Nat.add_sub_cancel_left]
        congr 1
        apply List.map_congr_left
        intro i _
        simp [Nat.sub_sub]

/-! ## Transactions and receipts -/

/-- **C90, partial.** A transaction arrives with everything that its hash covers, and is accepted and stored as the sender has it, if the sender's
hash is the hash of the transaction. Left out: the nonce of a declare transaction of version 0 and the entry point type of an invoke
transaction of version 0, and hashes of the first blocks, which are not computed (F30). -/
theorem C90_txn_partial (h : Hashes) (id : F) (t : Txn) (hl : Lossless h t) (hr : Txn.InRange t) :
    ∃ r, txnFromDto (txnToDto t) = some r ∧ fromPeer h id (t.hash h id false) r = some t := by
  refine ⟨arrives t, txn_trip hr, ?_⟩
  have e : (arrives t).withAddress h = t := by
    cases t with
    | declareV0 t => obtain ⟨_, _, _, _, _⟩ := t; simp only [Lossless] at hl; subst hl; rfl
    | deployV0 t => obtain ⟨_, _, _, _⟩ := t; simp only [Lossless] at hl; subst hl; rfl
    | deployV1 t => obtain ⟨_, _, _, _⟩ := t; simp only [Lossless] at hl; subst hl; rfl
    | deployAccountV1 t => obtain ⟨_, _, _, _, _, _, _⟩ := t; simp only [Lossless] at hl; subst hl; rfl
    | deployAccountV3 t => obtain ⟨_, _, _, _, _, _, _⟩ := t; simp only [Lossless] at hl; subst hl; rfl
    | invokeV0 t => obtain ⟨_, _, _, _, _, _⟩ := t; simp only [Lossless] at hl; subst hl; rfl
    | declareV1 | declareV2 | declareV3 | invokeV1 | invokeV3 | l1Handler => rfl
  unfold fromPeer
  rw [e, if_pos rfl]

/-- What is lost of a transaction of version 0 stays lost: the receiver stores another transaction. -/
theorem C90_txn_violated (h : Hashes) (id x : F) (t : InvokeV0) (ht : t.entryType ≠ none) :
    ∃ r, txnFromDto (txnToDto (.invokeV0 t)) = some r ∧ fromPeer h id x r ≠ some (.invokeV0 t) := by
  refine ⟨_, rfl, ?_⟩
  unfold fromPeer
  split
  · intro e
    simp only [Txn.withAddress, Option.some.injEq, Txn.invokeV0.injEq] at e
    exact ht (by rw [← e])
  · simp

/-- **C90, partial.** A receipt arrives as it is, but for the index, which is that of the position in the block, if the total has no data gas, no
segment arena was used, and the messages go to addresses of twenty bytes. -/
theorem C90_receipt_partial (r : Rcpt) (hr : r.InRange) (hc : ∀ x ∈ r.counters, x < 2 ^ 32) (h1 : r.totalL1DataGas = 0) (h2 : r.segmentArena = 0)
    (h3 : ∀ m ∈ r.messages, m.dst.val < 2 ^ 160) :
    ∃ d, rcptToDto r = some d ∧ rcptFromDto d r.index = some r := by
  obtain ⟨d, hd, ha⟩ := rcpt_trip hr hc r.index
  refine ⟨d, hd, ha.trans ?_⟩
  have hm : r.messages.map (fun m => { m with dst := felt (m.dst.val % 2 ^ 160) }) = r.messages := by
    conv => rhs; rw [← List.map_id r.messages]
    apply List.map_congr_left
    intro m hm
    have e : felt (m.dst.val % 2 ^ 160) = m.dst := by
      rw [Nat.mod_eq_of_lt (h3 m hm)]
      apply Fin.ext
      exact Nat.mod_eq_of_lt m.dst.isLt
    obtain ⟨a, b, c⟩ := m
    simp only at e
    simp only [e, id_eq]
  unfold Rcpt.arrives
  rw [hm]
  obtain ⟨_, _, _, _, _, _, _, _, _, _, _, _, _⟩ := r
  simp only at h1 h2
  subst h1 h2
  rfl

/-- What the receipt commitment of the header covers of a receipt (`Verif.Block.receiptHash`). -/
def Rcpt.covered (r : Rcpt) (hash : F) : Receipt := ⟨hash, r.fee, r.messages, r.reverted, r.totalL1Gas, r.totalL1DataGas, r.l2Gas, 0⟩

/-- A receipt with data gas, which every transaction of a block that posts blobs has, arrives as another receipt, and as one that does not belong
to the receipt commitment of the header; the receiver does not notice (F31). -/
theorem C90_receipt_violated (r : Rcpt) (hr : r.InRange) (hc : ∀ x ∈ r.counters, x < 2 ^ 32) (h1 : r.totalL1DataGas ≠ 0) (i : Nat) (hash : F) :
    ∃ d r', rcptToDto r = some d ∧ rcptFromDto d i = some r' ∧ r'.totalL1DataGas = 0 ∧ r'.covered hash ≠ r.covered hash := by
  obtain ⟨d, hd, ha⟩ := rcpt_trip hr hc i
  refine ⟨d, _, hd, ha, rfl, ?_⟩
  intro e
  have := congrArg Receipt.l1DataGas e
  exact h1 this.symm

/-- So does a receipt with a message to an address of more than twenty bytes. -/
theorem C90_message_violated (r : Rcpt) (hr : r.InRange) (hc : ∀ x ∈ r.counters, x < 2 ^ 32) (m : Msg) (hm : m ∈ r.messages)
    (h1 : 2 ^ 160 ≤ m.dst.val) (i : Nat) (hash : F) :
    ∃ d r', rcptToDto r = some d ∧ rcptFromDto d i = some r' ∧ r'.covered hash ≠ r.covered hash := by
  obtain ⟨d, hd, ha⟩ := rcpt_trip hr hc i
  refine ⟨d, _, hd, ha, ?_⟩
  intro e
  have he : r.messages.map (fun m => { m with dst := felt (m.dst.val % 2 ^ 160) }) = r.messages := congrArg Receipt.messages e
  have : ∀ x ∈ r.messages.map (fun m : Msg => { m with dst := felt (m.dst.val % 2 ^ 160) }), x.dst.val < 2 ^ 160 := by
    intro x hx
    obtain ⟨y, _, rfl⟩ := List.mem_map.1 hx
    have h2 : y.dst.val % 2 ^ 160 < 2 ^ 160 := Nat.mod_lt _ (by decide)
    have h3 : (felt (y.dst.val % 2 ^ 160)).val ≤ y.dst.val % 2 ^ 160 := Nat.mod_le _ _
    exact Nat.lt_of_le_of_lt h3 h2
  rw [he] at this
  exact absurd (this m hm) (by omega)

/-- A receipt with a counter of 2^32 or more ends the answer: the task of the server panics, and neither this transaction nor the end mark is
sent. -/
theorem C90_counter_violated (numberOf : Nat → Option Nat) (body : Nat → Option (List Entry)) (n : Nat) (hn : n < 2 ^ 63) (es more : List Entry)
    (e : Entry) (hb : body n = some (es ++ e :: more)) (hs : ∀ x ∈ es, x.Sendable) (he : ∃ x ∈ e.rcpt.counters, 2 ^ 32 ≤ x) (stop : Nat) :
    iterate numberOf (txHandler body) (makeRequest n stop) = (sendTxs es).1.map some := by
  have hp : rcptToDto e.rcpt = none := by
    unfold rcptToDto
    rw [if_neg]
    obtain ⟨x, hx, h⟩ := he
    simp only [List.all_eq_true, decide_eq_true_eq]
    intro hall
    exact absurd (hall x hx) (by omega)
  have hsend : ∀ es : List Entry, (∀ x ∈ es, x.Sendable) → sendTxs (es ++ e :: more) = ((sendTxs es).1, .failed) := by
    intro es
    induction es with
    | nil => intro _; simp [sendTxs, hp]
    | cons x es ih =>
      intro hs
      have hx := hs x List.mem_cons_self
      obtain ⟨d, hd, _⟩ := rcpt_trip hx.rcpt hx.counters 0
      simp [sendTxs, hd, ih fun y hy => hs y (List.mem_cons_of_mem _ hy)]
  have hh : txHandler body n = ((sendTxs es).1, .failed) := by simp only [txHandler, hb]; exact hsend es hs
  unfold iterate
  have hst : startNumber numberOf (makeRequest n stop).start = some n := if_pos hn
  have hlim : ∃ l, min (makeRequest n stop).limit maxServed = l + 1 := by
    refine ⟨min (makeRequest n stop).limit maxServed - 1, ?_⟩
    simp only [makeRequest, maxAsked, maxServed]; omega
  obtain ⟨l, hl⟩ := hlim
  rw [if_neg (by simp only [makeRequest, maxAsked]; omega), hst]
  simp only [hl, serveLoop, hh]
  simp

/-- **C90.** A node that asks an honest node for the transactions of a range of blocks gets all of them, block by block, with the hashes; what is
lost of them is said by `arrives`. -/
theorem C90_transactions (numberOf : Nat → Option Nat) (body : Nat → Option (List Entry)) (es : Nat → List Entry) (start stop : Nat)
    (hss : start ≤ stop) (hstop : stop < 2 ^ 63) (hb : ∀ n, start ≤ n → n ≤ stop → body n = some (es n))
    (hs : ∀ n, start ≤ n → n ≤ stop → ∀ e ∈ es n, e.Sendable) (peer : P) (rounds : Nat) (hr : stop + 1 - start ≤ 100 * rounds) :
    fetch (E := E) (listKind readTx) start stop peer (fun s => iterate numberOf (txHandler body) (makeRequest s stop)) (fun n => (es n).length)
        rounds =
      (blockItems start ((List.range' start (stop + 1 - start)).map fun n => (peer, arrivedTxs (es n))), .ended) := by
  have key := fetch_honest (E := E) (k := listKind readTx) (f := fun m : Option TxMsg => m) (items := fun n => (sendTxs (es n)).1)
    (handler := txHandler body)
    (count := fun n => (es n).length) (a := fun n => arrivedTxs (es n)) (I := fun _ _ => True) hss hstop ?_ ?_ ?_ numberOf peer rounds hr
  · simpa using key
  · intro n h1 h2
    simp only [txHandler, hb n h1 h2]
    exact Prod.ext rfl (sendTxs_ok (hs n h1 h2)).1
  · refine ⟨fun _ => trivial, fun n c h1 h2 _ => ⟨(), ?_, trivial⟩⟩
    obtain ⟨_, g2, g3⟩ := sendTxs_ok (hs n h1 h2)
    have := reads_list readTx ((sendTxs (es n)).1.map some) (arrivedTxs (es n)) [] (by simp [arrivedTxs, g2]) (by
      intro i r x h3 h4
      simp only [List.getElem?_map, Option.map_eq_some_iff] at h3
      obtain ⟨m, hm, rfl⟩ := h3
      simp only [arrivedTxs, List.getElem?_map, Option.map_eq_some_iff] at h4
      obtain ⟨q, hq, rfl⟩ := h4
      rw [List.getElem?_zipIdx, Option.map_eq_some_iff] at hq
      obtain ⟨e, he, rfl⟩ := hq
      have hi : i < (es n).length := (List.getElem?_eq_some_iff.1 he).1
      have := g3 i hi m e hm he i
      simpa using this)
    simp only [List.length_map, g2, List.nil_append] at this
    exact this
  · intro c acc n; rfl

/-- **C90.** A node that asks an honest node for the events of a range of blocks gets all of them, those of each transaction together; the
transactions with events are told apart by their hashes. -/
theorem C90_events (numberOf : Nat → Option Nat) (body : Nat → Option (List Entry)) (es : Nat → List Entry) (start stop : Nat)
    (hss : start ≤ stop) (hstop : stop < 2 ^ 63) (hb : ∀ n, start ≤ n → n ≤ stop → body n = some (es n))
    (hd : ∀ n, start ≤ n → n ≤ stop → ((es n).map (·.hash)).Nodup)
    (hx : ∀ n m, start ≤ n → n < m → m ≤ stop → ∀ e ∈ es n, ∀ e' ∈ es m, e.hash ≠ e'.hash)
    (peer : P) (rounds : Nat) (hr : stop + 1 - start ≤ 100 * rounds) :
    fetch (E := E) (eventKind F Event) start stop peer (fun s => iterate numberOf (eventHandler body) (makeRequest s stop))
        (fun n => ((es n).map (·.events.length)).sum) rounds =
      (blockItems start ((List.range' start (stop + 1 - start)).map fun n => (peer, arrivedEvents (es n))), .ended) := by
  have mem : ∀ (l : List Entry) t, t ∈ eventHashes l → ∃ e ∈ l, e.hash = t := by
    intro l t ht
    obtain ⟨e, he, h⟩ := List.mem_map.1 ht
    exact ⟨e, (List.mem_filter.1 he).1, h⟩
  have key := fetch_honest (E := E) (k := eventKind F Event) (f := fun m : Option (F × Event) => m)
    (items := fun n => (es n).flatMap fun e => e.events.map fun v => (e.hash, v)) (handler := eventHandler body)
    (count := fun n => ((es n).map (·.events.length)).sum) (a := fun n => arrivedEvents (es n))
    (I := fun n c => ∀ t, c = some t → ∀ m, n ≤ m → m ≤ stop → start ≤ m → ∀ e ∈ es m, e.hash ≠ t) hss hstop ?_ ?_ ?_ numberOf peer rounds hr
  · simpa using key
  · intro n h1 h2
    simp only [eventHandler, hb n h1 h2]
  · refine ⟨fun n t (ht : none = some t) => by simp at ht, fun n c h1 h2 hc => ?_⟩
    refine ⟨_, reads_events (es n) c [] ?_ ?_, ?_⟩
    · have := hd n h1 h2
      unfold eventHashes
      exact (List.filter_sublist.map _).nodup this
    · intro t ht hm
      obtain ⟨e, he, heq⟩ := mem _ t hm
      exact hc t ht n (Nat.le_refl _) h2 h1 e he heq
    · intro t ht m hm hm2 hm3 e he heq
      cases hg : (eventHashes (es n)).getLast? with
      | none =>
        rw [hg, Option.none_or] at ht
        exact hc t ht m (by omega) hm2 hm3 e he heq
      | some x =>
        rw [hg, Option.some_or] at ht
        cases ht
        obtain ⟨e', he', h'⟩ := mem _ t (List.mem_of_getLast? hg)
        exact hx n m h1 (by omega) hm2 e' he' e he (h'.trans heq.symm)
  · intro c acc n; rfl

/-- **C90.** The classes of a range of blocks arrive if their definitions are stored and are accepted by the reader. -/
theorem C90_classes {C A : Type} (numberOf : Nat → Option Nat) (declared : Nat → Option (List Nat)) (definition : Nat → Nat → Option C)
    (hs : Nat → List Nat) (cs : Nat → List C) (parse : Nat × C → Option A) (as : Nat → List A) (start stop : Nat) (hss : start ≤ stop)
    (hstop : stop < 2 ^ 63) (hb : ∀ n, start ≤ n → n ≤ stop → declared n = some (hs n))
    (hd : ∀ n, start ≤ n → n ≤ stop → (hs n).map (definition n) = (cs n).map some)
    (hp : ∀ n, start ≤ n → n ≤ stop → ((hs n).zip (cs n)).map parse = (as n).map some)
    (peer : P) (rounds : Nat) (hr : stop + 1 - start ≤ 100 * rounds) :
    fetch (E := E) (listKind fun r _ => r.bind parse) start stop peer
        (fun s => iterate numberOf (classHandler declared definition) (makeRequest s stop)) (fun n => (hs n).length) rounds =
      (blockItems start ((List.range' start (stop + 1 - start)).map fun n => (peer, as n)), .ended) := by
  have send : ∀ (d : Nat → Option C) (l : List Nat) (c : List C), l.map d = c.map some → sendClasses d l = (l.zip c, .next) := by
    intro d l
    induction l with
    | nil => intro c _; cases c <;> rfl
    | cons h l ih =>
      intro c hc
      cases c with
      | nil => simp at hc
      | cons x c =>
        simp only [List.map_cons, List.cons.injEq] at hc
        simp [sendClasses, hc.1, ih c hc.2]
  have key := fetch_honest (E := E) (k := listKind fun (r : Option (Nat × C)) _ => r.bind parse) (f := fun m : Option (Nat × C) => m)
    (items := fun n => (hs n).zip (cs n)) (handler := classHandler declared definition)
    (count := fun n => (hs n).length) (a := as) (I := fun _ _ => True) hss hstop ?_ ?_ ?_ numberOf peer rounds hr
  · simpa using key
  · intro n h1 h2
    simp only [classHandler, hb n h1 h2]
    exact send _ _ _ (hd n h1 h2)
  · refine ⟨fun _ => trivial, fun n c h1 h2 _ => ⟨(), ?_, trivial⟩⟩
    have hlen : (hs n).length = (cs n).length := by simpa using congrArg List.length (hd n h1 h2)
    have hlen2 : ((hs n).zip (cs n)).length = (as n).length := by simpa using congrArg List.length (hp n h1 h2)
    have := reads_list (fun (r : Option (Nat × C)) _ => r.bind parse) (((hs n).zip (cs n)).map some) (as n) [] (by simpa using hlen2) (by
      intro i r x h3 h4
      simp only [List.getElem?_map, Option.map_eq_some_iff] at h3
      obtain ⟨m, hm, rfl⟩ := h3
      have := congrArg (fun l => l[i]?) (hp n h1 h2)
      simp only [List.getElem?_map, hm, h4, Option.map_some, Option.some.injEq] at this
      exact this)
    simp only [List.length_map, List.nil_append, List.length_zip, ← hlen, Nat.min_self] at this
    exact this
  · intro c acc n; rfl

/-! ## State diffs -/

theorem updates_wf {ops : List Op} (hw : OpsOk ops) {u : Update} (h : u ∈ (Track.run ops).updates) : u.WF := by
  obtain ⟨p, hp, rfl⟩ := List.mem_map.1 h
  exact State.chain_wf ops hw p hp

/-- What a node that has the chain answers to a request for state diffs. -/
def diffReply (numberOf : Nat → Option Nat) (ops : List Op) (start stop : Nat) : List DiffResp :=
  (iterate numberOf (diffHandler (State.readUpdate (State.run ops))) (makeRequest start stop)).map diffResp

/-- **C90, partial.** For every chain of blocks, with reorganizations: a node that asks an honest node for the state diffs of a range of blocks, none
of which migrates a class, gets what the blocks changed; so does one that asks for one block. The numbers of changes are those of the
headers. Missing: blocks that migrate classes, for which it is false (`C90_migrated_violated`). -/
theorem C90_diffs_partial (numberOf : Nat → Option Nat) (ops : List Op) (hw : OpsOk ops) (hp : NoPrune ops) (hc : CleanReorgs ops)
    (hok : ChainOk (Track.run ops).updates) (u : Nat → Update) (start stop : Nat) (hss : start ≤ stop) (hstop : stop < 2 ^ 63)
    (hu : ∀ n, start ≤ n → n ≤ stop → (Track.run ops).updates[n]? = some (u n))
    (hm : ∀ n, start ≤ n → n ≤ stop → (u n).migrated = []) (peer : P) (rounds : Nat) (hr : stop + 1 - start ≤ 100 * rounds) :
    ∃ a : Nat → DiffAcc, (∀ n, start ≤ n → n ≤ stop → Carries (a n) (u n)) ∧
      fetch (E := E) (diffKind isSystem) start stop peer (fun s => diffReply numberOf ops s stop) (fun n => Diff.lengthUpdate (toSU (u n))) rounds =
        (blockItems start ((List.range' start (stop + 1 - start)).map fun n => (peer, a n)), .ended) ∧
      ∀ n, start ≤ n → n ≤ stop → readSingle isSystem (diffKind isSystem).empty (Diff.lengthUpdate (toSU (u n))) (diffReply numberOf ops n n) =
        .update (a n) := by
  have each : ∀ n, ∃ aw : DiffAcc × Update, start ≤ n → n ≤ stop →
      State.readUpdate (State.run ops) n = some aw.2 ∧ Carries aw.1 (u n) ∧
      Reads (diffKind isSystem) () (diffKind isSystem).empty (Diff.lengthUpdate (toSU (u n))) (diffMessages aw.2) () aw.1 := by
    intro n
    by_cases hn : start ≤ n ∧ n ≤ stop
    · obtain ⟨w, h1, h2⟩ := State.C20_read_back ops hw hp hc hok n (u n) (hu n hn.1 hn.2)
      have hform := readUpdate_form h1
      have hwf : (u n).WF := updates_wf hw (List.mem_of_getElem? (hu n hn.1 hn.2))
      have hmw : w.migrated = [] := by
        cases hmm : w.migrated with
        | nil => rfl
        | cons p l =>
          have h3 : w.migrated.lookup p.1 = some p.2 := State.lookup_of_mem hform.migrated (by rw [hmm]; exact List.mem_cons_self)
          have h4 := h2.migrated p.1
          rw [h3, hm n hn.1 hn.2] at h4
          simp at h4
      obtain ⟨a, ha, hcar⟩ := messages_carry (read_tidy hform hwf h2) hmw
      rw [length_same hform.keyed (wf_keyed hwf) h2] at ha
      exact ⟨(a, w), fun _ _ => ⟨h1, carries_same hform.keyed (wf_keyed hwf) h2 hcar, ha⟩⟩
    · exact ⟨((diffKind isSystem).empty, {}), fun h1 h2 => absurd ⟨h1, h2⟩ hn⟩
  obtain ⟨aw, haw⟩ := Classical.axiomOfChoice each
  refine ⟨fun n => (aw n).1, fun n h1 h2 => (haw n h1 h2).2.1, ?_, ?_⟩
  · refine fetch_honest (E := E) (k := diffKind isSystem) (f := diffResp) (items := fun n => diffMessages (aw n).2)
      (count := fun n => Diff.lengthUpdate (toSU (u n))) (a := fun n => (aw n).1) (I := fun _ _ => True) hss hstop ?_ ?_ ?_ numberOf peer rounds hr
    · intro n h1 h2
      simp only [diffHandler, (haw n h1 h2).1]
    · refine ⟨fun _ => trivial, fun n c h1 h2 _ => ⟨(), ?_, trivial⟩⟩
      have e : (diffMessages (aw n).2).map (diffResp ∘ some) = diffMessages (aw n).2 := by
        conv => rhs; rw [← List.map_id (diffMessages (aw n).2)]
        rfl
      simp only [e]
      exact (haw n h1 h2).2.2
    · intro c acc n; rfl
  · intro n h1 h2
    unfold diffReply
    rw [reply_eq numberOf (diffHandler (State.readUpdate (State.run ops))) (fun n => diffMessages (aw n).2) n n (by omega) ?_ n
      (Nat.le_refl _) (Nat.le_refl _)]
    · rw [show min (n + 1 - n) 100 = 1 by omega]
      simp only [List.range'_one, List.flatMap_cons, List.flatMap_nil, List.append_nil, List.map_append, List.map_map, List.map_cons, List.map_nil]
      have e : (diffMessages (aw n).2).map (diffResp ∘ some) = diffMessages (aw n).2 := by
        conv => rhs; rw [← List.map_id (diffMessages (aw n).2)]
        rfl
      rw [e]
      exact readSingle_reads (haw n h1 h2).2.2 []
    · intro m h3 h4
      have : m = n := by omega
      subst this
      simp only [diffHandler, (haw m h1 h2).1]

/-- A block that migrates a class cannot be had from honest nodes: the request for it ends with the error for a wrong number of changes, and the
stream asks for it again and again. -/
theorem C90_migrated_violated (numberOf : Nat → Option Nat) (ops : List Op) (hw : OpsOk ops) (hp : NoPrune ops) (hc : CleanReorgs ops)
    (hok : ChainOk (Track.run ops).updates) (u : Update) (n : Nat) (hn : n < 2 ^ 63) (hu : (Track.run ops).updates[n]? = some u)
    (hm : u.migrated ≠ []) (peer : P) :
    readSingle isSystem (diffKind isSystem).empty (Diff.lengthUpdate (toSU u)) (diffReply numberOf ops n n) = .wrongCount ∧
    ∀ rounds, ∃ p, fetch (E := E) (diffKind isSystem) n n peer (fun s => diffReply numberOf ops s n) (fun _ => Diff.lengthUpdate (toSU u)) rounds =
      ([], .waiting n p []) := by
  obtain ⟨w, h1, h2⟩ := State.C20_read_back ops hw hp hc hok n u hu
  have hform := readUpdate_form h1
  have hwf : u.WF := updates_wf hw (List.mem_of_getElem? hu)
  have hlen := length_same hform.keyed (wf_keyed hwf) h2
  have hcost := messages_cost fun p hp => ((read_tidy hform hwf h2).contracts p hp).1
  have hml : 0 < w.migrated.length := by
    cases hmu : u.migrated with
    | nil => exact absurd hmu hm
    | cons p l =>
      have h3 : u.migrated.lookup p.1 = some p.2 := State.lookup_of_mem hwf.migrated (by rw [hmu]; exact List.mem_cons_self)
      have h4 := h2.migrated p.1
      rw [h3] at h4
      exact List.length_pos_of_mem (State.lookup_mem h4)
  have hreply : diffReply numberOf ops n n = diffMessages w ++ [.stop] := by
    unfold diffReply
    rw [reply_eq numberOf (diffHandler (State.readUpdate (State.run ops))) (fun _ => diffMessages w) n n hn ?_ n (Nat.le_refl _) (Nat.le_refl _)]
    · rw [show min (n + 1 - n) 100 = 1 by omega]
      simp only [List.range'_one, List.flatMap_cons, List.flatMap_nil, List.append_nil, List.map_append, List.map_map, List.map_cons, List.map_nil]
      congr 1
      conv => rhs; rw [← List.map_id (diffMessages w)]
      rfl
    · intro m h3 h4
      have : m = n := by omega
      subst this
      simp only [diffHandler, h1]
  refine ⟨?_, ?_⟩
  · rw [hreply]
    exact readSingle_wrong (messages_not_stop w) [] _ _ (by omega)
  · intro rounds
    unfold fetch
    rw [show n + 1 - (n + 1) = 0 by omega]
    simp only [List.range'_zero, List.map_nil]
    have key : ∀ rounds (p : Progress), p.backup = Diff.lengthUpdate (toSU u) → ∃ p', sessions (E := E) (diffKind isSystem) n peer
        (fun s => diffReply numberOf ops s n) rounds (.waiting n p []) = ([], .waiting n p' []) := by
      intro rounds
      induction rounds with
      | zero => intro p _; exact ⟨p, rfl⟩
      | succ rounds ih =>
        intro p hp
        have hserve : ∃ p', p'.backup = Diff.lengthUpdate (toSU u) ∧
            serve (E := E) (diffKind isSystem) n peer [] n p.rollback (diffKind isSystem).carry (diffReply numberOf ops n n) =
              ([], .waiting n p' []) := by
          obtain ⟨left, hl⟩ := fill_short (system := isSystem) (messages_not_stop w) [] (diffKind isSystem).empty (Diff.lengthUpdate (toSU u)) (by omega)
          unfold serve
          have hcnt : p.rollback.count = Diff.lengthUpdate (toSU u) := hp
          have hcar : (diffKind isSystem).carry = () := rfl
          rw [if_pos (Nat.le_refl n), hcnt, hreply, hcar, hl]
          exact ⟨{ p.rollback with count := left }, hp, rfl⟩
        obtain ⟨p', hb, hs⟩ := hserve
        obtain ⟨p'', hi⟩ := ih p' hb
        exact ⟨p'', by simp only [sessions, attempt, hs, hi, List.nil_append]⟩
    exact key rounds _ rfl

/-- Two blocks: the first deploys a contract of a class that no block declares, as the first blocks of the main network do. -/
def undeclaredOps : List Op :=
  [.block 100 { contracts := [(7, { cls := some (.deploy 50) })] }, .block 101 { contracts := [(7, { nonce := some 1 })] }]

/-- The first block has one change, as its header says, but an honest node sends two: the request for the block is an error, and a stream takes
the second for the change of the next block. -/
theorem C90_undeclared_violated :
    OpsOk undeclaredOps ∧ (Track.run undeclaredOps).updates.map (fun u => Diff.lengthUpdate (toSU u)) = [1, 1] ∧
    readSingle isSystem (diffKind isSystem).empty 1 (diffReply (fun _ => none) undeclaredOps 0 0) = .wrongCount ∧
    fetch (E := Unit) (diffKind isSystem) 0 1 () (fun s => diffReply (fun _ => none) undeclaredOps s 1) (fun _ => 1) 1 =
      ([.ok ((), { (diffKind isSystem).empty with touched := [7], deployed := [(7, 50)] }, 0),
        .ok ((), { (diffKind isSystem).empty with cairo := [50] }, 1)], .ended) := by
  refine ⟨State.opsOk_of _ (by decide), by decide, by decide, ?_⟩
  have e : diffReply (fun _ => none) undeclaredOps 0 1 =
      [.contract 7 none (some 50) [], .declared 50 none, .contract 7 (some 1) none [], .stop] := by decide
  simp only [fetch, sessions, attempt, e]
  rfl

/-! ## The hypotheses can be met -/

/-- An answer in steps of two, backwards, of a node that has the blocks 3 to 9, and one to a request for an unknown hash. -/
example : iterate (T := Nat) (fun h => if h = 77 then some 8 else none) (fun n => if 3 ≤ n ∧ n ≤ 9 then ([n, n + 100], .next) else ([], .missing))
      ⟨.hash 77, false, 10, 2⟩ = [some 8, some 108, some 6, some 106, some 4, some 104, none] ∧
    servedBlocks (fun n => decide (3 ≤ n ∧ n ≤ 9)) 8 2 10 false = [8, 6, 4] := by decide

/-- The longest answer. -/
example : (iterate (T := Nat) (fun _ => none) (fun n => ([n], .next)) ⟨.number 5, true, 500, 1⟩).length = 101 := by decide +kernel

def toyRcpt : Rcpt := ⟨5, ⟨1, 2, 3, 4, 5, 6, 7, 8, 9, 10, 11⟩, 3, 1000, 20, 4, 128, 7, 128, 90, [⟨1, 2 ^ 159, [3]⟩], none, 1⟩

def toyEntries (n : Nat) : List Entry :=
  [⟨felt (10 * n), toyInvoke, toyRcpt, [⟨1, [2], [3]⟩, ⟨1, [4], []⟩]⟩, ⟨felt (10 * n + 1), toyCall, toyRcpt, []⟩,
    ⟨felt (10 * n + 2), toyDeploy, toyRcpt, [⟨9, [], [3]⟩]⟩]

example : ∀ n, ∀ e ∈ toyEntries n, e.Sendable := by
  intro n e he
  have hr : toyRcpt.InRange := by unfold Rcpt.InRange; decide
  have hc : ∀ x ∈ toyRcpt.counters, x < 2 ^ 32 := by decide
  simp only [toyEntries, List.mem_cons, List.not_mem_nil, or_false] at he
  rcases he with rfl | rfl | rfl
  · exact ⟨⟨by unfold Bound.InRange; decide, by unfold Bound.InRange; decide, by
      intro b hb
      have : b = ⟨1, 2⟩ := by cases hb; rfl
      subst this
      unfold Bound.InRange; decide⟩, hr, hc⟩
  · exact ⟨trivial, hr, hc⟩
  · exact ⟨trivial, hr, hc⟩

example : Lossless toyHashes toyInvoke ∧ Lossless toyHashes toyCall ∧ Lossless toyHashes toyDeploy := ⟨trivial, rfl, rfl⟩

example : ((toyEntries 4).map (·.hash)).Nodup ∧ ∀ e ∈ toyEntries 4, ∀ e' ∈ toyEntries 5, e.hash ≠ e'.hash := by decide +kernel

/-- The receipt above is one that loses its data gas. -/
example : toyRcpt.totalL1DataGas ≠ 0 ∧ (toyRcpt.arrives 1).totalL1DataGas = 0 ∧ (toyRcpt.arrives 1).daL1DataGas = 128 := by decide

/-- A chain with a block that migrates a class between blocks that do not. -/
example : OpsOk State.chainOps ∧ NoPrune State.chainOps ∧ CleanReorgs State.chainOps ∧ ChainOk (Track.run State.chainOps).updates ∧
    (Track.run State.chainOps).updates.map (·.migrated) = [[], [], [(51, 901)], []] ∧
    readSingle isSystem (diffKind isSystem).empty 3 (diffReply (fun _ => none) State.chainOps 2 2) = .wrongCount := by
  refine ⟨State.opsOk_of _ (by decide), by unfold NoPrune; decide, State.clean_of (by decide), State.chainOk_of (by decide), by decide, by decide⟩

end Verif.Serve
