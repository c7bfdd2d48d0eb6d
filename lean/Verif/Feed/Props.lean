import Verif.Feed.WriteLemmas
/-!
# Properties of the gateway's transactions and receipts
-/
namespace Verif.Feed
open Verif.Block (F P Txn Bound V3 Msg Event felt Deploy DeployAccountV1 InvokeV0)
open Verif.Shown (Builtins Resources)

/-- **C105.** An object with distinct field names is read as a transaction with a hash exactly if it says that it is this transaction and the program
can hold it: no field is dropped, confused with another or invented, whatever the order of the fields. -/
theorem C105_read {l : List (String × J)} (hn : (l.map (·.1)).Nodup) (h : F) (t : Txn) :
    readTx (.obj l) = .ok (h, t) ↔ Sent l h t ∧ Fits t := readTx_sent hn h t

/-- A transfer of the first days, with the old name of the sender, no version, numbers in both notations and the fields in some order. -/
def oldInvoke : List (String × J) :=
  [("contract_address", .hex 5), ("signature", .arr []), ("calldata", .arr [.dec 10, .hex 11]), ("transaction_hash", .hex 77), ("max_fee", .hex 0),
    ("type", .str "INVOKE_FUNCTION"), ("entry_point_selector", .hex 9)]

example : (oldInvoke.map (·.1)).Nodup := by decide
example : readTx (.obj oldInvoke) = .ok (felt 77, .invokeV0 ⟨[felt 10, felt 11], felt 5, felt 9, none, 0, []⟩) := by rfl
example : Sent oldInvoke (felt 77) (.invokeV0 ⟨[felt 10, felt 11], felt 5, felt 9, none, 0, []⟩) :=
  ((C105_read (by decide) _ _).1 (by rfl)).1

/-- Two transactions that are read from the same object are the same: the object says one thing at most. -/
theorem C105_one {l : List (String × J)} {h h' : F} {t t' : Txn} (hn : (l.map (·.1)).Nodup) (s : Sent l h t) (f : Fits t) (s' : Sent l h' t') (f' : Fits t') :
    h = h' ∧ t = t' := by
  have a := (C105_read hn h t).2 ⟨s, f⟩
  rw [(C105_read hn h' t').2 ⟨s', f'⟩] at a
  cases a
  exact ⟨rfl, rfl⟩

/-- **C105.** The transactions of a block are read if and only if each of them is, in their order. -/
theorem C105_block (js : List J) (xs : List (F × Txn)) :
    readTxs js = .ok xs ↔ js.length = xs.length ∧ ∀ p ∈ js.zip xs, readTx p.1 = .ok p.2 := by
  induction js generalizing xs with
  | nil => cases xs <;> simp [readTxs]
  | cons j js ih =>
    unfold readTxs
    cases hj : readTx j with
    | error e =>
      constructor
      · intro h; cases h
      · rintro ⟨hl, hp⟩
        cases xs with
        | nil => cases hl
        | cons x xs => have := hp (j, x) (by simp); rw [hj] at this; cases this
    | ok y =>
      cases hr : readTxs js with
      | error e =>
        constructor
        · intro h; cases h
        · rintro ⟨hl, hp⟩
          cases xs with
          | nil => cases hl
          | cons x xs =>
            have := (ih xs).2 ⟨by simpa using hl, fun p hp' => hp p (by simp [hp'])⟩
            rw [hr] at this
            cases this
      | ok ys =>
        constructor
        · intro h
          cases h
          obtain ⟨h1, h2⟩ := (ih ys).1 hr
          refine ⟨by simp [h1], ?_⟩
          simp only [List.zip_cons_cons, List.forall_mem_cons]
          exact ⟨hj, h2⟩
        · rintro ⟨hl, hp⟩
          cases xs with
          | nil => cases hl
          | cons x xs =>
            simp only [List.zip_cons_cons, List.forall_mem_cons] at hp
            have h1 := (ih xs).2 ⟨by simpa using hl, hp.2⟩
            rw [hr] at h1
            rw [hj] at hp
            cases h1
            cases hp.1
            rfl

example : readTxs [.obj oldInvoke, .obj oldInvoke] = .ok [(felt 77, .invokeV0 ⟨[felt 10, felt 11], felt 5, felt 9, none, 0, []⟩),
    (felt 77, .invokeV0 ⟨[felt 10, felt 11], felt 5, felt 9, none, 0, []⟩)] := by rfl

/-- **C105.** What is written for a stored transaction is an object that says that it is this transaction. -/
theorem C105_written (h : F) (t : Txn) : ∃ l, writeTx (h, t) = .obj l ∧ (l.map (·.1)).Nodup ∧ Sent l h t :=
  ⟨_, written_obj h t, written_nodup h t, written_sent h t⟩

/-- **C105.** What is written for a transaction that the program can hold is read as this transaction again. -/
theorem C105_roundtrip (h : F) (t : Txn) (f : Fits t) : readTx (writeTx (h, t)) = .ok (h, t) := by
  rw [written_obj]
  exact (C105_read (written_nodup h t) h t).2 ⟨written_sent h t, f⟩

/-- A transaction of version 3 with all bounds. -/
def someV3 : V3 := ⟨true, false, ⟨10, 20⟩, ⟨30, 40⟩, some ⟨50, 60⟩, 7, [felt 1]⟩
example : Fits (.invokeV3 ⟨[felt 1], felt 2, someV3, [felt 3], [felt 4, felt 5], felt 6, [felt 8]⟩) := by
  refine ⟨by decide, ⟨by decide, by decide⟩, ⟨by decide, by decide⟩, ?_, by decide⟩
  rintro b hb
  cases hb
  exact ⟨by decide, by decide⟩

/-- **C105, violated.** The entry point type of a stored transaction of version 0 is not written: it is read without one. -/
theorem C105_entry_type_violated (h : F) (t : InvokeV0) (hs : Short t.sender) :
    readTx (writeTx (h, .invokeV0 t)) = .ok (h, .invokeV0 { t with entryType := none }) :=
  C105_roundtrip h (.invokeV0 { t with entryType := none }) ⟨hs, rfl⟩

example : readTx (writeTx (felt 1, .invokeV0 ⟨[], felt 5, felt 9, some true, 0, []⟩)) ≠ .ok (felt 1, .invokeV0 ⟨[], felt 5, felt 9, some true, 0, []⟩) := by
  rw [C105_entry_type_violated _ _ (by decide)]
  intro h
  cases h

/-! ## Panics -/

/-- **C105, in part.** Reading an object with distinct field names panics only for a deploy transaction whose version is neither 0 nor 1, and for a
deploy account transaction of version 0. What is missing: these documents should be refused with an error like all other bad ones. -/
theorem C105_panic_partial {l : List (String × J)} (hn : (l.map (·.1)).Nodup) (e : readTx (.obj l) = .error .panic) :
    (HasType l "DEPLOY" ∧ ∃ v : F, v ≠ 0 ∧ v ≠ 1 ∧ ("version", J.hex v.val) ∈ l) ∨ (HasType l "DEPLOY_ACCOUNT" ∧ ("version", .hex 0) ∈ l) :=
  panic_only hn e

/-- **C105, violated.** Every deploy transaction with a version other than 0 and 1 makes the task that reads it panic. -/
theorem C105_deploy_violated (h : F) (t : Deploy) (f : Fits (.deployV1 t)) (v : F) (h0 : v ≠ 0) (h1 : v ≠ 1) :
    readTx (.obj (withVersion (.hex v.val) (document h (.deployV1 t)))) = .error .panic := by
  have e : withVersion (.hex v.val) (document h (.deployV1 t)) = [("type", .str "DEPLOY"), ("version", .hex v.val), ("transaction_hash", hx h),
      ("class_hash", hx t.classHash), ("contract_address", hx t.address), ("contract_address_salt", hx t.salt), ("constructor_calldata", dcs t.calldata)] := rfl
  rw [e]
  have hn : ((([("type", .str "DEPLOY"), ("version", .hex v.val), ("transaction_hash", hx h), ("class_hash", hx t.classHash),
      ("contract_address", hx t.address), ("contract_address_salt", hx t.salt), ("constructor_calldata", dcs t.calldata)] :
      List (String × J))).map (·.1)).Nodup := by simp only [List.map_cons, List.map_nil]; decide
  have hr : readType "DEPLOY" (.obj ([("type", .str "DEPLOY"), ("version", .hex v.val), ("transaction_hash", hx h), ("class_hash", hx t.classHash),
      ("contract_address", hx t.address), ("contract_address_salt", hx t.salt), ("constructor_calldata", dcs t.calldata)].filter (fun p => p.1 ≠ "type"))) =
      .ok (.deploy h t v) := by
    unfold readType
    simp only
    unfold readDirect
    rw [orRefuse_ok, direct_eq hn, Option.bind_some, readDeploy_iff, get_value hn]
    refine ⟨?_, ?_, f⟩
    · intro k hk
      rw [keys_value] at hk
      simp only [List.map_cons, List.map_nil, List.mem_cons, List.not_mem_nil, or_false] at hk
      simp only [deployNames, List.mem_cons, List.not_mem_nil, or_false]
      grind
    · simp only [has_value]
      simp [On, List.lookup_cons, Says.same]
  have hs : split (.obj [("type", .str "DEPLOY"), ("version", .hex v.val), ("transaction_hash", hx h), ("class_hash", hx t.classHash),
      ("contract_address", hx t.address), ("contract_address_salt", hx t.salt), ("constructor_calldata", dcs t.calldata)]) =
      some ("DEPLOY", .obj ([("type", .str "DEPLOY"), ("version", .hex v.val), ("transaction_hash", hx h), ("class_hash", hx t.classHash),
      ("contract_address", hx t.address), ("contract_address_salt", hx t.salt), ("constructor_calldata", dcs t.calldata)].filter (fun p => p.1 ≠ "type"))) := by
    simp [split]
  unfold readTx readGwTx
  rw [hs]
  simp only
  rw [hr]
  simp only [toStored, if_neg h0, if_neg h1]

example : Fits (.deployV1 ⟨felt 1, felt 2, felt 3, [felt 4]⟩) ∧ (felt 2 : F) ≠ 0 ∧ (felt 2 : F) ≠ 1 := ⟨⟨by decide, by decide⟩, by decide, by decide⟩

/-- **C105, violated.** Every deploy account transaction of version 0 makes the task that reads it panic. -/
theorem C105_account_violated (h : F) (t : DeployAccountV1) (f : Fits (.deployAccountV1 t)) :
    readTx (.obj (withVersion (.hex 0) (document h (.deployAccountV1 t)))) = .error .panic := by
  have e : withVersion (.hex 0) (document h (.deployAccountV1 t)) = [("type", .str "DEPLOY_ACCOUNT"), ("version", .hex 0), ("transaction_hash", hx h),
      ("class_hash", hx t.classHash), ("contract_address", hx t.address), ("contract_address_salt", hx t.salt), ("constructor_calldata", dcs t.calldata),
      ("nonce", hx t.nonce), ("max_fee", hx t.maxFee), ("signature", dcs t.signature)] := rfl
  rw [e]
  clear e
  generalize hl : ([("type", .str "DEPLOY_ACCOUNT"), ("version", .hex 0), ("transaction_hash", hx h),
      ("class_hash", hx t.classHash), ("contract_address", hx t.address), ("contract_address_salt", hx t.salt), ("constructor_calldata", dcs t.calldata),
      ("nonce", hx t.nonce), ("max_fee", hx t.maxFee), ("signature", dcs t.signature)] : List (String × J)) = l
  have hn : (l.map (·.1)).Nodup := by subst hl; simp only [List.map_cons, List.map_nil]; decide
  have hs : split (.obj l) = some ("DEPLOY_ACCOUNT", .obj (l.filter (fun p => p.1 ≠ "type"))) := by
    subst hl
    simp [split]
  have hv : readVersion (valueFields (l.filter (fun p => p.1 ≠ "type"))) = some 0 := by
    rw [version_iff hn, val0]
    subst hl
    simp [Has, List.lookup_cons, Says.same]
  have hr : readDeployAccount01 (valueFields (l.filter (fun p => p.1 ≠ "type"))) = some (.deployAccount01 h t 0) := by
    rw [readDeployAccount01_iff, get_value hn, val0]
    refine ⟨?_, ?_, f⟩
    · intro k hk
      rw [keys_value] at hk
      subst hl
      simp only [List.map_cons, List.map_nil, List.mem_cons, List.not_mem_nil, or_false] at hk
      simp only [deployAccount01Names, List.mem_cons, List.not_mem_nil, or_false]
      grind
    · simp only [has_value]
      subst hl
      simp [On, List.lookup_cons, Says.same]
  unfold readTx readGwTx
  rw [hs]
  simp only
  unfold readType
  simp only
  unfold readDeployAccount
  simp only
  rw [hv]
  simp only [if_true, hr, orRefuse, toStored]
  rw [if_neg (by decide)]

example : Fits (.deployAccountV1 ⟨felt 1, felt 2, [felt 3], felt 4, felt 5, [felt 6], felt 7⟩) := ⟨by decide, by decide⟩

/-- **C105, violated.** An array in the place of a transaction, with the type alone or followed by any version, makes the task panic. -/
theorem C105_array_violated (s : String) (hs : s = "DECLARE" ∨ s = "INVOKE_FUNCTION") (v : F) :
    readTx (.arr [.str s]) = .error .panic ∧ readTx (.arr [.str s, .hex v.val]) = .error .panic := by
  have hv : readHex (.hex v.val) = some v := (readHex_iff _ _).2 (.same _)
  rcases hs with rfl | rfl
  · refine ⟨rfl, ?_⟩
    unfold readTx readGwTx split readType
    simp only [readDeclare, arrayVersion, hv]
  · refine ⟨rfl, ?_⟩
    unfold readTx readGwTx split readType
    simp only [readInvoke, arrayVersion, hv]

/-! ## Receipts -/

/-- **C105.** The document of a receipt that the program can hold, with the fields of all its objects in any order, is read as this receipt with these
events. -/
theorem C105_receipt (r : Rcpt) (es : List Event) (f : ReceiptFits r es) (da : Option Nat) (hda : ∀ n, da = some n → n < 2 ^ 128) (j : J)
    (h : Reordered j (.obj (receiptDocument (some r.resources.l2Gas) da r es))) : readReceipt j = some (r, es) :=
  rd_receipt f (fun n hn => by cases hn; exact f.gas.2.2.2.2) hda h

/-- A reverted receipt with a message and an event. -/
def someReceipt : Rcpt := ⟨felt 9, ⟨⟨1, 2, 3, 4, 5, 6, 7, 8, 9, 10, 11, 12⟩, 100, 3, 1, 2, 3, 4, 5⟩, [⟨felt 1, felt 2, [felt 3]⟩], some "Out of gas", felt 77, 4⟩
/-- Its event. -/
def someEvent : Event := { src := felt 1, keys := [felt 2], data := [felt 3] }
theorem someReceipt_fits : ReceiptFits someReceipt [someEvent] := by
  refine ⟨⟨by decide, by decide, by decide, by decide, by decide, by decide, by decide, by decide, by decide, by decide, by decide, by decide⟩,
    by decide, by decide, ⟨by decide, by decide, by decide, by decide, by decide⟩, by decide, ?_, ?_⟩
  · intro m hm; simp only [someReceipt, List.mem_singleton] at hm; subst hm; exact ⟨by decide, by decide⟩
  · intro e he; simp only [List.mem_singleton] at he; subst he; decide
example : readReceipt (.obj (receiptDocument (some 5) (some 0) someReceipt [someEvent])) = some (someReceipt, [someEvent]) :=
  C105_receipt _ _ someReceipt_fits _ (by rintro n hn; cases hn; decide) _ (.same _)

/-- **C105.** The same for the receipts of the first years: without gas the resources have none, a reverted transaction without a reason has the empty
one, a reason without a revert means nothing, and a consumed message is passed over. -/
theorem C105_receipt_old (r : Rcpt) (es : List Event) (f : ReceiptFits r es) (hz : NoGas r.resources) (m : Consumed) (h1 : m.src < 2 ^ 160) (h2 : Short m.dst)
    (rev : Bool) (why : Option String) (hs : r.reverted = if rev then some (why.getD "") else none) (j : J)
    (h : Reordered j (.obj (oldReceiptDocument m rev why r es))) : readReceipt j = some (r, es) := rd_oldReceipt f hz h1 h2 hs h

/-- A reverted receipt of the first years. -/
def oldReceipt : Rcpt := ⟨felt 9, ⟨⟨1, 2, 3, 4, 5, 6, 7, 8, 9, 10, 11, 12⟩, 100, 3, 0, 0, 0, 0, 0⟩, [], some "", felt 77, 4⟩
example : readReceipt (.obj (oldReceiptDocument ⟨5, [felt 1], felt 2, felt 3, none⟩ true none oldReceipt [someEvent])) = some (oldReceipt, [someEvent]) := by
  refine C105_receipt_old _ _ ⟨⟨by decide, by decide, by decide, by decide, by decide, by decide, by decide, by decide, by decide, by decide, by decide,
    by decide⟩, by decide, by decide, ⟨by decide, by decide, by decide, by decide, by decide⟩, by decide, ?_, ?_⟩ ⟨rfl, rfl, rfl, rfl, rfl⟩ _ (by decide)
    (by decide) _ _ rfl _ (.same _)
  · intro m hm; cases hm
  · intro e he; simp only [List.mem_singleton] at he; subst he; decide

/-- **C105, in part.** What is written for a receipt that the program can hold is read as this receipt, but without its L2 gas. What is missing: the
L2 gas. -/
theorem C105_receipt_written_partial (r : Rcpt) (es : List Event) (f : ReceiptFits r es) :
    readReceipt (writeReceipt (r, es)) = some ({ r with resources := { r.resources with l2Gas := 0 } }, es) :=
  rd_receipt f (fun _ h => by cases h) (fun _ h => by cases h) (reord_receipt r es)

/-- **C105, violated.** The L2 gas of every receipt that has some is lost when the receipt is written and read. -/
theorem C105_l2gas_violated (r : Rcpt) (es : List Event) (f : ReceiptFits r es) (hg : r.resources.l2Gas ≠ 0) :
    readReceipt (writeReceipt (r, es)) ≠ some (r, es) := by
  rw [C105_receipt_written_partial r es f]
  intro h
  have h1 := (Prod.mk.inj (Option.some.inj h)).1
  have h2 : (0 : Nat) = r.resources.l2Gas := congrArg (fun x : Rcpt => x.resources.l2Gas) h1
  exact hg h2.symm

example : ReceiptFits someReceipt [someEvent] ∧ someReceipt.resources.l2Gas ≠ 0 := ⟨someReceipt_fits, by decide⟩

theorem all_none {α : Type} {rd : J → Option α} {j : J} (h : rd j = none) : ∀ l : List J, j ∈ l → all rd l = none
  | x :: l, hm => by
    unfold all
    rcases List.mem_cons.1 hm with rfl | hm
    · rw [h]; rfl
    · rw [all_none h l hm]
      cases rd x <;> rfl

/-- **C105, violated.** A receipt with a message to an address of 2^251 or more, which is a valid destination, cannot be read. -/
theorem C105_message_violated (r : Rcpt) (es : List Event) (l2 da : Option Nat) (m : Msg) (hm : m ∈ r.messages) (hb : 2 ^ 251 ≤ m.dst.val) :
    readReceipt (.obj (receiptDocument l2 da r es)) = none := by
  have h1 : readMsg (messageDocument m) = none := by
    cases he : readMsg (messageDocument m) with
    | none => rfl
    | some x =>
      unfold readMsg at he
      simp only [Option.bind_eq_bind, Option.bind_eq_some_iff] at he
      obtain ⟨g, hg, a, _, b, _, c, hc, _⟩ := he
      obtain ⟨g', hg', hf⟩ := reord_strict (m := [("from_address", hx m.src), ("to_address", hx m.dst), ("payload", dcs m.payload)])
        ["from_address", "payload", "to_address"] (by simp only [List.map_cons, List.map_nil]; decide) (.same _) (by simp)
      unfold messageDocument at hg
      rw [hg'] at hg
      cases hg
      obtain ⟨v, hv, hw⟩ := hf ("to_address", hx m.dst) (by simp)
      have := reord_leaf hw nofun nofun
      subst this
      unfold req at hc
      rw [hv, Option.bind_some] at hc
      obtain ⟨hs, hlt⟩ := (readHex251_iff _ _).1 hc
      have h2 := (readHex_iff _ _).2 hs
      rw [(readHex_iff _ _).2 (.same (hx m.dst))] at h2
      cases h2
      exact absurd hlt (Nat.not_lt.2 hb)
  cases he : readReceipt (.obj (receiptDocument l2 da r es)) with
  | none => rfl
  | some x =>
    unfold readReceipt at he
    simp only [Option.bind_eq_bind, Option.bind_eq_some_iff] at he
    obtain ⟨g, hg, _, _, _, _, _, _, _, _, ms, hms, _⟩ := he
    obtain ⟨g', hg', hf⟩ := reord_strict (m := receiptDocument l2 da r es) receiptNames
      (by simp only [receiptDocument, List.map_cons, List.map_nil]; decide) (.same _)
      (by simp only [receiptDocument, List.forall_mem_cons]; simp [receiptNames])
    rw [hg'] at hg
    cases hg
    obtain ⟨l, hl, hn, _, _⟩ := reord_obj (m := receiptDocument l2 da r es) (by simp only [receiptDocument, List.map_cons, List.map_nil]; decide) (.same _)
    have hgl : g "l2_to_l1_messages" = some (.arr (r.messages.map messageDocument)) := by
      unfold strict at hg'
      simp only at hg'
      cases hl
      rw [direct_all hn, Option.bind_some, known_iff] at hg'
      obtain ⟨_, rfl⟩ := hg'
      show List.lookup "l2_to_l1_messages" _ = _
      refine (lookup_iff hn _ _).2 ?_
      unfold receiptDocument
      simp only [List.mem_cons, true_or, or_true]
    unfold req at hms
    rw [hgl, Option.bind_some] at hms
    have := all_none h1 (r.messages.map messageDocument) (List.mem_map.2 ⟨m, hm, rfl⟩)
    unfold readList at hms
    simp only at hms
    rw [this] at hms
    cases hms

example : ∃ m : Msg, 2 ^ 251 ≤ m.dst.val := ⟨⟨0, ⟨2 ^ 251, by decide⟩, []⟩, by decide⟩

end Verif.Feed
