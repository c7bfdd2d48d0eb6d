import Verif.Shown.Lemmas
/-!
# Lemmas on receipts, blocks and state updates
-/
namespace Verif.Shown
open Verif.Shown.Spec
open Verif.Block (F P Txn Bound V3 Msg Event Header Hashes)
open Verif.Diff (SU CUpd ClassUpd)

/-! ## Receipts -/

theorem money_show : ∀ n : Nat, money (text (unitText n)) = some (if n < 3 then .wei else .fri)
  | 0 => by decide
  | 1 => by decide
  | 2 => by decide
  | n + 3 => by
    rw [if_neg (by omega)]
    have : unitText (n + 3) = "FRI" := rfl
    rw [this]
    decide

theorem finality_show (f : Finality) : finality (text f.text) = some f := by cases f <;> decide

theorem msg_show (m : Msg) : msg (showMsg m) = some m := by
  simp [msg, showMsg, get_mk, last, elem_hexF, list_hexF]

theorem event_show (e : Event) : event (showEvent e) = some e := by
  simp [event, showEvent, showEventContext, get_mk, last, last_flat, elem_hexF, list_hexF]

theorem outcome_no : outcome (text "SUCCEEDED") = some false := by decide
theorem outcome_yes : outcome (text "REVERTED") = some true := by decide

theorem num_num (n : Nat) : num (.num n) = some n := rfl

theorem last_nonZero (k k' : String) (n : Nat) : last k (nonZero k' n) = if k' = k ∧ n ≠ 0 then some (.num n) else none := by
  unfold nonZero
  by_cases h : n = 0 <;> by_cases hk : k' = k <;> simp [h, hk, last]

theorem opt_nonZero (n : Nat) : ((if n = 0 then none else some (J.num n)).elim (some none) fun v => (num v).map some).map (·.getD 0) = some n := by
  by_cases h : n = 0 <;> simp [h, num]

/-- What is read of the resources before 0.8. -/
def countersOf (v : Ver) (r : Resources) : Counters :=
  ⟨r.steps, r.memoryHoles, r.builtins.rangeCheck, r.builtins.pedersen, r.builtins.poseidon, r.builtins.ecOp, r.builtins.ecdsa,
    r.builtins.bitwise, r.builtins.keccak, r.builtins.segmentArena, if v = .v06 then none else some (r.daL1Gas, r.daL1DataGas)⟩

theorem last_computation (k : String) (r : Resources) : last k (flat (showComputation r)) =
    ((((((((((if "segment_arena_builtin" = k ∧ r.builtins.segmentArena ≠ 0 then some (J.num r.builtins.segmentArena) else none).or
    (if "keccak_builtin_applications" = k ∧ r.builtins.keccak ≠ 0 then some (J.num r.builtins.keccak) else none)).or
    (if "bitwise_builtin_applications" = k ∧ r.builtins.bitwise ≠ 0 then some (J.num r.builtins.bitwise) else none)).or
    (if "ecdsa_builtin_applications" = k ∧ r.builtins.ecdsa ≠ 0 then some (J.num r.builtins.ecdsa) else none)).or
    (if "ec_op_builtin_applications" = k ∧ r.builtins.ecOp ≠ 0 then some (J.num r.builtins.ecOp) else none)).or
    (if "poseidon_builtin_applications" = k ∧ r.builtins.poseidon ≠ 0 then some (J.num r.builtins.poseidon) else none)).or
    (if "pedersen_builtin_applications" = k ∧ r.builtins.pedersen ≠ 0 then some (J.num r.builtins.pedersen) else none)).or
    (if "range_check_builtin_applications" = k ∧ r.builtins.rangeCheck ≠ 0 then some (J.num r.builtins.rangeCheck) else none)).or
    (if "memory_holes" = k ∧ r.memoryHoles ≠ 0 then some (J.num r.memoryHoles) else none)).or
    (if "steps" = k then some (J.num r.steps) else none)) := by
  simp only [showComputation, last_flat, last_append, last_nonZero, last, Option.none_or, Option.or_assoc]

theorem counters_read (v : Ver) (r : Resources) (hv : v.ge .v08 = false) : counters (showResources v r) = some (countersOf v r) := by
  have o : ∀ n : Nat, ((if n = 0 then none else some (J.num n)).elim (some none) fun v => (num v).map some).map (·.getD 0) = some n := opt_nonZero
  by_cases h6 : v = .v06
  · subst h6
    simp only [counters, showResources, hv, Bool.false_eq_true, if_false, if_true, get_mk, opt_mk, last_append, last_computation, last]
    simp [o, num_num, countersOf]
  · simp only [counters, showResources, hv, Bool.false_eq_true, if_false, h6, get_mk, opt_mk, last_append, last_computation, last]
    simp [o, num_num, countersOf, da, get_mk, last, h6]

theorem gas_read (v : Ver) (r : Resources) (hv : v.ge .v08 = true) :
    gasUsed (showResources v r) = some ⟨r.l1Gas, r.l1DataGas, r.l2Gas⟩ := by
  simp [gasUsed, showResources, hv, get_mk, last, num]

/-- The fields that every receipt has. -/
structure HasCommon (v : Ver) (hash : F) (t : Txn) (r : Rcpt) (es : List Event) (f : Finality) (l : List (String × J)) : Prop where
  hash : last "transaction_hash" l = some (hexF hash)
  fee : last "actual_fee" l = some (showFee r.fee (versionOf t))
  finality : last "finality_status" l = some (text f.text)
  messages : last "messages_sent" l = some (Shown.list showMsg r.messages)
  events : last "events" l = some (Shown.list showEvent es)
  resources : last "execution_resources" l = some (showResources v r.resources)
  status : status (mk l) = some r.reverted

theorem common_has (v : Ver) (hash : F) (t : Txn) (r : Rcpt) (es : List Event) (f : Finality) (pre post : List (String × J))
    (hpost : ∀ k ∈ ["transaction_hash", "actual_fee", "finality_status", "messages_sent", "events", "execution_resources", "execution_status",
      "revert_reason"], last k post = none) :
    HasCommon v hash t r es f (pre ++ flat (showCommon v hash t r es f) ++ post) := by
  simp only [List.mem_cons, List.not_mem_nil, or_false] at hpost
  have hs : ∀ k, k ≠ "execution_status" → k ≠ "revert_reason" → last k (flat (showStatus r.reverted)) = none := by
    intro k h1 h2
    cases r.reverted <;> simp [showStatus, last_flat, last, Ne.symm h1, Ne.symm h2]
  have hst : ∀ k, k = "execution_status" ∨ k = "revert_reason" →
      last k (pre ++ flat (showCommon v hash t r es f) ++ post) = (last k (flat (showStatus r.reverted))).or (last k pre) := by
    intro k hk
    have hp : last k post = none := hpost k (by rcases hk with rfl | rfl <;> simp)
    rw [last_append, last_append, hp, Option.none_or, showCommon, last_flat, last_append]
    congr 1
    rcases hk with rfl | rfl <;> simp [last]
  constructor
  · simp [last_append, hpost "transaction_hash", showCommon, last_flat, hs, last]
  · simp [last_append, hpost "actual_fee", showCommon, last_flat, hs, last]
  · simp [last_append, hpost "finality_status", showCommon, last_flat, hs, last]
  · simp [last_append, hpost "messages_sent", showCommon, last_flat, hs, last]
  · simp [last_append, hpost "events", showCommon, last_flat, hs, last]
  · simp [last_append, hpost "execution_resources", showCommon, last_flat, hs, last]
  · simp only [status, get_mk]
    rw [hst _ (.inl rfl)]
    cases hr : r.reverted with
    | none => simp [showStatus, last_flat, last, outcome_no]
    | some x =>
      have := hst "revert_reason" (.inr rfl)
      simp only [hr] at this
      rw [this]
      simp [showStatus, last_flat, last, outcome_yes, str]

theorem HasCommon.congr {v : Ver} {hash : F} {t : Txn} {r : Rcpt} {es : List Event} {f : Finality} {l l' : List (String × J)}
    (h : HasCommon v hash t r es f l) (e : ∀ k ∈ ["transaction_hash", "actual_fee", "finality_status", "messages_sent", "events",
      "execution_resources", "execution_status", "revert_reason"], last k l' = last k l) : HasCommon v hash t r es f l' := by
  simp only [List.mem_cons, List.not_mem_nil, or_false] at e
  refine ⟨?_, ?_, ?_, ?_, ?_, ?_, ?_⟩
  · rw [e _ (by simp)]; exact h.hash
  · rw [e _ (by simp)]; exact h.fee
  · rw [e _ (by simp)]; exact h.finality
  · rw [e _ (by simp)]; exact h.messages
  · rw [e _ (by simp)]; exact h.events
  · rw [e _ (by simp)]; exact h.resources
  · have := h.status
    simp only [Spec.status, get_mk] at this ⊢
    rw [e _ (by simp), e _ (by simp)]
    exact this

theorem receipt_of {v : Ver} {hash : F} {t : Txn} {r : Rcpt} {es : List Event} {f : Finality} {l : List (String × J)}
    (h : HasCommon v hash t r es f l) (k : String) (K : Kind) (A : Option F) (M : Option Nat) (ht : last "type" l = some (text k))
    (hk : kind (text k) = some K) (ha : last "contract_address" l = A.map hexF) (hm : last "message_hash" l = M.map hex256)
    (hM : ∀ m ∈ M, m < 2 ^ 256) :
    receipt (mk l) = some ⟨K, hash, r.fee, if versionOf t < 3 then .wei else .fri, f, r.messages, es, r.reverted, A, M⟩ := by
  have e1 : opt "contract_address" elem (mk l) = some A := by
    rw [opt_mk, ha]
    cases A <;> simp [elem_hexF]
  have e2 : opt "message_hash" hex (mk l) = some M := by
    rw [opt_mk, hm]
    cases M with
    | none => rfl
    | some m => simp [hex_hex256 (hM m rfl)]
  have e3 := list_list msg showMsg r.messages fun m _ => msg_show m
  have e4 := list_list event showEvent es fun m _ => event_show m
  have e5 : Spec.get "amount" (showFee r.fee (versionOf t)) = some (hexF r.fee) := by simp [showFee, get_mk, last]
  have e6 : Spec.get "unit" (showFee r.fee (versionOf t)) = some (text (unitText (versionOf t))) := by simp [showFee, get_mk, last]
  simp [receipt, get_mk, h.hash, h.fee, h.finality, h.messages, h.events, h.status, ht, hk, e1, e2, e3, e4, e5, e6, elem_hexF, money_show,
    finality_show]

/-- The fields of a receipt. -/
def receiptFields (h : Hashes) (v : Ver) (hash : F) (t : Txn) (r : Rcpt) (es : List Event) (f : Finality) : List (String × J) :=
  let c := flat (showCommon v hash t r es f)
  match t with
  | .declareV0 _ | .declareV1 _ | .declareV2 _ | .declareV3 _ => [("type", text "DECLARE")] ++ c
  | .deployV0 d | .deployV1 d => c ++ [("type", text "DEPLOY"), ("contract_address", hexF d.address)]
  | .deployAccountV1 d => c ++ [("type", text "DEPLOY_ACCOUNT"), ("contract_address", hexF d.address)]
  | .deployAccountV3 d => c ++ [("type", text "DEPLOY_ACCOUNT"), ("contract_address", hexF d.address)]
  | .invokeV0 _ | .invokeV1 _ | .invokeV3 _ => [("type", text "INVOKE")] ++ c
  | .l1Handler l => c ++ [("type", text "L1_HANDLER"), ("message_hash", hex256 (messageHash h l))]

theorem showReceipt_fields (h : Hashes) (v : Ver) (hash : F) (t : Txn) (r : Rcpt) (es : List Event) (f : Finality) :
    showReceipt h v hash t r es f = mk (receiptFields h v hash t r es f) := by
  cases t <;> rfl

theorem last_common (v : Ver) (hash : F) (t : Txn) (r : Rcpt) (es : List Event) (f : Finality) (k : String)
    (hk : k ∈ ["type", "contract_address", "message_hash", "block_hash", "block_number"]) :
    last k (flat (showCommon v hash t r es f)) = none := by
  simp only [List.mem_cons, List.not_mem_nil, or_false] at hk
  simp only [showCommon, last_flat, last_append]
  cases r.reverted <;> rcases hk with rfl | rfl | rfl | rfl | rfl <;> simp [showStatus, last_flat, last]

/-- What is read of a receipt. -/
def seenReceipt (h : Hashes) (hash : F) (t : Txn) (r : Rcpt) (es : List Event) (f : Finality) : Seen :=
  ⟨kindOf t, hash, r.fee, if versionOf t < 3 then .wei else .fri, f, r.messages, es, r.reverted, addressOf t,
    match t with
    | .l1Handler l => some (messageHash h l)
    | _ => none⟩

theorem fields_common (h : Hashes) (v : Ver) (hash : F) (t : Txn) (r : Rcpt) (es : List Event) (f : Finality) (post : List (String × J))
    (hpost : ∀ k ∈ ["transaction_hash", "actual_fee", "finality_status", "messages_sent", "events", "execution_resources", "execution_status",
      "revert_reason"], last k post = none) :
    HasCommon v hash t r es f (flat (showReceipt h v hash t r es f) ++ post) := by
  have g : HasCommon v hash t r es f (receiptFields h v hash t r es f) := by
    have g1 := common_has v hash t r es f [("type", text "DECLARE")] [] (by simp [last])
    have g2 := common_has v hash t r es f [("type", text "INVOKE")] [] (by simp [last])
    have g3 : ∀ k x y, x = "contract_address" ∨ x = "message_hash" → HasCommon v hash t r es f (flat (showCommon v hash t r es f) ++
        [("type", text k), (x, y)]) := by
      intro k x y hx
      exact common_has v hash t r es f [] [("type", text k), (x, y)] (by rcases hx with rfl | rfl <;> simp [last])
    rw [List.append_nil] at g1 g2
    cases t with
    | declareV0 _ => exact g1
    | declareV1 _ => exact g1
    | declareV2 _ => exact g1
    | declareV3 _ => exact g1
    | deployV0 _ => exact g3 _ _ _ (.inl rfl)
    | deployV1 _ => exact g3 _ _ _ (.inl rfl)
    | deployAccountV1 _ => exact g3 _ _ _ (.inl rfl)
    | deployAccountV3 _ => exact g3 _ _ _ (.inl rfl)
    | invokeV0 _ => exact g2
    | invokeV1 _ => exact g2
    | invokeV3 _ => exact g2
    | l1Handler _ => exact g3 _ _ _ (.inr rfl)
  refine g.congr fun k hk => ?_
  rw [last_append, hpost k hk, Option.none_or, showReceipt_fields, last_flat]

theorem receipt_read (h : Hashes) (hh : ∀ b, h.keccak b < 2 ^ 256) (v : Ver) (hash : F) (t : Txn) (r : Rcpt) (es : List Event) (f : Finality)
    (post : List (String × J)) (hpost : ∀ k, k ≠ "block_hash" → k ≠ "block_number" → last k post = none) :
    receipt (mk (flat (showReceipt h v hash t r es f) ++ post)) = some (seenReceipt h hash t r es f) := by
  have hc := fields_common h v hash t r es f post (by
    intro k hk
    simp only [List.mem_cons, List.not_mem_nil, or_false] at hk
    refine hpost k ?_ ?_ <;> (rintro rfl; simp at hk))
  have hl : ∀ k, k ≠ "block_hash" → k ≠ "block_number" → last k (flat (showReceipt h v hash t r es f) ++ post) =
      last k (receiptFields h v hash t r es f) := by
    intro k h1 h2
    rw [last_append, hpost k h1 h2, Option.none_or, showReceipt_fields, last_flat]
  have lt := last_common v hash t r es f "type" (by simp)
  have la := last_common v hash t r es f "contract_address" (by simp)
  have lm := last_common v hash t r es f "message_hash" (by simp)
  have go : ∀ (k : String) (K : Kind) (A : Option F) (M : Option Nat), last "type" (receiptFields h v hash t r es f) = some (text k) →
      kind (text k) = some K → last "contract_address" (receiptFields h v hash t r es f) = A.map hexF →
      last "message_hash" (receiptFields h v hash t r es f) = M.map hex256 → (∀ m ∈ M, m < 2 ^ 256) →
      receipt (mk (flat (showReceipt h v hash t r es f) ++ post)) = some ⟨K, hash, r.fee, if versionOf t < 3 then .wei else .fri, f,
        r.messages, es, r.reverted, A, M⟩ := by
    intro k K A M h1 h2 h3 h4 h5
    exact receipt_of hc k K A M ((hl _ (by decide) (by decide)).trans h1) h2 ((hl _ (by decide) (by decide)).trans h3)
      ((hl _ (by decide) (by decide)).trans h4) h5
  cases t with
  | declareV0 _ => exact go "DECLARE" .declare none none (by simp [receiptFields, last, lt]) (by decide) (by simp [receiptFields, last, la]) (by simp [receiptFields, last, lm]) (by simp)
  | declareV1 _ => exact go "DECLARE" .declare none none (by simp [receiptFields, last, lt]) (by decide) (by simp [receiptFields, last, la]) (by simp [receiptFields, last, lm]) (by simp)
  | declareV2 _ => exact go "DECLARE" .declare none none (by simp [receiptFields, last, lt]) (by decide) (by simp [receiptFields, last, la]) (by simp [receiptFields, last, lm]) (by simp)
  | declareV3 _ => exact go "DECLARE" .declare none none (by simp [receiptFields, last, lt]) (by decide) (by simp [receiptFields, last, la]) (by simp [receiptFields, last, lm]) (by simp)
  | deployV0 d => exact go "DEPLOY" .deploy (some d.address) none (by simp [receiptFields, last_append, last]) (by decide) (by simp [receiptFields, last_append, last]) (by simp [receiptFields, last_append, last, lm]) (by simp)
  | deployV1 d => exact go "DEPLOY" .deploy (some d.address) none (by simp [receiptFields, last_append, last]) (by decide) (by simp [receiptFields, last_append, last]) (by simp [receiptFields, last_append, last, lm]) (by simp)
  | deployAccountV1 d => exact go "DEPLOY_ACCOUNT" .deployAccount (some d.address) none (by simp [receiptFields, last_append, last]) (by decide) (by simp [receiptFields, last_append, last]) (by simp [receiptFields, last_append, last, lm]) (by simp)
  | deployAccountV3 d => exact go "DEPLOY_ACCOUNT" .deployAccount (some d.address) none (by simp [receiptFields, last_append, last]) (by decide) (by simp [receiptFields, last_append, last]) (by simp [receiptFields, last_append, last, lm]) (by simp)
  | invokeV0 _ => exact go "INVOKE" .invoke none none (by simp [receiptFields, last, lt]) (by decide) (by simp [receiptFields, last, la]) (by simp [receiptFields, last, lm]) (by simp)
  | invokeV1 _ => exact go "INVOKE" .invoke none none (by simp [receiptFields, last, lt]) (by decide) (by simp [receiptFields, last, la]) (by simp [receiptFields, last, lm]) (by simp)
  | invokeV3 _ => exact go "INVOKE" .invoke none none (by simp [receiptFields, last, lt]) (by decide) (by simp [receiptFields, last, la]) (by simp [receiptFields, last, lm]) (by simp)
  | l1Handler l =>
    refine go "L1_HANDLER" .l1Handler none (some (messageHash h l)) (by simp [receiptFields, last_append, last]) (by decide)
      (by simp [receiptFields, last_append, last, la]) (by simp [receiptFields, last_append, last]) ?_
    intro m hm
    simp only [Option.mem_def, Option.some.injEq] at hm
    subst hm
    unfold messageHash
    split
    · decide
    · exact hh _

/-! ## The hash of a message -/

theorem beBytes_add (a : Nat) : ∀ (b n : Nat), beBytes (a + b) n = beBytes a (n / 256 ^ b) ++ beBytes b n
  | 0, n => by simp [beBytes]
  | b + 1, n => by
    have : n / 256 ^ (b + 1) = n / 256 / 256 ^ b := by rw [Nat.div_div_eq_div_mul, Nat.pow_succ, Nat.mul_comm]
    rw [← Nat.add_assoc, beBytes, beBytes_add a b, beBytes, this, List.append_assoc]

theorem beBytes_zero : ∀ w : Nat, beBytes w 0 = List.replicate w 0
  | 0 => rfl
  | w + 1 => by rw [beBytes, Nat.zero_div, beBytes_zero w, List.replicate_succ']

theorem beBytes_range : ∀ (w n : Nat), beBytes w n = (List.range w).map fun i => n / 256 ^ (w - 1 - i) % 256
  | 0, _ => rfl
  | w + 1, n => by
    rw [beBytes, beBytes_range w, List.range_succ, List.map_append, List.map_singleton]
    congr 1
    · apply List.map_congr_left
      intro i hi
      have hi := List.mem_range.mp hi
      have e : 256 ^ (w + 1 - 1 - i) = 256 * 256 ^ (w - 1 - i) := by
        rw [show w + 1 - 1 - i = w - 1 - i + 1 by omega, Nat.pow_succ, Nat.mul_comm]
      rw [e, Nat.div_div_eq_div_mul]
    · simp

theorem bytes32_spec (n : Nat) : (beBytes 32 n).map UInt8.ofNat = bytes32 n := by
  rw [beBytes_range, List.map_map]
  rfl

theorem messageBytes_spec (src address nonce selector : F) (payload : List F) (h : payload.length < 2 ^ 64) :
    messageBytes src address nonce selector payload =
      ([src.val, address.val, nonce.val, selector.val, payload.length] ++ payload.map (·.val)).flatMap bytes32 := by
  have e1 : List.replicate 24 (0 : UInt8) ++ (beBytes 8 payload.length).map UInt8.ofNat = bytes32 payload.length := by
    have e : beBytes 32 payload.length = List.replicate 24 0 ++ beBytes 8 payload.length := by
      have := beBytes_add 24 8 payload.length
      rw [Nat.div_eq_of_lt (by omega), beBytes_zero] at this
      exact this
    rw [← bytes32_spec, e, List.map_append, List.map_replicate]
    congr 1
  have e3 : ∀ x : F, Shown.word x = bytes32 x.val := fun x => bytes32_spec x.val
  have e2 : (payload.map (·.val)).flatMap bytes32 = payload.flatMap Shown.word := by
    rw [List.flatMap_map]
    generalize Shown.word = w, bytes32 = g at e3 ⊢
    rw [show w = fun x : F => g x.val from funext e3]
  rw [List.flatMap_append, e2]
  simp only [messageBytes, List.append_assoc, e3, List.flatMap_cons, List.flatMap_nil, List.append_nil, ← e1]

theorem bytes32_length (n : Nat) : (bytes32 n).length = 32 := by simp [bytes32]

theorem ofNat_inj : ∀ (l l' : List Nat), (∀ b ∈ l, b < 256) → (∀ b ∈ l', b < 256) → l.map UInt8.ofNat = l'.map UInt8.ofNat → l = l'
  | [], [], _, _, _ => rfl
  | [], b :: l', _, _, h => by simp at h
  | a :: l, [], _, _, h => by simp at h
  | a :: l, b :: l', h1, h2, h => by
    simp only [List.map_cons, List.cons.injEq] at h
    have := congrArg UInt8.toNat h.1
    simp only [UInt8.toNat_ofNat'] at this
    have ha := h1 a (by simp)
    have hb := h2 b (by simp)
    rw [ofNat_inj l l' (fun x hx => h1 x (by simp [hx])) (fun x hx => h2 x (by simp [hx])) h.2]
    have : a = b := by omega
    rw [this]

theorem beBytes_inj {w n m : Nat} (hn : n < 256 ^ w) (hm : m < 256 ^ w) (e : beBytes w n = beBytes w m) : n = m := by
  rw [← value_beBytes w n hn, ← value_beBytes w m hm, e]

theorem bytes32_inj {n m : Nat} (hn : n < 2 ^ 256) (hm : m < 2 ^ 256) (e : bytes32 n = bytes32 m) : n = m := by
  rw [← bytes32_spec, ← bytes32_spec] at e
  have h := ofNat_inj _ _ (beBytes_lt 32 n) (beBytes_lt 32 m) e
  have e2 : (256 : Nat) ^ 32 = 2 ^ 256 := by decide
  exact beBytes_inj (by rw [e2]; exact hn) (by rw [e2]; exact hm) h

theorem words_inj : ∀ {l l' : List Nat}, (∀ n ∈ l, n < 2 ^ 256) → (∀ n ∈ l', n < 2 ^ 256) → l.flatMap bytes32 = l'.flatMap bytes32 → l = l'
  | [], [], _, _, _ => rfl
  | [], b :: l', _, _, e => by
    have := congrArg List.length e
    simp [bytes32_length] at this
    try omega
  | a :: l, [], _, _, e => by
    have := congrArg List.length e
    simp [bytes32_length] at this
    try omega
  | a :: l, b :: l', h1, h2, e => by
    rw [List.flatMap_cons, List.flatMap_cons] at e
    obtain ⟨e1, e2⟩ := List.append_inj e (by rw [bytes32_length, bytes32_length])
    rw [bytes32_inj (h1 a (by simp)) (h2 b (by simp)) e1,
      words_inj (fun x hx => h1 x (by simp [hx])) (fun x hx => h2 x (by simp [hx])) e2]

/-! ## Headers and blocks -/

theorem price_show {a b : Nat} (ha : a < 2 ^ 128) (hb : b < 2 ^ 128) : price (showPrice a b) = some (a, b) := by
  simp [price, showPrice, get_mk, last, hex_hex128 ha, hex_hex128 hb]

theorem da_mode (b : Bool) : Spec.word [("BLOB", true), ("CALLDATA", false)] (text (if b then "BLOB" else "CALLDATA")) = some b := by
  cases b <;> decide

/-- The fields of a header are found among fields. -/
def Within (l m : List (String × J)) : Prop := ∀ k, (last k m).isSome → last k l = last k m

theorem header_read (v : Ver) (b : Header) (hb : b.Ok) (hv : v.ge .v10 = true) (hver : Verif.Block.before b.version Verif.Block.v0132 = false)
    (l : List (String × J)) (hl : Within l (flat (showHeader v b))) : header (mk l) = some b := by
  have h7 : v.ge .v07 = true := by revert hv; cases v <;> decide
  have h8 : v.ge .v08 = true := by revert hv; cases v <;> decide
  have g : ∀ k x, last k (flat (showHeader v b)) = some x → last k l = some x := by
    intro k x hx
    rw [hl k (by rw [hx]; rfl), hx]
  simp only [showHeader, h7, h8, hv, hver, if_true, Bool.false_eq_true, if_false, last_flat] at g
  have p1 := price_show hb.ethL1Gas hb.strkL1Gas
  have p2 := price_show hb.ethL1DataGas hb.strkL1DataGas
  have p3 := price_show hb.ethL2Gas hb.strkL2Gas
  have f1 := g "block_hash" _ (by simp [last]; rfl)
  have f2 := g "parent_hash" _ (by simp [last]; rfl)
  have f3 := g "block_number" _ (by simp [last]; rfl)
  have f4 := g "new_root" _ (by simp [last]; rfl)
  have f5 := g "timestamp" _ (by simp [last]; rfl)
  have f6 := g "sequencer_address" _ (by simp [last]; rfl)
  have f7 := g "l1_gas_price" _ (by simp [last]; rfl)
  have f8 := g "starknet_version" _ (by simp [last]; rfl)
  have f9 := g "l1_data_gas_price" _ (by simp [last]; rfl)
  have f10 := g "l1_da_mode" _ (by simp [last]; rfl)
  have f11 := g "l2_gas_price" _ (by simp [last]; rfl)
  have f12 := g "event_commitment" _ (by simp [last]; rfl)
  have f13 := g "transaction_commitment" _ (by simp [last]; rfl)
  have f14 := g "receipt_commitment" _ (by simp [last]; rfl)
  have f15 := g "state_diff_commitment" _ (by simp [last]; rfl)
  have f16 := g "event_count" _ (by simp [last]; rfl)
  have f17 := g "transaction_count" _ (by simp [last]; rfl)
  have f18 := g "state_diff_length" _ (by simp [last]; rfl)
  simp [header, get_mk, f1, f2, f3, f4, f5, f6, f7, f8, f9, f10, f11, f12, f13, f14, f15, f16, f17, f18, p1, p2, p3, elem_hexF, num_num, str,
    Verif.Common.C45_read_show, da_mode]

end Verif.Shown
