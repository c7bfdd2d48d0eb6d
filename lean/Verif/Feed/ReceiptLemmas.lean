import Verif.Feed.LeafLemmas
set_option linter.unusedSimpArgs false
namespace Verif.Feed
open Verif.Block (F P Msg Event)
open Verif.Shown (Builtins Resources)

/-- A field that is there with a value that is the same up to the order of fields. -/
def Fld (g : String → Option J) (k : String) (w : J) : Prop := ∃ v, g k = some v ∧ Reordered v w

theorem reord_leaf {v w : J} (h : Reordered v w) (ha : ∀ l, w ≠ .arr l) (ho : ∀ l, w ≠ .obj l) : v = w := by
  cases h with
  | same => rfl
  | arr l m => exact absurd rfl (ha m)
  | obj l m => exact absurd rfl (ho m)

theorem reord_obj {v : J} {m : List (String × J)} (hm : (m.map (·.1)).Nodup) (h : Reordered v (.obj m)) :
    ∃ l, v = .obj l ∧ (l.map (·.1)).Nodup ∧ (l.map (·.1)).Perm (m.map (·.1)) ∧ ∀ p ∈ m, Fld (fun k => l.lookup k) p.1 p.2 := by
  cases h with
  | same => exact ⟨m, rfl, hm, .refl _, fun p hp => ⟨p.2, (lookup_iff hm _ _).2 hp, .same _⟩⟩
  | obj l _ hk h =>
    have hn : (l.map (·.1)).Nodup := hk.nodup_iff.2 hm
    refine ⟨l, rfl, hn, hk, fun p hp => ?_⟩
    have : p.1 ∈ l.map (·.1) := hk.mem_iff.2 (List.mem_map.2 ⟨p, hp, rfl⟩)
    obtain ⟨q, hq, e⟩ := List.mem_map.1 this
    exact ⟨q.2, (lookup_iff hn _ _).2 (by rw [← e]; exact hq), h q hq p hp e⟩

theorem direct_all {l : List (String × J)} (hn : (l.map (·.1)).Nodup) (names : List String) :
    directFields names l = some ⟨l.map (·.1), fun k => l.lookup k⟩ := by
  unfold directFields
  rw [if_pos (List.Nodup.sublist List.filter_sublist hn)]

theorem reord_strict {v : J} {m : List (String × J)} (names : List String) (hm : (m.map (·.1)).Nodup) (h : Reordered v (.obj m))
    (hk : ∀ p ∈ m, p.1 ∈ names) : ∃ g, strict names v = some g ∧ ∀ p ∈ m, Fld g p.1 p.2 := by
  obtain ⟨l, rfl, hn, hp, hf⟩ := reord_obj hm h
  refine ⟨_, ?_, hf⟩
  unfold strict
  simp only
  rw [direct_all hn, Option.bind_some]
  unfold known
  rw [if_pos]
  simp only [List.all_eq_true, List.contains_iff_mem]
  intro k hk'
  obtain ⟨p, hp', rfl⟩ := List.mem_map.1 (hp.mem_iff.1 hk')
  exact hk p hp'

theorem reord_strict' {v : J} {m : List (String × J)} (names : List String) (hm : (m.map (·.1)).Nodup) (h : Reordered v (.obj m))
    (hk : ∀ p ∈ m, p.1 ∈ names) : ∃ g, strict names v = some g ∧ (∀ p ∈ m, Fld g p.1 p.2) ∧ ∀ k, k ∉ m.map (·.1) → g k = none := by
  obtain ⟨g, hg, hf⟩ := reord_strict names hm h hk
  refine ⟨g, hg, hf, fun k hk' => ?_⟩
  obtain ⟨l, rfl, hn, hp, _⟩ := reord_obj hm h
  unfold strict at hg
  simp only at hg
  rw [direct_all hn, Option.bind_some] at hg
  unfold known at hg
  split at hg
  · cases hg
    show l.lookup k = none
    rw [lookup_none]
    rintro q hq rfl
    exact hk' (hp.mem_iff.1 (List.mem_map.2 ⟨q, hq, rfl⟩))
  · cases hg

theorem opt_missing {α : Type} {g : String → Option J} {k : String} {rd : J → Option α} (h : g k = none) : opt g k rd = some none := by
  unfold opt
  rw [h]

theorem reord_loose {v : J} {m : List (String × J)} (names : List String) (hm : (m.map (·.1)).Nodup) (h : Reordered v (.obj m)) :
    ∃ g, loose names v = some g ∧ ∀ p ∈ m, Fld g p.1 p.2 := by
  obtain ⟨l, rfl, hn, hp, hf⟩ := reord_obj hm h
  refine ⟨_, ?_, hf⟩
  unfold loose
  simp only
  rw [direct_all hn, Option.map_some]

theorem fld_req {α : Type} {g : String → Option J} {k : String} {w : J} {rd : J → Option α} {x : α} (h : Fld g k w)
    (hr : ∀ v, Reordered v w → rd v = some x) : req g k rd = some x := by
  obtain ⟨v, hv, hw⟩ := h
  unfold req
  rw [hv, Option.bind_some, hr v hw]

theorem fld_dflt {α : Type} {g : String → Option J} {k : String} {w : J} {rd : J → Option α} {x d : α} (h : Fld g k w)
    (hr : ∀ v, Reordered v w → rd v = some x) : dflt g k d rd = some x := by
  obtain ⟨v, hv, hw⟩ := h
  unfold dflt
  rw [hv]
  exact hr v hw

theorem fld_null {α : Type} {g : String → Option J} {k : String} {rd : J → Option α} (h : Fld g k .null) : opt g k rd = some none := by
  obtain ⟨v, hv, hw⟩ := h
  have := reord_leaf hw nofun nofun
  subst this
  unfold opt
  rw [hv]

theorem fld_some {α : Type} {g : String → Option J} {k : String} {w : J} {rd : J → Option α} {x : α} (h : Fld g k w) (hw : w ≠ .null)
    (hr : ∀ v, Reordered v w → rd v = some x) : opt g k rd = some (some x) := by
  obtain ⟨v, hv, hw'⟩ := h
  have hne : v ≠ .null := by
    rintro rfl
    cases hw'
    exact hw rfl
  unfold opt
  rw [hv]
  cases v <;> first | exact absurd rfl hne | (simp only; rw [hr _ hw']; rfl)

theorem rd_hex {v : J} {x : F} (h : Reordered v (hx x)) : readHex v = some x := by
  have := reord_leaf h nofun nofun; subst this; exact (readHex_iff _ _).2 (.same _)
theorem rd_short {v : J} {x : F} (hs : Short x) (h : Reordered v (hx x)) : readHex251 v = some x := by
  have := reord_leaf h nofun nofun; subst this; exact (readHex251_iff _ _).2 ⟨.same _, hs⟩
theorem rd_num {v : J} {n b : Nat} (hb : n < b) (h : Reordered v (.num n)) : readNum b v = some n := by
  have := reord_leaf h nofun nofun; subst this; simp only [readNum, if_pos hb]
theorem rd_str {v : J} {s : String} (h : Reordered v (.str s)) : readStr v = some s := by
  have := reord_leaf h nofun nofun; subst this; rfl

theorem all_map {α : Type} {rd : J → Option α} {f : α → J} : ∀ (l : List J) (xs : List α), l.length = xs.length →
    (∀ x ∈ xs, ∀ v, Reordered v (f x) → rd v = some x) → (∀ p ∈ l.zip (xs.map f), Reordered p.1 p.2) → all rd l = some xs
  | [], [], _, _, _ => rfl
  | [], _ :: _, h, _, _ => by cases h
  | _ :: _, [], h, _, _ => by cases h
  | j :: l, x :: xs, hl, hr, hp => by
    simp only [List.map_cons, List.zip_cons_cons, List.forall_mem_cons] at hp hr
    unfold all
    rw [hr.1 j hp.1, all_map l xs (by simpa using hl) hr.2 hp.2]
    rfl

theorem zip_self_reord : ∀ (l : List J), ∀ p ∈ l.zip l, Reordered p.1 p.2
  | [] => by simp
  | j :: l => by
    simp only [List.zip_cons_cons, List.forall_mem_cons]
    exact ⟨.same _, zip_self_reord l⟩

theorem rd_list {α : Type} {rd : J → Option α} {f : α → J} {xs : List α} (hr : ∀ x ∈ xs, ∀ v, Reordered v (f x) → rd v = some x) {v : J}
    (h : Reordered v (.arr (xs.map f))) : readList rd v = some xs := by
  cases h with
  | same => exact all_map _ _ (by simp) hr (zip_self_reord _)
  | arr l _ hl h => exact all_map l xs (by simpa using hl) hr h

theorem rd_dec {v : J} {x : F} (h : Reordered v (.dec x.val)) : readDec v = some x := by
  have := reord_leaf h nofun nofun; subst this; exact (readDec_iff _ _).2 (.same _)

theorem rd_decs {v : J} {xs : List F} (h : Reordered v (dcs xs)) : readList readDec v = some xs := rd_list (fun _ _ _ => rd_dec) h

theorem rd_builtins {b : Builtins} (hb : BuiltinsFit b) {v : J} (h : Reordered v (builtinsDocument b)) : readBuiltins v = some b := by
  obtain ⟨g, hg, hf⟩ := reord_loose builtinNames (by simp only [receiptDocument, List.map_cons, List.map_nil]; decide) h
  simp only [List.forall_mem_cons, List.not_mem_nil, false_implies, implies_true, and_true] at hf
  obtain ⟨a, b, c, d, e, f, i, j, k, l, m, n⟩ := hf
  unfold readBuiltins
  rw [hg]
  simp only [Option.bind_eq_bind, Option.bind_some, fld_dflt a (fun _ => rd_num hb.output), fld_dflt b (fun _ => rd_num hb.pedersen),
    fld_dflt c (fun _ => rd_num hb.rangeCheck), fld_dflt d (fun _ => rd_num hb.ecdsa), fld_dflt e (fun _ => rd_num hb.bitwise),
    fld_dflt f (fun _ => rd_num hb.ecOp), fld_dflt i (fun _ => rd_num hb.keccak), fld_dflt j (fun _ => rd_num hb.poseidon),
    fld_dflt k (fun _ => rd_num hb.segmentArena), fld_dflt l (fun _ => rd_num hb.addMod), fld_dflt m (fun _ => rd_num hb.mulMod),
    fld_dflt n (fun _ => rd_num hb.rangeCheck96)]
  rfl

theorem rd_gas {a b : Nat} {c : Option Nat} (ha : a < 2 ^ 128) (hb : b < 2 ^ 128) (hc : ∀ n, c = some n → n < 2 ^ 128) {v : J}
    (h : Reordered v (gasDocument a b c)) : readGas v = some ⟨a, b, c⟩ := by
  obtain ⟨g, hg, hf⟩ := reord_strict ["l1_gas", "l1_data_gas", "l2_gas"] (by simp only [receiptDocument, List.map_cons, List.map_nil]; decide) h
    (by simp only [List.forall_mem_cons]; simp)
  simp only [List.forall_mem_cons, List.not_mem_nil, false_implies, implies_true, and_true] at hf
  obtain ⟨h1, h2, h3⟩ := hf
  unfold readGas
  rw [hg]
  cases c with
  | none =>
    simp only [Option.bind_eq_bind, Option.bind_some, fld_req h1 (fun _ => rd_num ha), fld_req h2 (fun _ => rd_num hb), fld_null h3]
    rfl
  | some n =>
    simp only [Option.bind_eq_bind, Option.bind_some, fld_req h1 (fun _ => rd_num ha), fld_req h2 (fun _ => rd_num hb),
      fld_some h3 nofun (fun _ => rd_num (hc n rfl))]
    rfl

/-- The resources that are read: the L2 gas is the one of the document, or zero. -/
def withL2 (l2 : Option Nat) (r : Resources) : Resources := { r with l2Gas := l2.getD 0 }

theorem rd_resources {r : Resources} {l2 da : Option Nat} (hb : BuiltinsFit r.builtins) (h1 : r.steps < 2 ^ 64) (h2 : r.memoryHoles < 2 ^ 64)
    (h3 : r.daL1Gas < 2 ^ 128) (h4 : r.daL1DataGas < 2 ^ 128) (h5 : r.l1Gas < 2 ^ 128) (h6 : r.l1DataGas < 2 ^ 128)
    (h7 : ∀ n, l2 = some n → n < 2 ^ 128) (h8 : ∀ n, da = some n → n < 2 ^ 128) {v : J}
    (h : Reordered v (resourcesDocument l2 da r)) : readResources v = some (withL2 l2 r) := by
  obtain ⟨g, hg, hf⟩ := reord_strict ["builtin_instance_counter", "n_steps", "n_memory_holes", "data_availability", "total_gas_consumed"]
    (by simp only [receiptDocument, List.map_cons, List.map_nil]; decide) h (by simp only [List.forall_mem_cons]; simp)
  simp only [List.forall_mem_cons, List.not_mem_nil, false_implies, implies_true, and_true] at hf
  obtain ⟨a, b, c, d, e⟩ := hf
  unfold readResources
  rw [hg]
  simp only [Option.bind_eq_bind, Option.bind_some, fld_req c (fun _ => rd_builtins hb), fld_req a (fun _ => rd_num h1), fld_req b (fun _ => rd_num h2),
    fld_some d nofun (fun _ => rd_gas h3 h4 h8), fld_some e nofun (fun _ => rd_gas h5 h6 h7)]
  rfl

theorem rd_event {e : Event} (he : Short e.src) {v : J} (h : Reordered v (eventDocument e)) : readEvent v = some e := by
  obtain ⟨g, hg, hf⟩ := reord_strict ["data", "from_address", "keys"] (by simp only [receiptDocument, List.map_cons, List.map_nil]; decide) h
    (by simp only [List.forall_mem_cons]; simp)
  simp only [List.forall_mem_cons, List.not_mem_nil, false_implies, implies_true, and_true] at hf
  obtain ⟨a, b, c⟩ := hf
  unfold readEvent
  rw [hg]
  simp only [Option.bind_eq_bind, Option.bind_some, fld_req a (fun _ => rd_short he), fld_req b (fun _ => rd_decs), fld_req c (fun _ => rd_decs)]
  rfl

theorem rd_msg {m : Msg} (h1 : Short m.src) (h2 : Short m.dst) {v : J} (h : Reordered v (messageDocument m)) : readMsg v = some m := by
  obtain ⟨g, hg, hf⟩ := reord_strict ["from_address", "payload", "to_address"] (by simp only [receiptDocument, List.map_cons, List.map_nil]; decide) h
    (by simp only [List.forall_mem_cons]; simp)
  simp only [List.forall_mem_cons, List.not_mem_nil, false_implies, implies_true, and_true] at hf
  obtain ⟨a, b, c⟩ := hf
  unfold readMsg
  rw [hg]
  simp only [Option.bind_eq_bind, Option.bind_some, fld_req a (fun _ => rd_short h1), fld_req b (fun _ => rd_short h2), fld_req c (fun _ => rd_decs)]
  rfl

theorem rd_bytes {w : Nat} {v : J} {n : Nat} (hn : n < 256 ^ w) (h : Reordered v (.hex n)) : readBytes w v = some n := by
  have := reord_leaf h nofun nofun; subst this; exact (readBytes_iff _ _ _).2 ⟨.same _, hn⟩

theorem rd_consumed {m : Consumed} (h1 : m.src < 2 ^ 160) (h2 : Short m.dst) {v : J} (h : Reordered v (consumedDocument m)) : readConsumed v = some () := by
  have h1' : m.src < 256 ^ 20 := h1
  obtain ⟨src, pay, sel, dst, nonce⟩ := m
  cases nonce with
  | none =>
    obtain ⟨g, hg, hf, hno⟩ := reord_strict' ["from_address", "payload", "selector", "to_address", "nonce"]
      (by simp only [List.append_nil, List.map_cons, List.map_nil]; decide) h (by simp only [List.append_nil, List.forall_mem_cons]; simp)
    simp only [List.append_nil, List.forall_mem_cons, List.not_mem_nil, false_implies, implies_true, and_true] at hf
    obtain ⟨a, b, c, d⟩ := hf
    unfold readConsumed
    rw [hg]
    simp only [Option.bind_eq_bind, Option.bind_some, fld_req a (fun _ => rd_bytes h1'), fld_req b (fun _ => rd_short h2), fld_req c (fun _ => rd_hex),
      fld_req d (fun _ => rd_decs), opt_missing (hno "nonce" (by simp))]
    rfl
  | some n =>
    obtain ⟨g, hg, hf, _⟩ := reord_strict' ["from_address", "payload", "selector", "to_address", "nonce"]
      (by simp only [List.cons_append, List.nil_append, List.map_cons, List.map_nil]; decide) h
      (by simp only [List.cons_append, List.nil_append, List.forall_mem_cons]; simp)
    simp only [List.cons_append, List.nil_append, List.forall_mem_cons, List.not_mem_nil, false_implies, implies_true, and_true] at hf
    obtain ⟨a, b, c, d, e⟩ := hf
    unfold readConsumed
    rw [hg]
    simp only [Option.bind_eq_bind, Option.bind_some, fld_req a (fun _ => rd_bytes h1'), fld_req b (fun _ => rd_short h2), fld_req c (fun _ => rd_hex),
      fld_req d (fun _ => rd_decs), fld_some e nofun (fun _ => rd_hex)]
    rfl

theorem rd_oldResources {r : Resources} (hb : BuiltinsFit r.builtins) (h1 : r.steps < 2 ^ 64) (h2 : r.memoryHoles < 2 ^ 64) (hz : NoGas r) {v : J}
    (h : Reordered v (.obj [("n_steps", .num r.steps), ("n_memory_holes", .num r.memoryHoles), ("builtin_instance_counter", builtinsDocument r.builtins)])) :
    readResources v = some r := by
  obtain ⟨g, hg, hf, hno⟩ := reord_strict' ["builtin_instance_counter", "n_steps", "n_memory_holes", "data_availability", "total_gas_consumed"]
    (by simp only [List.map_cons, List.map_nil]; decide) h (by simp only [List.forall_mem_cons]; simp)
  simp only [List.forall_mem_cons, List.not_mem_nil, false_implies, implies_true, and_true] at hf
  obtain ⟨a, b, c⟩ := hf
  obtain ⟨z1, z2, z3, z4, z5⟩ := hz
  unfold readResources
  rw [hg]
  simp only [Option.bind_eq_bind, Option.bind_some, fld_req c (fun _ => rd_builtins hb), fld_req a (fun _ => rd_num h1), fld_req b (fun _ => rd_num h2),
    opt_missing (hno "data_availability" (by simp)), opt_missing (hno "total_gas_consumed" (by simp))]
  obtain ⟨_, _, _, _, _, _, _, _⟩ := r
  simp only at z1 z2 z3 z4 z5
  subst z1 z2 z3 z4 z5
  rfl

theorem rd_status {v : J} {b : Bool} (h : Reordered v (.str (if b then "REVERTED" else "SUCCEEDED"))) : readStatus v = some b := by
  have := reord_leaf h nofun nofun; subst this; cases b <;> rfl

theorem rd_receipt {r : Rcpt} {es : List Event} {l2 da : Option Nat} (hr : ReceiptFits r es) (h7 : ∀ n, l2 = some n → n < 2 ^ 128)
    (h8 : ∀ n, da = some n → n < 2 ^ 128) {v : J} (h : Reordered v (.obj (receiptDocument l2 da r es))) :
    readReceipt v = some ({ r with resources := withL2 l2 r.resources }, es) := by
  obtain ⟨g, hg, hf⟩ := reord_strict receiptNames (by simp only [receiptDocument, List.map_cons, List.map_nil]; decide) h
    (by simp only [receiptDocument, List.forall_mem_cons]; simp [receiptNames])
  simp only [receiptDocument, List.forall_mem_cons, List.not_mem_nil, false_implies, implies_true, and_true] at hf
  obtain ⟨a, b, c, d, e, f, i, j, k⟩ := hf
  obtain ⟨g1, g2, g3, g4, -⟩ := hr.gas
  have hres := fld_req f (fun _ => rd_resources hr.builtins hr.steps hr.holes g1 g2 g3 g4 h7 h8)
  have hev := fld_req k (fun _ => rd_list fun e he _ => rd_event (hr.events e he))
  have hms := fld_req i (fun _ => rd_list fun m hm _ => rd_msg (hr.messages m hm).1 (hr.messages m hm).2)
  unfold readReceipt
  rw [hg]
  obtain ⟨fee, rs, ms, rev, hash, idx⟩ := r
  cases rev with
  | none =>
    have hs := fld_req (rd := readStatus) (x := false) d (fun _ => rd_status (b := false))
    simp only [Option.bind_eq_bind, Option.bind_some, fld_req c (fun _ => rd_hex), hev, hres, fld_null j, hms, fld_req a (fun _ => rd_hex),
      fld_req b (fun _ => rd_num hr.index), hs, fld_null e]
    rfl
  | some s =>
    have hs := fld_req (rd := readStatus) (x := true) d (fun _ => rd_status (b := true))
    simp only [Option.bind_eq_bind, Option.bind_some, fld_req c (fun _ => rd_hex), hev, hres, fld_null j, hms, fld_req a (fun _ => rd_hex),
      fld_req b (fun _ => rd_num hr.index), hs, fld_some e nofun (fun _ => rd_str)]
    rfl

theorem rd_oldReceipt {r : Rcpt} {es : List Event} {m : Consumed} {rev : Bool} {why : Option String} (hr : ReceiptFits r es) (hz : NoGas r.resources)
    (h1 : m.src < 2 ^ 160) (h2 : Short m.dst) (hs : r.reverted = if rev then some (why.getD "") else none) {v : J}
    (h : Reordered v (.obj (oldReceiptDocument m rev why r es))) : readReceipt v = some (r, es) := by
  have key : ∃ g, strict receiptNames v = some g ∧ (Fld g "transaction_hash" (hx r.hash) ∧ Fld g "transaction_index" (.num r.index) ∧ Fld g "actual_fee" (hx r.fee) ∧
      Fld g "execution_status" (.str (if rev then "REVERTED" else "SUCCEEDED")) ∧
      Fld g "execution_resources" (.obj [("n_steps", .num r.resources.steps), ("n_memory_holes", .num r.resources.memoryHoles),
        ("builtin_instance_counter", builtinsDocument r.resources.builtins)]) ∧
      Fld g "l2_to_l1_messages" (.arr (r.messages.map messageDocument)) ∧ Fld g "l1_to_l2_consumed_message" (consumedDocument m) ∧
      Fld g "events" (.arr (es.map eventDocument))) ∧ opt g "revert_error" readStr = some why := by
    cases why with
    | none =>
      obtain ⟨g, hg, hf, hno⟩ := reord_strict' receiptNames (by simp only [oldReceiptDocument, List.append_nil, List.map_cons, List.map_nil]; decide) h
        (by simp only [oldReceiptDocument, List.append_nil, List.forall_mem_cons]; simp [receiptNames])
      simp only [oldReceiptDocument, List.append_nil, List.forall_mem_cons, List.not_mem_nil, false_implies, implies_true, and_true] at hf
      exact ⟨g, hg, hf, opt_missing (hno _ (by simp [oldReceiptDocument]))⟩
    | some s =>
      obtain ⟨g, hg, hf, hno⟩ := reord_strict' receiptNames
        (by simp only [oldReceiptDocument, List.cons_append, List.nil_append, List.map_cons, List.map_nil]; decide) h
        (by simp only [oldReceiptDocument, List.cons_append, List.nil_append, List.forall_mem_cons]; simp [receiptNames])
      simp only [oldReceiptDocument, List.cons_append, List.nil_append, List.forall_mem_cons, List.not_mem_nil, false_implies, implies_true, and_true] at hf
      obtain ⟨a, b, c, d, e, f, i, j, k⟩ := hf
      exact ⟨g, hg, ⟨a, b, c, d, e, f, i, j⟩, fld_some k nofun (fun _ => rd_str)⟩
  obtain ⟨g, hg, ⟨a, b, c, d, e, f, i, k⟩, hw⟩ := key
  have hres := fld_req e (fun _ => rd_oldResources hr.builtins hr.steps hr.holes hz)
  have hev := fld_req k (fun _ => rd_list fun e he _ => rd_event (hr.events e he))
  have hms := fld_req f (fun _ => rd_list fun m hm _ => rd_msg (hr.messages m hm).1 (hr.messages m hm).2)
  have hcon : opt g "l1_to_l2_consumed_message" readConsumed = some (some ()) := fld_some i (by unfold consumedDocument; exact nofun) (fun _ => rd_consumed h1 h2)
  unfold readReceipt
  rw [hg]
  simp only [Option.bind_eq_bind, Option.bind_some, fld_req c (fun _ => rd_hex), hev, hres, hcon, hms, fld_req a (fun _ => rd_hex),
    fld_req b (fun _ => rd_num hr.index), fld_req d (fun _ => rd_status), hw]
  obtain ⟨fee, rs, ms, rv, hash, idx⟩ := r
  simp only at hs
  subst hs
  rfl

end Verif.Feed
