import Verif.Shown.HexLemmas
import Verif.Common.VersionProps
import Verif.Block.TxSpec
/-!
# Lemmas on the answers of the API
-/
namespace Verif.Shown
open Verif.Shown.Spec
open Verif.Block (F P Txn Bound V3 Msg Event Header Hashes)
open Verif.Diff (SU CUpd ClassUpd)

/-! ## Objects -/

/-- The last value that is inserted for a key. -/
def last (k : String) : List (String × J) → Option J
  | [] => none
  | f :: l => (last k l).or (if f.1 = k then some f.2 else none)

theorem last_append (k : String) : ∀ (l m : List (String × J)), last k (l ++ m) = (last k m).or (last k l)
  | [], m => by simp [last]
  | f :: l, m => by simp only [List.cons_append, last, last_append k l m, Option.or_assoc]

/-- The values of a key in a list. -/
def vals (k : String) (l : List (String × J)) : List J := l.filterMap fun p => if p.1 = k then some p.2 else none

theorem vals_ins (k : String) (m : List (String × J)) (f : String × J) :
    vals k (ins m f) = if f.1 = k then [f.2] else vals k m := by
  unfold vals ins
  rw [List.filterMap_append, List.filterMap_filter]
  by_cases h : f.1 = k
  · subst h
    have : (m.filterMap fun p => if p.1 = f.1 then some p.2 else none) = vals f.1 m := rfl
    simp only [if_true, List.filterMap_cons, List.filterMap_nil]
    have e : (fun x : String × J => if decide (x.1 ≠ f.1) = true then if x.1 = f.1 then some x.2 else none else none) = fun _ => none := by
      funext x
      by_cases hx : x.1 = f.1 <;> simp [hx]
    rw [e]
    simp
  · simp only [h, if_false, List.filterMap_cons, List.filterMap_nil, List.append_nil]
    congr 1
    funext x
    by_cases hx : x.1 = k
    · have : x.1 ≠ f.1 := fun e => h (e ▸ hx)
      simp only [hx] at this ⊢
      simp [this]
    · simp [hx]

theorem vals_foldl (k : String) : ∀ (l m : List (String × J)), vals k (l.foldl ins m) = (last k l).elim (vals k m) ([·])
  | [], m => rfl
  | f :: l, m => by
    rw [List.foldl_cons, vals_foldl k l, vals_ins]
    simp only [last]
    cases last k l with
    | some v => rfl
    | none => by_cases h : f.1 = k <;> simp [h]

theorem values_mk (k : String) (l : List (String × J)) : values k (mk l) = (last k l).toList := by
  show vals k (l.foldl ins []) = _
  rw [vals_foldl]
  cases last k l <;> rfl

theorem get_mk (k : String) (l : List (String × J)) : Spec.get k (mk l) = last k l := by
  simp only [Spec.get, values_mk]
  cases last k l <;> rfl

theorem opt_mk {α : Type} (k : String) (f : J → Option α) (l : List (String × J)) :
    opt k f (mk l) = (last k l).elim (some none) fun v => (f v).map some := by
  simp only [opt, values_mk]
  cases last k l <;> rfl

theorem last_vals (k : String) : ∀ l : List (String × J), last k l = (vals k l).getLast?
  | [] => rfl
  | f :: l => by
    simp only [last, last_vals k l, vals, List.filterMap_cons]
    by_cases h : f.1 = k
    · simp only [h, if_true, List.getLast?_cons]
      cases (l.filterMap fun p => if p.1 = k then some p.2 else none).getLast? <;> rfl
    · simp [h]

theorem last_flat (k : String) (l : List (String × J)) : last k (flat (mk l)) = last k l := by
  rw [last_vals]
  show (vals k (l.foldl ins [])).getLast? = _
  rw [vals_foldl]
  cases last k l <;> rfl

/-! ## Leaves -/

theorem elem_hexF (x : F) : elem (hexF x) = some x := by
  simp only [elem, hexF, hex, hexF_number, Option.bind_some]
  rw [dif_pos x.isLt]

theorem hex_hex64 {n : Nat} (h : n < 2 ^ 64) : hex (hex64 n) = some n := by
  simp only [hex, hex64]
  rw [number_stripped _ (beBytes_lt 8 n), value_beBytes]
  omega

theorem hex_hex128 {n : Nat} (h : n < 2 ^ 128) : hex (hex128 n) = some n := by
  simp only [hex, hex128]
  rw [number_stripped _ (beBytes_lt 16 n), value_beBytes]
  omega

theorem hex_hex256 {n : Nat} (h : n < 2 ^ 256) : hex (hex256 n) = some n := by
  simp only [hex, hex256]
  rw [number_stripped _ (beBytes_lt 32 n), value_beBytes]
  omega

theorem hex_hexN {n : Nat} (h : n < P) : hex (hexN n) = some n := by
  have := elem_hexF ⟨n, h⟩
  simp only [hex, hexN]
  rw [number_stripped _ (beBytes_lt 32 n), value_beBytes]
  have hP : P < 256 ^ 32 := by decide
  omega

theorem hex_serde {w n : Nat} (h : n < 256 ^ w) : hex (.str (hexSerde (beBytes w n))) = some n := by
  rw [serde_stripped _ (beBytes_lt w n)]
  simp only [hex]
  rw [number_stripped _ (beBytes_lt w n), value_beBytes w n h]

theorem list_list {α : Type} (f : J → Option α) (g : α → J) (l : List α) (h : ∀ x ∈ l, f (g x) = some x) :
    Spec.list f (Shown.list g l) = some l := all_map f g l h

theorem list_map {α β : Type} (f : J → Option β) (g : α → J) (c : α → β) (l : List α) (h : ∀ x ∈ l, f (g x) = some (c x)) :
    Spec.list f (Shown.list g l) = some (l.map c) := by
  show all f (l.map g) = some (l.map c)
  induction l with
  | nil => rfl
  | cons x xs ih =>
    simp only [List.map_cons, all, h x (by simp), ih fun y hy => h y (by simp [hy]), Option.bind_some, Option.map_some]

theorem list_hexF (l : List F) : Spec.list elem (Shown.list hexF l) = some l := list_list _ _ l fun x _ => elem_hexF x

/-! ## Transactions -/

theorem bound_show (b : Bound) (h : b.amount < 2 ^ 64 ∧ b.price < 2 ^ 128) : bound (showBound b) = some b := by
  have h1 : b.amount < 256 ^ 8 := by omega
  have h2 : b.price < 256 ^ 16 := by omega
  simp [bound, showBound, get_mk, last, hex_serde h1, hex_serde h2]

theorem mode_show (b : Bool) : mode (showMode b) = some b := by cases b <;> decide

/-- What a version of the API shows of the bound for data gas. -/
def dataGas (v : Ver) (d : Option Bound) : Option Bound := if v.ge .v08 then some (d.getD ⟨0, 0⟩) else none

theorem v3_show (v : Ver) (x : V3) (hx : x.Ok) (l : List (String × J)) (h1 : last "resource_bounds" l = some (showBounds v x))
    (h2 : last "tip" l = some (hex64 x.tip)) (h3 : last "paymaster_data" l = some (Shown.list hexF x.paymaster))
    (h4 : last "nonce_data_availability_mode" l = some (showMode x.nonceL2))
    (h5 : last "fee_data_availability_mode" l = some (showMode x.feeL2)) :
    Spec.v3 (mk l) = some { x with l1DataGas := dataGas v x.l1DataGas } := by
  have hd : bound (showBound (x.l1DataGas.getD ⟨0, 0⟩)) = some (x.l1DataGas.getD ⟨0, 0⟩) := by
    apply bound_show
    cases e : x.l1DataGas with
    | none => simp
    | some b => exact ⟨(hx.l1DataGas b (by simp [e])).1, (hx.l1DataGas b (by simp [e])).2⟩
  have hb1 := bound_show x.l1Gas ⟨hx.l1Gas.1, hx.l1Gas.2⟩
  have hb2 := bound_show x.l2Gas ⟨hx.l2Gas.1, hx.l2Gas.2⟩
  have ht := hex_hex64 hx.tip
  by_cases hv : v.ge .v08 = true
  · simp [Spec.v3, get_mk, h1, h2, h3, h4, h5, mode_show, list_hexF, ht, showBounds, opt_mk, last, hv, hb1, hb2, hd, dataGas]
  · simp [Spec.v3, get_mk, h1, h2, h3, h4, h5, mode_show, list_hexF, ht, showBounds, opt_mk, last, hv, hb1, hb2, dataGas]

/-- What is read of a transaction. -/
def seenTx (v : Ver) (pf : Bool) : Txn → Txn
  | .declareV0 t => .declareV0 { t with nonce := 0 }
  | .declareV1 t => .declareV1 t
  | .declareV2 t => .declareV2 t
  | .declareV3 t => .declareV3 { t with v3 := { t.v3 with l1DataGas := dataGas v t.v3.l1DataGas } }
  | .deployV0 t => .deployV0 { t with address := 0 }
  | .deployV1 t => .deployV1 { t with address := 0 }
  | .deployAccountV1 t => .deployAccountV1 { t with address := 0 }
  | .deployAccountV3 t => .deployAccountV3 { t with address := 0, v3 := { t.v3 with l1DataGas := dataGas v t.v3.l1DataGas } }
  | .invokeV0 t => .invokeV0 { t with entryType := none }
  | .invokeV1 t => .invokeV1 t
  | .invokeV3 t => .invokeV3 { t with v3 := { t.v3 with l1DataGas := dataGas v t.v3.l1DataGas }
                                      proofFacts := if pf && v.ge .v10 then t.proofFacts else [] }
  | .l1Handler t => .l1Handler t

theorem str_text (s : String) : str (text s) = some s.toList := rfl

/-- The fields of version 3 have their widths. -/
def TxFits (t : Txn) : Prop := ∀ x ∈ v3Of t, x.Ok

theorem tx_of (k w : String) (n : Nat) (r : J → Option Txn) (l : List (String × J)) (h1 : last "type" l = some (text k))
    (h2 : last "version" l = some (text w)) (h3 : number w.toList = some n)
    (h4 : (readers.find? fun r => r.1.toList = k.toList ∧ r.2.1 = n) = some (k, n, r)) : Spec.tx (mk l) = r (mk l) := by
  simp only [Spec.tx, get_mk, h1, h2, Option.bind_some, str, hex, text, h3]
  show ((readers.find? _).bind fun r => r.2.2 (mk l)) = _
  rw [h4]
  rfl

theorem tx_read (v : Ver) (pf : Bool) (t : Txn) (h : TxFits t) (pre : List (String × J)) (hpre : ∀ k, k ≠ "transaction_hash" → last k pre = none) :
    Spec.tx (mk (pre ++ flat (showTx v pf t))) = some (seenTx v pf t) := by
  have g : ∀ k, k ≠ "transaction_hash" → ∀ l, last k (pre ++ flat (mk l)) = last k l := by
    intro k hk l
    rw [last_append, last_flat, hpre k hk, Option.or_none]
  cases t with
  | declareV0 t =>
    simp only [showTx]
    rw [tx_of "DECLARE" "0x0" 0 Spec.declareV0 _ (by simp [g, last]) (by simp [g, last]) (by decide) (by rfl)]
    simp [Spec.declareV0, get_mk, g, last, elem_hexF, list_hexF, seenTx]
  | declareV1 t =>
    simp only [showTx]
    rw [tx_of "DECLARE" "0x1" 1 Spec.declareV1 _ (by simp [g, last]) (by simp [g, last]) (by decide) (by rfl)]
    simp [Spec.declareV1, get_mk, g, last, elem_hexF, list_hexF, seenTx]
  | declareV2 t =>
    simp only [showTx]
    rw [tx_of "DECLARE" "0x2" 2 Spec.declareV2 _ (by simp [g, last]) (by simp [g, last]) (by decide) (by rfl)]
    simp [Spec.declareV2, get_mk, g, last, elem_hexF, list_hexF, seenTx]
  | declareV3 t =>
    simp only [showTx]
    rw [tx_of "DECLARE" "0x3" 3 Spec.declareV3 _ (by simp [g, last]) (by simp [g, last]) (by decide) (by rfl)]
    have h3 := h t.v3 rfl
    rw [Spec.declareV3, v3_show v t.v3 h3 _ (by simp [g, last]) (by simp [g, last]) (by simp [g, last]) (by simp [g, last]) (by simp [g, last])]
    simp [get_mk, g, last, elem_hexF, list_hexF, seenTx]
  | deployV0 t =>
    simp only [showTx]
    rw [tx_of "DEPLOY" "0x0" 0 Spec.deployV0 _ (by simp [g, last]) (by simp [g, last]) (by decide) (by rfl)]
    simp [Spec.deployV0, get_mk, g, last, elem_hexF, list_hexF, seenTx]
  | deployV1 t =>
    simp only [showTx]
    rw [tx_of "DEPLOY" "0x1" 1 Spec.deployV1 _ (by simp [g, last]) (by simp [g, last]) (by decide) (by rfl)]
    simp [Spec.deployV1, get_mk, g, last, elem_hexF, list_hexF, seenTx]
  | deployAccountV1 t =>
    simp only [showTx]
    rw [tx_of "DEPLOY_ACCOUNT" "0x1" 1 Spec.deployAccountV1 _ (by simp [g, last]) (by simp [g, last]) (by decide) (by rfl)]
    simp [Spec.deployAccountV1, get_mk, g, last, elem_hexF, list_hexF, seenTx]
  | deployAccountV3 t =>
    simp only [showTx]
    rw [tx_of "DEPLOY_ACCOUNT" "0x3" 3 Spec.deployAccountV3 _ (by simp [g, last]) (by simp [g, last]) (by decide) (by rfl)]
    have h3 := h t.v3 rfl
    rw [Spec.deployAccountV3, v3_show v t.v3 h3 _ (by simp [g, last]) (by simp [g, last]) (by simp [g, last]) (by simp [g, last]) (by simp [g, last])]
    simp [get_mk, g, last, elem_hexF, list_hexF, seenTx]
  | invokeV0 t =>
    simp only [showTx]
    rw [tx_of "INVOKE" "0x0" 0 Spec.invokeV0 _ (by simp [g, last]) (by simp [g, last]) (by decide) (by rfl)]
    simp [Spec.invokeV0, get_mk, g, last, elem_hexF, list_hexF, seenTx]
  | invokeV1 t =>
    simp only [showTx]
    rw [tx_of "INVOKE" "0x1" 1 Spec.invokeV1 _ (by simp [g, last]) (by simp [g, last]) (by decide) (by rfl)]
    simp [Spec.invokeV1, get_mk, g, last, elem_hexF, list_hexF, seenTx]
  | invokeV3 t =>
    simp only [showTx]
    rw [tx_of "INVOKE" "0x3" 3 Spec.invokeV3 _ (by simp [g, last]; split <;> simp [last]) (by simp [g, last]; split <;> simp [last]) (by decide) (by rfl)]
    have h3 := h t.v3 rfl
    rw [Spec.invokeV3, v3_show v t.v3 h3 _ (by simp [g, last]; split <;> simp [last]) (by simp [g, last]; split <;> simp [last]) (by simp [g, last]; split <;> simp [last]) (by simp [g, last]; split <;> simp [last]) (by simp [g, last]; split <;> simp [last])]
    by_cases hp : (pf && v.ge .v10) = true
    · simp only [hp, if_true]
      simp [get_mk, opt_mk, g, last, elem_hexF, list_hexF, seenTx, hp]
    · simp only [hp]
      simp [get_mk, opt_mk, g, last, elem_hexF, list_hexF, seenTx, hp]
  | l1Handler t =>
    simp only [showTx]
    rw [tx_of "L1_HANDLER" "0x0" 0 Spec.l1Handler _ (by simp [g, last]) (by simp [g, last]) (by decide) (by rfl)]
    simp [Spec.l1Handler, get_mk, g, last, elem_hexF, list_hexF, seenTx]

end Verif.Shown
