import Verif.Submit.Spec

/-! # The gateway reads what was written -/
namespace Verif.Submit

open Spec

theorem all_hex (l : List Nat) : Spec.all Spec.hex (l.map .hex) = some l := by
  induction l with
  | nil => rfl
  | cons a l ih => simp [Spec.all, ih, Spec.hex]

theorem all_dec (l : List Nat) : Spec.all Spec.dec (l.map .dec) = some l := by
  induction l with
  | nil => rfl
  | cons a l ih => simp [Spec.all, ih, Spec.dec]

theorem list_hexes (l : List Nat) : Spec.list Spec.hex (hexes l) = some l := all_hex l

theorem list_decs (l : List Nat) : Spec.list Spec.dec (decs l) = some l := all_dec l

theorem mode_json (d : Da) : Spec.mode d.json = some d := by cases d <;> rfl

theorem bound_json (b : Bound) : Spec.bound b.json = some b := by
  simp [Spec.bound, Bound.json, Spec.one, Spec.values, Spec.hex]

theorem bounds_json (b : Bounds) : Spec.bounds b.json = some b := by
  obtain ⟨l1, l2, d⟩ := b
  cases d <;> simp [Spec.bounds, Bounds.json, Spec.one, Spec.opt, Spec.values, bound_json]

theorem read_invoke0 (t : Invoke0) (r : ReqInvoke01)
    (hr : r = ⟨t.maxFee, t.signature, none, t.contractAddress, some t.selector, t.calldata⟩) :
    Spec.read (tagged "INVOKE_FUNCTION" "0x0" r.fields) = some (.invoke0 { t with version := 0 }) := by
  subst hr
  simp [Spec.read, Spec.invoke0, tagged, ReqInvoke01.fields, optField, Spec.one, Spec.values, Spec.str, Spec.hex, list_hexes]

theorem read_invoke1 (t : Invoke1) (r : ReqInvoke01)
    (hr : r = ⟨t.maxFee, t.signature, some t.nonce, t.sender, none, t.calldata⟩) :
    Spec.read (tagged "INVOKE_FUNCTION" "0x1" r.fields) = some (.invoke1 { t with version := 1 }) := by
  subst hr
  simp [Spec.read, Spec.invoke1, tagged, ReqInvoke01.fields, optField, Spec.one, Spec.values, Spec.str, Spec.hex, list_hexes]

theorem read_invoke3 (t : Invoke3) : Spec.read (tagged "INVOKE_FUNCTION" "0x3" t.fields) = some (.invoke3 { t with version := 3 }) := by
  obtain ⟨v, sig, nonce, bounds, tip, pm, dep, nm, fm, sender, cd, pf, pr⟩ := t
  cases pf <;> cases pr <;>
  simp [Spec.read, Spec.invoke3, tagged, Invoke3.fields, vecField, proofField, Spec.one, Spec.values, Spec.str, Spec.hex, list_hexes,
    bounds_json, mode_json, Spec.optList, Spec.opt, Spec.b64]

theorem read_declare3 (t : Declare3) (c : Nat) : Spec.read (tagged "DECLARE" "0x3" (t.fields c)) =
    some (.declare3 { t with version := 3, cls := c }) := by
  simp [Spec.read, Spec.declare3, tagged, Declare3.fields, Spec.one, Spec.values, Spec.str, Spec.hex, list_hexes, bounds_json, mode_json, Spec.cls]

theorem read_deploy1 (t : Deploy1) : Spec.read (tagged "DEPLOY_ACCOUNT" "0x1" t.fields) = some (.deploy1 { t with version := 1 }) := by
  simp [Spec.read, Spec.deploy1, tagged, Deploy1.fields, Spec.one, Spec.values, Spec.str, Spec.hex, list_decs]

theorem read_deploy3 (t : Deploy3) : Spec.read (tagged "DEPLOY_ACCOUNT" "0x3" t.fields) = some (.deploy3 { t with version := 3 }) := by
  simp [Spec.read, Spec.deploy3, tagged, Deploy3.fields, Spec.one, Spec.values, Spec.str, Spec.hex, list_hexes, bounds_json, mode_json]

theorem lenient_declare1 (t : Declare1) (c : Nat) (hv : plain t.version = 1) (r : ReqDeclare012)
    (hr : r = ⟨t.version, t.maxFee, t.signature, c, t.sender, t.nonce, none⟩) :
    Spec.readLenient (tagged "DECLARE" "0x1" r.fields) = some (.declare1 { t with cls := c }) := by
  subst hr
  simp [Spec.readLenient, Spec.declare1, tagged, ReqDeclare012.fields, optField, Spec.one, Spec.last, Spec.values, Spec.str, Spec.hex,
    list_hexes, Spec.cls, hv]

theorem lenient_declare2 (t : Declare2) (c : Nat) (hv : plain t.version = 2) (r : ReqDeclare012)
    (hr : r = ⟨t.version, t.maxFee, t.signature, c, t.sender, t.nonce, some t.compiled⟩) :
    Spec.readLenient (tagged "DECLARE" "0x2" r.fields) = some (.declare2 { t with cls := c }) := by
  subst hr
  simp [Spec.readLenient, Spec.declare2, tagged, ReqDeclare012.fields, optField, Spec.one, Spec.last, Spec.values, Spec.str, Spec.hex,
    list_hexes, Spec.cls, hv]

end Verif.Submit
