import Verif.Crypto.Pedersen
/-!
# ECDSA

Model of `crates/crypto/src/signature/ecdsa.rs`. The outer `Option` of a result is `none` for a panic.
-/
namespace Verif.Crypto

/-- `CURVE_ORDER` (curve/params.rs:5-7). -/
def curveOrder : Limbs := hexConst 0x800000000000010 0xffffffffffffffff 0xb781126dcae7b232 0x1e66a241adc64d2f

/-- `UPPER_BOUND` (ecdsa.rs:11-16). -/
def upperBound : Limbs := ⟨18446743986131435553, 160989183, 18446744073709255680, 576459263475450960⟩

/-- `<` and `>=` of `MontFelt` (montfelt/cmp.rs:71-81). -/
def feltLt (a b : Limbs) : Bool := cmpNative fieldMod a b = .lt

/-- `TryFrom<MontFelt> for CurveOrderMontFelt` (curveorder/convert.rs:67-77). -/
def scalarOfMont (v : Limbs) : Option Limbs :=
  if feltLt v curveOrder then some (montFromBytes orderMod (montToBytes fieldMod v)) else none

/-- `TryFrom<Felt> for CurveOrderMontFelt` (curveorder/convert.rs:79-92). -/
def scalarOfFelt (f : Bytes) : Option Limbs :=
  if feltLt (montFromBytes fieldMod f) curveOrder then some (montFromBytes orderMod f) else none

/-- `SignatureError` (ecdsa.rs:19-36). -/
inductive SigError
  | signature
  | randomness
  | message
  | secretKey
  | publicKey
  deriving DecidableEq, Repr

/-- `get_pk` (ecdsa.rs:49-57). -/
def getPk (sk : Bytes) : Option (Option Bytes) :=
  (scalarOfFelt sk).elim (some none) fun k =>
    (AffPoint.genMultiplyElm k).bind fun ap => (feltOfMont fieldMod ap.x).map some

/-- The last part of `ecdsa_sign_k` (ecdsa.rs:94-107): from the nonce on. -/
def signNonce (sk z k : Limbs) : Option (Except SigError (Bytes × Bytes)) :=
  if k = zero then some (.error .randomness)
  else (AffPoint.genMultiplyElm k).bind fun p =>
    if !feltLt p.x upperBound then some (.error .randomness)
    else (scalarOfMont p.x).bind fun r => (inverse orderMod k).join.bind fun kinv =>
      (feltOfMont orderMod r).bind fun fr =>
        (feltOfMont orderMod (mul orderMod kinv (add orderMod z (mul orderMod r sk)))).map fun fs => .ok (fr, fs)

/-- `ecdsa_sign_k` (ecdsa.rs:86-108). -/
def ecdsaSignK (sk z k : Bytes) : Option (Except SigError (Bytes × Bytes)) :=
  (scalarOfFelt sk).elim (some (.error .secretKey)) fun sk =>
    (scalarOfFelt z).elim (some (.error .message)) fun z =>
      (scalarOfFelt k).elim (some (.error .randomness)) fun k => signNonce sk z k

/-- The two candidates for the nonce point, and the comparison of their first coordinates (ecdsa.rs:173-196). -/
def verifyPoints (pk : ProjPoint) (u1 u2 fr : Limbs) : Option (Except SigError Unit) :=
  (AffPoint.ofProj ((curveG.multiplyElm u1).add (pk.multiplyElm u2))).bind fun r1 =>
    (AffPoint.ofProj ((curveG.multiplyElm u1).add (pk.multiplyElm u2).negate)).map fun r2 =>
      if r1.x = fr ∨ r2.x = fr then .ok () else .error .signature

/-- `ecdsa_verify_inner` (ecdsa.rs:143-197). -/
def verifyInner (pk : ProjPoint) (z r s : Bytes) : Option (Except SigError Unit) :=
  let fz := montFromBytes fieldMod z
  let fr := montFromBytes fieldMod r
  let fs := montFromBytes fieldMod s
  (scalarOfMont fz).bind fun cz => (scalarOfMont fr).bind fun cr => (scalarOfMont fs).bind fun cs =>
    if !feltLt fz upperBound then some (.error .message)
    else if fr = zero ∨ !feltLt fr upperBound then some (.error .signature)
    else if fs = zero ∨ !feltLt fs upperBound then some (.error .signature)
    else (inverse orderMod cs).join.bind fun inv => verifyPoints pk (mul orderMod cz inv) (mul orderMod cr inv) fr

/-- `get_pk_point` (ecdsa.rs:112-117). -/
def getPkPoint (pk : Limbs) : Result (Option AffPoint) := (AffPoint.fromX pk).map fun p => p.filter fun q => !q.infinity

/-- `ecdsa_verify_partial` (ecdsa.rs:120-125). -/
def ecdsaVerifyPartial (pk z r s : Bytes) : Option (Except SigError Unit) :=
  (getPkPoint (montFromBytes fieldMod pk)).bind fun p => match p with
    | none => some (.error .publicKey)
    | some p => verifyInner (.ofAffine p) z r s

/-- `ecdsa_verify` (ecdsa.rs:129-136). -/
def ecdsaVerify (pk : AffPoint) (z r s : Bytes) : Option (Except SigError Unit) :=
  (getPkPoint pk.x).bind fun p => match p with
    | none => some (.error .publicKey)
    | some p => if p.y ≠ pk.y then some (.error .publicKey) else verifyInner (.ofAffine p) z r s

end Verif.Crypto
