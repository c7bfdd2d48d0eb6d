import Verif.Errs.Model

/-!
# Errors: specification

The documents of the API in `/repo/specs/rpc/v06` to `v10` say which errors there are, their codes
and the form of their data.  This file transcribes them; nothing here is taken from the code.
-/

namespace Verif.Errs

/-- The names of errors in the documents (`components.errors`) that this model is about. -/
inductive Name
  | FAILED_TO_RECEIVE_TXN | NO_TRACE_AVAILABLE | CONTRACT_NOT_FOUND | ENTRYPOINT_NOT_FOUND
  | BLOCK_NOT_FOUND | INVALID_TXN_INDEX | CLASS_HASH_NOT_FOUND | TXN_HASH_NOT_FOUND
  | PAGE_SIZE_TOO_BIG | NO_BLOCKS | INVALID_CONTINUATION_TOKEN | TOO_MANY_KEYS_IN_FILTER
  | CONTRACT_ERROR | TRANSACTION_EXECUTION_ERROR | STORAGE_PROOF_NOT_SUPPORTED
  | CLASS_ALREADY_DECLARED | INVALID_TRANSACTION_NONCE
  /-- `INSUFFICIENT_MAX_FEE` in 0.6 and 0.7 -/
  | INSUFFICIENT_RESOURCES_FOR_VALIDATE
  | INSUFFICIENT_ACCOUNT_BALANCE | VALIDATION_FAILURE | COMPILATION_FAILED
  | CONTRACT_CLASS_SIZE_IS_TOO_LARGE | NON_ACCOUNT | DUPLICATE_TX | COMPILED_CLASS_HASH_MISMATCH
  | UNSUPPORTED_TX_VERSION | UNSUPPORTED_CONTRACT_CLASS_VERSION | UNEXPECTED_ERROR
  | REPLACEMENT_TRANSACTION_UNDERPRICED | FEE_BELOW_MINIMUM | INVALID_SUBSCRIPTION_ID
  | TOO_MANY_ADDRESSES_IN_FILTER | TOO_MANY_BLOCKS_BACK | INVALID_PROOF
deriving DecidableEq, Repr

open Name

/-- The code of an error, and the first version whose documents have it. -/
def documented : Name → Int × Nat
  | FAILED_TO_RECEIVE_TXN => (1, 6)
  | NO_TRACE_AVAILABLE => (10, 6)
  | CONTRACT_NOT_FOUND => (20, 6)
  | ENTRYPOINT_NOT_FOUND => (21, 8)
  | BLOCK_NOT_FOUND => (24, 6)
  | INVALID_TXN_INDEX => (27, 6)
  | CLASS_HASH_NOT_FOUND => (28, 6)
  | TXN_HASH_NOT_FOUND => (29, 6)
  | PAGE_SIZE_TOO_BIG => (31, 6)
  | NO_BLOCKS => (32, 6)
  | INVALID_CONTINUATION_TOKEN => (33, 6)
  | TOO_MANY_KEYS_IN_FILTER => (34, 6)
  | CONTRACT_ERROR => (40, 6)
  | TRANSACTION_EXECUTION_ERROR => (41, 6)
  | STORAGE_PROOF_NOT_SUPPORTED => (42, 8)
  | CLASS_ALREADY_DECLARED => (51, 6)
  | INVALID_TRANSACTION_NONCE => (52, 6)
  | INSUFFICIENT_RESOURCES_FOR_VALIDATE => (53, 6)
  | INSUFFICIENT_ACCOUNT_BALANCE => (54, 6)
  | VALIDATION_FAILURE => (55, 6)
  | COMPILATION_FAILED => (56, 6)
  | CONTRACT_CLASS_SIZE_IS_TOO_LARGE => (57, 6)
  | NON_ACCOUNT => (58, 6)
  | DUPLICATE_TX => (59, 6)
  | COMPILED_CLASS_HASH_MISMATCH => (60, 6)
  | UNSUPPORTED_TX_VERSION => (61, 6)
  | UNSUPPORTED_CONTRACT_CLASS_VERSION => (62, 6)
  | UNEXPECTED_ERROR => (63, 6)
  | REPLACEMENT_TRANSACTION_UNDERPRICED => (64, 9)
  | FEE_BELOW_MINIMUM => (65, 9)
  | INVALID_SUBSCRIPTION_ID => (66, 8)
  | TOO_MANY_ADDRESSES_IN_FILTER => (67, 8)
  | TOO_MANY_BLOCKS_BACK => (68, 8)
  | INVALID_PROOF => (69, 10)

/-- Which documented error an error is; `none` for pathfinder's own ones. -/
def nameOf : AppError → Option Name
  | .failedToReceiveTxn => some FAILED_TO_RECEIVE_TXN
  | .contractNotFound => some CONTRACT_NOT_FOUND
  | .entrypointNotFound => some ENTRYPOINT_NOT_FOUND
  | .blockNotFound => some BLOCK_NOT_FOUND
  | .invalidTxnIndex => some INVALID_TXN_INDEX
  | .classHashNotFound => some CLASS_HASH_NOT_FOUND
  | .txnHashNotFound => some TXN_HASH_NOT_FOUND
  | .pageSizeTooBig => some PAGE_SIZE_TOO_BIG
  | .noBlocks => some NO_BLOCKS
  | .noTraceAvailable _ => some NO_TRACE_AVAILABLE
  | .invalidContinuationToken => some INVALID_CONTINUATION_TOKEN
  | .tooManyKeysInFilter _ _ => some TOO_MANY_KEYS_IN_FILTER
  | .contractError _ _ => some CONTRACT_ERROR
  | .classAlreadyDeclared => some CLASS_ALREADY_DECLARED
  | .invalidTransactionNonce _ => some INVALID_TRANSACTION_NONCE
  | .insufficientResourcesForValidate => some INSUFFICIENT_RESOURCES_FOR_VALIDATE
  | .insufficientAccountBalance => some INSUFFICIENT_ACCOUNT_BALANCE
  | .validationFailure => some VALIDATION_FAILURE
  | .validationFailureV06 _ => some VALIDATION_FAILURE
  | .compilationFailed _ => some COMPILATION_FAILED
  | .contractClassSizeIsTooLarge => some CONTRACT_CLASS_SIZE_IS_TOO_LARGE
  | .nonAccount => some NON_ACCOUNT
  | .duplicateTransaction => some DUPLICATE_TX
  | .compiledClassHashMismatch => some COMPILED_CLASS_HASH_MISMATCH
  | .unsupportedTxVersion => some UNSUPPORTED_TX_VERSION
  | .unsupportedContractClassVersion => some UNSUPPORTED_CONTRACT_CLASS_VERSION
  | .unexpectedError _ => some UNEXPECTED_ERROR
  | .invalidProof => some INVALID_PROOF
  | .transactionExecutionError _ _ _ => some TRANSACTION_EXECUTION_ERROR
  | .storageProofNotSupported => some STORAGE_PROOF_NOT_SUPPORTED
  | .invalidSubscriptionID => some INVALID_SUBSCRIPTION_ID
  | .tooManyAddressesInFilter => some TOO_MANY_ADDRESSES_IN_FILTER
  | .tooManyBlocksBack _ _ => some TOO_MANY_BLOCKS_BACK
  | _ => none

/-- A field of an object. -/
def Json.field (k : String) : Json → Option Json
  | .obj fs => fs.lookup k
  | _ => none

/-- The schema `CONTRACT_EXECUTION_ERROR` (from 0.8 on), as a way to read it: the calls from the
outermost to the innermost (address, class hash, selector), and the text of the error. -/
inductive Shows : Json → List (Nat × Nat × Nat) → Text → Prop
  | text (t : Text) : Shows (.str t) [] t
  | call {j e : Json} {a c s : Nat} {cs : List (Nat × Nat × Nat)} {t : Text}
      (ha : j.field "contract_address" = some (.felt a))
      (hc : j.field "class_hash" = some (.felt c))
      (hs : j.field "selector" = some (.felt s))
      (he : j.field "error" = some e) (h : Shows e cs t) : Shows j ((a, c, s) :: cs) t

/-- The forms of data in the documents. -/
inductive Form
  /-- nothing is documented -/
  | free
  | text
  /-- an object with a field that is a text -/
  | textIn (k : String)
  /-- an object with a field that fits the schema of execution errors -/
  | treeIn (k : String)
  /-- the same with an index of a transaction -/
  | indexedText (k : String)
  | indexedTree (k : String)
  /-- an object with the field `status` -/
  | status

/-- The form of the data of an error in a version of the documents. -/
def form (v : Version) : Name → Form
  | NO_TRACE_AVAILABLE => .status
  | CONTRACT_ERROR => if v.rank < 8 then .textIn "revert_error" else .treeIn "revert_error"
  | TRANSACTION_EXECUTION_ERROR =>
    if v.rank < 8 then .indexedText "execution_error" else .indexedTree "execution_error"
  | INVALID_TRANSACTION_NONCE => if v.rank < 9 then .free else .text
  | VALIDATION_FAILURE => .text
  | COMPILATION_FAILED => if v.rank < 8 then .free else .text
  | UNEXPECTED_ERROR => .text
  | _ => .free

/-- Data have a form. -/
def Fits : Form → Option Json → Prop
  | .free, _ => True
  | .text, d => ∃ t, d = some (.str t)
  | .textIn k, d => ∃ j t, d = some j ∧ j.field k = some (.str t)
  | .treeIn k, d => ∃ j e cs t, d = some j ∧ j.field k = some e ∧ Shows e cs t
  | .indexedText k, d => ∃ j i t, d = some j ∧ j.field "transaction_index" = some (.num i) ∧
      j.field k = some (.str t)
  | .indexedTree k, d => ∃ j i e cs t, d = some j ∧ j.field "transaction_index" = some (.num i) ∧
      j.field k = some e ∧ Shows e cs t
  | .status, d => ∃ j t, d = some j ∧ j.field "status" = some (.str t)

/-- The stack of an error, if there is one. -/
def stackIn : AppError → List Frame
  | .contractError _ st => st
  | .transactionExecutionError _ _ st => st
  | _ => []

/-- What an error of the gateway means, in terms of the documented errors. -/
def meaning : GwCode → Option Name
  | .classAlreadyDeclared => some CLASS_ALREADY_DECLARED
  | .compilationFailed => some COMPILATION_FAILED
  | .contractBytecodeSizeTooLarge => some CONTRACT_CLASS_SIZE_IS_TOO_LARGE
  | .contractClassObjectSizeTooLarge => some CONTRACT_CLASS_SIZE_IS_TOO_LARGE
  | .duplicatedTransaction => some DUPLICATE_TX
  | .insufficientAccountBalance => some INSUFFICIENT_ACCOUNT_BALANCE
  | .insufficientMaxFee => some INSUFFICIENT_RESOURCES_FOR_VALIDATE
  | .invalidTransactionNonce => some INVALID_TRANSACTION_NONCE
  | .validateFailure => some VALIDATION_FAILURE
  | .invalidCompiledClassHash => some COMPILED_CLASS_HASH_MISMATCH
  | .invalidTransactionVersion => some UNSUPPORTED_TX_VERSION
  | .invalidContractClassVersion => some UNSUPPORTED_CONTRACT_CLASS_VERSION
  | .entryPointNotFound => some NON_ACCOUNT
  | .undeclaredClass => some CLASS_HASH_NOT_FOUND
  | .invalidProof => some INVALID_PROOF
  | _ => none

/-- The errors that the documents list for a method (`starknet_write_api.json`), with the first
version that lists them. -/
def listed : Method → List (Name × Nat)
  | .invoke => [(INSUFFICIENT_ACCOUNT_BALANCE, 6), (INSUFFICIENT_RESOURCES_FOR_VALIDATE, 6),
      (INVALID_TRANSACTION_NONCE, 6), (REPLACEMENT_TRANSACTION_UNDERPRICED, 9),
      (FEE_BELOW_MINIMUM, 9), (VALIDATION_FAILURE, 6), (NON_ACCOUNT, 6), (DUPLICATE_TX, 6),
      (UNSUPPORTED_TX_VERSION, 6), (INVALID_PROOF, 10), (UNEXPECTED_ERROR, 6)]
  | .declare => [(CLASS_ALREADY_DECLARED, 6), (COMPILATION_FAILED, 6),
      (COMPILED_CLASS_HASH_MISMATCH, 6), (INSUFFICIENT_ACCOUNT_BALANCE, 6),
      (INSUFFICIENT_RESOURCES_FOR_VALIDATE, 6), (INVALID_TRANSACTION_NONCE, 6),
      (REPLACEMENT_TRANSACTION_UNDERPRICED, 9), (FEE_BELOW_MINIMUM, 9), (VALIDATION_FAILURE, 6),
      (NON_ACCOUNT, 6), (DUPLICATE_TX, 6), (CONTRACT_CLASS_SIZE_IS_TOO_LARGE, 6),
      (UNSUPPORTED_TX_VERSION, 6), (UNSUPPORTED_CONTRACT_CLASS_VERSION, 6), (UNEXPECTED_ERROR, 6)]
  | .deployAccount => [(INSUFFICIENT_ACCOUNT_BALANCE, 6), (INSUFFICIENT_RESOURCES_FOR_VALIDATE, 6),
      (INVALID_TRANSACTION_NONCE, 6), (REPLACEMENT_TRANSACTION_UNDERPRICED, 9),
      (FEE_BELOW_MINIMUM, 9), (VALIDATION_FAILURE, 6), (NON_ACCOUNT, 6), (CLASS_HASH_NOT_FOUND, 6),
      (DUPLICATE_TX, 6), (UNSUPPORTED_TX_VERSION, 6), (UNEXPECTED_ERROR, 6)]

/-- A version of the documents lists an error for a method. -/
def Lists (v : Version) (m : Method) (n : Name) : Prop := ∃ since, (n, since) ∈ listed m ∧ since ≤ v.rank

/-- A text is part of another. -/
def PartOf (p s : Text) : Prop := ∃ a b, s = a ++ p ++ b

end Verif.Errs
