/-!
# Errors of the JSON-RPC API (C111)

How an error becomes the answer of a request: the error stack of a failed execution
(`crates/executor/src/error_stack.rs`, `crates/rpc/src/error.rs`), the codes and data of errors for
each version of the API (`error.rs`), and what the methods that submit transactions make of an error
of the gateway (`crates/rpc/src/method/add_*_transaction.rs`).

Simplified: texts are lists of characters, felts in JSON are a constructor of their own (they are
written as hex, see C28), messages of errors are left out, and an opaque error (`anyhow::Error`,
`reqwest::Error`) is its text.
-/

namespace Verif.Errs

abbrev Text := List Char

/-- `RpcVersion` (`crates/rpc/src/lib.rs`), as far as errors depend on it. -/
inductive Version
  | v06 | v07 | v08 | v09 | v10
deriving DecidableEq, Repr

/-- The order of versions (derived `PartialOrd`). -/
def Version.rank : Version → Nat
  | .v06 => 6
  | .v07 => 7
  | .v08 => 8
  | .v09 => 9
  | .v10 => 10

/-- `serde_json::Value`, as far as errors use it. -/
inductive Json
  | null
  | num (n : Nat)
  | felt (n : Nat)
  | str (s : Text)
  | obj (fields : List (String × Json))

/-- `CallFrame` (`error_stack.rs:60-65`). -/
structure Call where
  address : Nat
  classHash : Nat
  selector : Option Nat
deriving DecidableEq, Repr

/-- `Frame` (`error_stack.rs:54-58`). -/
inductive Frame
  | call (c : Call)
  | text (s : Text)
deriving DecidableEq, Repr

/-- `ErrorStackSegment` of the blockifier, as far as it is used (`error_stack.rs:82-99`). -/
inductive Segment
  | entryPoint (address classHash : Nat) (selector : Option Nat)
  /-- frames with address, class hash and selector, and the formatted panic data -/
  | revert (stack : List (Nat × Option Nat × Nat)) (reason : Text)
  | vm (s : Text)
  | text (s : Text)
deriving DecidableEq, Repr

/-- `From<Cairo1RevertFrame> for Frame` (`error_stack.rs:67-76`). -/
def revertFrame (f : Nat × Option Nat × Nat) : Frame := .call ⟨f.1, f.2.1.getD 0, some f.2.2⟩

/-- `From<ErrorStackSegment> for Frames`, `From<Cairo1RevertSummary> for Frames`
(`error_stack.rs:80-115`). -/
def framesOf : Segment → List Frame
  | .entryPoint a c s => [.call ⟨a, c, s⟩]
  | .revert fs r => fs.map revertFrame ++ [.text r]
  | .vm s => [.text s]
  | .text s => [.text s]

/-- `From<BlockifierErrorStack> for ErrorStack` (`error_stack.rs:17-27`). -/
def stackOf (segs : List Segment) : List Frame := segs.flatMap framesOf

/-- "Unknown error, no string frame available." (`error.rs:379`); the wording is immaterial. -/
def unknownText : Text := ['U', 'n', 'k', 'n', 'o', 'w', 'n']

/-- `filter_map` of text frames. -/
def textOf : Frame → Option Text
  | .text s => some s
  | .call _ => none

/-- `filter_map` of call frames. -/
def callOf : Frame → Option Call
  | .call c => some c
  | .text _ => none

/-- `Option<EntryPoint>` as JSON. -/
def selJson : Option Nat → Json
  | some s => .felt s
  | none => .null

/-- `error_stack_frames_to_json` (`error.rs:369-396`). -/
def stackJson (frames : List Frame) : Json :=
  let last := ((frames.reverse.filterMap textOf).head?).getD unknownText
  (frames.filterMap callOf).reverse.foldl (fun child c => .obj [
    ("contract_address", .felt c.address), ("class_hash", .felt c.classHash),
    ("selector", selJson c.selector), ("error", child)]) (.str last)

/-- `TraceError` (`error.rs:11-15`). -/
inductive TraceStatus
  | received | rejected
deriving DecidableEq, Repr

/-- Serialized by name: "Received" and "Rejected" (`error.rs:11-15`); the letters are immaterial. -/
def TraceStatus.text : TraceStatus → Text
  | .received => ['R', 'e', 'c', 'e', 'i', 'v', 'e', 'd']
  | .rejected => ['R', 'e', 'j', 'e', 'c', 't', 'e', 'd']

/-- `ApplicationError` (`error.rs:17-128`). -/
inductive AppError
  | failedToReceiveTxn | contractNotFound | entrypointNotFound | blockNotFound | invalidTxnIndex
  | invalidTxnHash | invalidBlockHash | classHashNotFound | txnHashNotFound | pageSizeTooBig
  | noBlocks
  | noTraceAvailable (s : TraceStatus)
  | invalidContinuationToken
  | tooManyKeysInFilter (limit requested : Nat)
  | contractError (revert : Option Text) (stack : List Frame)
  | invalidContractClass | classAlreadyDeclared
  | invalidTransactionNonce (data : Text)
  | insufficientResourcesForValidate | insufficientAccountBalance | validationFailure
  | validationFailureV06 (error : Text)
  | compilationFailed (data : Text)
  | contractClassSizeIsTooLarge | nonAccount | duplicateTransaction | compiledClassHashMismatch
  | unsupportedTxVersion | unsupportedContractClassVersion
  | unexpectedError (data : Text)
  | proofLimitExceeded (limit requested : Nat)
  | invalidProof
  | gatewayError (error : Text)
  | forwardedError (error : Text)
  | transactionExecutionError (index : Nat) (error : Text) (stack : List Frame)
  | subscriptionTransactionHashNotFound (id hash : Nat)
  | subscriptionGatewayDown (id : Nat)
  | storageProofNotSupported | proofMissing | invalidSubscriptionID | tooManyAddressesInFilter
  | tooManyBlocksBack (limit requested : Nat)
  | internal (cause : Text)
  | custom (cause : Text)
deriving DecidableEq, Repr

/-- `ApplicationError::code` (`error.rs:131-188`). -/
def code (v : Version) : AppError → Int
  | .failedToReceiveTxn => 1
  | .noTraceAvailable _ => 10
  | .contractNotFound => 20
  | .entrypointNotFound => if 8 ≤ v.rank then 21 else -32603
  | .blockNotFound => 24
  | .invalidTxnHash => 25
  | .invalidBlockHash => 26
  | .invalidTxnIndex => 27
  | .classHashNotFound => 28
  | .txnHashNotFound => 29
  | .pageSizeTooBig => 31
  | .noBlocks => 32
  | .invalidContinuationToken => 33
  | .tooManyKeysInFilter _ _ => 34
  | .contractError _ _ => 40
  | .transactionExecutionError _ _ _ => 41
  | .storageProofNotSupported => 42
  | .invalidContractClass => 50
  | .classAlreadyDeclared => 51
  | .invalidTransactionNonce _ => 52
  | .insufficientResourcesForValidate => 53
  | .insufficientAccountBalance => 54
  | .validationFailure => 55
  | .validationFailureV06 _ => 55
  | .compilationFailed _ => 56
  | .contractClassSizeIsTooLarge => 57
  | .nonAccount => 58
  | .duplicateTransaction => 59
  | .compiledClassHashMismatch => 60
  | .unsupportedTxVersion => 61
  | .unsupportedContractClassVersion => 62
  | .unexpectedError _ => 63
  | .invalidProof => 69
  | .proofLimitExceeded _ _ => 10000
  | .proofMissing => 10001
  | .subscriptionTransactionHashNotFound _ _ => 10029
  | .subscriptionGatewayDown _ => 10030
  | .invalidSubscriptionID => 66
  | .tooManyAddressesInFilter => 67
  | .tooManyBlocksBack _ _ => 68
  | .gatewayError _ => -32603
  | .forwardedError _ => -32603
  | .internal _ => -32603
  | .custom _ => -32603

/-- `Option<String>` as JSON. -/
def textJson : Option Text → Json
  | some t => .str t
  | none => .null

/-- `ApplicationError::data` (`error.rs:210-331`). -/
def data (v : Version) : AppError → Option Json
  | .invalidTransactionNonce d => if 9 ≤ v.rank then some (.str d) else none
  | .compilationFailed d => if v = .v06 ∨ v = .v07 then none else some (.str d)
  | .tooManyBlocksBack l r => some (.obj [("limit", .num l), ("requested", .num r)])
  | .gatewayError e => some (.obj [("error", .str e)])
  | .forwardedError e => some (.obj [("error", .str e)])
  | .transactionExecutionError i e st =>
    if 8 ≤ v.rank then
      some (.obj [("transaction_index", .num i), ("execution_error", stackJson st)])
    else some (.obj [("transaction_index", .num i), ("execution_error", .str e)])
  | .custom c => if c = [] then none else some (.obj [("error", .str c)])
  | .noTraceAvailable s => some (.obj [("error", .str s.text)])
  | .contractError r st =>
    if 8 ≤ v.rank then some (.obj [("revert_error", stackJson st)])
    else some (.obj [("revert_error", textJson r)])
  | .tooManyKeysInFilter l r => some (.obj [("limit", .num l), ("requested", .num r)])
  | .unexpectedError d => some (.str d)
  | .proofLimitExceeded l r => some (.obj [("limit", .num l), ("requested", .num r)])
  | .subscriptionTransactionHashNotFound i h =>
    some (.obj [("subscription_id", .num i), ("transaction_hash", .felt h)])
  | .subscriptionGatewayDown i => some (.obj [("subscription_id", .num i)])
  | .validationFailureV06 e => some (.str e)
  | _ => none

/-- `KnownStarknetErrorCode` and unknown codes (`crates/gateway-types/src/error.rs:50-136`). -/
inductive GwCode
  | blockNotFound | entryPointNotFound | outOfRangeContractAddress | schemaValidationError
  | transactionFailed | uninitializedContract | outOfRangeBlockHash | outOfRangeTransactionHash
  | malformedRequest | unsupportedSelectorForFee | invalidContractDefinition | notPermittedContract
  | undeclaredClass | transactionLimitExceeded | invalidTransactionNonce | outOfRangeFee
  | invalidTransactionVersion | invalidProgram | deprecatedTransaction | invalidCompiledClassHash
  | compilationFailed | unauthorizedEntryPointForInvoke | invalidContractClass
  | classAlreadyDeclared | invalidSignature | insufficientAccountBalance | insufficientMaxFee
  | validateFailure | contractBytecodeSizeTooLarge | contractClassObjectSizeTooLarge
  | duplicatedTransaction | invalidContractClassVersion | invalidProof
  | unknown (s : Text)
deriving DecidableEq, Repr

/-- `SequencerError` (`gateway-types/src/error.rs:4-20`); the errors of making a request and of
decoding an answer are `other`. -/
inductive GwError
  | starknet (code : GwCode) (message : Text)
  | http (status : Option Nat) (text : Text)
  | other (text : Text)
deriving DecidableEq, Repr

/-- `str::contains`. -/
def contains (p : Text) : Text → Bool
  | [] => p.isPrefixOf []
  | c :: s => p.isPrefixOf (c :: s) || contains p s

/-- "Invalid transaction nonce". -/
def nonceText : Text := ['I', 'n', 'v', 'a', 'l', 'i', 'd', ' ', 't', 'r', 'a', 'n', 's', 'a', 'c',
  't', 'i', 'o', 'n', ' ', 'n', 'o', 'n', 'c', 'e']

/-- The part of the validate failure that the three methods share
(`add_declare_transaction.rs:120-126`). -/
def validateError (m : Text) : AppError :=
  if contains nonceText m then .invalidTransactionNonce m else .validationFailureV06 m

/-- What is left (`add_declare_transaction.rs:139-144`): a payload that is too large is forwarded,
all else is unexpected. `to_string` of an error with a code is its message. -/
def restError : GwError → AppError
  | .starknet _ m => .unexpectedError m
  | .http s t => if s = some 413 then .forwardedError t else .unexpectedError t
  | .other t => .unexpectedError t

/-- `add_declare_transaction` (`add_declare_transaction.rs:37-70, 78-147`). -/
def declareError : GwError → AppError
  | .starknet .classAlreadyDeclared _ => .classAlreadyDeclared
  | .starknet .compilationFailed m => .compilationFailed m
  | .starknet .contractBytecodeSizeTooLarge _ => .contractClassSizeIsTooLarge
  | .starknet .contractClassObjectSizeTooLarge _ => .contractClassSizeIsTooLarge
  | .starknet .duplicatedTransaction _ => .duplicateTransaction
  | .starknet .insufficientAccountBalance _ => .insufficientAccountBalance
  | .starknet .insufficientMaxFee _ => .insufficientResourcesForValidate
  | .starknet .invalidTransactionNonce m => .invalidTransactionNonce m
  | .starknet .validateFailure m => validateError m
  | .starknet .invalidCompiledClassHash _ => .compiledClassHashMismatch
  | .starknet .invalidTransactionVersion _ => .unsupportedTxVersion
  | .starknet .invalidContractClassVersion _ => .unsupportedContractClassVersion
  | .starknet .entryPointNotFound _ => .nonAccount
  | e => restError e

/-- `add_deploy_account_transaction` (`add_deploy_account_transaction.rs:124-192`). -/
def deployError : GwError → AppError
  | .starknet .undeclaredClass _ => .classHashNotFound
  | .starknet .duplicatedTransaction _ => .duplicateTransaction
  | .starknet .insufficientAccountBalance _ => .insufficientAccountBalance
  | .starknet .insufficientMaxFee _ => .insufficientResourcesForValidate
  | .starknet .invalidTransactionNonce m => .invalidTransactionNonce m
  | .starknet .validateFailure m => validateError m
  | .starknet .invalidTransactionVersion _ => .unsupportedTxVersion
  | .starknet .entryPointNotFound _ => .nonAccount
  | e => restError e

/-- `add_invoke_transaction` (`add_invoke_transaction.rs:136-213`). -/
def invokeError : GwError → AppError
  | .starknet .duplicatedTransaction _ => .duplicateTransaction
  | .starknet .insufficientAccountBalance _ => .insufficientAccountBalance
  | .starknet .insufficientMaxFee _ => .insufficientResourcesForValidate
  | .starknet .invalidTransactionNonce m => .invalidTransactionNonce m
  | .starknet .validateFailure m => validateError m
  | .starknet .invalidTransactionVersion _ => .unsupportedTxVersion
  | .starknet .entryPointNotFound _ => .nonAccount
  | .starknet .invalidProof _ => .invalidProof
  | e => restError e

/-- The methods that submit a transaction. -/
inductive Method
  | declare | deployAccount | invoke
deriving DecidableEq, Repr

/-- The error of a submission. -/
def submitError : Method → GwError → AppError
  | .declare => declareError
  | .deployAccount => deployError
  | .invoke => invokeError

end Verif.Errs
