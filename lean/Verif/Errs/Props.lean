import Verif.Errs.Lemmas

/-! # Errors of the JSON-RPC API (C111) -/

namespace Verif.Errs

open Name

def outer : Call := ⟨1, 11, some 21⟩
def inner : Call := ⟨2, 12, some 22⟩
def demoText : Text := ['f', 'a', 'i', 'l']

/-- **C111 (execution errors), partial.** From version 0.8 on the error of a failed execution is
shown as nested calls.  Read by the documented schema it shows exactly the calls of the stack, from
the outermost to the innermost with address, class hash and selector, around the last text of the
stack; and nothing else can be read from it.

Partial: if a frame has no selector there is no reading (`C111_selector_violated`), and texts before
the last are not shown (`C111_texts_violated`). -/
theorem C111_stack_partial (xs ys : List Frame) (t : Text) (hy : ∀ f ∈ ys, ∀ u, f ≠ .text u)
    (hsel : ∀ c, Frame.call c ∈ xs ++ .text t :: ys → c.selector ≠ none)
    (cs : List (Nat × Nat × Nat)) (u : Text) :
    Shows (stackJson (xs ++ .text t :: ys)) cs u ↔
      u = t ∧ cs = (xs ++ ys).filterMap fun f => match f with
        | .call c => some (c.address, c.classHash, c.selector.getD 0)
        | .text _ => none := by
  have hy' : ∀ f ∈ ys, textOf f = none := by
    intro f hf
    cases f with
    | call => rfl
    | text u => exact absurd rfl (hy _ hf u)
  rw [stackJson_eq, last_text xs ys t hy']
  have hcalls : (xs ++ .text t :: ys).filterMap callOf = (xs ++ ys).filterMap callOf := by
    simp [List.filterMap_append, List.filterMap_cons, callOf]
  have hmap : ((xs ++ ys).filterMap callOf).map (fun c => (c.address, c.classHash, c.selector.getD 0)) =
      (xs ++ ys).filterMap fun f => match f with
        | .call c => some (c.address, c.classHash, c.selector.getD 0)
        | .text _ => none := by
    rw [List.map_filterMap]
    congr 1
    funext f
    cases f <;> rfl
  rw [hcalls, ← hmap]
  constructor
  · intro h
    obtain ⟨h1, _, h3⟩ := shows_inv _ _ h
    exact ⟨h1, h3⟩
  · rintro ⟨rfl, rfl⟩
    refine shows_foldr _ _ fun c hc => ?_
    obtain ⟨f, hf, e⟩ := List.mem_filterMap.1 hc
    cases f with
    | text => simp [callOf] at e
    | call c' =>
      simp only [callOf, Option.some.injEq] at e
      subst e
      refine hsel c' ?_
      rcases List.mem_append.1 hf with h | h <;> simp [h]

example : Shows (stackJson [.call outer, .call inner, .text demoText]) [(1, 11, 21), (2, 12, 22)]
    demoText :=
  (C111_stack_partial [.call outer, .call inner] [] demoText (by simp)
    (by simp [outer, inner]) _ _).2 ⟨rfl, rfl⟩

/-- **C111 (execution errors of the blockifier).** An error whose segments are entry points with
selectors followed by a revert summary of a Cairo 1 class is shown with the calls of both, in order,
and with the reason of the revert. -/
theorem C111_revert (eps : List (Nat × Nat × Nat)) (fs : List (Nat × Nat × Nat)) (reason : Text) :
    Shows (stackJson (stackOf ((eps.map fun e => Segment.entryPoint e.1 e.2.1 (some e.2.2)) ++
      [.revert (fs.map fun f => (f.1, some f.2.1, f.2.2)) reason]))) (eps ++ fs) reason := by
  have hstack : stackOf ((eps.map fun e => Segment.entryPoint e.1 e.2.1 (some e.2.2)) ++
      [.revert (fs.map fun f => (f.1, some f.2.1, f.2.2)) reason]) =
      ((eps ++ fs).map fun e => Frame.call ⟨e.1, e.2.1, some e.2.2⟩) ++ .text reason :: [] := by
    have h1 : ∀ eps : List (Nat × Nat × Nat),
        (eps.map fun e => Segment.entryPoint e.1 e.2.1 (some e.2.2)).flatMap framesOf =
        eps.map fun e => Frame.call ⟨e.1, e.2.1, some e.2.2⟩ := by
      intro eps
      induction eps with
      | nil => rfl
      | cons e eps ih => simp only [List.map_cons, List.flatMap_cons, framesOf, ih]; rfl
    simp only [stackOf, List.flatMap_append, h1, List.flatMap_cons, List.flatMap_nil, framesOf,
      List.map_map, List.map_append, List.append_nil, List.append_assoc]
    rfl
  rw [hstack]
  refine (C111_stack_partial _ [] reason (by simp) ?_ _ _).2 ⟨rfl, ?_⟩
  · intro c hc
    simp only [List.mem_append, List.mem_map, List.mem_cons, List.not_mem_nil, or_false,
      reduceCtorEq] at hc
    obtain ⟨e, _, he⟩ := hc
    simp only [Frame.call.injEq] at he
    subst he
    simp
  · rw [List.append_nil]
    generalize eps ++ fs = l
    induction l with
    | nil => rfl
    | cons e l ih => simp [← ih]

example : (stackOf [.entryPoint 1 11 (some 21), .revert [(2, some 12, 22)] demoText]).length = 3 := by
  decide

/-- **C111 (no text), as documented.** A stack without any text has a placeholder for the text. -/
theorem C111_no_text (cs : List Call) (h : ∀ c ∈ cs, c.selector ≠ none) :
    Shows (stackJson (cs.map .call)) (cs.map fun c => (c.address, c.classHash, c.selector.getD 0))
      unknownText := by
  rw [stackJson_eq, no_text _ (by simp [textOf])]
  have : (cs.map Frame.call).filterMap callOf = cs := by
    induction cs with
    | nil => rfl
    | cons c cs ih => simp [callOf] at ih ⊢; exact ih fun x hx => h x (by simp [hx])
  rw [this]
  exact shows_foldr _ _ h

example : ∀ c ∈ [outer, inner], c.selector ≠ none := by decide

/-- **C111 (selectors), violated.** A call without a selector anywhere in the stack makes the whole
answer unreadable by the documented schema: the selector is `null`. -/
theorem C111_selector_violated (fs : List Frame) (c : Call) (hc : Frame.call c ∈ fs)
    (hs : c.selector = none) : ¬ ∃ cs t, Shows (stackJson fs) cs t := by
  rintro ⟨cs, t, h⟩
  rw [stackJson_eq] at h
  obtain ⟨_, h2, _⟩ := shows_inv _ _ h
  exact h2 c (List.mem_filterMap.2 ⟨.call c, hc, rfl⟩) hs

/-- Such a stack comes from an entry point without a selector. -/
example : Frame.call ⟨1, 11, none⟩ ∈ stackOf [.entryPoint 1 11 none, .vm demoText] := by decide

/-- **C111 (texts), violated.** Any text but the last is dropped, wherever it is in the stack. -/
theorem C111_texts_violated (xs ys : List Frame) (u t : Text) :
    stackJson (xs ++ .text u :: ys ++ [.text t]) = stackJson (xs ++ ys ++ [.text t]) := by
  simp only [stackJson_eq, List.filterMap_append, List.reverse_append, List.reverse_cons,
    List.reverse_nil, List.nil_append, List.cons_append, textOf, callOf, List.filterMap_cons,
    List.head?_cons]

example : stackJson [.call outer, .text demoText, .text []] = stackJson [.call outer, .text []] :=
  C111_texts_violated [.call outer] [] demoText []

/-- **C111 (class hash), violated.** A frame of a revert whose class hash is not known is shown as if
the class hash were zero. -/
theorem C111_class_violated (a s : Nat) (fs : List (Nat × Option Nat × Nat)) (r : Text) :
    stackJson (stackOf [.revert ((a, none, s) :: fs) r]) =
      stackJson (stackOf [.revert ((a, some 0, s) :: fs) r]) := rfl

/-- **C111 (codes).** An error that the documents of the version asked for have is answered with its
documented code. -/
theorem C111_code (v : Version) (e : AppError) (n : Name) (h : nameOf e = some n)
    (hv : (documented n).2 ≤ v.rank) : code v e = (documented n).1 := by
  cases e <;> simp only [nameOf, Option.some.injEq, reduceCtorEq] at h <;> subst h <;>
    simp only [code, documented] at hv ⊢
  rw [if_pos hv]

example : nameOf .entrypointNotFound = some ENTRYPOINT_NOT_FOUND ∧
    (documented ENTRYPOINT_NOT_FOUND).2 ≤ Version.rank .v08 := by decide

/-- **C111 (codes are distinct).** Documented errors with different names have different codes. -/
theorem C111_code_distinct (v : Version) (e e' : AppError) (n n' : Name) (h : nameOf e = some n)
    (h' : nameOf e' = some n') (hv : (documented n).2 ≤ v.rank) (hv' : (documented n').2 ≤ v.rank)
    (hc : code v e = code v e') : n = n' := by
  rw [C111_code v e n h hv, C111_code v e' n' h' hv'] at hc
  cases n <;> cases n' <;> first | rfl | simp [documented] at hc

example : nameOf .nonAccount = some NON_ACCOUNT ∧ nameOf .duplicateTransaction = some DUPLICATE_TX := by
  decide

/-- **C111 (data), partial.** The data of an error have the form that the documents of the version
say.

Partial: not for a trace that is not available (`C111_trace_violated`), not if a frame of the stack
has no selector (`C111_selector_violated`), and not for the variants `validationFailure` and a
contract error without a text, which no method makes. -/
theorem C111_data_partial (v : Version) (e : AppError) (n : Name) (h : nameOf e = some n)
    (h1 : ∀ s, e ≠ .noTraceAvailable s) (h2 : e ≠ .validationFailure)
    (h3 : ∀ st, e ≠ .contractError none st)
    (h4 : ∀ c, Frame.call c ∈ stackIn e → c.selector ≠ none) : Fits (form v n) (data v e) := by
  have tree : ∀ st : List Frame, (∀ c, Frame.call c ∈ st → c.selector ≠ none) →
      ∃ cs t, Shows (stackJson st) cs t := by
    intro st hst
    refine ⟨_, _, by
      rw [stackJson_eq]
      refine shows_foldr _ _ fun c hc => ?_
      obtain ⟨f, hf, e⟩ := List.mem_filterMap.1 hc
      cases f with
      | text => simp [callOf] at e
      | call c' =>
        simp only [callOf, Option.some.injEq] at e
        subst e
        exact hst c' hf⟩
  cases e <;> simp only [nameOf, Option.some.injEq, reduceCtorEq] at h <;> subst h <;>
    simp only [form, Fits]
  case noTraceAvailable s => exact absurd rfl (h1 s)
  case contractError r st =>
    obtain ⟨cs, t, hs⟩ := tree st h4
    cases r with
    | none => exact absurd rfl (h3 st)
    | some r =>
      by_cases hv : v.rank < 8
      · rw [if_pos hv]
        exact ⟨_, r, by simp only [data]; rw [if_neg (by omega)], by
          simp [Json.field, List.lookup, textJson]⟩
      · rw [if_neg hv]
        exact ⟨_, stackJson st, cs, t, by simp only [data]; rw [if_pos (by omega)], by
          simp [Json.field, List.lookup], hs⟩
  case invalidTransactionNonce d =>
    by_cases hv : v.rank < 9
    · rw [if_pos hv]; trivial
    · rw [if_neg hv]; exact ⟨d, by simp only [data]; rw [if_pos (by omega)]⟩
  case validationFailure => exact absurd rfl h2
  case validationFailureV06 d => exact ⟨d, rfl⟩
  case compilationFailed d =>
    by_cases hv : v.rank < 8
    · rw [if_pos hv]; trivial
    · rw [if_neg hv]
      refine ⟨d, ?_⟩
      cases v <;> first | rfl | exact absurd (by decide) hv
  case unexpectedError d => exact ⟨d, rfl⟩
  case transactionExecutionError i d st =>
    obtain ⟨cs, t, hs⟩ := tree st h4
    by_cases hv : v.rank < 8
    · rw [if_pos hv]
      exact ⟨_, i, d, by simp only [data]; rw [if_neg (by omega)], by
        simp [Json.field, List.lookup], by simp [Json.field, List.lookup]⟩
    · rw [if_neg hv]
      exact ⟨_, i, stackJson st, cs, t, by simp only [data]; rw [if_pos (by omega)], by
        simp [Json.field, List.lookup], by simp [Json.field, List.lookup], hs⟩

example : nameOf (.transactionExecutionError 3 demoText [.call outer, .text demoText]) =
      some TRANSACTION_EXECUTION_ERROR ∧
    ∀ c, Frame.call c ∈ stackIn (.transactionExecutionError 3 demoText [.call outer, .text demoText]) →
      c.selector ≠ none := by
  refine ⟨rfl, ?_⟩
  intro c hc
  simp only [stackIn, List.mem_cons, Frame.call.injEq, reduceCtorEq, List.not_mem_nil, or_false] at hc
  subst hc
  simp [outer]

/-- **C111 (what is told).** The details of the errors that have any are in the data as they are: the
index of the transaction, the text before 0.8, and the texts of the compiler, of the account and of
the gateway. -/
theorem C111_details (v : Version) (i : Nat) (t : Text) (st : List Frame) :
    ((data v (.transactionExecutionError i t st)).bind (Json.field "transaction_index") =
      some (.num i)) ∧
    (v.rank < 8 → (data v (.transactionExecutionError i t st)).bind (Json.field "execution_error") =
      some (.str t) ∧ (data v (.contractError (some t) st)).bind (Json.field "revert_error") =
      some (.str t)) ∧
    (8 ≤ v.rank → (data v (.transactionExecutionError i t st)).bind (Json.field "execution_error") =
      some (stackJson st) ∧ (data v (.contractError (some t) st)).bind (Json.field "revert_error") =
      some (stackJson st) ∧ data v (.compilationFailed t) = some (.str t)) ∧
    (9 ≤ v.rank → data v (.invalidTransactionNonce t) = some (.str t)) ∧
    data v (.validationFailureV06 t) = some (.str t) ∧ data v (.unexpectedError t) = some (.str t) := by
  cases v <;> simp [data, Json.field, List.lookup, Version.rank, textJson]

/-- **C111 (internal errors).** The answer to an internal error does not depend on its cause: nothing
of it is told, in any version. -/
theorem C111_internal (v : Version) (a b : Text) :
    code v (.internal a) = code v (.internal b) ∧ data v (.internal a) = none ∧
      data v (.internal b) = none := ⟨rfl, rfl, rfl⟩

/-- **C111 (traces), violated.** If a trace is not available the documented field that says why is
missing: it has another name and other values. -/
theorem C111_trace_violated (v : Version) (s : TraceStatus) :
    nameOf (.noTraceAvailable s) = some NO_TRACE_AVAILABLE ∧
    ¬ Fits (form v NO_TRACE_AVAILABLE) (data v (.noTraceAvailable s)) := by
  refine ⟨rfl, ?_⟩
  rintro ⟨j, t, h, hj⟩
  simp only [data, Option.some.injEq] at h
  subst h
  simp [Json.field, List.lookup] at hj

/-- **C111 (submissions), partial.** If the gateway refuses a transaction with an error whose meaning
the documents list for the method, the answer is that error; any other error of the gateway with a
code is answered as an unexpected error with the gateway's message.

Partial: not for a failed validation whose text speaks of the nonce (`C111_nonce_violated`), and not
for an invalid proof before 0.10, where the code is not documented (`C111_proof_violated`). -/
theorem C111_submit_partial (v : Version) (m : Method) (c : GwCode) (msg : Text)
    (hn : c = .validateFailure → ¬ PartOf nonceText msg) (hp : c = .invalidProof → v = .v10) :
    (∀ n, meaning c = some n → Lists v m n → nameOf (submitError m (.starknet c msg)) = some n) ∧
    ((∀ n, meaning c = some n → ¬ Lists v m n) →
      submitError m (.starknet c msg) = .unexpectedError msg) := by
  have hvf : c = .validateFailure → validateError msg = .validationFailureV06 msg := by
    intro h
    simp only [validateError]
    rw [if_neg]
    intro hc
    exact hn h ((contains_iff _ _).1 hc)
  have hr : 6 ≤ v.rank := by cases v <;> decide
  constructor
  · intro n hm hl
    obtain ⟨since, hin, hle⟩ := hl
    cases c <;> simp only [meaning, Option.some.injEq, reduceCtorEq] at hm <;> subst hm <;> cases m <;>
      first
        | rfl
        | (simp only [submitError, declareError, deployError, invokeError]; rw [hvf rfl]; rfl)
        | (exfalso; simp [listed] at hin; done)
  · intro hno
    cases c <;> cases m <;>
      first
        | rfl
        | (exfalso
           refine hno _ rfl ⟨6, ?_, hr⟩
           simp [listed]
           done)
        | (exfalso
           refine hno _ rfl ⟨10, ?_, ?_⟩
           · simp [listed]
           · rw [hp rfl]; decide)

example : meaning .duplicatedTransaction = some DUPLICATE_TX ∧ Lists .v06 .invoke DUPLICATE_TX :=
  ⟨rfl, 6, by simp [listed], by decide⟩

example : ∀ n, meaning .transactionLimitExceeded = some n → ¬ Lists .v10 .invoke n := by
  intro n h
  simp [meaning] at h

/-- **C111 (submissions, other failures).** A failure that is not an error with a code is answered
with its text, and as forwarded only if the gateway said that the payload is too large. -/
theorem C111_submit_http (v : Version) (m : Method) (status : Option Nat) (t : Text) :
    (status ≠ some 413 → submitError m (.http status t) = .unexpectedError t) ∧
    (data v (submitError m (.http (some 413) t))).bind (Json.field "error") = some (.str t) ∧
    submitError m (.other t) = .unexpectedError t := by
  refine ⟨fun h => ?_, ?_, ?_⟩ <;> cases m <;>
    simp_all [submitError, declareError, deployError, invokeError, restError, data, Json.field,
      List.lookup]

example : (some 500 : Option Nat) ≠ some 413 := by decide

/-- **C111 (nonce), violated.** The text of a failed validation decides: an account that fails with a
text of its own in which the words occur is reported as a wrong nonce. -/
theorem C111_nonce_violated (m : Method) (before after : Text) :
    nameOf (submitError m (.starknet .validateFailure (before ++ nonceText ++ after))) =
      some INVALID_TRANSACTION_NONCE := by
  have : contains nonceText (before ++ nonceText ++ after) = true :=
    (contains_iff _ _).2 ⟨before, after, rfl⟩
  cases m <;> simp only [submitError, declareError, deployError, invokeError, validateError] <;>
    rw [if_pos this] <;> rfl

/-- **C111 (proof), violated.** Before 0.10 an invalid proof is answered with a code that is not in
the documents of the version. -/
theorem C111_proof_violated (v : Version) (hv : v.rank < 10) (msg : Text) :
    code v (submitError .invoke (.starknet .invalidProof msg)) = 69 ∧
    ∀ n, (documented n).1 = 69 → ¬ (documented n).2 ≤ v.rank := by
  refine ⟨rfl, fun n hn => ?_⟩
  cases n <;> simp only [documented] at hn ⊢ <;> first | omega | exact absurd hn (by decide)

example : Version.rank .v09 < 10 := by decide

/-- **C111 (lost codes), violated.** For an error that is not known the gateway's code is not told:
two different codes with the same message give the same answer. The documented errors for a
replacement that is priced too low and a fee below the minimum are never answered. -/
theorem C111_unknown_violated (m : Method) (a b msg : Text) :
    submitError m (.starknet (.unknown a) msg) = submitError m (.starknet (.unknown b) msg) ∧
    (∀ e, nameOf (submitError m e) ≠ some REPLACEMENT_TRANSACTION_UNDERPRICED ∧
      nameOf (submitError m e) ≠ some FEE_BELOW_MINIMUM) := by
  refine ⟨by cases m <;> rfl, fun e => ?_⟩
  generalize submitError m e = x
  cases x <;> simp [nameOf]

end Verif.Errs
