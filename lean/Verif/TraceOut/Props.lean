import Verif.TraceOut.Lemmas

/-!
# How traces are written: properties (C115)
-/

namespace Verif.TraceOut

open Verif.GwTrace (Text XCallType XEntryType XResources XEvent XMsg XCall XTree Revertible)

def exRes (n : Nat) : XResources := ⟨n, n + 1, n + 2, 0, n + 4, n + 5, 0, n + 7, n + 8, n + 9⟩
def exCall (n : Nat) : XCall :=
  ⟨[n, n + 1], n + 2, some (n + 3), some .delegate, n + 4, some (n + 5), some .external, [⟨0, [1], [2, 3]⟩],
    [⟨1, [4, 5], 6, 7⟩], [n + 6], exRes n, n + 7, n + 8, false⟩
def exTree : XTree := .node (exCall 10) [.node (exCall 30) [], .node (exCall 50) [.node (exCall 70) []]]
def exTotal : Total := ⟨exRes 3, 1, 2, 3, 4, 5⟩
def exDiff : Diff := ⟨[(1, [(2, 3), (4, 5)])], [(6, 7)], [8], [(9, 10)], [(11, 12)], [(13, 14)], [(15, 16)]⟩
def exInvoke : Trace := ⟨.invoke (.invocation (some exTree)) none (some (.node (exCall 90) [])), exTotal, exDiff⟩
def exHandler (r : Text) : Trace := ⟨.l1Handler (.reverted r), exTotal, exDiff⟩

/-- A tree of calls is written so that a client finds at every path exactly the call that is there, with every
field under its documented name and no other field. -/
theorem C115_calls (v : Version) (t : XTree) : TreeShown v t (writeTree v t) := tree_shown v t

example : (exTree.at [1, 0]).map (·.contract) = some 72 ∧
    ((writeTree .v10 exTree).at [1, 0]).isSome ∧ ((writeTree .v10 exTree).at [0, 0]).isNone := ⟨rfl, rfl, rfl⟩

/-- A trace is written if and only if it has what its type needs, and then with the type, the calls, the
resources and, if it was asked for, the difference, each under its documented name and nothing else. -/
theorem C115_trace_partial (v : Version) (withDiff : Bool) (t : Trace) :
    ((∃ j, writeTrace v withDiff t = some j) ↔ Complete t) ∧
    ∀ j, writeTrace v withDiff t = some j → TraceShown v withDiff t j :=
  ⟨writeTrace_complete v withDiff t, trace_shown v withDiff t⟩

example : Complete exInvoke ∧ Complete (exHandler ['x']) := ⟨fun _ _ h => (nomatch h), fun _ _ h => nomatch h⟩

/-- The answer for a block has one entry for each transaction, in order, with its hash and its trace, and
there is an answer if and only if all traces can be written. -/
theorem C115_block (v : Version) (withDiff : Bool) (l : List (Nat × Trace)) :
    ((∃ j, writeBlock v withDiff l = some j) ↔ ∀ x ∈ l, Complete x.2) ∧
    ∀ j, writeBlock v withDiff l = some j → each (OfBlockShown v withDiff) l (some j) := by
  constructor
  · have h1 : (∃ j, writeBlock v withDiff l = some j) ↔ ∃ js, writeAll (writeOfBlock v withDiff) l = some js := by
      unfold writeBlock
      constructor
      · rintro ⟨j, h⟩
        obtain ⟨js, hjs, _⟩ := Option.map_eq_some_iff.1 h
        exact ⟨js, hjs⟩
      · rintro ⟨js, h⟩
        exact ⟨.arr js, by rw [h]; rfl⟩
    rw [h1, writeAll_iff]
    refine forall_congr' fun x => forall_congr' fun _ => ?_
    rw [← writeTrace_complete v withDiff]
    unfold writeOfBlock
    constructor
    · rintro ⟨j, h⟩
      obtain ⟨k, hk, _⟩ := Option.map_eq_some_iff.1 h
      exact ⟨k, hk⟩
    · rintro ⟨k, hk⟩
      exact ⟨_, by rw [hk]; rfl⟩
  · intro j h
    obtain ⟨js, hjs, rfl⟩ := Option.map_eq_some_iff.1 h
    obtain ⟨h1, h2⟩ := writeAll_some _ _ _ hjs
    exact ⟨js, rfl, h1, fun i a k ha hk => ofBlock_shown v withDiff a k (h2 i a k ha hk)⟩

example : ∀ x ∈ [(1, exInvoke), (2, exHandler ['x'])], Complete x.2 := by
  intro x hx
  simp only [List.mem_cons, List.not_mem_nil, or_false] at hx
  rcases hx with rfl | rfl <;> exact fun _ _ h => nomatch h

/-- The answer for a block with initial reads: the same traces, and the reads. -/
theorem C115_reads (v : Version) (withDiff : Bool) (l : List (Nat × Trace)) (m : Maps) (j : J)
    (h : writeBlockWithReads v withDiff l (some m) = some j) :
    Reads j [("traces", each (OfBlockShown v withDiff) l), ("initial_reads", is (ReadsShown m))] := by
  obtain ⟨js, hjs, rfl⟩ := Option.map_eq_some_iff.1 h
  obtain ⟨h1, h2⟩ := writeAll_some _ _ _ hjs
  exact reads_of _ _ (fieldsOf_put _ [_] "initial_reads" _ _
    (fieldsOf_put [] [] "traces" (each (OfBlockShown v withDiff) l) _ fieldsOf_nil (by simp)
      ⟨js, rfl, h1, fun i a k ha hk => ofBlock_shown v withDiff a k (h2 i a k ha hk)⟩) (by simp)
    ⟨_, rfl, reads_shown m⟩)

example : ∃ j, writeBlockWithReads .v10 true [(1, exInvoke)]
    (some ⟨[(1, 2)], [(3, 4)], [((5, 6), 7)], [(8, true)]⟩) = some j := ⟨_, rfl⟩

/-- What is written for a tree of calls is as the documents of the version require, if every call has the parts
that they require: a selector, the hash of a class, the types of the entry point and of the call, and, before
0.8, steps. -/
theorem C115_schema_partial (v : Version) (t : XTree) (h : ∀ p c, t.at p = some c → Full v c) :
    TreeDoc v (writeTree v t) := tree_doc v t h _ (tree_shown v t)

theorem exCall_full (v : Version) (n : Nat) (hn : n ≠ 0) : Full v (exCall n) :=
  ⟨rfl, rfl, rfl, rfl, fun _ => hn, fun e he => by
    simp only [exCall, List.mem_singleton] at he
    subst he
    decide⟩

example : ∀ p c, (XTree.node (exCall 10) []).at p = some c → Full .v07 c := by
  intro p c h
  cases p with
  | nil => cases h; exact exCall_full _ _ (by decide)
  | cons i p => cases i <;> cases h

/-- A trace of a deployment without a call of a constructor cannot be written, and with it the traces of all
transactions of its block are lost. -/
theorem C115_constructor_violated (v : Version) (withDiff : Bool) (pre post : List (Nat × Trace)) (h : Nat)
    (fee validate : Option XTree) (total : Total) (diff : Diff) :
    writeBlock v withDiff (pre ++ (h, ⟨.deployAccount none fee validate, total, diff⟩) :: post) = none := by
  cases hw : writeBlock v withDiff (pre ++ (h, ⟨.deployAccount none fee validate, total, diff⟩) :: post) with
  | none => rfl
  | some j =>
    have := ((C115_block v withDiff _).1.1 ⟨j, hw⟩) (h, ⟨.deployAccount none fee validate, total, diff⟩) (by simp)
    exact absurd rfl (this fee validate)

example : ∃ j, writeBlock .v09 false [(1, exInvoke)] = some j := ⟨_, rfl⟩

/-- Before 0.9 what is written for an L1 handler that was reverted does not depend on the reason: it is a call
of the contract 0 that nobody made. -/
theorem C115_handler_violated (v : Version) (hv : v = .v06 ∨ v = .v07 ∨ v = .v08) (withDiff : Bool)
    (r r' : Text) (total : Total) (diff : Diff) :
    writeTrace v withDiff ⟨.l1Handler (.reverted r), total, diff⟩ =
      writeTrace v withDiff ⟨.l1Handler (.reverted r'), total, diff⟩ ∧
    ∃ j k, writeTrace v withDiff ⟨.l1Handler (.reverted r), total, diff⟩ = some j ∧
      j.get "function_invocation" = some k ∧ k.get "contract_address" = some (.felt 0) ∧
      k.get "revert_reason" = none := by
  have hk : ∃ j, writeTrace v withDiff ⟨.l1Handler (.reverted r), total, diff⟩ = some j ∧
      j.get "function_invocation" = some (writeTree v dummy) := by
    rcases hv with rfl | rfl | rfl <;> cases withDiff <;> exact ⟨_, rfl, rfl⟩
  obtain ⟨j, hj, hg⟩ := hk
  refine ⟨by rcases hv with rfl | rfl | rfl <;> rfl, j, _, hj, hg, ?_, ?_⟩ <;>
    rcases hv with rfl | rfl | rfl <;> rfl

/-- From 0.9 on the reason can be read. -/
example (r : Text) : ∃ j k, writeTrace .v09 false (exHandler r) = some j ∧
    j.get "function_invocation" = some k ∧ k.get "revert_reason" = some (.str r) := ⟨_, _, rfl, rfl, rfl⟩

/-- Before 0.8 that call shows zero steps, which the documents exclude. -/
theorem C115_dummy_violated (v : Version) (hv : v = .v06 ∨ v = .v07) : ¬ TreeDoc v (writeTree v dummy) := by
  intro h
  have hc := h [] _ rfl
  obtain ⟨x, hx, hd⟩ := hc.2.2.2.2.2.2.2.2.2.2.2.1
  rcases hv with rfl | rfl
  · obtain ⟨y, hy, n, rfl, hn⟩ := hd.1
    have e : (writeTree .v06 dummy).get "execution_resources" = some (.obj [("steps", .num 0)]) := rfl
    rw [e] at hx
    cases hx
    exact hn (by cases hy; rfl)
  · obtain ⟨y, hy, n, rfl, hn⟩ := hd.1
    have e : (writeTree .v07 dummy).get "execution_resources" = some (.obj [("steps", .num 0)]) := rfl
    rw [e] at hx
    cases hx
    exact hn (by cases hy; rfl)

/-- An execution without a call and without a reason is written as an empty object, which the documents do not
allow from 0.7 on. -/
theorem C115_empty_violated (v : Version) (hv : v ≠ .v06) :
    ¬ RevertibleDoc v (writeRevertible v (.invocation none)) := by
  rintro (h | ⟨x, hx, _⟩ | ⟨h, _⟩)
  · obtain ⟨⟨x, hx, _⟩, _⟩ := h [] _ rfl
    cases hx
  · cases hx
  · exact hv h

example : RevertibleDoc .v07 (writeRevertible .v07 (.reverted ['x'])) := .inr (.inl ⟨_, rfl, _, rfl⟩)

/-- A call without a type, which the gateway's traces of old blocks may have, is written without the field that
the documents require. -/
theorem C115_field_violated (v : Version) (c : XCall) (l : List XTree) (h : c.callType = none) :
    ¬ TreeDoc v (writeTree v (.node c l)) := by
  intro hd
  obtain ⟨_, _, _, _, _, _, ⟨x, hx, _⟩, _⟩ := hd [] _ rfl
  rw [writeTree] at hx
  rcases (call_shown v c (writeTrees v l)).2.1 ("call_type", part callTypeShown c.callType) (by simp) with
    ⟨_, h0⟩ | ⟨t, _, ht, _⟩
  · rw [show (writeCall v c (writeTrees v l)).get "call_type" = none from h0] at hx
    cases hx
  · rw [h] at ht
    cases ht

example : ({ exCall 1 with callType := none } : XCall).callType = none := rfl

end Verif.TraceOut
