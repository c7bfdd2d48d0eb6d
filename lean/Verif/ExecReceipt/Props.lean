import Verif.ExecReceipt.Lemmas

/-!
# C116: receipts of executed transactions
-/

namespace Verif.ExecReceipt

open Verif.GwTrace (Text XResources XEvent XMsg XCall XTree Revertible)
open Verif.TraceOut (Body Total)

/-- C116: nothing is lost and nothing appears twice: the events and messages of a receipt are those of all calls of
the parts that took effect, as often as they were emitted. -/
theorem C116_all (b : Body) :
    (events b).Perm ((((effective b).flatMap allCalls).flatMap eventsOf).map (·.2)) ∧
    (messages b).Perm ((((effective b).flatMap allCalls).flatMap messagesOf).map (·.2)) := by
  constructor
  · refine (collect_all _).trans ?_
    rw [show treeEvents = fun t => (allCalls t).flatMap eventsOf from funext treeEvents_calls, ← List.flatMap_assoc]
    rw [parts_effective]
  · refine (collect_all _).trans ?_
    rw [show treeMessages = fun t => (allCalls t).flatMap messagesOf from funext treeMessages_calls,
      ← List.flatMap_assoc]
    rw [parts_effective]

/-- C116: an event or message is in the receipt if and only if some call, at some path of a part that took effect,
emitted it; events carry the address of that call. -/
theorem C116_members (b : Body) (e : Event) (m : Message) :
    (e ∈ events b ↔ ∃ t p i o, HasPart b t ∧ EmittedAt t p i o e) ∧
    (m ∈ messages b ↔ ∃ t p i o, HasPart b t ∧ SentAt t p i o m) := by
  constructor
  · rw [show events b = collectItems (((parts b).flatMap treeEvents).foldl push []) from rfl,
      (collect_all _).mem_iff, List.mem_map]
    constructor
    · rintro ⟨⟨o, e'⟩, h, rfl⟩
      obtain ⟨t, ht, h⟩ := List.mem_flatMap.1 h
      obtain ⟨p, i, h⟩ := (mem_treeEvents t o e').1 h
      exact ⟨t, p, i, o, (mem_parts b t).1 ht, h⟩
    · rintro ⟨t, p, i, o, ht, h⟩
      exact ⟨(o, e), List.mem_flatMap.2 ⟨t, (mem_parts b t).2 ht, (mem_treeEvents t o e).2 ⟨p, i, h⟩⟩, rfl⟩
  · rw [show messages b = collectItems (((parts b).flatMap treeMessages).foldl push []) from rfl,
      (collect_all _).mem_iff, List.mem_map]
    constructor
    · rintro ⟨⟨o, e'⟩, h, rfl⟩
      obtain ⟨t, ht, h⟩ := List.mem_flatMap.1 h
      obtain ⟨p, i, h⟩ := (mem_treeMessages t o e').1 h
      exact ⟨t, p, i, o, (mem_parts b t).1 ht, h⟩
    · rintro ⟨t, p, i, o, ht, h⟩
      exact ⟨(o, m), List.mem_flatMap.2 ⟨t, (mem_parts b t).2 ht, (mem_treeMessages t o m).2 ⟨p, i, h⟩⟩, rfl⟩

/-- C116: the order of events and messages in every case: items that share their number with an earlier one, over all
parts in the order validation, execution, transfer of the fee, go to the end, as the comment in the code says. First
come, by number, those that are the first with their number, then those that are the second, and so on. -/
theorem C116_rounds (b : Body) :
    (∃ o : List (Nat × Int × Event), o.Perm (ranked [] ((effective b).flatMap emitted)) ∧
      o.Pairwise Earlier ∧ events b = o.map (·.2.2)) ∧
    (∃ o : List (Nat × Int × Message), o.Perm (ranked [] ((effective b).flatMap sent)) ∧
      o.Pairwise Earlier ∧ messages b = o.map (·.2.2)) := by
  rw [← parts_effective, ← show treeEvents = emitted from funext treeEvents_calls,
    ← show treeMessages = sent from funext treeMessages_calls]
  exact ⟨collect_order _, collect_order _⟩

/-- C116: if two parts of a transaction emit events, each with different numbers, and the numbers of the later part
are among those of the earlier one, as for an execution and the transfer of its fee, the receipt has the events of
the earlier part in the order of their numbers and then those of the later one. The same holds for messages.

Missing: other numbers, for example a validation with fewer events than the execution, where this is false
(`C116_order_violated`). -/
theorem C116_order_partial (b : Body) (l₁ l₂ l₃ : List XTree) (x y : XTree)
    (hb : effective b = l₁ ++ x :: (l₂ ++ y :: l₃)) :
    ((∀ t ∈ l₁ ++ l₂ ++ l₃, emitted t = []) → Distinct (emitted x) → Distinct (emitted y) →
      (∀ k ∈ (emitted y).map (·.1), k ∈ (emitted x).map (·.1)) →
      ∃ ex ey, ex.Perm (emitted x) ∧ ey.Perm (emitted y) ∧ InOrder ex ∧ InOrder ey ∧
        events b = (ex ++ ey).map (·.2)) ∧
    ((∀ t ∈ l₁ ++ l₂ ++ l₃, sent t = []) → Distinct (sent x) → Distinct (sent y) →
      (∀ k ∈ (sent y).map (·.1), k ∈ (sent x).map (·.1)) →
      ∃ mx my, mx.Perm (sent x) ∧ my.Perm (sent y) ∧ InOrder mx ∧ InOrder my ∧
        messages b = (mx ++ my).map (·.2)) := by
  constructor
  · intro hs hx hy hsub
    have h : (parts b).flatMap treeEvents = emitted x ++ emitted y := by
      rw [show treeEvents = emitted from funext treeEvents_calls, parts_effective, hb]
      simp only [List.flatMap_append, List.flatMap_cons]
      rw [flatMap_silent emitted l₁ fun t ht => hs t (by simp [ht]),
        flatMap_silent emitted l₂ fun t ht => hs t (by simp [ht]),
        flatMap_silent emitted l₃ fun t ht => hs t (by simp [ht])]
      simp
    unfold events
    rw [h]
    exact collect_two _ _ hx hy hsub
  · intro hs hx hy hsub
    have h : (parts b).flatMap treeMessages = sent x ++ sent y := by
      rw [show treeMessages = sent from funext treeMessages_calls, parts_effective, hb]
      simp only [List.flatMap_append, List.flatMap_cons]
      rw [flatMap_silent sent l₁ fun t ht => hs t (by simp [ht]),
        flatMap_silent sent l₂ fun t ht => hs t (by simp [ht]),
        flatMap_silent sent l₃ fun t ht => hs t (by simp [ht])]
      simp
    unfold messages
    rw [h]
    exact collect_two _ _ hx hy hsub

/-- C116: if only one part emits events, and with different numbers, they are in the order of their numbers; the
same holds for messages. -/
theorem C116_one_part (b : Body) (l₁ l₂ : List XTree) (x : XTree) (hb : effective b = l₁ ++ x :: l₂) :
    ((∀ t ∈ l₁ ++ l₂, emitted t = []) → Distinct (emitted x) →
      ∃ ex, ex.Perm (emitted x) ∧ InOrder ex ∧ events b = ex.map (·.2)) ∧
    ((∀ t ∈ l₁ ++ l₂, sent t = []) → Distinct (sent x) →
      ∃ mx, mx.Perm (sent x) ∧ InOrder mx ∧ messages b = mx.map (·.2)) := by
  constructor
  · intro hs hx
    have h : (parts b).flatMap treeEvents = emitted x := by
      rw [show treeEvents = emitted from funext treeEvents_calls, parts_effective, hb]
      simp only [List.flatMap_append, List.flatMap_cons]
      rw [flatMap_silent emitted l₁ fun t ht => hs t (by simp [ht]),
        flatMap_silent emitted l₂ fun t ht => hs t (by simp [ht])]
      simp
    unfold events
    rw [h]
    exact collect_one _ hx
  · intro hs hx
    have h : (parts b).flatMap treeMessages = sent x := by
      rw [show treeMessages = sent from funext treeMessages_calls, parts_effective, hb]
      simp only [List.flatMap_append, List.flatMap_cons]
      rw [flatMap_silent sent l₁ fun t ht => hs t (by simp [ht]),
        flatMap_silent sent l₂ fun t ht => hs t (by simp [ht])]
      simp
    unfold messages
    rw [h]
    exact collect_one _ hx

/-- C116: a receipt says that the transaction was reverted, with the reason, if and only if its execution was. -/
theorem C116_status (b : Body) (r : Text) :
    status b = some r ↔ (∃ f v, b = .invoke (.reverted r) f v) ∨ b = .l1Handler (.reverted r) := by
  rcases b with ⟨f, v⟩ | ⟨c, f, v⟩ | ⟨e, f, v⟩ | e
  · simp [status]
  · simp [status]
  · rcases e with e | e <;> simp [status]
  · rcases e with e | e <;> simp [status]

/-- C116: the resources of a receipt are those of the execution, but for the count of Pedersen hashes
(`C116_pedersen_violated`). -/
theorem C116_resources_partial (t : Total) :
    let r := resources t
    let c := t.computation
    (r.steps = c.steps ∧ r.holes = c.holes ∧ r.rangeCheck = c.rangeCheck ∧ r.ecdsa = c.ecdsa ∧
      r.bitwise = c.bitwise ∧ r.ecOp = c.ecOp ∧ r.keccak = c.keccak ∧ r.poseidon = c.poseidon ∧
      r.segmentArena = c.segmentArena) ∧
    r.daL1Gas = t.daL1Gas ∧ r.daL1DataGas = t.daL1DataGas ∧ r.l1Gas = t.l1Gas ∧ r.l1DataGas = t.l1DataGas ∧
      r.l2Gas = t.l2Gas :=
  ⟨⟨rfl, rfl, rfl, rfl, rfl, rfl, rfl, rfl, rfl⟩, rfl, rfl, rfl, rfl, rfl⟩

/-! ## Violations -/

/-- The count of Pedersen hashes is right if and only if it happens to be the count of Poseidon hashes. -/
theorem C116_pedersen_violated :
    (∀ t : Total, (resources t).pedersen = t.computation.pedersen ↔ t.computation.poseidon = t.computation.pedersen) ∧
    ∃ t : Total, t.computation.pedersen = 7 ∧ (resources t).pedersen = 0 :=
  ⟨fun _ => Iff.rfl, ⟨⟨100, 0, 5, 7, 0, 0, 0, 0, 0, 0⟩, 0, 0, 0, 0, 0⟩, rfl, rfl⟩

/-- A call that emits the events and makes no calls. -/
def emitter (contract : Nat) (l : List XEvent) : XTree :=
  .node ⟨[], contract, none, none, 0, none, none, l, [], [], ⟨0, 0, 0, 0, 0, 0, 0, 0, 0, 0⟩, 0, 0, false⟩ []

/-- If the validation emits an event, the first event of the execution comes after its second one: whatever the
events are, the receipt does not have the events of the execution in the order in which they were emitted. -/
theorem C116_order_violated (cv cx : Nat) (kv dv k₀ d₀ k₁ d₁ : List Nat) :
    events (.invoke (.invocation (some (emitter cx [⟨0, d₀, k₀⟩, ⟨1, d₁, k₁⟩]))) none
        (some (emitter cv [⟨0, dv, kv⟩]))) =
      [⟨cv, kv, dv⟩, ⟨cx, k₁, d₁⟩, ⟨cx, k₀, d₀⟩] := by
  simp [events, parts, ofRevertible, emitter, treeEvents, treesEvents, push, collectItems, heads, tails]

/-! ## The hypotheses are met -/

/-- An execution with an inner call between its two events, and a transfer of the fee. -/
def sampleExecute : XTree :=
  .node ⟨[], 1, none, none, 0, none, none, [⟨0, [5], [6]⟩, ⟨2, [7], [8]⟩], [⟨1, [1], 9, 1⟩], [],
    ⟨0, 0, 0, 0, 0, 0, 0, 0, 0, 0⟩, 0, 0, false⟩
    [.node ⟨[], 2, none, none, 1, none, none, [⟨1, [50], [60]⟩], [⟨0, [2], 9, 2⟩], [],
      ⟨0, 0, 0, 0, 0, 0, 0, 0, 0, 0⟩, 0, 0, false⟩ []]

/-- A validation that emits nothing, an execution with an inner call, and a transfer of the fee. -/
example : ∃ ex ey, ex.Perm (emitted sampleExecute) ∧ ey.Perm (emitted (emitter 3 [⟨0, [9], [10]⟩])) ∧
      InOrder ex ∧ InOrder ey ∧
      events (.invoke (.invocation (some sampleExecute)) (some (emitter 3 [⟨0, [9], [10]⟩])) (some (emitter 1 []))) =
        (ex ++ ey).map (·.2) :=
  (C116_order_partial _ [emitter 1 []] [] [] sampleExecute (emitter 3 [⟨0, [9], [10]⟩]) rfl).1
    (by simp [emitted, emitter, allCalls, allCallsList, eventsOf]) (by decide) (by decide) (by decide)

/-- Two events with the number 0: the second of them goes to the end. -/
example : ranked [] (emitted sampleExecute ++ emitted (emitter 3 [⟨0, [9], [10]⟩])) =
    [(0, 0, ⟨1, [6], [5]⟩), (0, 2, ⟨1, [8], [7]⟩), (0, 1, ⟨2, [60], [50]⟩), (1, 0, ⟨3, [10], [9]⟩)] := by
  decide

/-- Messages of an execution, the other parts sending none. -/
example : ∃ mx, mx.Perm (sent sampleExecute) ∧ InOrder mx ∧
    messages (.invoke (.invocation (some sampleExecute)) (some (emitter 3 [⟨0, [9], [10]⟩])) none) =
      mx.map (·.2) :=
  (C116_one_part _ [] [emitter 3 [⟨0, [9], [10]⟩]] sampleExecute rfl).2
    (by simp [sent, emitter, allCalls, allCallsList, messagesOf]) (by decide)

example : (⟨2, [60], [50]⟩ : Event) ∈ events (.invoke (.invocation (some sampleExecute)) none none) :=
  ((C116_members _ _ ⟨0, 0, []⟩).1).2 ⟨sampleExecute, [0], 0, 1, .invokeExecute _ _ _, _, _, rfl, rfl, rfl, rfl⟩

end Verif.ExecReceipt
