import Verif.GwTrace.Lemmas

/-!
# Traces of the gateway: properties (C114)
-/

namespace Verif.GwTrace

def exRes (n : Nat) (g : Option Gas) : Resources := ⟨n, n + 1, n + 2, n + 3, n + 4, n + 5, n + 6, n + 7, n + 8, n + 9, g⟩

def exCall (n : Nat) (g : Option Gas) (used : Option Nat) : Call :=
  ⟨[n, 1], n + 100, some 5, some .delegate, 7, some 8, some .external, [⟨0, [1], [2]⟩, ⟨1, [], [3]⟩],
    [⟨2, [4], 9⟩], [n], exRes n g, false, used⟩

def exTree : Tree := .node (exCall 10 (some ⟨1, 2, some 3⟩) none)
  [.node (exCall 20 none none) [], .node (exCall 30 none (some 4)) [.node (exCall 40 none none) []]]

def exTrace (h : Nat) : Trace := ⟨none, some (.node (exCall 50 none (some 60)) []), some exTree, none, some h⟩

/-- **C114**: the part that validates, the transfer of the fee and the call of the transaction are shown with all
calls at any depth as the gateway gives them, each in the place that is documented for the kind of
transaction. -/
theorem C114_parts (k : Kind) (t : Trace) :
    (mapTrace k t).type = k.traceType ∧
    (k ≠ .l1Handler → ShowsPart t.validate (mapTrace k t).validate ∧
      ShowsPart t.feeTransfer (mapTrace k t).feeTransfer) ∧
    ((k.traceType = .deployAccount ∨
        (t.revert = none ∧ (k.traceType = .invoke ∨ k.traceType = .l1Handler))) →
      ShowsPart t.function (mapTrace k t).main) := by
  refine ⟨by cases k <;> rfl, fun hk => ?_, fun h => ?_⟩
  · cases k <;> first | exact absurd rfl hk | exact ⟨showsPart_map _, showsPart_map _⟩
  · rcases h with h | ⟨hr, h⟩
    · cases k <;> first | (cases h; done) | exact showsPart_map _
    · cases k <;>
        first
          | (rcases h with h | h <;> cases h; done)
          | (simp only [mapTrace, revertible, hr, XTrace.main]; exact showsPart_map _)

example : ShowsPart (exTrace 1).function (mapTrace .invokeV1 (exTrace 1)).main ∧
    (exTree.at [1, 0]).isSome = true :=
  ⟨(C114_parts .invokeV1 (exTrace 1)).2.2 (Or.inr ⟨rfl, Or.inl rfl⟩), rfl⟩

/-- **C114**: a revert of a transaction that calls is shown with its reason, and no other is. -/
theorem C114_revert (k : Kind) (t : Trace) (h : k.traceType = .invoke ∨ k.traceType = .l1Handler) :
    (mapTrace k t).reason = t.revert ∧ (t.revert ≠ none → (mapTrace k t).main = none) := by
  cases hr : t.revert <;> cases k <;>
    first
      | (rcases h with h | h <;> cases h; done)
      | simp [mapTrace, revertible, hr, XTrace.reason, XTrace.main]

example : (mapTrace .l1Handler { exTrace 1 with revert := some ['x'] }).reason = some ['x'] := rfl

/-- **C114**: the totals of a transaction are the sums over the parts that the gateway gives. -/
theorem C114_total (k : Kind) (t : Trace) :
    (mapTrace k t).total.resources.steps = t.sum (·.resources.steps) ∧
    (mapTrace k t).total.resources.holes = t.sum (·.resources.holes) ∧
    (mapTrace k t).total.resources.rangeCheck = t.sum (·.resources.rangeCheck) ∧
    (mapTrace k t).total.resources.pedersen = t.sum (·.resources.pedersen) ∧
    (mapTrace k t).total.resources.poseidon = t.sum (·.resources.poseidon) ∧
    (mapTrace k t).total.resources.ecOp = t.sum (·.resources.ecOp) ∧
    (mapTrace k t).total.resources.ecdsa = t.sum (·.resources.ecdsa) ∧
    (mapTrace k t).total.resources.bitwise = t.sum (·.resources.bitwise) ∧
    (mapTrace k t).total.resources.keccak = t.sum (·.resources.keccak) ∧
    (mapTrace k t).total.resources.segmentArena = t.sum (·.resources.segmentArena) ∧
    (mapTrace k t).total.l1Gas = t.sum (fun c => (c.resources.totalGas.map (·.l1)).getD 0) ∧
    (mapTrace k t).total.l1DataGas = t.sum (fun c => (c.resources.totalGas.map (·.l1Data)).getD 0) ∧
    (mapTrace k t).total.l2Gas = t.sum Call.l2 := by
  have e : (mapTrace k t).total = totalOf t := by cases k <;> rfl
  rw [e]
  refine ⟨sum_parts t _ (fun p => p.1.steps) (fun _ => rfl) rfl, sum_parts t _ (fun p => p.1.holes) (fun _ => rfl) rfl,
    sum_parts t _ (fun p => p.1.rangeCheck) (fun _ => rfl) rfl, sum_parts t _ (fun p => p.1.pedersen) (fun _ => rfl) rfl,
    sum_parts t _ (fun p => p.1.poseidon) (fun _ => rfl) rfl, sum_parts t _ (fun p => p.1.ecOp) (fun _ => rfl) rfl,
    sum_parts t _ (fun p => p.1.ecdsa) (fun _ => rfl) rfl, sum_parts t _ (fun p => p.1.bitwise) (fun _ => rfl) rfl,
    sum_parts t _ (fun p => p.1.keccak) (fun _ => rfl) rfl,
    sum_parts t _ (fun p => p.1.segmentArena) (fun _ => rfl) rfl,
    sum_parts t _ (fun p => (p.1.totalGas.getD .default).l1) (fun u => ?_) rfl,
    sum_parts t _ (fun p => (p.1.totalGas.getD .default).l1Data) (fun u => ?_) rfl,
    sum_parts t _ partL2 partL2_some rfl⟩
  · simp only [part]; cases u.call.resources.totalGas <;> rfl
  · simp only [part]; cases u.call.resources.totalGas <;> rfl

example : (mapTrace .invokeV1 (exTrace 1)).total.l2Gas = 63 ∧
    (mapTrace .invokeV1 (exTrace 1)).total.resources.steps = 60 := ⟨rfl, rfl⟩

/-- **C114, in part**: if the gateway gives the traces of the transactions of the block in their order, every
transaction is answered with its own trace, in order.  The code does not check the hypothesis. -/
theorem C114_block_partial (traces : List Trace) (txs : List Tx)
    (h : traces.map (·.hash) = txs.map fun x => some x.hash) :
    (mapBlock traces txs).map Prod.fst = txs.map (·.hash) ∧
    ∀ (i : Nat) (x : Tx), txs[i]? = some x → ∃ t, traces[i]? = some t ∧ t.hash = some x.hash ∧
      (mapBlock traces txs)[i]? = some (x.hash, mapTrace x.kind t) := by
  induction traces generalizing txs with
  | nil =>
    cases txs with
    | nil => exact ⟨rfl, fun i x hx => by simp at hx⟩
    | cons x xs => simp at h
  | cons t ts ih =>
    cases txs with
    | nil => simp at h
    | cons x xs =>
      simp only [List.map_cons, List.cons.injEq] at h
      obtain ⟨h1, h2⟩ := ih xs h.2
      refine ⟨by simp only [mapBlock, List.zip_cons_cons, List.map_cons, List.cons.injEq, true_and]; exact h1,
        fun i y hy => ?_⟩
      cases i with
      | zero =>
        simp only [List.getElem?_cons_zero, Option.some.injEq] at hy
        subst hy
        exact ⟨t, rfl, h.1, rfl⟩
      | succ i =>
        obtain ⟨u, hu, hh, hb⟩ := h2 i y (by simpa using hy)
        exact ⟨u, by simpa using hu, hh, by simpa [mapBlock] using hb⟩

example : [exTrace 1, exTrace 2].map (·.hash) = [(⟨1, .invokeV1⟩ : Tx), ⟨2, .declareV2⟩].map fun x => some x.hash :=
  rfl

/-- **C114, violated**: the hashes that the gateway gives with its traces are not looked at: where a trace at a
position is that of another transaction, it is answered as the one of the transaction at that position. -/
theorem C114_hash_violated (traces : List Trace) (txs : List Tx) (i : Nat) (t : Trace) (x : Tx)
    (ht : traces[i]? = some t) (hx : txs[i]? = some x) (_h : t.hash ≠ some x.hash) :
    (mapBlock traces txs)[i]? = some (x.hash, mapTrace x.kind t) := by
  have hz : (traces.zip txs)[i]? = some (t, x) := List.getElem?_zip_eq_some.mpr ⟨ht, hx⟩
  simp only [mapBlock, List.getElem?_map, hz, Option.map_some]

example : [exTrace 2, exTrace 1][0]? = some (exTrace 2) ∧ [(⟨1, .invokeV1⟩ : Tx), ⟨2, .invokeV1⟩][0]? = some ⟨1, .invokeV1⟩ ∧
    (exTrace 2).hash ≠ some 1 := ⟨rfl, rfl, by simp [exTrace]⟩

/-- **C114, violated**: with fewer traces than transactions the rest of the block is missing in the answer, which
is no error. -/
theorem C114_short_violated (traces : List Trace) (txs : List Tx) (h : traces.length < txs.length) :
    (mapBlock traces txs).length < txs.length ∧
    ∀ i x, txs[i]? = some x → traces.length ≤ i → (mapBlock traces txs)[i]? = none := by
  have hl : (mapBlock traces txs).length = traces.length := by
    simp [mapBlock]; omega
  refine ⟨by omega, fun i x _ hi => ?_⟩
  rw [List.getElem?_eq_none_iff, hl]
  exact hi

example : ([exTrace 1] : List Trace).length < [(⟨1, .invokeV1⟩ : Tx), ⟨2, .invokeV1⟩].length := by decide

/-- **C114, violated**: the gas of layer 2 of a call is shown without `gas_consumed`, which the total counts: the
total is not the sum over the calls that are shown. -/
theorem C114_l2_violated (k : Kind) (c : Call) (g : Nat) (hk : k.traceType = .invoke)
    (hg : c.gasConsumed = some g) (hne : ∀ a, c.resources.totalGas = some a → a.l2.getD 0 ≠ g)
    (hz : c.resources.totalGas = none → g ≠ 0) :
    ∃ u, (mapTrace k ⟨none, none, some (.node c []), none, none⟩).main = some u ∧
      (mapTrace k ⟨none, none, some (.node c []), none, none⟩).total.l2Gas = g ∧ u.call.l2Gas ≠ g := by
  have key : ((c.resources.totalGas.getD .default).l2.getD 0) ≠ g := by
    cases ht : c.resources.totalGas with
    | none => exact fun e => hz ht e.symm
    | some a => exact hne a ht
  cases k <;> first
    | (cases hk; done)
    | exact ⟨mapTree (.node c []), rfl, by
        simp [mapTrace, XTrace.total, totalOf, part, partL2, Tree.call, hg, Resources.default, Gas.default], key⟩

example : (exCall 50 none (some 60)).gasConsumed = some 60 ∧ (exCall 50 none (some 60)).resources.totalGas = none :=
  ⟨rfl, rfl⟩

end Verif.GwTrace
