import Verif.GwTrace.Spec

/-!
# Traces of the gateway: lemmas
-/

namespace Verif.GwTrace

theorem mapTrees_eq (l : List Tree) : mapTrees l = l.map mapTree := by
  induction l with
  | nil => rfl
  | cons t ts ih => simp [mapTrees, ih]

theorem at_map (t : Tree) (p : List Nat) : (mapTree t).at p = (t.at p).map mapCall := by
  induction p generalizing t with
  | nil => cases t; rfl
  | cons i p ih =>
    cases t with
    | node c l =>
      simp only [mapTree, XTree.at, XTree.calls, Tree.at, Tree.calls, mapTrees_eq, List.getElem?_map]
      cases l[i]? with
      | none => rfl
      | some u => simp [ih]

theorem shows_map (c : Call) : Shows c (mapCall c) := by
  refine ⟨rfl, rfl, rfl, ?_, rfl, rfl, ?_, ?_, ?_, rfl, ⟨rfl, rfl, rfl, rfl, rfl, rfl, rfl, rfl, rfl, rfl⟩, rfl,
    ?_, ?_⟩
  · simp only [mapCall]
    rcases c.callType with _ | t
    · exact .none
    · cases t
      · exact .call
      · exact .delegate
  · simp only [mapCall]
    rcases c.entryType with _ | t
    · exact .none
    · cases t
      · exact .constructor
      · exact .external
      · exact .l1Handler
  · intro i
    simp only [mapCall, List.getElem?_map]
    cases c.events[i]? <;> rfl
  · intro i
    simp only [mapCall, List.getElem?_map]
    cases c.messages[i]? <;> rfl
  · intro g hg
    simp [mapCall, hg]
  · intro hg
    simp [mapCall, hg, Gas.default]

theorem showsPart_map (o : Option Tree) : ShowsPart o (o.map mapTree) := by
  cases o with
  | none => exact Or.inl ⟨rfl, rfl⟩
  | some t =>
    refine Or.inr ⟨t, mapTree t, rfl, rfl, fun p => ?_⟩
    rw [at_map]
    cases t.at p with
    | none => exact Or.inl ⟨rfl, rfl⟩
    | some c => exact Or.inr ⟨c, mapCall c, rfl, rfl, shows_map c⟩

theorem sum_parts (t : Trace) (f : Call → Nat) (g : Resources × Option Nat → Nat)
    (h : ∀ u : Tree, g (part (some u)) = f u.call) (h0 : g (part none) = 0) :
    g (part t.validate) + g (part t.function) + g (part t.feeTransfer) = t.sum f := by
  unfold Trace.sum
  cases t.validate <;> cases t.function <;> cases t.feeTransfer <;>
    simp [h, h0, Nat.add_assoc]

theorem partL2_some (u : Tree) : partL2 (part (some u)) = u.call.l2 := by
  simp only [partL2, part, Call.l2]
  cases u.call.gasConsumed with
  | some g => rfl
  | none =>
    cases hg : u.call.resources.totalGas with
    | none => rfl
    | some g =>
      obtain ⟨a, b, c⟩ := g
      cases c <;> rfl

end Verif.GwTrace
