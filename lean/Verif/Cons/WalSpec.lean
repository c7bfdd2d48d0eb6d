import Verif.Cons.Wal
/-!
# What recovery should return
-/
namespace Verif.Cons

/-- What is assumed of the text form: an entry is read back from its text; the text is one line that is not blank and does not end
in a carriage return; the start of a text is not a text, and two texts in a row are not a text. (A JSON object on one line.) -/
structure Codec.Lawful {E : Type} (c : Codec E) : Prop where
  back : ∀ e, c.de (c.ser e) = some e
  newline : ∀ e, (10 : UInt8) ∉ c.ser e
  cr : ∀ e, (c.ser e).getLast? ≠ some 13
  blank_nil : c.blank [] = true
  nonempty : ∀ e, c.ser e ≠ []
  not_blank : ∀ e p, p ≠ [] → p <+: c.ser e → c.blank p = false
  torn : ∀ e p, p <+: c.ser e → p ≠ c.ser e → c.de p = none
  glued : ∀ e e', c.de (c.ser e ++ c.ser e') = none ∧ c.blank (c.ser e ++ c.ser e') = false

/-- The directory holds logs of complete entries for this address, next to files with other names. -/
def Holds {V A S : Type} (c : Codec (Entry V A S)) (address : List Char) (dir : List (Name × Bytes)) (h : Nat)
    (es : List (Entry V A S)) : Prop := h < 2 ^ 64 ∧ (filename address h, fileOf c es) ∈ dir

/-- A height is finished if its log has a decision or the node has committed its block. -/
def Finished {V A S : Type} (committed : Option Nat) (h : Nat) (es : List (Entry V A S)) : Prop :=
  (∃ dh v, .decision dh v ∈ es) ∨ ∃ n, committed = some n ∧ h ≤ n

end Verif.Cons
