import Verif.Commit.Spec
/-!
# Histories of updates

The states a sequence of updates goes through.
-/
namespace Verif.Commit
open Verif.Trie

/-- The states after each of the updates. -/
def St.trace {F} [DecidableEq F] (o : Ops F) (S : St F) : List (Update F) → List (St F)
  | [] => []
  | u :: us => S.apply o u :: (S.apply o u).trace o us

/-- Every update is well-formed and has the classes of its contracts. -/
def Possible {F} [DecidableEq F] (o : Ops F) (H : Nat) (isSys : Key → Bool) (S : St F) : List (Update F) → Prop
  | [] => True
  | u :: us => u.Ok H isSys ∧ u.Classes S ∧ Possible o H isSys (S.apply o u) us

end Verif.Commit
