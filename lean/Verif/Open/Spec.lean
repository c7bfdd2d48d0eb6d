import Verif.Open.Model

/-
What an operator may expect of a database across restarts, said without the
steps by which it is opened.
-/

namespace Verif.Open.Spec

variable {D : Type}

/-- The content after applying the given changes one after the other; `none` when
one of them fails. -/
def applied : List (D → Option D) → D → Option D
  | [], x => some x
  | m :: ms, x => (m x).bind (applied ms)

/-- The content after bringing a database of revision `r` up to date: the base
schema first if it has none, then exactly the changes that came after `r`. -/
def upgraded (S : Schema D) (r : Nat) (x : D) : Option D :=
  if r = 0 then (S.base x).bind (applied S.ms)
  else applied (S.ms.drop (r - 40)) x

/-- The revisions that can be brought up to date. -/
def Supported (S : Schema D) (r : Nat) : Prop :=
  r = 0 ∨ (40 ≤ r ∧ r ≤ 40 + S.ms.length)

/-- Whether a mode removes old data. -/
def prunes : Mode → Bool
  | .archive => false
  | .prune _ => true

/-- The mode of the history that the file remembers. -/
def remembered (d : Disk D) : Mode :=
  match d.history with
  | none => .archive
  | some k => .prune k

/-- The file as a later start finds it: as it is, or as it is created. -/
def found (S : Schema D) (file : Option (Disk D)) : Disk D := file.getD (created S)

/-- Only attempts to open the database. -/
def Attempt : Act D → Prop
  | .start _ | .crash _ _ => True
  | _ => False

/-- The file after opening ran to its end. -/
def after (S : Schema D) (cfg : Cfg) (file : Option (Disk D)) : Option (Disk D) :=
  (openDb S cfg file).1.getLast?.or file

/-- A state that a node can be in, from no database at all, by any history of
starts, crashes and work. -/
def Reachable (S : Schema D) (s : Sys D) : Prop := ∃ acts, run S ⟨none, none⟩ acts = some s

/-- An attempt to open that asks for less history than the file remembers finds
the remembered history complete: from its oldest block to its newest there are
more than the remembered number. -/
def CompleteWhenReduced (d : Disk D) (a : Act D) : Prop :=
  match a with
  | .start cfg | .crash cfg _ =>
    ∀ k i lo hi, cfg.history = some (.prune k) → d.history = some i → k < i →
      d.blocks.min? = some lo → d.blocks.max? = some hi → lo + i ≤ hi
  | _ => True

end Verif.Open.Spec
