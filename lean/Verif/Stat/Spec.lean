import Verif.Stat.Model

/-!
# Specification for C107

Everything is said about the history of a run: which heads of the gateway the node has taken note
of, which blocks it has accepted and where it has rolled back, in order.
-/

namespace Verif.Stat

/-- The state after some run of a node started with this database and this head of the gateway. -/
def Reach (chain : List Blk) (gateway : Blk) (watching : Bool) (acts : List Act) (s : Sys) : Prop :=
  run (init chain gateway watching) acts = some s

/-- No head of the gateway was noted. -/
def NoHead (l : List Note) : Prop := ∀ b, Note.head b ∉ l

/-- No block was accepted. -/
def NoBlock (l : List Note) : Prop := ∀ b, Note.block b ∉ l

/-- No block was removed. -/
def NoReorg (l : List Note) : Prop := ∀ t, Note.reorg t ∉ l

/-- `b` is the last block accepted in `l`. -/
def LastBlock (l : List Note) (b : Blk) : Prop :=
  ∃ pre post, l = pre ++ .block b :: post ∧ NoBlock post

/-- `b` is where the node is, as far as the status says: the last block accepted since the first
head was noted, or the newest block of the database the node was started with. -/
def Current (starting : Blk) (l : List Note) (b : Blk) : Prop :=
  ∃ pre h post, l = pre ++ .head h :: post ∧ NoHead pre ∧
    (LastBlock post b ∨ (NoBlock post ∧ b = starting))

/-- `b` is the highest block known since the last head was noted: that head, or a block accepted
since, and none of those is higher. -/
def Highest (l : List Note) (b : Blk) : Prop :=
  ∃ pre h post, l = pre ++ .head h :: post ∧ NoHead post ∧
    (b = h ∨ .block b ∈ post) ∧ h.num ≤ b.num ∧ ∀ c, .block c ∈ post → c.num ≤ b.num

/-- The same hash always comes with the same number. -/
def HashesTell (l : List Note) : Prop :=
  ∀ x y : Blk, (Note.head x ∈ l ∨ Note.block x ∈ l) → (Note.head y ∈ l ∨ Note.block y ∈ l) →
    x.hash = y.hash → x = y

/-- A gateway that never goes back and is never outrun: no head noted is below one noted before or
below the newest block of the starting database, and each block accepted is at most the head noted
last before it. -/
def Steady (starting : Blk) (l : List Note) : Prop :=
  (∀ pre h post, l = pre ++ .head h :: post →
    starting.num ≤ h.num ∧
      (∀ h', .head h' ∈ pre → h'.num ≤ h.num)) ∧
  (∀ pre b post, l = pre ++ .block b :: post → ∃ h, .head h ∈ pre ∧ b.num ≤ h.num)

end Verif.Stat
