import Verif.Events.TokenText
/-!
# The consensus write-ahead log: crates/consensus/src/wal.rs

A file is the list of its bytes. The text form of an entry (serde_json) is a parameter: what is assumed of it is
`Codec.Lawful` in `WalSpec`. A directory is the list of its regular files with their names; a file that cannot be opened, a directory
that cannot be listed and a failing write are not modelled.
-/
namespace Verif.Cons

open Verif.Events.TokenText (showNat readNat)

abbrev Bytes := List UInt8

/-- `Round` (lib.rs:887). -/
abbrev Round := Option Nat

/-- `WalEntry` (wal.rs:67-86). `S` are signatures. The text of a timeout kind is one of four words. -/
inductive Entry (V A S : Type)
  | proposal (height : Nat) (round : Round) (value : V) (polRound : Round) (proposer : A) (signature : S)
  | vote (precommit : Bool) (height : Nat) (round : Round) (value : Option V) (validator : A) (signature : S)
  | timeout (kind : Fin 4) (round : Round)
  | proposedValue (height : Nat) (round : Round) (validRound : Round) (proposer : A) (value : V) (validity : Bool)
  | decision (height : Nat) (value : V)
  deriving DecidableEq

/-- `matches!(entry, WalEntry::Decision { .. })`. -/
def Entry.isDecision {V A S : Type} : Entry V A S → Bool
  | .decision _ _ => true
  | _ => false

/-- The text form of the entries: `serde_json::to_string`, `serde_json::from_str` (`none` is an error; also the error for a line that
is not UTF-8, wal.rs:236) and the test for a blank line (wal.rs:237). -/
structure Codec (E : Type) where
  ser : E → Bytes
  de : Bytes → Option E
  blank : Bytes → Bool

/-- The bytes of one `append` (wal.rs:133-145): `writeln!` writes the text and then the newline. -/
def appendBytes {E : Type} (c : Codec E) (e : E) : Bytes := c.ser e ++ [10]

/-- A file after complete appends. -/
def fileOf {E : Type} (c : Codec E) (es : List E) : Bytes := es.flatMap (appendBytes c)

/-- The carriage return that `lines` removes before a newline. -/
def stripCr (l : Bytes) : Bytes := if l.getLast? = some 13 then l.dropLast else l

/-- `BufRead::lines` (wal.rs:235): `cur` is the line read so far. -/
def linesFrom (cur : Bytes) : Bytes → List Bytes
  | [] => if cur = [] then [] else [cur]
  | b :: bs => if b = 10 then stripCr cur :: linesFrom [] bs else linesFrom (cur ++ [b]) bs

/-- The loop of `read_entries` (wal.rs:235-250). -/
def parseLines {E : Type} (c : Codec E) : List Bytes → Option (List E)
  | [] => some []
  | l :: ls => if c.blank l then parseLines c ls else (c.de l).bind fun e => (parseLines c ls).map (e :: ·)

/-- `read_entries` (wal.rs:226-253). -/
def readEntries {E : Type} (c : Codec E) (file : Bytes) : Option (List E) := parseLines c (linesFrom [] file)

abbrev Name := List Char

/-- `filename` (wal.rs:18-21). -/
def filename (address : List Char) (height : Nat) : Name :=
  ['w', 'a', 'l', '-'] ++ address ++ '-' :: showNat height ++ ['.', 'j', 's', 'o', 'n']

/-- `strip_prefix`. -/
def stripPrefix (p s : List Char) : Option (List Char) := if p.isPrefixOf s then some (s.drop p.length) else none

/-- `strip_suffix`. -/
def stripSuffix (p s : List Char) : Option (List Char) := if p.isSuffixOf s then some (s.take (s.length - p.length)) else none

/-- `split('-')`. -/
def splitDash : List Char → List (List Char)
  | [] => [[]]
  | c :: cs => if c = '-' then [] :: splitDash cs else
      match splitDash cs with
      | [] => [[c]]
      | p :: ps => (c :: p) :: ps

/-- `extract_height_from_filename` (wal.rs:175-193). -/
def extractHeight (name : Name) : Nat :=
  ((readNat (2 ^ 64)
    ((((stripPrefix ['w', 'a', 'l', '-'] name).bind (stripSuffix ['.', 'j', 's', 'o', 'n'])).bind fun s => (splitDash s)[1]?).getD
      []))).getD 0

/-- The test on a name in `collect_wal_files` (wal.rs:209-216). A name that starts with the prefix has a non-empty stem. -/
def isWalName (name : Name) : Bool :=
  List.isSuffixOf ['.', 'j', 's', 'o', 'n'] name && List.isPrefixOf ['w', 'a', 'l', '-'] name

/-- Insertion into a list sorted by height, behind equal heights. -/
def insertByHeight {α : Type} (x : Nat × α) : List (Nat × α) → List (Nat × α)
  | [] => [x]
  | y :: ys => if x.1 < y.1 then x :: y :: ys else y :: insertByHeight x ys

/-- `sort_by_key` (wal.rs:221). -/
def sortByHeight {α : Type} (l : List (Nat × α)) : List (Nat × α) := l.foldl (fun acc x => insertByHeight x acc) []

/-- `collect_wal_files` (wal.rs:197-223). -/
def collectFiles (dir : List (Name × Bytes)) : List (Nat × Bytes) :=
  sortByHeight ((dir.filter fun f => isWalName f.1).map fun f => (extractHeight f.1, f.2))

/-- What `recover_incomplete_heights` returns (wal.rs:263-273). -/
structure Recovered (E : Type) where
  incomplete : List (Nat × List E)
  finalized : List (Nat × List E)
  highestDecision : Option Nat
  deriving DecidableEq

/-- `std::cmp::max` with the first decision found (wal.rs:302-314). -/
def maxDecision {V A S : Type} (acc : Option Nat) : Entry V A S → Option Nat
  | .decision h _ => some (match acc with | some m => max m h | none => h)
  | _ => acc

/-- `is_finalized` (wal.rs:328-332). -/
def isFinalized {V A S : Type} (committed : Option Nat) (height : Nat) (es : List (Entry V A S)) : Bool :=
  es.any fun e => e.isDecision || committed.any fun c => decide (height ≤ c)

/-- One file of the loop (wal.rs:298-348). -/
def classify {V A S : Type} (committed : Option Nat) (r : Recovered (Entry V A S)) (height : Nat) (es : List (Entry V A S)) :
    Recovered (Entry V A S) :=
  if isFinalized committed height es then
    { r with finalized := r.finalized ++ [(height, es)], highestDecision := es.foldl maxDecision r.highestDecision }
  else { r with incomplete := r.incomplete ++ [(height, es)], highestDecision := es.foldl maxDecision r.highestDecision }

/-- The loop over the files (wal.rs:298-348); the first unreadable file ends it. -/
def recoverFiles {V A S : Type} (c : Codec (Entry V A S)) (committed : Option Nat) :
    Recovered (Entry V A S) → List (Nat × Bytes) → Option (Recovered (Entry V A S))
  | r, [] => some r
  | r, f :: fs => (readEntries c f.2).bind fun es => recoverFiles c committed (classify committed r f.1 es) fs

/-- `recover_incomplete_heights` (wal.rs:263-350). -/
def recoverIncomplete {V A S : Type} (c : Codec (Entry V A S)) (committed : Option Nat) (dir : List (Name × Bytes)) :
    Option (Recovered (Entry V A S)) :=
  recoverFiles c committed ⟨[], [], none⟩ (collectFiles dir)

/-- What `recover_inner` goes on with (lib.rs:479-503): after an error, with nothing. -/
def recoverOrEmpty {V A S : Type} (c : Codec (Entry V A S)) (committed : Option Nat) (dir : List (Name × Bytes)) :
    Recovered (Entry V A S) :=
  (recoverIncomplete c committed dir).getD ⟨[], [], none⟩

end Verif.Cons
