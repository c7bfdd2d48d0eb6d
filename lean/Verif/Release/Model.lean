/-!
# The notice of new releases (C113)

`poll_github_for_releases` (`crates/pathfinder/src/bin/pathfinder/update.rs`): what is asked of the
server of releases at each poll, and when the operator is told that there is a newer release.

Simplified: headers and the HTTP client are left out, a response is one of the cases of
`UpdateResult`.  The crate `semver` 1.0.27 is a dependency and not in `/repo`: its parser and its order
are written out as they are documented, with numeric identifiers compared by value; how it compares
build metadata is a parameter.
-/

namespace Verif.Release

/-- Text. -/
abbrev Text := List Char

/-- A digit. -/
def digit (c : Char) : Bool := 48 ≤ c.toNat && c.toNat ≤ 57

/-- A character of an identifier. -/
def idChar (c : Char) : Bool := digit c || (65 ≤ c.toNat && c.toNat ≤ 90) ||
  (97 ≤ c.toNat && c.toNat ≤ 122) || c = '-'

/-- The value of digits. -/
def value (t : Text) : Nat := t.foldl (fun n c => 10 * n + (c.toNat - 48)) 0

/-- The text before the first `c` and the text after it. -/
def splitFirst (c : Char) : Text → Text × Option Text
  | [] => ([], none)
  | x :: xs => if x = c then ([], some xs) else
    (x :: (splitFirst c xs).1, (splitFirst c xs).2)

/-- `str::split`. -/
def splitAll (c : Char) : Text → List Text
  | [] => [[]]
  | x :: xs => if x = c then [] :: splitAll c xs else
    match splitAll c xs with
    | [] => [[x]]
    | t :: ts => (x :: t) :: ts

/-- Digits without a zero in front. -/
def plain (t : Text) : Bool := t.length = 1 || t.head? ≠ some '0'

/-- A number of 64 bits (`semver`, `numeric_identifier`). -/
def number (t : Text) : Option Nat :=
  if t ≠ [] ∧ t.all digit ∧ plain t ∧ value t < 2 ^ 64 then some (value t) else none

/-- An identifier of a pre-release (`semver`, `prerelease_identifier`). -/
def preId (t : Text) : Bool := t ≠ [] && t.all idChar && (!t.all digit || plain t)

/-- An identifier of build metadata (`semver`, `build_identifier`). -/
def buildId (t : Text) : Bool := t ≠ [] && t.all idChar

/-- `semver::Version`. -/
structure Version where
  major : Nat
  minor : Nat
  patch : Nat
  pre : List Text
  build : List Text
deriving DecidableEq, Repr

/-- Identifiers behind a separator, if it is there. -/
def idents (ok : Text → Bool) : Option Text → Option (List Text)
  | none => some []
  | some t => if (splitAll '.' t).all ok then some (splitAll '.' t) else none

/-- The three numbers. -/
def core (t : Text) : Option (Nat × Nat × Nat) :=
  match splitAll '.' t with
  | [a, b, c] => (number a).bind fun a => (number b).bind fun b => (number c).map fun c => (a, b, c)
  | _ => none

/-- `semver::Version::parse`. -/
def parse (t : Text) : Option Version :=
  (core (splitFirst '-' (splitFirst '+' t).1).1).bind fun n =>
  (idents preId (splitFirst '-' (splitFirst '+' t).1).2).bind fun pre =>
  (idents buildId (splitFirst '+' t).2).map fun build => ⟨n.1, n.2.1, n.2.2, pre, build⟩

/-- Comparison of lists, from the left; a prefix is less. -/
def cmpList {α : Type} (c : α → α → Ordering) : List α → List α → Ordering
  | [], [] => .eq
  | [], _ :: _ => .lt
  | _ :: _, [] => .gt
  | a :: as, b :: bs => (c a b).then (cmpList c as bs)

/-- Comparison of numbers. -/
def cmpNat (a b : Nat) : Ordering := if a < b then .lt else if b < a then .gt else .eq

/-- Comparison of texts, by characters (`Ord for str`; identifiers are ASCII). -/
def cmpText (a b : Text) : Ordering := cmpList (fun x y => cmpNat x.toNat y.toNat) a b

/-- Comparison of identifiers (`semver`, `Ord for Prerelease`). -/
def cmpId (a b : Text) : Ordering :=
  match a.all digit, b.all digit with
  | true, true => cmpNat (value a) (value b)
  | true, false => .lt
  | false, true => .gt
  | false, false => cmpText a b

/-- Comparison of pre-releases: none is greater than any (`semver`, `Ord for Prerelease`). -/
def cmpPre (a b : List Text) : Ordering :=
  match a, b with
  | [], [] => .eq
  | [], _ :: _ => .gt
  | _ :: _, [] => .lt
  | a :: as, b :: bs => cmpList cmpId (a :: as) (b :: bs)

/-- `Ord for Version`. -/
def cmp (cmpBuild : List Text → List Text → Ordering) (a b : Version) : Ordering :=
  (cmpNat a.major b.major).then <| (cmpNat a.minor b.minor).then <| (cmpNat a.patch b.patch).then <|
  (cmpPre a.pre b.pre).then <| cmpBuild a.build b.build

/-- `strip_prefix('v').unwrap_or` (`update.rs:9`, `update.rs:33-36`). -/
def stripV : Text → Text
  | 'v' :: t => t
  | t => t

/-- `UpdateResult` (`update.rs:109-116`); `etag` as in `Release`. -/
inductive Response
  | update (name : Text) (etag : Option Nat)
  | notModified
  | failed
deriving DecidableEq, Repr

/-- The variables of the loop (`update.rs:17-18`). -/
structure State where
  latest : Option Version
  etag : Option Nat
deriving DecidableEq, Repr

/-- What a poll does: the `etag` that is sent, and the release that the operator is told of. -/
structure Poll where
  sent : Option Nat
  notice : Option Version
deriving DecidableEq, Repr

/-- The body of the loop up to the notice (`update.rs:29-64`). -/
def receive (s : State) : Response → State
  | .update name etag => match parse (stripV name) with
    | some v => ⟨some v, etag⟩
    | none => ⟨s.latest, etag⟩
  | .notModified => s
  | .failed => s

/-- The notice (`update.rs:66-71`). -/
def noticeOf (cmpBuild : List Text → List Text → Ordering) (local_ : Version) (s : State) :
    Option Version :=
  match s.latest with
  | some g => if cmp cmpBuild g local_ = .gt then some g else none
  | none => none

/-- The loop (`update.rs:28-75`). -/
def loop (cmpBuild : List Text → List Text → Ordering) (local_ : Version) (s : State) :
    List Response → List Poll
  | [] => []
  | r :: rs => ⟨s.etag, noticeOf cmpBuild local_ (receive s r)⟩ ::
    loop cmpBuild local_ (receive s r) rs

/-- `poll_github_for_releases` (`update.rs:7-76`) of a node that was built with the text `version`
(`crates/version/src/lib.rs:4`): no polls if it is not a version. -/
def polls (cmpBuild : List Text → List Text → Ordering) (version : Text) (rs : List Response) :
    List Poll :=
  match parse (stripV version) with
  | none => []
  | some l => loop cmpBuild l ⟨none, none⟩ rs

end Verif.Release
