import Verif.Release.Model

/-!
# The notice of new releases: specification

Precedence of versions as semver.org (2.0.0, section 11) states it.
-/

namespace Verif.Release

/-- One list is before another: they are compared from the left, where neither of two elements is less
the next ones decide, and a list that goes on is greater (11.4 and 11.4.4). -/
inductive Before {α : Type} (lt : α → α → Prop) : List α → List α → Prop
  | more (y : α) (ys : List α) : Before lt [] (y :: ys)
  | here {x y : α} (xs ys : List α) (h : lt x y) : Before lt (x :: xs) (y :: ys)
  | next {x y : α} {xs ys : List α} (h : ¬ lt x y) (h' : ¬ lt y x) (t : Before lt xs ys) :
      Before lt (x :: xs) (y :: ys)

/-- Only digits. -/
def Numeric (t : Text) : Prop := ∀ c ∈ t, '0' ≤ c ∧ c ≤ '9'

/-- The number that digits stand for. -/
def decimal : Text → Nat
  | [] => 0
  | c :: cs => (c.toNat - '0'.toNat) * 10 ^ cs.length + decimal cs

/-- 11.4.1 to 11.4.3. -/
def IdLess (a b : Text) : Prop :=
  (Numeric a ∧ Numeric b ∧ decimal a < decimal b) ∨ (Numeric a ∧ ¬ Numeric b) ∨
  (¬ Numeric a ∧ ¬ Numeric b ∧ Before (fun x y : Char => x < y) a b)

/-- 11.3 and 11.4: a version with a pre-release is lower than the one without. -/
def PreLess (a b : List Text) : Prop := a ≠ [] ∧ (b = [] ∨ Before IdLess a b)

/-- 11.2 to 11.4: `a` has lower precedence than `b`. -/
def Lower (a b : Version) : Prop :=
  a.major < b.major ∨ (a.major = b.major ∧ (a.minor < b.minor ∨ (a.minor = b.minor ∧
    (a.patch < b.patch ∨ (a.patch = b.patch ∧ PreLess a.pre b.pre)))))

/-- Section 2: a number without zeros in front, of 64 bits. -/
def WritesNum (t : Text) (n : Nat) : Prop :=
  t ≠ [] ∧ Numeric t ∧ (∀ cs, t = '0' :: cs → cs = []) ∧ decimal t = n ∧ n < 2 ^ 64

/-- Texts with dots between them. -/
def dots : List Text → Text
  | [] => []
  | [t] => t
  | t :: u :: us => t ++ '.' :: dots (u :: us)

/-- Section 9 and 10: letters, digits and hyphens. -/
def Identifier (t : Text) : Prop := t ≠ [] ∧
  ∀ c ∈ t, ('0' ≤ c ∧ c ≤ '9') ∨ ('A' ≤ c ∧ c ≤ 'Z') ∨ ('a' ≤ c ∧ c ≤ 'z') ∨ c = '-'

/-- A part of a version behind a mark, which is missing if there are no identifiers. -/
def WritesPart (mark : Char) (t : Text) (ids : List Text) : Prop :=
  (ids = [] ∧ t = []) ∨ (ids ≠ [] ∧ t = mark :: dots ids)

/-- Sections 2, 9 and 10: the text of a version. -/
def Writes (t : Text) (v : Version) : Prop := ∃ a b c pre build,
  t = a ++ '.' :: (b ++ '.' :: (c ++ (pre ++ build))) ∧
  WritesNum a v.major ∧ WritesNum b v.minor ∧ WritesNum c v.patch ∧
  WritesPart '-' pre v.pre ∧ (∀ i ∈ v.pre, Identifier i ∧ (Numeric i → ∀ cs, i = '0' :: cs → cs = [])) ∧
  WritesPart '+' build v.build ∧ ∀ i ∈ v.build, Identifier i

/-- The text of a version with or without the letter `v` in front. -/
def Names (t : Text) (v : Version) : Prop := Writes t v ∨ ∃ u, t = 'v' :: u ∧ Writes u v

/-- The release that was read last from the responses: the last one whose name is a version. -/
def LastRelease (rs : List Response) (v : Version) : Prop :=
  ∃ before name etag after, rs = before ++ .update name etag :: after ∧
    Names name v ∧
    ∀ n e, Response.update n e ∈ after → ∀ w, ¬ Names n w

/-- The `etag` that came with the last release, whether its name is a version or not. -/
def LastTag (rs : List Response) (o : Option Nat) : Prop :=
  (o = none ∧ ∀ n e, Response.update n e ∉ rs) ∨
  ∃ before name after, rs = before ++ .update name o :: after ∧
    ∀ n e, Response.update n e ∉ after

end Verif.Release
