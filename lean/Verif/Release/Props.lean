import Verif.Release.Lemmas

/-!
# The notice of new releases: properties (C113)
-/

namespace Verif.Release

def exCmp : List Text → List Text → Ordering := fun _ _ => .eq

def exOld : Text := ['v', '0', '.', '9', '.', '1']
def exNew : Text := ['v', '0', '.', '1', '0', '.', '0', '-', 'r', 'c', '.', '2']
def exBad : Text := ['n', 'e', 'x', 't']

example : polls exCmp exOld [.failed, .update exNew (some 7), .notModified, .update exBad (some 8), .failed,
    .update exOld (some 9)] =
    [⟨none, none⟩, ⟨none, some ⟨0, 10, 0, [['r', 'c'], ['2']], []⟩⟩,
      ⟨some 7, some ⟨0, 10, 0, [['r', 'c'], ['2']], []⟩⟩,
      ⟨some 7, some ⟨0, 10, 0, [['r', 'c'], ['2']], []⟩⟩,
      ⟨some 8, some ⟨0, 10, 0, [['r', 'c'], ['2']], []⟩⟩, ⟨some 8, none⟩] := by decide

/-- **C113**: at each poll the operator is told of a release exactly if it is the last one that was read
and is of higher precedence than the version of the node; versions of the same precedence are ordered by
build metadata. -/
theorem C113_notice (cb : List Text → List Text → Ordering) (version : Text) (l : Version)
    (hl : Names version l) (rs : List Response) (i : Nat) (p : Poll)
    (hp : (polls cb version rs)[i]? = some p) (v : Version) :
    p.notice = some v ↔ LastRelease (rs.take (i + 1)) v ∧
      (Lower l v ∨ (¬ Lower v l ∧ ¬ Lower l v ∧ cb v.build l.build = .gt)) := by
  simp only [polls, (names_iff _ _).2 hl] at hp
  obtain ⟨s1, s2, _, h2, rfl⟩ := loop_get cb l [] _ holds_init rs i p hp
  have h2' := h2.2
  rw [List.nil_append] at h2'
  rw [← h2' v, ← cmp_gt cb v l]
  simp only [noticeOf]
  cases hs : s2.latest with
  | none => simp
  | some g =>
    simp only [Option.some.injEq]
    by_cases hc : cmp cb g l = .gt
    · simp only [hc, if_true, Option.some.injEq]
      constructor
      · rintro rfl; exact ⟨rfl, hc⟩
      · exact And.left
    · simp only [hc, if_false]
      constructor
      · intro h; cases h
      · rintro ⟨rfl, h⟩; exact absurd h hc

/-- **C113**: there is a poll for every response, whatever the responses are, if the version of the node
can be read. -/
theorem C113_polls (cb : List Text → List Text → Ordering) (version : Text) (l : Version)
    (hl : Names version l) (rs : List Response) :
    (polls cb version rs).length = rs.length := by
  simp only [polls, (names_iff _ _).2 hl]
  exact loop_length _ _ _ _

/-- **C113**: a poll sends the tag that came with the last release. -/
theorem C113_tag (cb : List Text → List Text → Ordering) (version : Text) (l : Version)
    (hl : Names version l) (rs : List Response) (i : Nat) (p : Poll)
    (hp : (polls cb version rs)[i]? = some p) : LastTag (rs.take i) p.sent := by
  simp only [polls, (names_iff _ _).2 hl] at hp
  obtain ⟨s1, s2, h1, _, rfl⟩ := loop_get cb l [] _ holds_init rs i p hp
  simpa using h1.1

example : Names exOld ⟨0, 9, 1, [], []⟩ ∧ (polls exCmp exOld [.failed, .update exNew (some 7)])[1]? =
      some ⟨none, some ⟨0, 10, 0, [['r', 'c'], ['2']], []⟩⟩ :=
  ⟨(names_iff _ _).1 (by decide), by decide⟩

theorem before_irrefl {α : Type} {lt : α → α → Prop} (h : ∀ x, ¬ lt x x) (a : List α) :
    ¬ Before lt a a := by
  induction a with
  | nil => intro e; cases e
  | cons x xs ih =>
    intro e
    cases e with
    | here _ _ g => exact h x g
    | next _ _ t => exact ih t

theorem idLess_irrefl (a : Text) : ¬ IdLess a a := by
  rintro (⟨_, _, h⟩ | ⟨h, h'⟩ | ⟨_, _, h⟩)
  · omega
  · exact h' h
  · exact before_irrefl (fun x hx => by rw [char_lt] at hx; omega) a h

/-- **C113**: the operator is never told of the version that is running. -/
theorem C113_own (cb : List Text → List Text → Ordering) (hcb : ∀ b, cb b b ≠ .gt) (version : Text)
    (l : Version) (hl : Names version l) (rs : List Response) (p : Poll)
    (hp : p ∈ polls cb version rs) : p.notice ≠ some l := by
  intro e
  obtain ⟨i, hi⟩ := List.mem_iff_getElem?.mp hp
  rcases ((C113_notice cb version l hl rs i p hi l).1 e).2 with h | ⟨_, _, h⟩
  · have : PreLess l.pre l.pre := by
      rcases h with h | ⟨_, h | ⟨_, h | ⟨_, h⟩⟩⟩
      · omega
      · omega
      · omega
      · exact h
    rcases this with ⟨hn, he | hb⟩
    · exact hn he
    · exact before_irrefl idLess_irrefl _ hb
  · exact hcb _ h

/-- **C113**: the operator is not told of a release of lower precedence. -/
theorem C113_older (cb : List Text → List Text → Ordering) (version : Text)
    (l : Version) (hl : Names version l) (rs : List Response) (p : Poll)
    (hp : p ∈ polls cb version rs) (v : Version) (hv : p.notice = some v) : ¬ Lower v l := by
  obtain ⟨i, hi⟩ := List.mem_iff_getElem?.mp hp
  rcases ((C113_notice cb version l hl rs i p hi v).1 hv).2 with h | ⟨h, _, _⟩
  · intro h'
    have hx : PreLess v.pre l.pre ∧ PreLess l.pre v.pre := by
      unfold Lower at h h'
      constructor
      · rcases h' with h' | ⟨_, h' | ⟨_, h' | ⟨_, h'⟩⟩⟩
        · rcases h with h | ⟨_, _⟩ <;> omega
        · rcases h with h | ⟨_, h | ⟨_, _⟩⟩ <;> omega
        · rcases h with h | ⟨_, h | ⟨_, h | ⟨_, _⟩⟩⟩ <;> omega
        · exact h'
      · rcases h with h | ⟨_, h | ⟨_, h | ⟨_, h⟩⟩⟩
        · rcases h' with h' | ⟨_, _⟩ <;> omega
        · rcases h' with h' | ⟨_, h' | ⟨_, _⟩⟩ <;> omega
        · rcases h' with h' | ⟨_, h' | ⟨_, h' | ⟨_, _⟩⟩⟩ <;> omega
        · exact h
    have a := (decides_pre v.pre l.pre).1.2 hx.1
    have b := (decides_pre v.pre l.pre).2.2 hx.2
    rw [a] at b; cases b
  · exact h

theorem writes_plain (t : Text) (v : Version) (h : Writes t v) (hp : v.pre = []) (hb : v.build = []) :
    '-' ∉ t ∧ '+' ∉ t ∧ core t = some (v.major, v.minor, v.patch) := by
  obtain ⟨a, b, c, pre, build, rfl, ha, hb', hc, p1, _, p2, _⟩ := h
  have e1 : pre = [] := by
    rcases p1 with ⟨_, e⟩ | ⟨n, _⟩
    · exact e
    · exact absurd hp n
  have e2 : build = [] := by
    rcases p2 with ⟨_, e⟩ | ⟨n, _⟩
    · exact e
    · exact absurd hb n
  subst e1 e2
  simp only [List.append_nil, List.mem_append, List.mem_cons, not_or]
  exact ⟨⟨numeric_no _ (by decide) a ha.2.1, by decide, numeric_no _ (by decide) b hb'.2.1, by decide,
      numeric_no _ (by decide) c hc.2.1⟩,
    ⟨numeric_no _ (by decide) a ha.2.1, by decide, numeric_no _ (by decide) b hb'.2.1, by decide,
      numeric_no _ (by decide) c hc.2.1⟩, (core_iff _ _ _ _).2 ⟨a, b, c, rfl, ha, hb', hc⟩⟩

/-- **C113, violated**: a node that is built from a commit after a release, or from a changed checkout of
it, has a version of the form `release-suffix` (`git describe`), which is a pre-release: its operator is told
to update to the release that it already has. -/
theorem C113_dev_violated (cb : List Text → List Text → Ordering) (t s : Text) (v : Version)
    (hv : Writes t v) (hp : v.pre = []) (hb : v.build = [])
    (hs : Identifier s) (hz : ¬ Numeric s) (e : Option Nat) :
    polls cb ('v' :: (t ++ '-' :: s)) [.update ('v' :: t) e] = [⟨none, some v⟩] := by
  obtain ⟨hm, hplus, hn⟩ := writes_plain t v hv hp hb
  have hs' : preId s = true := (preId_iff s).2 ⟨hs, fun h => absurd h hz⟩
  have h1 : '+' ∉ t ++ '-' :: s := by
    simp only [List.mem_append, List.mem_cons, not_or]
    exact ⟨hplus, by decide, identifier_no '+' (by decide) s hs⟩
  have h2 : '.' ∉ s := identifier_no '.' (by decide) s hs
  have hl : parse (t ++ '-' :: s) = some ⟨v.major, v.minor, v.patch, [s], []⟩ := by
    simp [parse, splitFirst_none _ _ h1, splitFirst_at _ _ _ hm, hn, idents, splitAll_none _ _ h2, hs']
  have hc : cmp cb v ⟨v.major, v.minor, v.patch, [s], []⟩ = .gt := by
    simp [cmp, cmpNat, cmpPre, Ordering.then, hp]
  simp [polls, stripV, hl, loop, receive, (parse_iff _ _).2 hv, noticeOf, hc]

example : Writes ['0', '.', '2', '1', '.', '3'] ⟨0, 21, 3, [], []⟩ ∧
    Identifier ['1', '2', '-', 'g', '1', 'a', '2', 'b', '3', 'c', '4'] ∧
    ¬ Numeric ['1', '2', '-', 'g', '1', 'a', '2', 'b', '3', 'c', '4'] ∧
    Identifier ['d', 'i', 'r', 't', 'y'] ∧ ¬ Numeric ['d', 'i', 'r', 't', 'y'] :=
  ⟨(parse_iff _ _).1 (by decide), (identifier_iff _).1 (by decide),
    fun h => absurd ((numeric_iff _).2 h) (by decide), (identifier_iff _).1 (by decide),
    fun h => absurd ((numeric_iff _).2 h) (by decide)⟩

/-- **C113**: a node whose own version cannot be read makes no polls. -/
theorem C113_off (cb : List Text → List Text → Ordering) (version : Text)
    (h : ∀ l, ¬ Names version l) (rs : List Response) : polls cb version rs = [] := by
  simp [polls, (names_none _).2 h]

/-- A version that is forced by the environment of the build (`crates/version/build.rs:6-15`) may be any text. -/
example : ∀ l, ¬ Names ['n', 'i', 'g', 'h', 't', 'l', 'y'] l := (names_none _).1 (by decide)

end Verif.Release
