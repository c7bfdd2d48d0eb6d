import Verif.Head.SysSpec
import Verif.Head.Props
/-! # C74: the notifications -/
namespace Verif.Head

/-- One event: applying its notification to the blocks before it gives the blocks after it. -/
theorem note_step {s s' : Consumer} {e : Event} {note : Option Note} {ann : List (Nat × Hash)} (h : Inv s.db ann) (hf : Follows s e)
    (hs : s.handle none e = some (s', note)) : s'.db.blocks = applyNote s.db.blocks note := by
  rcases handle_cases h.linked hf hs with ⟨n, x, rfl, rfl, rfl⟩ | ⟨rfl, rfl, _⟩ | ⟨b, ok, rfl, hc, _, rfl, rfl⟩ | ⟨b, ok, rfl, hc, _, rfl, rfl⟩ | ⟨tail, r, rfl, hr, rfl, _⟩
  · exact l1Update_blocks _ _ _
  · rfl
  · exact track_blocks _ _
  · exact track_blocks _ _
  · obtain ⟨head, t, hx, _, _, _, e, er⟩ := reorg_some h.linked hr
    rw [e, er]
    apply List.filter_congr
    intro b hb
    have := le_last h.linked hx hb
    rw [Bool.eq_iff_iff]
    simp
    omega

/-- C74: a subscriber that applies the notifications of any run of events, in order, to the blocks it knew has the stored blocks of a node that keeps all
blocks. -/
theorem C74_replay {s s' : Consumer} {notes : List (Option Note)} {ann : List (Nat × Hash)} (h : Reach none s ann) (hr : Run none s notes s') :
    s'.db.blocks = notes.foldl applyNote s.db.blocks := by
  induction hr generalizing ann with
  | nil s => rfl
  | @cons s s1 s2 note notes e hf hs _ ih =>
    have h' : Reach none s1 (ann ++ announced e) := .step e h hf (by unfold Consumer.step; rw [hs]; rfl)
    rw [ih h', List.foldl_cons, note_step (reach_inv h) hf hs]

example : [blk 0, blk 1, ⟨2, 202, 101⟩] = [some (.reorg ⟨2, 102, 3, 103⟩), none, some (.block ⟨2, 202, 101⟩)].foldl applyNote exampleEnd.db.blocks :=
  C74_replay (s' := ⟨⟨[blk 0, blk 1, ⟨2, 202, 101⟩], [(1, 101)], some 1⟩, 3⟩) reach_example
    (.cons (s' := ⟨⟨[blk 0, blk 1], [(1, 101)], some 1⟩, 2⟩) (.reorg 2) trivial (by decide) <|
      .cons (s' := ⟨⟨[blk 0, blk 1], [(1, 101)], some 1⟩, 2⟩) (.l1 1 101) trivial (by decide) <|
      .cons (.downloaded ⟨2, 202, 101⟩ true) (.inr ⟨rfl, rfl⟩) (by decide) (.nil _))

/-- C74: the notification of a reorg names the first and the last block that are taken back; the blocks between them are taken back, and no others. This holds
also for nodes that prune. -/
theorem C74_reorg {kept : Option Nat} {s s' : Consumer} {ann : List (Nat × Hash)} (h : Reach kept s ann) {tail : Nat} {note : Option Note}
    (hs : s.handle kept (.reorg tail) = some (s', note)) : ∃ first last : Blk, first ∈ s.db.blocks ∧ last ∈ s.db.blocks ∧ first.number = tail ∧
      s.db.latest = some last ∧ note = some (.reorg ⟨first.number, first.hash, last.number, last.hash⟩) ∧
      ∀ b, b ∈ s'.db.blocks ↔ b ∈ s.db.blocks ∧ ¬ (first.number ≤ b.number ∧ b.number ≤ last.number) := by
  have hl := (reach_inv h).linked
  rcases handle_cases hl (e := .reorg tail) trivial hs with ⟨_, _, he, _⟩ | ⟨_, hn, _⟩ | ⟨_, _, he, _⟩ | ⟨_, _, he, _⟩ | ⟨tail', r, he, hr, hnote, _⟩
  · cases he
  · rw [hn] at hs
    simp only [Consumer.handle] at hs
    cases hr : s.db.l2Reorg tail with
    | none => rw [hr] at hs; cases hs
    | some r =>
      rw [hr] at hs
      cases congrArg Prod.snd (Option.some.inj hs)
  · cases he
  · cases he
  · cases he
    obtain ⟨head, t, hx, htm, htn, _, e, er⟩ := reorg_some hl hr
    refine ⟨t, head, htm, List.mem_of_getLast? hx, htn, by rw [latest_eq hl]; exact hx, ?_, ?_⟩
    · rw [hnote, er, htn]
    · intro b
      rw [e]
      show b ∈ List.filter _ _ ↔ _
      rw [List.mem_filter, htn]
      constructor
      · rintro ⟨h1, h2⟩
        simp at h2
        exact ⟨h1, by omega⟩
      · rintro ⟨h1, h2⟩
        have := le_last hl hx h1
        exact ⟨h1, by simp; omega⟩

example : ∃ s', exampleEnd.handle none (.reorg 1) = some (s', some (.reorg ⟨1, 101, 3, 103⟩)) ∧ s'.db.blocks = [blk 0] :=
  ⟨⟨⟨[blk 0], [(1, 101)], some 0⟩, 1⟩, by decide, rfl⟩

/-- C74, when the database commits: what is on disk is what the notification says. Missing: a commit that fails (`C74_commit_violated`). -/
theorem C74_committed_partial {kept : Option Nat} {s s' : Consumer} {e : Event} {note : Option Note} (hs : s.handle kept e = some (s', note)) :
    s.finish kept e true = (s'.db, note, true) := by
  unfold Consumer.finish
  rw [hs]
  rfl

example : exampleEnd.finish none (.downloaded (blk 4) true) true =
    (⟨[blk 0, blk 1, blk 2, blk 3, blk 4], [(1, 101)], some 1⟩, some (.block (blk 4)), true) := by decide

/-- C74: an event that the consumer refuses changes nothing, and nothing is sent. -/
theorem C74_refused {kept : Option Nat} {s : Consumer} {e : Event} (commits : Bool) (hs : s.handle kept e = none) :
    s.finish kept e commits = (s.db, none, false) := by
  unfold Consumer.finish
  rw [hs]

example : exampleEnd.finish none (.reorg 7) true = (exampleEnd.db, none, false) := C74_refused true (by decide)

/-- C74 is violated: when the commit fails, subscribers are sent the notification, although nothing is changed. -/
theorem C74_commit_violated {kept : Option Nat} {s s' : Consumer} {e : Event} {note : Note} (hs : s.handle kept e = some (s', some note)) :
    s.finish kept e false = (s.db, some note, false) := by
  unfold Consumer.finish
  rw [hs]
  rfl

example : exampleEnd.finish none (.downloaded (blk 4) true) false = (exampleEnd.db, some (.block (blk 4)), false) :=
  C74_commit_violated (s' := ⟨⟨[blk 0, blk 1, blk 2, blk 3, blk 4], [(1, 101)], some 1⟩, 5⟩) (by decide)

end Verif.Head
