import Verif.ClassSync.Spec
import Verif.ClassSync.Wire
import Verif.ClassSync.DbLemmas

/-!
C79: class definitions that come from peers.
-/

namespace Verif.ClassSync
open Spec

variable {P : Type}

/-! #### A case -/

namespace Case

/-- Definitions whose hash is their number. -/
def lib : Lib := { parses := fun _ => true, hashOf := fun d => some d.body, casmOf := fun d _ => some (d.body + 100) }

def empty : Db := { blocks := 0, rows := [], redeclared := [], casm := fun _ => none }

/-- Block 0 declares class 7, block 1 class 8 and again 7, block 2 deploys class 9. -/
def db : Db := ((empty.storeBlock [7] []).storeBlock [8, 7] []).storeBlock [] [9]

def sent : List (Sent Nat) :=
  [⟨1, 0, [⟨0, 7, ⟨7, false⟩⟩]⟩, ⟨2, 1, [⟨1, 7, ⟨7, false⟩⟩, ⟨1, 8, ⟨8, true⟩⟩]⟩, ⟨1, 2, [⟨2, 9, ⟨9, false⟩⟩]⟩]

/-- Peer 2 sends class 8 twice. -/
def wrong : List (Sent Nat) :=
  [⟨1, 0, [⟨0, 7, ⟨7, false⟩⟩]⟩, ⟨2, 1, [⟨1, 8, ⟨8, true⟩⟩, ⟨1, 8, ⟨8, true⟩⟩]⟩]

theorem reach : DbReach db := .store (.store (.store .init [7] [] (by decide)) [8, 7] [] (by decide)) [] [9] (by decide)

theorem at0 : db.declaredAt 0 = some [7] := by decide
theorem at1 : db.declaredAt 1 = some [8, 7] := by decide
theorem at2 : db.declaredAt 2 = some [9] := by decide

theorem fed : Fed db 0 3 sent := by
  refine ⟨by decide, by decide, ?_⟩
  intro s hs
  simp only [sent, List.mem_cons, List.not_mem_nil, or_false] at hs
  rcases hs with rfl | rfl | rfl
  · exact ⟨_, at0, rfl⟩
  · exact ⟨_, at1, rfl⟩
  · exact ⟨_, at2, rfl⟩

theorem good : ∀ s ∈ sent, Good lib db s := by
  intro s hs
  simp only [sent, List.mem_cons, List.not_mem_nil, or_false] at hs
  rcases hs with rfl | rfl | rfl
  · exact ⟨by simp [Valid, lib], _, at0, by decide⟩
  · exact ⟨by simp [Valid, lib], _, at1, by decide⟩
  · exact ⟨by simp [Valid, lib], _, at2, by decide⟩

theorem fedWrong : Fed db 0 2 wrong := by
  refine ⟨by decide, by decide, ?_⟩
  intro s hs
  simp only [wrong, List.mem_cons, List.not_mem_nil, or_false] at hs
  rcases hs with rfl | rfl
  · exact ⟨_, at0, rfl⟩
  · exact ⟨_, at1, rfl⟩

def pick : List (Err Nat) → Nat := fun _ => 0

end Case

/-! ### What is stored -/

/-- A written class has passed the checks: it is declared in a block that was asked for. -/
theorem written_valid (lib : Lib) (pick : List (Err P) → Nat) (n : Nat) (fault : Nat → Bool) (db : Db) (start stop : Nat)
    (feed : Feed P (P × Raw)) :
    ∀ c ∈ (syncClasses lib pick n fault db start stop feed).written,
      Valid lib c.raw ∧ (∃ p, (p, c.raw) ∈ feed.items) ∧ start ≤ c.raw.block ∧ c.raw.block ≤ stop ∧
      (∃ l, db.declaredAt c.raw.block = some l ∧ c.raw.hash ∈ l) ∧
      (c.raw.defn.sierra = true → ∃ y, c.casm = some y ∧ lib.casmOf c.raw.defn c.raw.hash = some y) := by
  intro c hc
  obtain ⟨h1, h2, _, _⟩ := run_spec lib pick n (db.expected fault start (stop + 1 - start)) feed
  obtain ⟨hc1, hc2, _, _⟩ := checked_spec lib pick n feed
  obtain ⟨hd1, hd2⟩ := verifyDeclared_prefix (checked lib pick n feed).fail (db.expected fault start (stop + 1 - start))
    (checked lib pick n feed).items.flatten
  have hm := h1.subset (List.mem_map.mpr ⟨c, hc, rfl⟩)
  obtain ⟨x, hx, hxe⟩ := List.mem_map.mp hm
  obtain ⟨d, hd, hh⟩ := hd2 x hx
  obtain ⟨hlo, hhi, l, hl, rfl⟩ := expected_mem hd
  have hx' := hd1.subset hx
  rw [hxe] at hl hh hlo hhi
  refine ⟨hxe ▸ hc2 x hx', ⟨x.1, ?_⟩, hlo, by omega, ⟨l, hl, List.mem_eraseDups.mp hh⟩, h2 c hc⟩
  rw [← hxe]; exact hc1.subset hx'

/-- C79. Whatever peers send, whatever fails and wherever the process stops (`k`), of every class the
hash and the block stay, and its definition is what it was before or one that parses, has the class's
hash, was sent by a peer and belongs to a class declared in the range that was asked for. -/
theorem C79_stored (lib : Lib) (pick : List (Err P) → Nat) (n : Nat) (fault : Nat → Bool) (db : Db) (start stop : Nat)
    (feed : Feed P (P × Raw)) (k : Nat) :
    let o := syncClasses lib pick n fault db start stop feed
    (db.after o k).rows.length = db.rows.length ∧ (db.after o k).blocks = db.blocks ∧
    ∀ (i : Nat) (row : Row), db.rows[i]? = some row →
      ∃ row', (db.after o k).rows[i]? = some row' ∧ row'.hash = row.hash ∧ row'.block = row.block ∧
        (row'.defn = row.defn ∨ ∃ r p, (p, r) ∈ feed.items ∧ r.hash = row.hash ∧ row'.defn = some r.defn ∧
          Valid lib r ∧ start ≤ r.block ∧ r.block ≤ stop ∧ ∃ l, db.declaredAt r.block = some l ∧ r.hash ∈ l) := by
  intro o
  have hb : ∀ (l : List Compiled) (db : Db), (l.foldl Db.persist db).blocks = db.blocks := by
    intro l
    induction l with
    | nil => intro db; rfl
    | cons c l ih => intro db; rw [List.foldl_cons, ih]; rfl
  refine ⟨persist_length _ _, hb _ _, ?_⟩
  intro i row hrow
  obtain ⟨row', h1, h2, h3, h4⟩ := persist_fold (o.written.take k) db i row hrow
  refine ⟨row', h1, h2, h3, ?_⟩
  rcases h4 with ⟨h4, _⟩ | ⟨c, hc, h5, h6⟩
  · exact .inl h4
  · obtain ⟨v, ⟨p, hp⟩, lo, hi, hd, _⟩ := written_valid lib pick n fault db start stop feed c (List.mem_of_mem_take hc)
    exact .inr ⟨c.raw, p, hp, h5, h6, v, lo, hi, hd⟩

example : ((Case.db.after (syncClasses Case.lib Case.pick 2 (fun _ => false) Case.db 0 2 ⟨itemsOf Case.wrong, none⟩) 9).rows.map
    (·.defn)) = [some ⟨7, false⟩, some ⟨8, true⟩, none] ∧
    ((Case.db.after (syncClasses Case.lib Case.pick 1 (fun _ => false) Case.db 0 2 ⟨itemsOf Case.sent, none⟩) 2).rows.map
      (·.defn)) = [some ⟨7, false⟩, none, none] := by decide

/-- C79. Where the process stopped makes no difference to what the tables can be. -/
theorem C79_stored_reach (lib : Lib) (pick : List (Err P) → Nat) (n : Nat) (fault : Nat → Bool) (db : Db) (r : DbReach db)
    (start stop : Nat) (feed : Feed P (P × Raw)) (k : Nat) :
    DbReach (db.after (syncClasses lib pick n fault db start stop feed) k) := by
  have : ∀ (l : List Compiled) (db : Db), DbReach db → DbReach (l.foldl Db.persist db) := by
    intro l
    induction l with
    | nil => intro db h; exact h
    | cons c l ih => intro db h; exact ih _ (.persist h c)
  exact this _ _ r

/-! ### When a run is complete -/

/-- C79. A run that got all blocks from peers and ends without an error leaves no class of the range
without a definition, and every definition stored is valid; Sierra classes have a compiled class.
Missing: errors while reading what is expected, and a stream that ends early, are not noticed
(`C79_swallowed_violated`, `C79_ends_early_violated`); the compiled class is not compared with the
declared compiled class hash. -/
theorem C79_complete_partial (lib : Lib) (pick : List (Err P) → Nat) (n : Nat) (db : Db) (rc : DbReach db) (start stop : Nat)
    (sent : List (Sent P)) (fed : Fed db start (stop + 1 - start) sent) :
    let o := syncClasses lib pick n (fun _ => false) db start stop ⟨itemsOf sent, none⟩
    let db' := db.after o o.written.length
    o.fail = none →
      (∀ row ∈ db'.rows, ∀ m, row.block = some m → start ≤ m → m ≤ stop →
        ∃ d, row.defn = some d ∧ lib.parses d = true ∧ lib.hashOf d = some row.hash ∧
          (d.sierra = true → ∃ y, db'.casm row.hash = some y)) ∧
      (db.nextMissing stop = some start → db'.nextMissing stop = none) := by
  intro o db' hnone
  obtain ⟨_, _, h3, _⟩ := run_spec lib pick n (db.expected (fun _ => false) start (stop + 1 - start)) ⟨itemsOf sent, none⟩
  obtain ⟨hw, hdn⟩ := h3 hnone
  obtain ⟨hpre, hval, hcn, hce⟩ := checked_spec lib pick n (⟨itemsOf sent, none⟩ : Feed P (P × Raw))
  obtain ⟨_, hfx⟩ := verifyDeclared_fed (fun b l => declaredAt_nodup rc b l) (fault := fun _ => false)
    (fail := (checked lib pick n (⟨itemsOf sent, none⟩ : Feed P (P × Raw))).fail)
    (stop + 1 - start) (stop + 1 - start) start sent
    (checked lib pick n (⟨itemsOf sent, none⟩ : Feed P (P × Raw))).items.flatten fed hpre
  obtain ⟨hall, hperm⟩ := hfx (fun _ => rfl) rfl (fun h => (hcn h).1) hdn
  have hw' : o.written.map (·.raw) = (itemsOf sent).map (·.2) := hw.trans (by rw [hall])
  have first : ∀ row ∈ db'.rows, ∀ m, row.block = some m → start ≤ m → m ≤ stop →
        ∃ d, row.defn = some d ∧ lib.parses d = true ∧ lib.hashOf d = some row.hash ∧
          (d.sierra = true → ∃ y, db'.casm row.hash = some y) := by
    intro row' hrow' m hm lo hi
    obtain ⟨i, hi', hie⟩ := List.mem_iff_getElem.mp hrow'
    have hilt : i < db.rows.length := by
      have := persist_length (o.written.take o.written.length) db
      have e : db'.rows.length = db.rows.length := this
      omega
    obtain ⟨row'', h1, h2, h3, h4⟩ := persist_fold (o.written.take o.written.length) db i db.rows[i] (List.getElem?_eq_getElem hilt)
    have : row'' = row' := by
      have e : db'.rows[i]? = some row'' := h1
      rw [List.getElem?_eq_getElem hi', hie] at e
      exact (Option.some.inj e).symm
    subst this
    rw [List.take_length] at h4
    have hrow : db.rows[i] ∈ db.rows := List.getElem_mem hilt
    -- the class was declared in block `m`, so somebody sent it
    have hsent : ∃ s ∈ sent, s.block = m := by
      have : m ∈ sent.map (·.block) := by
        rw [fed.blocks, List.mem_range'_1]; omega
      obtain ⟨s, hs, e⟩ := List.mem_map.mp this
      exact ⟨s, hs, e⟩
    obtain ⟨s, hs, hsb⟩ := hsent
    obtain ⟨l, hl, hp⟩ := hperm s hs
    have hmem : db.rows[i].hash ∈ l := by
      rw [hsb] at hl
      unfold Db.declaredAt at hl
      split at hl
      · cases hl
        refine List.mem_append_left _ (List.mem_map.mpr ⟨_, List.mem_filter.mpr ⟨hrow, ?_⟩, rfl⟩)
        rw [← h3, hm]; simp
      · cases hl
    obtain ⟨r, hr, hre⟩ := List.mem_map.mp (hp.mem_iff.mpr hmem)
    have hri : r ∈ o.written.map (·.raw) := by
      rw [hw']
      refine List.mem_map.mpr ⟨(s.peer, r), ?_, rfl⟩
      exact List.mem_flatMap.mpr ⟨s, hs, List.mem_map.mpr ⟨r, hr, rfl⟩⟩
    obtain ⟨c, hc, hce'⟩ := List.mem_map.mp hri
    rcases h4 with ⟨_, h4⟩ | ⟨c', hc', h5, h6⟩
    · exact absurd (by rw [hce']; exact hre) (h4 c hc)
    · obtain ⟨v, _, _, _, _, hcasm⟩ := written_valid lib pick n (fun _ => false) db start stop ⟨itemsOf sent, none⟩ c' hc'
      refine ⟨c'.raw.defn, h6, v.1, by rw [v.2, h5, h2], ?_⟩
      intro hsi
      obtain ⟨y, hy, _⟩ := hcasm hsi
      rw [h2, ← h5]
      exact persist_casm (o.written.take o.written.length) db c' y (by rw [List.take_length]; exact hc') hy
  refine ⟨first, ?_⟩
  intro hnext
  unfold Db.nextMissing
  cases hfm : db'.firstMissing with
  | none => rfl
  | some b =>
    simp only
    split
    · next hb =>
      exfalso
      unfold Db.firstMissing at hfm
      have hmem := List.min?_mem hfm
      obtain ⟨row, hrow, hrb⟩ := List.mem_filterMap.mp hmem
      obtain ⟨hrow1, hrow2⟩ := List.mem_filter.mp hrow
      have hlo : start ≤ b := by
        -- the row was missing before, so `start` is not above its block
        obtain ⟨i, hi', hie⟩ := List.mem_iff_getElem.mp hrow1
        have hilt : i < db.rows.length := by
          have := persist_length (o.written.take o.written.length) db
          have e : db'.rows.length = db.rows.length := this
          omega
        obtain ⟨row'', h1, h2, h3, h4⟩ := persist_fold (o.written.take o.written.length) db i db.rows[i]
          (List.getElem?_eq_getElem hilt)
        have : row'' = row := by
          have e : db'.rows[i]? = some row'' := h1
          rw [List.getElem?_eq_getElem hi', hie] at e
          exact (Option.some.inj e).symm
        subst this
        rcases h4 with ⟨h4, _⟩ | ⟨c', _, _, h6⟩
        · have hin : b ∈ ((db.rows.filter fun r => r.defn.isNone).filterMap (·.block)) := by
            refine List.mem_filterMap.mpr ⟨db.rows[i], List.mem_filter.mpr ⟨List.getElem_mem hilt, ?_⟩, ?_⟩
            · rw [← h4]; exact hrow2
            · rw [← h3]; exact hrb
          unfold Db.nextMissing at hnext
          cases hf0 : db.firstMissing with
          | none => rw [hf0] at hnext; cases hnext
          | some b0 =>
            rw [hf0] at hnext
            simp only at hnext
            split at hnext
            · cases hnext
              unfold Db.firstMissing at hf0
              exact (List.min?_eq_some_iff.mp hf0).2 b hin
            · cases hnext
        · rw [h6] at hrow2; simp at hrow2
      obtain ⟨d, hd, _⟩ := first row hrow1 b hrb hlo hb
      rw [hd] at hrow2; simp at hrow2
    · rfl

example : Fed Case.db 0 (2 + 1 - 0) Case.sent ∧ Case.db.nextMissing 2 = some 0 ∧
    (syncClasses Case.lib Case.pick 2 (fun _ => false) Case.db 0 2 ⟨itemsOf Case.sent, none⟩).fail = none ∧
    ((Case.db.after (syncClasses Case.lib Case.pick 2 (fun _ => false) Case.db 0 2 ⟨itemsOf Case.sent, none⟩) 9).rows.map
      (·.defn)) = [some ⟨7, false⟩, some ⟨8, true⟩, some ⟨9, false⟩] := ⟨Case.fed, by decide, by decide, by decide⟩

/-! ### Who is blamed -/

/-- C79. Peers whose answers are all right are never the reason for an error: whatever number of blocks
was answered, the run ends without one, provided that every Sierra class sent has a compiled class. -/
theorem C79_honest (lib : Lib) (pick : List (Err P) → Nat) (n : Nat) (fault : Nat → Bool) (db : Db) (rc : DbReach db)
    (start stop k : Nat) (sent : List (Sent P)) (fed : Fed db start k sent) (good : ∀ s ∈ sent, Good lib db s)
    (casm : ∀ s ∈ sent, ∀ r ∈ s.classes, r.defn.sierra = true → lib.casmOf r.defn r.hash ≠ none) :
    (syncClasses lib pick n fault db start stop ⟨itemsOf sent, none⟩).fail = none := by
  cases hf : (syncClasses lib pick n fault db start stop (⟨itemsOf sent, none⟩ : Feed P (P × Raw))).fail with
  | none => rfl
  | some e =>
    exfalso
    obtain ⟨_, _, _, h4⟩ := run_spec lib pick n (db.expected fault start (stop + 1 - start)) (⟨itemsOf sent, none⟩ : Feed P (P × Raw))
    obtain ⟨hpre, _, _, hce⟩ := checked_spec lib pick n (⟨itemsOf sent, none⟩ : Feed P (P × Raw))
    have from_sent : ∀ x ∈ itemsOf sent, ∃ s ∈ sent, x.1 = s.peer ∧ x.2 ∈ s.classes := by
      intro x hx
      obtain ⟨s, hs, hx'⟩ := List.mem_flatMap.mp hx
      obtain ⟨r, hr, rfl⟩ := List.mem_map.mp hx'
      exact ⟨s, hs, rfl, hr⟩
    rcases h4 e hf with h | ⟨_, x, hx, h5, h6⟩
    · obtain ⟨hb, _⟩ := verifyDeclared_fed (fun b l => declaredAt_nodup rc b l) (fault := fault)
        (fail := (checked lib pick n (⟨itemsOf sent, none⟩ : Feed P (P × Raw))).fail) k (stop + 1 - start) start sent
        (checked lib pick n (⟨itemsOf sent, none⟩ : Feed P (P × Raw))).items.flatten fed hpre
      rcases hb e h with h | ⟨s, hs, _, h⟩
      · rcases hce e h with h | ⟨x, hx, _, h⟩
        · cases h
        · obtain ⟨s, hs, _, hr⟩ := from_sent x hx
          exact h ((good s hs).1 _ hr)
      · obtain ⟨_, l, hl, hp⟩ := good s hs
        exact h l hl hp
    · have hx' := hpre.subset ((verifyDeclared_prefix _ _ _).1.subset hx)
      obtain ⟨s, hs, _, hr⟩ := from_sent x hx'
      exact casm s hs _ hr h5 h6

example : (syncClasses Case.lib Case.pick 2 (fun _ => false) Case.db 0 2 ⟨itemsOf Case.sent, none⟩).fail = none :=
  C79_honest Case.lib Case.pick 2 _ Case.db Case.reach 0 2 3 Case.sent Case.fed Case.good (by simp [Case.lib])

/-- C79. A peer that is blamed sent for some block an answer that is not right. This holds for any
number of answered blocks, however the stream of answers and the reading of what is expected end. -/
theorem C79_blame (lib : Lib) (pick : List (Err P) → Nat) (n : Nat) (fault : Nat → Bool) (db : Db) (rc : DbReach db)
    (start stop k : Nat) (sent : List (Sent P)) (fed : Fed db start k sent) (fail : Option (Err P))
    (own : ∀ e, fail = some e → e.blamed = none) (e : Err P) (p : P)
    (h : (syncClasses lib pick n fault db start stop ⟨itemsOf sent, fail⟩).fail = some e) (hp : e.blamed = some p) :
    ∃ s ∈ sent, s.peer = p ∧ ¬ Good lib db s := by
  obtain ⟨_, _, _, h4⟩ := run_spec lib pick n (db.expected fault start (stop + 1 - start)) (⟨itemsOf sent, fail⟩ : Feed P (P × Raw))
  obtain ⟨hpre, _, _, hce⟩ := checked_spec lib pick n (⟨itemsOf sent, fail⟩ : Feed P (P × Raw))
  rcases h4 e h with h | ⟨h5, _⟩
  · obtain ⟨hb, _⟩ := verifyDeclared_fed (fun b l => declaredAt_nodup rc b l) (fault := fault)
      (fail := (checked lib pick n (⟨itemsOf sent, fail⟩ : Feed P (P × Raw))).fail) k (stop + 1 - start) start sent
      (checked lib pick n (⟨itemsOf sent, fail⟩ : Feed P (P × Raw))).items.flatten fed hpre
    rcases hb e h with h | ⟨s, hs, he, hnp⟩
    · rcases hce e h with h | ⟨x, hx, hbl, h⟩
      · rw [own e h] at hp; cases hp
      · obtain ⟨s, hs, hx'⟩ := List.mem_flatMap.mp hx
        obtain ⟨r, hr, rfl⟩ := List.mem_map.mp hx'
        rw [hbl] at hp
        exact ⟨s, hs, Option.some.inj hp, fun g => h (g.1 r hr)⟩
    · subst he
      refine ⟨s, hs, Option.some.inj hp, ?_⟩
      intro g
      obtain ⟨_, l, hl, hpm⟩ := g
      exact hnp l hl hpm
  · subst h5; cases hp

example : ∃ s ∈ Case.wrong, s.peer = 2 ∧ ¬ Good Case.lib Case.db s :=
  C79_blame Case.lib Case.pick 2 (fun _ => false) Case.db Case.reach 0 2 2 Case.wrong Case.fedWrong none
    (fun e h => by cases h) (.unexpected 2) 2 (by decide) rfl

/-! ### Ends that are not noticed -/

/-- C79, violated. If reading what is declared in the first block fails, the run ends without an error
and without storing anything: the error is given to a channel without being sent. -/
theorem C79_swallowed_violated (lib : Lib) (pick : List (Err P) → Nat) (n : Nat) (fault : Nat → Bool) (db : Db)
    (start stop : Nat) (hs : start ≤ stop) (feed : Feed P (P × Raw)) (hf : fault start = true) :
    syncClasses lib pick n fault db start stop feed = ⟨[], none⟩ := by
  obtain ⟨m, hm⟩ : ∃ m, stop + 1 - start = m + 1 := ⟨stop - start, by omega⟩
  unfold syncClasses
  rw [hm]
  have : db.expected fault start (m + 1) = [.error ()] := by unfold Db.expected; rw [if_pos hf]
  rw [this]
  rfl

example : syncClasses Case.lib Case.pick 2 (fun b => b == 0) Case.db 0 2 ⟨itemsOf Case.sent, none⟩ = ⟨[], none⟩ :=
  C79_swallowed_violated _ _ _ _ _ 0 2 (by decide) _ rfl

/-- C79, violated. If the stream of answers just ends after `k` blocks, all of them answered rightly,
the run ends without an error, and every class of the later blocks that had no definition has none
afterwards. -/
theorem C79_ends_early_violated (lib : Lib) (pick : List (Err P) → Nat) (n : Nat) (db : Db) (rc : DbReach db)
    (start stop k : Nat) (sent : List (Sent P)) (fed : Fed db start k sent) (good : ∀ s ∈ sent, Good lib db s)
    (casm : ∀ s ∈ sent, ∀ r ∈ s.classes, r.defn.sierra = true → lib.casmOf r.defn r.hash ≠ none)
    (i : Nat) (row : Row) (hrow : db.rows[i]? = some row) (hd : row.defn = none) (m : Nat) (hb : row.block = some m)
    (hm : start + k ≤ m) :
    let o := syncClasses lib pick n (fun _ => false) db start stop ⟨itemsOf sent, none⟩
    o.fail = none ∧ ∃ row', (db.after o o.written.length).rows[i]? = some row' ∧ row'.hash = row.hash ∧
      row'.block = some m ∧ row'.defn = none := by
  intro o
  refine ⟨C79_honest lib pick n _ db rc start stop k sent fed good casm, ?_⟩
  obtain ⟨row', h1, h2, h3, h4⟩ := persist_fold (o.written.take o.written.length) db i row hrow
  refine ⟨row', h1, h2, by rw [h3, hb], ?_⟩
  rcases h4 with ⟨h4, _⟩ | ⟨c, hc, h5, h6⟩
  · rw [h4, hd]
  · exfalso
    rw [List.take_length] at hc
    obtain ⟨_, ⟨p, hp⟩, lo, hi, ⟨l, hl, hmem⟩, _⟩ := written_valid lib pick n (fun _ => false) db start stop ⟨itemsOf sent, none⟩ c hc
    obtain ⟨s, hs, hx'⟩ := List.mem_flatMap.mp hp
    obtain ⟨r, hr, hre⟩ := List.mem_map.mp hx'
    have hcb : c.raw.block < start + k := by
      have e1 : r = c.raw := by cases hre; rfl
      rw [← e1, fed.own s hs r hr]
      have : s.block ∈ sent.map (·.block) := List.mem_map.mpr ⟨s, hs, rfl⟩
      rw [fed.blocks, List.mem_range'_1] at this
      omega
    have inv := reach_inv rc
    have hrowm : row ∈ db.rows := List.mem_of_getElem? hrow
    unfold Db.declaredAt at hl
    split at hl
    · cases hl
      rcases List.mem_append.mp hmem with hx | hx
      · obtain ⟨r', hr', hre'⟩ := List.mem_map.mp hx
        obtain ⟨hr1, hr2⟩ := List.mem_filter.mp hr'
        have : r' = row := row_unique inv.uniq hr1 hrowm (by rw [hre', h5])
        subst this
        rw [hb] at hr2
        simp at hr2
        omega
      · obtain ⟨x, hx1, hxe⟩ := List.mem_map.mp hx
        obtain ⟨hx2, hx3⟩ := List.mem_filter.mp hx1
        obtain ⟨_, r', hr', he, m', hm', hlt⟩ := inv.red x hx2
        have : r' = row := row_unique inv.uniq hr' hrowm (by rw [he, hxe, h5])
        subst this
        rw [hb] at hm'
        cases hm'
        have : x.2 = c.raw.block := of_decide_eq_true hx3
        omega
    · cases hl

/-- One block answered; class 8 of block 1 stays without a definition, and there is no error. -/
example : (syncClasses Case.lib Case.pick 2 (fun _ => false) Case.db 0 2 ⟨itemsOf (Case.sent.take 1), none⟩).fail = none ∧
    ∃ row', (Case.db.after (syncClasses Case.lib Case.pick 2 (fun _ => false) Case.db 0 2 ⟨itemsOf (Case.sent.take 1), none⟩)
      (syncClasses Case.lib Case.pick 2 (fun _ => false) Case.db 0 2 ⟨itemsOf (Case.sent.take 1), none⟩).written.length).rows[1]? =
        some row' ∧ row'.hash = 8 ∧ row'.block = some 1 ∧ row'.defn = none := by
  refine C79_ends_early_violated Case.lib Case.pick 2 Case.db Case.reach 0 2 1 (Case.sent.take 1) ⟨by decide, by decide, ?_⟩
    (fun s hs => Case.good s (List.mem_of_mem_take hs)) (by simp [Case.lib]) 1 ⟨8, none, some 1⟩ (by decide) rfl 1 rfl (by decide)
  intro s hs
  exact Case.fed.count s (List.mem_of_mem_take hs)

/-- C79, violated. A class of the range whose declared hash no definition gives, as computed (F37), can
never be stored: every run that got all blocks ends with an error, whoever answered and whatever the
answer. -/
theorem C79_mishashed_violated (lib : Lib) (pick : List (Err P) → Nat) (n : Nat) (db : Db) (rc : DbReach db) (start stop : Nat)
    (sent : List (Sent P)) (fed : Fed db start (stop + 1 - start) sent) (row : Row) (hr : row ∈ db.rows) (m : Nat)
    (hb : row.block = some m) (lo : start ≤ m) (hi : m ≤ stop) (bad : ∀ d, lib.hashOf d ≠ some row.hash) :
    (syncClasses lib pick n (fun _ => false) db start stop ⟨itemsOf sent, none⟩).fail ≠ none := by
  intro hn
  obtain ⟨h, _⟩ := C79_complete_partial lib pick n db rc start stop sent fed hn
  obtain ⟨i, hlt, rfl⟩ := List.mem_iff_getElem.mp hr
  obtain ⟨row', h1, h2, h3, _⟩ := persist_fold
    ((syncClasses lib pick n (fun _ => false) db start stop (⟨itemsOf sent, none⟩ : Feed P (P × Raw))).written.take _) db i
    db.rows[i] (List.getElem?_eq_getElem hlt)
  obtain ⟨d, _, _, hd, _⟩ := h row' (List.mem_of_getElem? h1) m (by rw [h3, hb]) lo hi
  exact bad d (by rw [hd, h2])

/-- With a hash function that never gives 8. -/
example : (syncClasses { Case.lib with hashOf := fun d => if d.body = 8 then some 88 else some d.body } Case.pick 2
    (fun _ => false) Case.db 0 2 ⟨itemsOf Case.sent, none⟩).fail ≠ none :=
  C79_mishashed_violated _ _ _ Case.db Case.reach 0 2 Case.sent Case.fed ⟨8, none, some 1⟩ (by decide) 1 rfl
    (by decide) (by decide) (by intro d; simp only; split <;> simp; assumption)

/-! ### Tracking the head -/

/-- C79. While tracking the head, a block's classes pass the comparison with the declarations of its
state diff exactly if, for each of the two kinds, their hashes are the declared ones, each once. -/
theorem C79_tracked (p : P) (cs : List Compiled) : ∀ cairo sierra : List Nat,
    verifyTracked p cairo sierra cs = .ok () ↔
      ((cs.filter fun c => !c.raw.defn.sierra).map (·.raw.hash)).Perm cairo ∧
      ((cs.filter fun c => c.raw.defn.sierra).map (·.raw.hash)).Perm sierra := by
  induction cs with
  | nil =>
    intro cairo sierra
    unfold verifyTracked
    cases cairo <;> cases sierra <;> simp
  | cons c cs ih =>
    intro cairo sierra
    unfold verifyTracked
    have key : ∀ (h : Nat) (l m : List Nat), (h :: l).Perm m ↔ h ∈ m ∧ l.Perm (m.erase h) := by
      intro h l m
      constructor
      · intro hp
        refine ⟨hp.mem_iff.mp List.mem_cons_self, ?_⟩
        have := hp.erase h
        rwa [List.erase_cons_head] at this
      · intro ⟨hm, hp⟩
        exact (hp.cons h).trans (List.perm_cons_erase hm).symm
    cases hs : c.raw.defn.sierra with
    | true =>
      simp only [List.filter_cons, hs, Bool.not_true, Bool.false_eq_true, if_false, if_true, List.map_cons, key]
      split
      · next hm => rw [ih]; simp [hm]
      · next hm => simp [hm]
    | false =>
      simp only [List.filter_cons, hs, Bool.not_false, Bool.false_eq_true, if_false, if_true, List.map_cons, key]
      split
      · next hm => rw [ih]; simp [hm]
      · next hm => simp [hm]

example : verifyTracked 5 [7] [8] [⟨⟨1, 8, ⟨8, true⟩⟩, some 1⟩, ⟨⟨1, 7, ⟨7, false⟩⟩, none⟩] = .ok () := by rfl

example : ∃ e, verifyTracked 5 [7] [8] [⟨⟨1, 8, ⟨8, true⟩⟩, some 1⟩] = .error e := ⟨_, rfl⟩

/-- C79. The peer that is blamed when they do not is the one that sent the classes. -/
theorem C79_tracked_blame (p : P) (cs : List Compiled) : ∀ (cairo sierra : List Nat) (e : Err P),
    verifyTracked p cairo sierra cs = .error e → e = .mismatch p := by
  induction cs with
  | nil =>
    intro cairo sierra e h
    unfold verifyTracked at h
    split at h <;> cases h
    rfl
  | cons c cs ih =>
    intro cairo sierra e h
    unfold verifyTracked at h
    split at h
    · split at h
      · exact ih _ _ _ h
      · cases h; rfl
    · split at h
      · exact ih _ _ _ h
      · cases h; rfl

/-! ### The other side -/

theorem mapM_some {α β : Type} {f : α → Option β} : ∀ {l : List α} {r : List β}, l.mapM f = some r → l.map f = r.map some := by
  intro l
  induction l with
  | nil => intro r h; simp at h; subst h; rfl
  | cons a l ih =>
    intro r h
    rw [List.mapM_cons] at h
    cases ha : f a with
    | none => simp [ha] at h
    | some b =>
      cases hl : l.mapM f with
      | none => simp [ha, hl] at h
      | some bs =>
        simp [ha, hl] at h
        subst h
        simp [ha, ih hl]

/-- C79. A node all of whose definitions are valid and which has compiled classes for the Sierra classes
and for no others answers rightly, for the classes declared in the block as it has them. -/
theorem C79_serve (lib : Lib) (db : Db)
    (valid : ∀ r ∈ db.rows, ∀ d, r.defn = some d → lib.parses d = true ∧ lib.hashOf d = some r.hash ∧
      d.sierra = (db.casm r.hash).isSome)
    (p : P) (b : Nat) (rs : List Raw) (h : db.serve b = some rs) :
    Good lib db ⟨p, b, rs⟩ ∧ ∀ r ∈ rs, r.block = b := by
  unfold Db.serve at h
  cases hd : db.declaredAt b with
  | none => rw [hd] at h; cases h
  | some l =>
    rw [hd] at h
    have hm := mapM_some h
    have each : ∀ (l : List Nat) (rs : List Raw), (l.map fun h => ((db.rows.find? (·.hash == h)).bind (·.defn)).map
        fun d => ({ block := b, hash := h, defn := { body := d.body, sierra := (db.casm h).isSome } } : Raw)) = rs.map some →
        rs.map (·.hash) = l ∧ ∀ r ∈ rs, r.block = b ∧ Valid lib r := by
      intro l
      induction l with
      | nil => intro rs h; cases rs with | nil => exact ⟨rfl, fun r hr => (by cases hr)⟩ | cons => cases h
      | cons a l ih =>
        intro rs h
        cases rs with
        | nil => cases h
        | cons r rs =>
          simp only [List.map_cons, List.cons.injEq] at h
          obtain ⟨h1, h2⟩ := h
          obtain ⟨h3, h4⟩ := ih rs h2
          obtain ⟨d, hd, he⟩ := Option.map_eq_some_iff.mp h1
          obtain ⟨row, hrow, hdef⟩ := Option.bind_eq_some_iff.mp hd
          have hmem := List.mem_of_find?_eq_some hrow
          have hh : row.hash = a := by simpa using List.find?_some hrow
          obtain ⟨v1, v2, v3⟩ := valid row hmem d hdef
          rw [hh] at v2 v3
          have hdd : ({ body := d.body, sierra := (db.casm a).isSome } : Def) = d := by rw [← v3]
          rw [hdd] at he
          subst he
          refine ⟨by rw [List.map_cons, h3], ?_⟩
          intro r hr
          rcases List.mem_cons.mp hr with rfl | hr
          · exact ⟨rfl, v1, v2⟩
          · exact h4 r hr
    obtain ⟨h1, h2⟩ := each l rs hm
    exact ⟨⟨fun r hr => (h2 r hr).2, l, hd, by rw [h1]⟩, fun r hr => (h2 r hr).1⟩

example : ∃ rs, (Case.db.after (syncClasses Case.lib Case.pick 2 (fun _ => false) Case.db 0 2 ⟨itemsOf Case.sent, none⟩) 9).serve 1 =
    some rs ∧ rs.length = 2 := ⟨_, rfl, rfl⟩

/-- A node that has the definitions answers. -/
theorem C79_serve_answers (db : Db) (rc : DbReach db) (b : Nat) (hb : b < db.blocks)
    (full : ∀ r ∈ db.rows, r.defn ≠ none) : ∃ rs, db.serve b = some rs := by
  have inv := reach_inv rc
  have hl : db.declaredAt b = some ((db.rows.filter fun r => r.block = some b).map (·.hash) ++
      (db.redeclared.filter fun x => x.2 = b).map (·.1)) := by
    unfold Db.declaredAt; rw [if_pos hb]
  unfold Db.serve
  rw [hl]
  simp only [Option.bind_some]
  have each : ∀ l : List Nat, (∀ h ∈ l, ∃ r ∈ db.rows, r.hash = h) → ∃ rs, (l.mapM fun h =>
      ((db.rows.find? (·.hash == h)).bind (·.defn)).map
        fun d => ({ block := b, hash := h, defn := { body := d.body, sierra := (db.casm h).isSome } } : Raw)) = some rs := by
    intro l
    induction l with
    | nil => intro _; exact ⟨[], rfl⟩
    | cons a l ih =>
      intro h
      obtain ⟨rs, hrs⟩ := ih (fun x hx => h x (List.mem_cons_of_mem _ hx))
      obtain ⟨r, hr, hre⟩ := h a List.mem_cons_self
      cases hf : db.rows.find? (·.hash == a) with
      | none =>
        have := List.find?_eq_none.mp hf r hr
        simp [hre] at this
      | some r' =>
        have := full r' (List.mem_of_find?_eq_some hf)
        cases hd : r'.defn with
        | none => exact absurd hd this
        | some d =>
          rw [List.mapM_cons]
          simp only [hf, hd, Option.bind_some, Option.map_some, hrs]
          exact ⟨_, rfl⟩
  apply each
  intro h hh
  rcases List.mem_append.mp hh with hh | hh
  · obtain ⟨r, hr, e⟩ := List.mem_map.mp hh
    exact ⟨r, (List.mem_filter.mp hr).1, e⟩
  · obtain ⟨x, hx, e⟩ := List.mem_map.mp hh
    obtain ⟨_, r, hr, he, _⟩ := inv.red x (List.mem_filter.mp hx).1
    exact ⟨r, hr, by rw [he, e]⟩

example : DbReach (Case.db.after (syncClasses Case.lib Case.pick 2 (fun _ => false) Case.db 0 2 ⟨itemsOf Case.sent, none⟩) 9) ∧
    ∀ r ∈ (Case.db.after (syncClasses Case.lib Case.pick 2 (fun _ => false) Case.db 0 2 ⟨itemsOf Case.sent, none⟩) 9).rows,
      r.defn ≠ none := ⟨C79_stored_reach _ _ _ _ _ Case.reach _ _ _ _, by decide⟩

/-- C79, violated. While tracking the head, a node expects the classes of the block's declarations. A
block that deploys a class that was never declared is served with the definition of that class: the
peer that answers as this program does is blamed. -/
theorem C79_tracked_deployed_violated (p : P) (h : Nat) (d : Def) (hs : d.sierra = false) :
    let server := (({ blocks := 0, rows := [], redeclared := [], casm := fun _ => none } : Db).storeBlock [] [h]).persist
      { raw := { block := 0, hash := h, defn := d }, casm := none }
    server.serve 0 = some [{ block := 0, hash := h, defn := d }] ∧
    countTracked p 0 [{ block := 0, hash := h, defn := d }] = .error (.mismatch p) := by
  obtain ⟨body, sierra⟩ := d
  simp only at hs
  subst hs
  simp [Db.storeBlock, Db.upsert, Db.persist, Db.serve, Db.declaredAt, countTracked]

/-! ### On the wire -/

open Wire

/-- C79. A Sierra class is read as it was sent. -/
theorem C79_wire_sierra (c : Sierra) : sierraFromDto (sierraToDto c) = .ok c := rfl

theorem map_id_iff {l : List Entry} {f : Entry → Entry} : l.map f = l ↔ ∀ e ∈ l, f e = e := by
  induction l with
  | nil => simp
  | cons a l ih => simp [ih]

theorem cut_iff (l : List Entry) : (l.map fun e => ((e.1, e.2 % 2 ^ 64) : Entry)) = l ↔ ∀ e ∈ l, e.2 < 2 ^ 64 := by
  rw [map_id_iff]
  constructor
  · intro h e he
    have := congrArg Prod.snd (h e he)
    simp only at this
    rw [← this]
    exact Nat.mod_lt _ (by decide)
  · intro h e he
    rw [Nat.mod_eq_of_lt (h e he)]

/-- C79. A Cairo 0 class is read as it was sent exactly if its offsets have 64 bits and its program is not
longer than 4 MiB. The hypotheses say that the two texts are JSON. -/
theorem C79_wire_cairo_partial (json : List UInt8 → Bool) (c : Cairo) (ha : json c.abi = true) (hp : json c.program = true) :
    cairoFromDto json (cairoToDto c) = .ok c ↔
      (∀ e ∈ c.external ++ c.l1Handler ++ c.constructors, e.2 < 2 ^ 64) ∧ c.program.length ≤ 4 * 1024 * 1024 := by
  have hsz : maxSize = 4 * 1024 * 1024 := rfl
  rw [← hsz]
  have hall : (∀ e ∈ c.external ++ c.l1Handler ++ c.constructors, e.2 < 2 ^ 64) ↔
      (∀ e ∈ c.external, e.2 < 2 ^ 64) ∧ (∀ e ∈ c.l1Handler, e.2 < 2 ^ 64) ∧ ∀ e ∈ c.constructors, e.2 < 2 ^ 64 := by
    constructor
    · intro h
      exact ⟨fun e he => h e (List.mem_append_left _ (List.mem_append_left _ he)),
        fun e he => h e (List.mem_append_left _ (List.mem_append_right _ he)), fun e he => h e (List.mem_append_right _ he)⟩
    · intro ⟨h1, h2, h3⟩ e he
      rcases List.mem_append.mp he with he | he
      · rcases List.mem_append.mp he with he | he
        · exact h1 e he
        · exact h2 e he
      · exact h3 e he
  rw [hall, ← cut_iff, ← cut_iff, ← cut_iff]
  unfold cairoFromDto
  have e1 : (cairoToDto c).abi = c.abi := rfl
  have e2 : (cairoToDto c).program = c.program := rfl
  rw [e1, e2, if_pos ha]
  generalize maxSize = n
  obtain ⟨abi, program, ext, l1, ctor⟩ := c
  simp only at ha hp ⊢
  constructor
  · intro h
    split at h
    · simp only [Read.ok.injEq, Cairo.mk.injEq, true_and] at h
      obtain ⟨h1, h2, h3, h4⟩ := h
      exact ⟨⟨h2, h3, h4⟩, by have := congrArg List.length h1; rw [List.length_take] at this; omega⟩
    · cases h
  · intro ⟨⟨h2, h3, h4⟩, h1⟩
    have := List.take_of_length_le h1
    rw [this, if_pos hp]
    simp only [Read.ok.injEq, Cairo.mk.injEq, true_and]
    exact ⟨h2, h3, h4⟩

example : cairoFromDto (fun _ => true) (cairoToDto ⟨[91, 93], [123, 125], [(5, 17)], [], []⟩) =
    .ok ⟨[91, 93], [123, 125], [(5, 17)], [], []⟩ :=
  (C79_wire_cairo_partial _ _ rfl rfl).mpr ⟨by simp, by decide⟩

/-- An offset of 65 bits is sent as another one. -/
example : cairoFromDto (fun _ => true) (cairoToDto ⟨[91, 93], [123, 125], [(5, 2 ^ 64 + 17)], [], []⟩) =
    .ok ⟨[91, 93], [123, 125], [(5, 17)], [], []⟩ := by
  simp [cairoFromDto, cairoToDto, maxSize]

/-- C79, violated. One Cairo 0 class whose ABI is not JSON ends the task that reads the answers, whatever
else is sent: the stream ends without an error (see `C79_ends_early_violated`). -/
theorem C79_panic_violated (json : List UInt8 → Bool) (d : Cairo0Class) (bad : json d.abi = false) (pre : List Cairo0Class)
    (fine : ∀ x ∈ pre, ∃ y, cairoFromDto json x = .ok y) (rest : List Cairo0Class) (n : Nat) (hn : pre.length < n) :
    readBlock (cairoFromDto json) n (pre ++ d :: rest) = .streamEnds := by
  induction pre generalizing n with
  | nil =>
    cases n with
    | zero => simp at hn
    | succ n => simp [readBlock, cairoFromDto, bad]
  | cons x pre ih =>
    cases n with
    | zero => simp at hn
    | succ n =>
      obtain ⟨y, hy⟩ := fine x List.mem_cons_self
      have := ih (fun z hz => fine z (List.mem_cons_of_mem _ hz)) n (by simpa using hn)
      simp [readBlock, hy, this]

example : readBlock (cairoFromDto fun l => l ≠ []) 2 [⟨[91], [], [], [], [123]⟩, ⟨[], [], [], [], [123]⟩] = .streamEnds :=
  C79_panic_violated _ ⟨[], [], [], [], [123]⟩ rfl [⟨[91], [], [], [], [123]⟩]
    (by intro x hx; simp only [List.mem_singleton] at hx; subst hx; exact ⟨_, rfl⟩) [] 2 (by decide)

end Verif.ClassSync
