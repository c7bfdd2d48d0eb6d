import Verif.Sync.CheckpointProps

/-!
# Progress of header synchronisation (C62) and the stored chain (C63)
-/

namespace Verif.Sync

variable {P H B S : Type}

theorem insertAll_append [DecidableEq H] (xs ys : List (Header H B S)) (db : Rows H B S) :
    insertAll db (xs ++ ys) = (insertAll db xs).bind fun db => insertAll db ys := by
  induction xs generalizing db with
  | nil => rfl
  | cons x xs ih =>
    simp only [List.cons_append, insertAll]
    cases insertHeader db x with
    | none => rfl
    | some db' => exact ih db'

theorem insertAll_fresh [DecidableEq H] (hs : List (Header H B S)) (db : Rows H B S)
    (hfresh : ∀ h ∈ hs, ∀ r ∈ db, r.number ≠ h.number ∧ r.hash ≠ h.hash)
    (hpair : hs.Pairwise fun a b => a.number ≠ b.number ∧ a.hash ≠ b.hash) : ∃ db', insertAll db hs = some db' := by
  induction hs generalizing db with
  | nil => exact ⟨db, rfl⟩
  | cons h hs ih =>
    have hi : insertHeader db h = some (h :: db) := by
      unfold insertHeader
      rw [if_neg]
      intro hc
      obtain ⟨r, hr, he⟩ := List.any_eq_true.mp hc
      have := hfresh h (by simp) r hr
      simp [this] at he
    obtain ⟨h1, h2⟩ := List.pairwise_cons.mp hpair
    obtain ⟨db', hd⟩ := ih (h :: db) (by
      intro x hx r hr
      rcases List.mem_cons.mp hr with rfl | hr
      · exact h1 x hx
      · exact hfresh x (by simp [hx]) r hr) h2
    exact ⟨db', by simp [insertAll, hi, hd]⟩

theorem persistStream_groups [DecidableEq H] (groups : List (List (P × Header H B S))) (db db' : Rows H B S)
    (h : insertAll db (groups.flatten.map (·.2)) = some db') :
    persistStream (P := P) db (groups.filterMap fun g => g.head?.map fun x => .ok (x.1, g.map (·.2))) = (db', .ok ()) := by
  induction groups generalizing db with
  | nil =>
    simp only [List.flatten_nil, List.map_nil, insertAll, Option.some.injEq] at h
    subst h
    rfl
  | cons g groups ih =>
    rw [List.flatten_cons, List.map_append, insertAll_append] at h
    cases hg : insertAll db (g.map (·.2)) with
    | none => rw [hg] at h; simp at h
    | some db₁ =>
      rw [hg] at h
      simp only [Option.bind_some] at h
      cases g with
      | nil =>
        simp only [List.map_nil, insertAll, Option.some.injEq] at hg
        subst hg
        simpa using ih _ h
      | cons x g =>
        simp only [List.filterMap_cons, List.head?_cons, Option.map_some, persistStream, persistHeaders, hg]
        exact ih _ h

/-- The headers with these numbers, from the highest to the lowest, as a peer with the chain sends them. -/
def Delivers (c : Checks H B S) (chain : Nat → Header H B S) (head tail : Nat) (xs : List (P × Header H B S)) : Prop :=
  xs.length = head + 1 - tail ∧
    ∀ i x, xs[i]? = some x → Same x.2 (chain (head - i)) ∧ c.signed x.2.signature x.2.hash = true

theorem hash_inj [DecidableEq H] {c : Checks H B S} (hbind : c.Binding) (hnone : ∀ n, c.known n = none)
    {a b : Header H B S} (ha : c.hashOk a = true) (hb : c.hashOk b = true) (h : a.hash = b.hash) : a.number = b.number := by
  simp only [Checks.hashOk, hnone, Option.getD_none, decide_eq_true_eq] at ha hb
  exact (hbind _ _ _ _ _ _ (ha.trans (h.trans hb.symm))).1

theorem same_hashOk [DecidableEq H] {c : Checks H B S} {a b : Header H B S} (h : Same a b) (hb : c.hashOk b = true) :
    c.hashOk a = true := by
  obtain ⟨h1, h2, h3, h4⟩ := h
  unfold Checks.hashOk at hb ⊢
  rw [h1, h2, h3, h4]
  exact hb

/-- C62. If peers deliver the headers of a gap, in however many hands, the stream is accepted and exactly that gap is
filled. (Without a table of known block hashes: see the note in the manifest.) -/
theorem C62_progress [DecidableEq H] (c : Checks H B S) (chain : Nat → Header H B S) (hbind : c.Binding) (hc : Chain c chain)
    (hnone : ∀ n, c.known n = none) (zero : H) (st : Store H B S) (cp : Nat × H)
    (hr : SyncReach c zero (fun _ => True) P (fun cp => cp.2 = (chain cp.1).hash) ⟨st, .headers cp⟩) (gap : Gap H)
    (hg : nextGap zero st.headers cp.1 cp.2 = some gap) (xs : List (P × Header H B S))
    (hx : Delivers c chain gap.head gap.tail xs) :
    ∃ db, handleHeaderStream c st.headers (gap.head, gap.headHash) xs = (db, .ok ()) ∧
      ∀ n, Stored db n ↔ Stored st.headers n ∨ (gap.tail ≤ n ∧ n ≤ gap.head) := by
  obtain ⟨hs, hm⟩ := reach_secure hbind hc hr
  obtain ⟨h1, h2, h3⟩ := hm
  obtain ⟨g1, g2, g3, -, -, g6, g7⟩ := C40_gap zero st.headers cp.1 cp.2 gap hg
  have hhash : gap.headHash = (chain gap.head).hash := by
    rcases Nat.lt_or_eq_of_le g2 with hlt | he
    · obtain ⟨r, hr, hn, hp⟩ := g7 hlt
      have := hs.secured cp h2 r hr (by omega)
      rw [← hp, this.2.2.1, hn, hc.linked]
    · rw [g6 he, h1, he]
  obtain ⟨hlen, hel⟩ := hx
  have hget : ∀ i x, (xs.map (·.2))[i]? = some x → x.number = gap.head - i ∧ i ≤ gap.head ∧ gap.tail + i ≤ gap.head ∧
      x.hash = (chain (gap.head - i)).hash ∧ x.parent = (chain (gap.head - i)).parent ∧ c.hashOk x = true := by
    intro i x hx
    rw [List.getElem?_map] at hx
    cases hxi : xs[i]? with
    | none => simp [hxi] at hx
    | some y =>
      simp only [hxi, Option.map_some, Option.some.injEq] at hx
      subst hx
      have hlt : i < xs.length := (List.getElem?_eq_some_iff.mp hxi).1
      have hsame := (hel i y hxi).1
      exact ⟨by rw [hsame.1, hc.number], by omega, by omega, hsame.2.1, hsame.2.2.1, same_hashOk hsame (hc.ok _)⟩
  -- the continuity stage
  have hlink : LinkedDown gap.head gap.headHash (xs.map (·.2)) := by
    intro i x hx
    obtain ⟨e1, e2, e3, e4, e5, -⟩ := hget i x hx
    refine ⟨by omega, fun h0 => by rw [e4, h0, hhash]; rfl, fun y h0 hy => ?_⟩
    obtain ⟨f1, f2, f3, f4, f5, -⟩ := hget (i - 1) y hy
    rw [e4, f5, ← hc.linked, show gap.head - i + 1 = gap.head - (i - 1) by omega]
  have hback : pipe backwardContinuity (some gap.head, gap.headHash) (infallible xs) = xs.map .ok := by
    obtain ⟨k, k1, k2, k3, k4⟩ := C39_backward gap.head gap.headHash xs
    by_cases hk : k < xs.length
    · exact absurd (List.map_take ▸ linkedDown_take _ _ _ (k + 1) hlink) (k3 hk)
    · have : k = xs.length := by omega
      subst this
      simpa using k4
  -- verification
  have hver : ∀ ys : List (P × Header H B S), (∀ y ∈ ys, c.hashOk y.2 = true ∧ c.signed y.2.signature y.2.hash = true) →
      pipe c.verify () (ys.map .ok) = ys.map .ok := by
    intro ys
    induction ys with
    | nil => intro _; rfl
    | cons y ys ih =>
      intro hy
      have hy1 := hy y (by simp)
      have := ih fun z hz => hy z (by simp [hz])
      simp [pipe, Checks.verify, hy1, this]
  have hver' : pipe c.verify () (xs.map .ok) = xs.map .ok := by
    apply hver
    intro y hy
    obtain ⟨i, hi⟩ := List.mem_iff_getElem?.mp hy
    exact ⟨(hget i y.2 (by simp [hi])).2.2.2.2.2, (hel i y hi).2⟩
  -- persistence
  have hins : ∃ db', insertAll st.headers (xs.map (·.2)) = some db' := by
    apply insertAll_fresh
    · intro x hx r hr
      obtain ⟨i, hi⟩ := List.mem_iff_getElem?.mp hx
      obtain ⟨e1, e2, e3, e4, e5, e6⟩ := hget i x hi
      have hne : r.number ≠ x.number := fun he => g3 x.number (by omega) (by omega) ⟨r, hr, he⟩
      exact ⟨hne, fun he => hne (hash_inj hbind hnone (hs.ok r hr) e6 he)⟩
    · rw [List.pairwise_iff_getElem]
      intro i j hi hj hij
      obtain ⟨e1, e2, e3, e4, e5, e6⟩ := hget i _ (List.getElem?_eq_getElem hi)
      obtain ⟨f1, f2, f3, f4, f5, f6⟩ := hget j _ (List.getElem?_eq_getElem hj)
      have hne := Nat.ne_of_gt (show _ < _ from (by omega : gap.head - j < gap.head - i))
      rw [← e1, ← f1] at hne
      exact ⟨hne, fun he => hne (hash_inj hbind hnone e6 f6 he)⟩
  obtain ⟨db', hdb⟩ := hins
  refine ⟨db', ?_, ?_⟩
  · unfold handleHeaderStream headerChunks
    rw [hback, hver']
    obtain ⟨groups, q1, -, -, q4⟩ := C41_chunks 1000 (by decide) (xs.map (Except.ok (ε := SyncErr P)))
    have hl : leading (xs.map (Except.ok (ε := SyncErr P))) = xs := by
      simpa using leading_append_error (E := SyncErr P) xs []
    have he : firstError (xs.map (Except.ok (ε := SyncErr P))) = none := by
      simp [firstError, List.findSome?_map]
    rw [hl] at q1
    rw [he] at q4
    simp only [Option.toList_none, List.map_nil, List.append_nil] at q4
    rw [q4]
    exact persistStream_groups groups _ _ (by rw [q1]; exact hdb)
  · have hmem := (insertAll_spec _ hdb).1
    intro n
    constructor
    · rintro ⟨r, hr, rfl⟩
      rcases (hmem r).mp hr with hr | hr
      · exact .inl ⟨r, hr, rfl⟩
      · obtain ⟨i, hi⟩ := List.mem_iff_getElem?.mp hr
        obtain ⟨e1, e2, e3, -⟩ := hget i r hi
        exact .inr ⟨by omega, by omega⟩
    · rintro (⟨r, hr, rfl⟩ | ⟨ha, hb⟩)
      · exact ⟨r, (hmem r).mpr (.inl hr), rfl⟩
      · have hlt : gap.head - n < (xs.map (·.2)).length := by
          rw [List.length_map]
          omega
        have hi := List.getElem?_eq_getElem hlt
        obtain ⟨e1, -⟩ := hget _ _ hi
        exact ⟨_, (hmem _).mpr (.inr (List.mem_of_getElem? hi)), by omega⟩

/-! ## C63 -/

/-- Every stored header above genesis has its parent stored. -/
def OneChain (db : Rows H B S) : Prop :=
  ∀ r ∈ db, r.number ≠ 0 → ∃ q ∈ db, q.number + 1 = r.number ∧ q.hash = r.parent

/-- The findings about a checkpoint other than a local block that differs. -/
def noMismatch : Analysis → Prop
  | .hashMismatchWithLocalChain _ _ => False
  | _ => True

theorem reach_mono [DecidableEq H] {c : Checks H B S} {zero : H} {admit : Analysis → Prop} {honest : Nat × H → Prop}
    {node : Node H B S} (hr : SyncReach c zero admit P honest node) : SyncReach c zero (fun _ => True) P honest node := by
  induction hr with
  | start => exact .start
  | step _ hs hh ih =>
    refine .step ih ?_ hh
    cases hs with
    | check st cp db ha hx => exact .check st cp db trivial hx
    | anchor st cp => exact .anchor st cp
    | stream st cp gap xs k hg => exact .stream st cp gap xs k hg
    | complete st cp hg => exact .complete st cp hg
    | track st n p peer h s db hf hv hi => exact .track st n p peer h s db hf hv hi
    | stop => exact .stop _

theorem reach_linked [DecidableEq H] {c : Checks H B S} {chain : Nat → Header H B S} (hbind : c.Binding) (hc : Chain c chain)
    {zero : H} {node : Node H B S}
    (hr : SyncReach c zero noMismatch P (fun cp => cp.2 = (chain cp.1).hash) node) :
    ∀ r ∈ node.store.headers, r.number ≠ 0 → Above node.store.l1 r.number →
      ∃ q ∈ node.store.headers, q.number + 1 = r.number ∧ q.hash = r.parent := by
  induction hr with
  | start => simp
  | step hprev hstep hhonest ih =>
    obtain ⟨hs, hm⟩ := reach_secure hbind hc (reach_mono hprev)
    cases hstep with
    | check st cp db ha hh =>
      obtain ⟨an, han, habove, hmax⟩ := analyse_cases hh
      rw [han] at hh ha
      unfold analyseLocal at hh ha
      cases hl : highestBy (fun r : Header H B S => r.number) st.headers with
      | none =>
        simp only [hl, Analysis.handle, Option.some.injEq] at hh
        subst hh
        exact ih
      | some l =>
        obtain ⟨hl1, hl2⟩ := highestBy_some hl
        simp only [hl] at hh ha
        by_cases hgt : cp.1 > l.number
        · simp only [if_pos hgt, Analysis.handle, Option.some.injEq] at hh
          subst hh
          intro r hr h0 hab
          exfalso
          obtain ⟨h1, h2⟩ := (mem_rollbackLoop _ _).mp hr
          have := hl2 r h1
          exact h2 ⟨(habove _).mpr hab, this⟩
        · rw [if_neg hgt] at hh ha
          cases hat : headerAt st.headers cp.1 with
          | none =>
            simp only [hat, Analysis.handle, Option.some.injEq] at hh
            subst hh
            exact ih
          | some x =>
            rw [hat] at hh ha
            by_cases hne : x.hash ≠ cp.2
            · simp only [if_pos hne, noMismatch] at ha
            · simp only [if_neg hne, Analysis.handle, Option.some.injEq] at hh
              subst hh
              exact ih
    | anchor st cp =>
      intro r hr h0 hab
      refine ih r hr h0 fun a ha => ?_
      have h1 := hm.2.1 a ha
      have h2 := hab cp (mem_upsertL1.mpr (.inr rfl))
      omega
    | stream st cp gap xs k hg =>
      intro r hr h0 hab
      rcases stream_rows hbind hc hs hm hg xs k r hr with hr | hr
      · obtain ⟨q, hq, hx⟩ := ih r hr h0 hab
        exact ⟨q, (persistStream_spec _ _).1 q hq, hx⟩
      · have := hab cp hm.2.1
        omega
    | complete st cp hg => exact ih
    | track st n p peer h s db hf hv hi =>
      obtain ⟨h1, h2, rfl⟩ := forward_ok hf
      obtain ⟨rfl, -, -⟩ := insertHeader_some hi
      intro r hr h0 hab
      rcases List.mem_cons.mp hr with rfl | hr
      · obtain ⟨q, hq, hqn, hqh⟩ := hm.2.2 (by omega)
        exact ⟨q, List.mem_cons_of_mem _ hq, by omega, by rw [hqh, h2]⟩
      · obtain ⟨q, hq, hx⟩ := ih r hr h0 hab
        exact ⟨q, List.mem_cons_of_mem _ hq, hx⟩
    | stop n => exact ih

/-- C63, partial. If no checkpoint ever contradicts the stored headers, then at the end of a run all stored headers form
one chain, so tracking goes on from the end of the chain that contains the checkpoint. Missing: checkpoints that differ from
the stored header (`C63_violated`). -/
theorem C63_partial [DecidableEq H] (c : Checks H B S) (chain : Nat → Header H B S) (hbind : c.Binding) (hc : Chain c chain)
    (zero : H) (st : Store H B S) (cp : Nat × H)
    (hr : SyncReach c zero noMismatch P (fun cp => cp.2 = (chain cp.1).hash) ⟨st, .headers cp⟩)
    (hg : nextGap zero st.headers cp.1 cp.2 = none) : OneChain st.headers := by
  intro r hr' h0
  by_cases hab : Above st.l1 r.number
  · exact reach_linked hbind hc hr r hr' h0 hab
  · obtain ⟨hs, hm⟩ := reach_secure hbind hc (reach_mono hr)
    obtain ⟨a, ha, hle⟩ := not_above hab
    have hle' := hm.2.2 a ha
    have hrs := hs.secured a ha r hr' hle
    obtain ⟨q, hq, hqn⟩ := (C40_none zero st.headers cp.1 cp.2).mp hg (r.number - 1) (by omega)
    have hqs := hs.secured a ha q hq (by omega)
    refine ⟨q, hq, by omega, ?_⟩
    rw [hqs.2.1, hrs.2.2.1, ← hc.linked, show q.number + 1 = r.number by omega]

/-! ### A concrete chain -/

/-- A hash function without collisions: the hash lists what was hashed. -/
def listChecks : Checks (List Nat) Nat Unit := ⟨fun n p b => n :: b :: p, fun _ => none, fun _ _ => true⟩

def listHash (b : Nat) : Nat → List Nat
  | 0 => [0, b]
  | n + 1 => (n + 1) :: b :: listHash b n

/-- The chain of the examples. -/
def listChain : Nat → Header (List Nat) Nat Unit
  | 0 => ⟨0, [0, 0], [], 0, ()⟩
  | n + 1 => ⟨n + 1, listHash 0 (n + 1), listHash 0 n, 0, ()⟩

theorem listChecks_binding : listChecks.Binding := by
  intro n p b n' p' b' h
  simp [listChecks] at h
  exact ⟨h.1, h.2.2, h.2.1⟩

theorem listChain_ok : Chain listChecks listChain where
  number n := by cases n <;> rfl
  linked n := by cases n <;> rfl
  ok n := by
    cases n with
    | zero => rfl
    | succ n => simp [Checks.hashOk, listChecks, listChain, listHash]

/-- Blocks 1 and 2 of another branch after the same block 0. -/
def fork1 : Header (List Nat) Nat Unit := ⟨1, [1, 7, 0, 0], [0, 0], 7, ()⟩
def fork2 : Header (List Nat) Nat Unit := ⟨2, [2, 7, 1, 7, 0, 0], [1, 7, 0, 0], 7, ()⟩

/-- The end of the first run. -/
theorem first_run (admit : Analysis → Prop) (ha : admit .consistent) :
    SyncReach listChecks [] admit Unit (fun cp => cp.2 = (listChain cp.1).hash)
      ⟨⟨[listChain 0], [(0, [0, 0])]⟩, .headers (0, [0, 0])⟩ := by
  have s1 : SyncReach listChecks [] admit Unit (fun cp => cp.2 = (listChain cp.1).hash)
      ⟨⟨[], []⟩, .checked (0, [0, 0])⟩ :=
    .step .start (.check ⟨[], []⟩ (0, [0, 0]) [] ha rfl) (by intro cp h; cases h; rfl)
  have s2 : SyncReach listChecks [] admit Unit (fun cp => cp.2 = (listChain cp.1).hash)
      ⟨⟨[], [(0, [0, 0])]⟩, .headers (0, [0, 0])⟩ :=
    .step s1 (.anchor _ _) (by intro cp h; cases h)
  exact .step s2 (.stream _ _ ⟨0, [0, 0], 0, []⟩ [((), listChain 0)] 1 rfl) (by intro cp h; cases h)

/-- The hypotheses of `C62_complete` and `C63_partial` are met at the end of the first run. -/
example : SyncReach listChecks [] noMismatch Unit (fun cp => cp.2 = (listChain cp.1).hash)
      ⟨⟨[listChain 0], [(0, [0, 0])]⟩, .headers (0, [0, 0])⟩ ∧ nextGap [] [listChain 0] 0 [0, 0] = none :=
  ⟨first_run _ trivial, rfl⟩

/-- The hypotheses of `C62_progress` are met in the first run to checkpoint 1 with a peer that sends blocks 1 and 0. -/
example : SyncReach listChecks [] (fun _ => True) Unit (fun cp => cp.2 = (listChain cp.1).hash)
      ⟨⟨[], [(1, [1, 0, 0, 0])]⟩, .headers (1, [1, 0, 0, 0])⟩ ∧
    nextGap [] ([] : Rows (List Nat) Nat Unit) 1 [1, 0, 0, 0] = some ⟨1, [1, 0, 0, 0], 0, []⟩ ∧
    Delivers listChecks listChain 1 0 [((), listChain 1), ((), listChain 0)] := by
  refine ⟨.step (.step .start (.check ⟨[], []⟩ (1, [1, 0, 0, 0]) [] trivial rfl) (by intro cp h; cases h; rfl))
    (.anchor _ _) (by intro cp h; cases h), rfl, rfl, ?_⟩
  intro i x hx
  match i with
  | 0 => cases hx; exact ⟨⟨rfl, rfl, rfl, rfl⟩, rfl⟩
  | 1 => cases hx; exact ⟨⟨rfl, rfl, rfl, rfl⟩, rfl⟩
  | i + 2 => simp at hx

/-- C63, violated. Two blocks of a branch that loses are stored after block 0. Then L1 reports the other block 1. Only block
1 is rolled back; block 2 of the losing branch stays on top of the reported block 1, and tracking goes on from it. -/
theorem C63_violated : ∃ st : Store (List Nat) Nat Unit,
    SyncReach listChecks [] (fun _ => True) Unit (fun cp => cp.2 = (listChain cp.1).hash)
      ⟨st, .headers (1, (listChain 1).hash)⟩ ∧
    nextGap [] st.headers 1 (listChain 1).hash = none ∧ ¬ OneChain st.headers ∧
    continueFrom [] st.headers = (3, fork2.hash) ∧ fork2 ∈ st.headers ∧ fork2.parent ≠ (listChain 1).hash := by
  refine ⟨⟨[listChain 1, fork2, listChain 0], [(0, [0, 0]), (1, [1, 0, 0, 0])]⟩, ?_, rfl, ?_, rfl, by simp, by decide⟩
  · have s4 : SyncReach listChecks [] (fun _ => True) Unit (fun cp => cp.2 = (listChain cp.1).hash)
        ⟨⟨[listChain 0], [(0, [0, 0])]⟩, .tracking 1 [0, 0]⟩ :=
      .step (first_run _ trivial) (.complete _ _ rfl) (by intro cp h; cases h)
    have s5 : SyncReach listChecks [] (fun _ => True) Unit (fun cp => cp.2 = (listChain cp.1).hash)
        ⟨⟨[fork1, listChain 0], [(0, [0, 0])]⟩, .tracking 2 [1, 7, 0, 0]⟩ :=
      .step s4 (.track _ _ _ () fork1 (2, [1, 7, 0, 0]) _ rfl rfl rfl) (by intro cp h; cases h)
    have s6 : SyncReach listChecks [] (fun _ => True) Unit (fun cp => cp.2 = (listChain cp.1).hash)
        ⟨⟨[fork2, fork1, listChain 0], [(0, [0, 0])]⟩, .tracking 3 [2, 7, 1, 7, 0, 0]⟩ :=
      .step s5 (.track _ _ _ () fork2 (3, [2, 7, 1, 7, 0, 0]) _ rfl rfl rfl) (by intro cp h; cases h)
    have s7 : SyncReach listChecks [] (fun _ => True) Unit (fun cp => cp.2 = (listChain cp.1).hash)
        ⟨⟨[fork2, fork1, listChain 0], [(0, [0, 0])]⟩, .stopped⟩ :=
      .step s6 (.stop _) (by intro cp h; cases h)
    have s8 : SyncReach listChecks [] (fun _ => True) Unit (fun cp => cp.2 = (listChain cp.1).hash)
        ⟨⟨[fork2, listChain 0], [(0, [0, 0])]⟩, .checked (1, [1, 0, 0, 0])⟩ :=
      .step s7 (.check _ (1, [1, 0, 0, 0]) _ trivial rfl) (by intro cp h; cases h; rfl)
    have s9 : SyncReach listChecks [] (fun _ => True) Unit (fun cp => cp.2 = (listChain cp.1).hash)
        ⟨⟨[fork2, listChain 0], [(0, [0, 0]), (1, [1, 0, 0, 0])]⟩, .headers (1, [1, 0, 0, 0])⟩ :=
      .step s8 (.anchor _ _) (by intro cp h; cases h)
    exact .step s9 (.stream _ _ ⟨1, [1, 0, 0, 0], 1, [0, 0]⟩ [((), listChain 1)] 1 rfl) (by intro cp h; cases h)
  · intro h
    obtain ⟨q, hq, h1, h2⟩ := h fork2 (by simp) (by decide)
    simp only [List.mem_cons, List.not_mem_nil, or_false] at hq
    rcases hq with rfl | rfl | rfl <;> simp [fork2, listChain, listHash] at h1 h2

end Verif.Sync
