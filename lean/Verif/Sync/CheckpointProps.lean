import Verif.Sync.CheckpointLemmas

/-!
# Headers secured by L1 (C62) and one chain (C63)
-/

namespace Verif.Sync

variable {P H B S : Type}

/-- The number is above every block L1 reported. -/
def Above (l1 : List (Nat × H)) (n : Nat) : Prop := ∀ a ∈ l1, a.1 < n

/-- What holds of the database in every reachable state. -/
structure Secure [DecidableEq H] (c : Checks H B S) (chain : Nat → Header H B S) (st : Store H B S) : Prop where
  unique : Unique st.headers
  ok : ∀ r ∈ st.headers, c.hashOk r = true
  l1 : ∀ a ∈ st.l1, a.2 = (chain a.1).hash
  secured : ∀ a ∈ st.l1, ∀ r ∈ st.headers, r.number ≤ a.1 → Same r (chain r.number)
  segment : ∀ r ∈ st.headers, r.number ≠ 0 → Above st.l1 r.number →
    (∃ q ∈ st.headers, q.number + 1 = r.number ∧ q.hash = r.parent) ∨
      ∀ q ∈ st.headers, q.number < r.number → ¬ Above st.l1 q.number

/-- What holds besides while the process is in a mode. -/
def ModeOk [DecidableEq H] (chain : Nat → Header H B S) (st : Store H B S) : Mode H → Prop
  | .stopped => True
  | .checked cp => cp.2 = (chain cp.1).hash ∧ (∀ a ∈ st.l1, a.1 ≤ cp.1) ∧
      ∀ r ∈ st.headers, r.number ≤ cp.1 → Same r (chain r.number)
  | .headers cp => cp.2 = (chain cp.1).hash ∧ cp ∈ st.l1 ∧ ∀ a ∈ st.l1, a.1 ≤ cp.1
  | .tracking n p => (∀ a ∈ st.l1, a.1 < n) ∧ (∀ r ∈ st.headers, r.number < n) ∧
      (n ≠ 0 → ∃ q ∈ st.headers, q.number + 1 = n ∧ q.hash = p)

theorem not_above {l1 : List (Nat × H)} {n : Nat} (h : ¬ Above l1 n) : ∃ a ∈ l1, n ≤ a.1 := by
  apply Classical.byContradiction
  intro hc
  exact h fun a ha => Nat.lt_of_not_le fun hle => hc ⟨a, ha, hle⟩

/-- If the analysis leads on, it is the analysis of the local chain against the highest block L1 reported. -/
theorem analyse_cases [DecidableEq H] {st : Store H B S} {cp : Nat × H} {db : Rows H B S}
    (hh : (analyse st cp).handle st.headers = some db) :
    ∃ an : Option Nat, analyse st cp =
        analyseLocal (highestBy (·.number) st.headers) (headerAt st.headers cp.1) an cp ∧
      (∀ n, an.elim 0 (· + 1) ≤ n ↔ Above st.l1 n) ∧ (∀ a ∈ st.l1, a.1 ≤ cp.1) := by
  unfold analyse at hh ⊢
  unfold latestL1 at hh ⊢
  cases hl : highestBy (fun a : Nat × H => a.1) st.l1 with
  | none =>
    have := highestBy_none hl
    exact ⟨none, rfl, by simp [Above, this], by simp [this]⟩
  | some a =>
    obtain ⟨h1, h2⟩ := highestBy_some hl
    rw [hl] at hh
    simp only at hh ⊢
    by_cases hlt : cp.1 < a.1
    · simp [hlt, Analysis.handle] at hh
    · by_cases he : cp.1 = a.1 ∧ cp.2 ≠ a.2
      · simp [he, Analysis.handle] at hh
      · refine ⟨some a.1, by simp only [if_neg hlt, if_neg he], ?_, ?_⟩
        · intro n
          simp only [Option.elim_some]
          constructor
          · intro hle x hx
            have := h2 x hx
            omega
          · intro ha
            exact ha a h1
        · intro x hx
          have := h2 x hx
          omega

/-- Between two rows above the reported blocks there is a row for every number. -/
theorem Secure.between [DecidableEq H] {c : Checks H B S} {chain : Nat → Header H B S} {st : Store H B S}
    (hs : Secure c chain st) {lo hi : Header H B S} (hlo : lo ∈ st.headers) (hhi : hi ∈ st.headers)
    (ha : Above st.l1 lo.number) : ∀ d, lo.number + d ≤ hi.number → ∃ r ∈ st.headers, r.number = hi.number - d := by
  intro d
  induction d with
  | zero => intro _; exact ⟨hi, hhi, rfl⟩
  | succ d ih =>
    intro hd
    obtain ⟨r, hr, hn⟩ := ih (by omega)
    rcases hs.segment r hr (by omega) (fun a h => by have := ha a h; omega) with ⟨q, hq, h1, -⟩ | hb
    · exact ⟨q, hq, by omega⟩
    · exact absurd ha (hb lo hlo (by omega))

/-- Rows above the reported blocks and below a row of the chain are of the chain. -/
theorem Secure.below [DecidableEq H] {c : Checks H B S} {chain : Nat → Header H B S} {st : Store H B S} (hbind : c.Binding)
    (hc : Chain c chain) (hs : Secure c chain st) {lo hi : Header H B S} (hlo : lo ∈ st.headers) (hhi : hi ∈ st.headers)
    (ha : Above st.l1 lo.number) (hle : lo.number ≤ hi.number) (hsame : Same hi (chain hi.number)) :
    Same lo (chain lo.number) := by
  have key : ∀ d, lo.number + d ≤ hi.number →
      ∃ r ∈ st.headers, r.number = hi.number - d ∧ Same r (chain r.number) := by
    intro d
    induction d with
    | zero => intro _; exact ⟨hi, hhi, rfl, hsame⟩
    | succ d ih =>
      intro hd
      obtain ⟨r, hr, hn, hrs⟩ := ih (by omega)
      rcases hs.segment r hr (by omega) (fun a h => by have := ha a h; omega) with ⟨q, hq, h1, h2⟩ | hb
      · refine ⟨q, hq, by omega, same_of_hash hbind hc (hs.ok q hq) ?_⟩
        rw [h2, hrs.2.2.1, ← h1, hc.linked]
      · exact absurd ha (hb lo hlo (by omega))
  obtain ⟨r, hr, hn, hrs⟩ := key (hi.number - lo.number) (by omega)
  rwa [hs.unique lo hlo r hr (by omega)]

theorem Secure.restrict [DecidableEq H] {c : Checks H B S} {chain : Nat → Header H B S} {st : Store H B S}
    (hs : Secure c chain st) {db : Rows H B S} (hsub : ∀ r ∈ db, r ∈ st.headers)
    (hseg : ∀ r ∈ db, r.number ≠ 0 → Above st.l1 r.number →
      (∃ q ∈ db, q.number + 1 = r.number ∧ q.hash = r.parent) ∨
        ∀ q ∈ db, q.number < r.number → ¬ Above st.l1 q.number) : Secure c chain { st with headers := db } where
  unique := fun r hr q hq he => hs.unique r (hsub r hr) q (hsub q hq) he
  ok := fun r hr => hs.ok r (hsub r hr)
  l1 := hs.l1
  secured := fun a ha r hr hle => hs.secured a ha r (hsub r hr) hle
  segment := hseg

theorem check_ok [DecidableEq H] {c : Checks H B S} {chain : Nat → Header H B S} (hbind : c.Binding) (hc : Chain c chain)
    {st : Store H B S} (hs : Secure c chain st) {cp : Nat × H} {db : Rows H B S}
    (hh : (analyse st cp).handle st.headers = some db) (hcp : cp.2 = (chain cp.1).hash) :
    Secure c chain { st with headers := db } ∧ ModeOk chain { st with headers := db } (.checked cp) := by
  obtain ⟨an, han, habove, hmax⟩ := analyse_cases hh
  rw [han] at hh
  have hlow : ∀ r ∈ st.headers, ¬ an.elim 0 (· + 1) ≤ r.number → Same r (chain r.number) := by
    intro r hr hn
    obtain ⟨a, ha, hle⟩ := not_above (fun h => hn ((habove _).mpr h))
    exact hs.secured a ha r hr hle
  have hlast : an.elim 0 (· + 1) ≤ cp.1 + 1 := (habove _).mpr fun a ha => by have := hmax a ha; omega
  have hmem : ∀ head r, r ∈ rollbackToAnchor st.headers head an ↔
      r ∈ st.headers ∧ ¬ (an.elim 0 (· + 1) ≤ r.number ∧ r.number ≤ head) := fun head r => mem_rollbackLoop head _
  generalize an.elim 0 (· + 1) = last at hlow hlast habove hmem
  unfold analyseLocal at hh
  cases hl : highestBy (fun r : Header H B S => r.number) st.headers with
  | none =>
    have he := highestBy_none hl
    simp only [hl, Analysis.handle, Option.some.injEq] at hh
    subst hh
    refine ⟨hs, hcp, hmax, ?_⟩
    intro r hr
    simp [he] at hr
  | some l =>
    obtain ⟨hl1, hl2⟩ := highestBy_some hl
    simp only [hl] at hh
    by_cases hgt : cp.1 > l.number
    · -- the checkpoint exceeds the local chain
      simp only [if_pos hgt, Analysis.handle, Option.some.injEq] at hh
      subst hh
      have hr' : ∀ r ∈ rollbackToAnchor st.headers l.number an, r ∈ st.headers ∧ ¬ last ≤ r.number := by
        intro r hr
        obtain ⟨h1, h2⟩ := (hmem _ r).mp hr
        have := hl2 r h1
        exact ⟨h1, by omega⟩
      refine ⟨hs.restrict (fun r hr => (hr' r hr).1) ?_, hcp, hmax, ?_⟩
      · intro r hr _ ha
        exact absurd ((habove _).mpr ha) (hr' r hr).2
      · intro r hr _
        exact hlow r (hr' r hr).1 (hr' r hr).2
    · rw [if_neg hgt] at hh
      cases hat : headerAt st.headers cp.1 with
      | none =>
        -- nothing is stored at the checkpoint
        simp only [hat, Analysis.handle, Option.some.injEq] at hh
        subst hh
        refine ⟨hs, hcp, hmax, ?_⟩
        intro r hr hle
        by_cases hla : last ≤ r.number
        · exfalso
          obtain ⟨x, hx, hxn⟩ := hs.between hr hl1 ((habove _).mp hla) (l.number - cp.1) (by omega)
          exact headerAt_none.mp hat ⟨x, hx, by omega⟩
        · exact hlow r hr hla
      | some x =>
        obtain ⟨hx, hxn⟩ := headerAt_some hat
        rw [hat] at hh
        by_cases hne : x.hash ≠ cp.2
        · -- another block is stored at the checkpoint
          simp only [if_pos hne, Analysis.handle, Option.some.injEq] at hh
          subst hh
          refine ⟨hs.restrict (fun r hr => ((hmem _ r).mp hr).1) ?_, hcp, hmax, ?_⟩
          · intro r hr h0 ha
            obtain ⟨h1, h2⟩ := (hmem _ r).mp hr
            have hla := (habove _).mpr ha
            rcases hs.segment r h1 h0 ha with ⟨q, hq, hqn, hqh⟩ | hb
            · by_cases hrem : last ≤ q.number ∧ q.number ≤ cp.1
              · right
                intro y hy hlt hya
                have hyl := (habove _).mpr hya
                have := ((hmem _ y).mp hy).2
                omega
              · exact .inl ⟨q, (hmem _ q).mpr ⟨hq, hrem⟩, hqn, hqh⟩
            · right
              intro q hq hlt
              exact hb q ((hmem _ q).mp hq).1 hlt
          · intro r hr hle
            obtain ⟨h1, h2⟩ := (hmem _ r).mp hr
            exact hlow r h1 (by omega)
        · -- the checkpoint is stored
          simp only [if_neg hne, Analysis.handle, Option.some.injEq] at hh
          subst hh
          refine ⟨hs, hcp, hmax, ?_⟩
          have hxs : Same x (chain x.number) := same_of_hash hbind hc (hs.ok x hx) (by
            rw [hxn, ← hcp]
            exact Classical.byContradiction fun h => hne h)
          intro r hr hle
          by_cases hla : last ≤ r.number
          · exact hs.below hbind hc hr hx ((habove _).mp hla) (by omega) hxs
          · exact hlow r hr hla

theorem anchor_ok [DecidableEq H] {c : Checks H B S} {chain : Nat → Header H B S} {st : Store H B S}
    (hs : Secure c chain st) {cp : Nat × H} (hm : ModeOk chain st (.checked cp)) :
    Secure c chain { st with l1 := upsertL1 st.l1 cp } ∧ ModeOk chain { st with l1 := upsertL1 st.l1 cp } (.headers cp) := by
  obtain ⟨h1, h2, h3⟩ := hm
  have habove : ∀ n, Above (upsertL1 st.l1 cp) n ↔ cp.1 < n := by
    intro n
    constructor
    · intro h; exact h cp (mem_upsertL1.mpr (.inr rfl))
    · intro h a ha
      rcases mem_upsertL1.mp ha with ⟨ha, -⟩ | rfl
      · have := h2 a ha; omega
      · exact h
  have hall : ∀ a ∈ upsertL1 st.l1 cp, a.1 ≤ cp.1 := by
    intro a ha
    rcases mem_upsertL1.mp ha with ⟨ha, -⟩ | rfl
    · exact h2 a ha
    · exact Nat.le_refl _
  refine ⟨⟨hs.unique, hs.ok, ?_, ?_, ?_⟩, h1, mem_upsertL1.mpr (.inr rfl), hall⟩
  · intro a ha
    rcases mem_upsertL1.mp ha with ⟨ha, -⟩ | rfl
    · exact hs.l1 a ha
    · exact h1
  · intro a ha r hr hle
    exact h3 r hr (Nat.le_trans hle (hall a ha))
  · intro r hr h0 ha
    have hlt := (habove _).mp ha
    rcases hs.segment r hr h0 (fun a ha => by have := h2 a ha; omega) with hq | hb
    · exact .inl hq
    · right
      intro q hq hqr hqa
      have hqlt := (habove _).mp hqa
      exact hb q hq hqr (fun a ha => by have := h2 a ha; omega)

/-- What a stream of headers adds. -/
theorem stream_rows [DecidableEq H] {c : Checks H B S} {chain : Nat → Header H B S} (hbind : c.Binding) (hc : Chain c chain)
    {st : Store H B S} (hs : Secure c chain st) {cp : Nat × H} (hm : ModeOk chain st (.headers cp)) {zero : H} {gap : Gap H}
    (hg : nextGap zero st.headers cp.1 cp.2 = some gap) (xs : List (P × Header H B S)) (k : Nat) :
    ∀ r ∈ (persistStream st.headers ((headerChunks c (gap.head, gap.headHash) xs).take k)).1,
      r ∈ st.headers ∨ (r.number ≤ cp.1 ∧ c.hashOk r = true ∧ Same r (chain r.number)) := by
  obtain ⟨h1, h2, h3⟩ := hm
  obtain ⟨-, hle, -, -, -, g6, g7⟩ := C40_gap zero st.headers cp.1 cp.2 gap hg
  have hhash : gap.headHash = (chain gap.head).hash := by
    rcases Nat.lt_or_eq_of_le hle with hlt | he
    · obtain ⟨r, hr, hn, hp⟩ := g7 hlt
      have := hs.secured cp h2 r hr (by omega)
      rw [← hp, this.2.2.1, hn, hc.linked]
    · rw [g6 he, h1, he]
  intro r hr
  rcases (persistStream_spec _ _).2.1 r hr with hr | ⟨p, chunk, hm, hr⟩
  · exact .inl hr
  · right
    obtain ⟨a1, a2⟩ := accepted_spec c gap.head gap.headHash xs
    have hv := chunk_values 1000 (by decide) _ p chunk (List.mem_of_mem_take hm) r hr
    rw [hhash] at a1 a2 hv
    have := linkedDown_same hbind hc _ gap.head a1 a2 r hv
    exact ⟨by omega, a2 r hv, this.2⟩

theorem stream_ok [DecidableEq H] {c : Checks H B S} {chain : Nat → Header H B S} (hbind : c.Binding) (hc : Chain c chain)
    {st : Store H B S} (hs : Secure c chain st) {cp : Nat × H} (hm : ModeOk chain st (.headers cp)) {zero : H} {gap : Gap H}
    (hg : nextGap zero st.headers cp.1 cp.2 = some gap) (xs : List (P × Header H B S)) (k : Nat) :
    Secure c chain
      { st with headers := (persistStream st.headers ((headerChunks c (gap.head, gap.headHash) xs).take k)).1 } := by
  have hrows := stream_rows hbind hc hs hm hg xs k
  obtain ⟨p1, -, p3⟩ := persistStream_spec ((headerChunks c (gap.head, gap.headHash) xs).take k) st.headers
  obtain ⟨h1, h2, h3⟩ := hm
  refine ⟨p3 hs.unique, ?_, hs.l1, ?_, ?_⟩
  · intro r hr
    rcases hrows r hr with hr | hr
    · exact hs.ok r hr
    · exact hr.2.1
  · intro a ha r hr hle
    rcases hrows r hr with hr | hr
    · exact hs.secured a ha r hr hle
    · exact hr.2.2
  · intro r hr h0 ha
    have hlt := ha cp h2
    rcases hrows r hr with hr | hr
    · rcases hs.segment r hr h0 ha with ⟨q, hq, hx⟩ | hb
      · exact .inl ⟨q, p1 q hq, hx⟩
      · right
        intro q hq hqr hqa
        rcases hrows q hq with hq | hq
        · exact hb q hq hqr hqa
        · have := hqa cp h2
          omega
    · omega

theorem complete_ok [DecidableEq H] (chain : Nat → Header H B S) (zero : H) (st : Store H B S) {cp : Nat × H}
    (hm : ModeOk chain st (.headers cp)) (hg : nextGap zero st.headers cp.1 cp.2 = none) :
    ModeOk chain st (.tracking (continueFrom zero st.headers).1 (continueFrom zero st.headers).2) := by
  obtain ⟨r, hr, hn⟩ := (C40_none zero st.headers cp.1 cp.2).mp hg cp.1 (Nat.le_refl _)
  unfold continueFrom
  cases hl : highestBy (fun r : Header H B S => r.number) st.headers with
  | none =>
    rw [highestBy_none hl] at hr
    simp at hr
  | some l =>
    obtain ⟨h1, h2⟩ := highestBy_some hl
    refine ⟨fun a ha => ?_, fun r hr => Nat.lt_succ_of_le (h2 r hr), fun _ => ⟨l, h1, rfl, rfl⟩⟩
    have := hm.2.2 a ha
    have := h2 r hr
    simp only
    omega

theorem verify_hashOk [DecidableEq H] {c : Checks H B S} {p : P} {h : Header H B S} (hv : c.verify () p h = .ok (h, ())) :
    c.hashOk h = true := by
  unfold Checks.verify at hv
  split at hv
  · simp at hv
  · rename_i hn
    simpa using hn

theorem forward_ok [DecidableEq H] {n : Nat} {p : H} {peer : P} {h : Header H B S} {s : Nat × H}
    (hf : forwardContinuity (n, p) peer h = .ok (h, s)) : h.number = n ∧ h.parent = p ∧ s = (n + 1, h.hash) := by
  unfold forwardContinuity at hf
  split at hf
  · simp at hf
  · rename_i hn
    simp only [ne_eq, not_or, Classical.not_not] at hn
    simp only [Except.ok.injEq, Prod.mk.injEq, true_and] at hf
    exact ⟨hn.1, hn.2, hf.symm⟩

theorem track_ok [DecidableEq H] {c : Checks H B S} {chain : Nat → Header H B S} {st : Store H B S} (hs : Secure c chain st)
    {n : Nat} {p : H} (hm : ModeOk chain st (.tracking n p)) {peer : P} {h : Header H B S} {s : Nat × H} {db : Rows H B S}
    (hf : forwardContinuity (n, p) peer h = .ok (h, s)) (hv : c.verify () peer h = .ok (h, ()))
    (hi : insertHeader st.headers h = some db) :
    Secure c chain { st with headers := db } ∧ ModeOk chain { st with headers := db } (.tracking s.1 s.2) := by
  obtain ⟨h1, h2, rfl⟩ := forward_ok hf
  obtain ⟨rfl, -, -⟩ := insertHeader_some hi
  obtain ⟨hall, m1, m2⟩ := hm
  refine ⟨⟨insertHeader_unique hi hs.unique, ?_, hs.l1, ?_, ?_⟩, ?_, ?_, ?_⟩
  · intro r hr
    rcases List.mem_cons.mp hr with rfl | hr
    · exact verify_hashOk hv
    · exact hs.ok r hr
  · intro a ha r hr hle
    rcases List.mem_cons.mp hr with rfl | hr
    · have := hall a ha; omega
    · exact hs.secured a ha r hr hle
  · intro r hr h0 ha
    rcases List.mem_cons.mp hr with rfl | hr
    · left
      obtain ⟨q, hq, hqn, hqh⟩ := m2 (by omega)
      exact ⟨q, List.mem_cons_of_mem _ hq, by omega, by rw [hqh, h2]⟩
    · rcases hs.segment r hr h0 ha with ⟨q, hq, hx⟩ | hb
      · exact .inl ⟨q, List.mem_cons_of_mem _ hq, hx⟩
      · right
        intro q hq hqr
        rcases List.mem_cons.mp hq with hq | hq
        · have := m1 r hr
          rw [hq] at hqr
          omega
        · exact hb q hq hqr
  · intro a ha
    have := hall a ha
    simp only
    omega
  · intro r hr
    rcases List.mem_cons.mp hr with rfl | hr
    · simp only; omega
    · have := m1 r hr
      simp only; omega
  · intro _
    exact ⟨h, by simp, by simp only; omega, rfl⟩

theorem reach_secure [DecidableEq H] {c : Checks H B S} {chain : Nat → Header H B S} (hbind : c.Binding) (hc : Chain c chain)
    {zero : H} {admit : Analysis → Prop} {node : Node H B S}
    (hr : SyncReach c zero admit P (fun cp => cp.2 = (chain cp.1).hash) node) :
    Secure c chain node.store ∧ ModeOk chain node.store node.mode := by
  induction hr with
  | start =>
    exact ⟨⟨by intro r hr; simp at hr, by simp, by simp, by simp, by simp⟩, trivial⟩
  | step _ hstep hhonest ih =>
    obtain ⟨hs, hm⟩ := ih
    cases hstep with
    | check st cp db ha hh => exact check_ok hbind hc hs hh (hhonest cp rfl)
    | anchor st cp => exact anchor_ok hs hm
    | stream st cp gap xs k hg => exact ⟨stream_ok hbind hc hs hm hg xs k, hm⟩
    | complete st cp hg => exact ⟨hs, complete_ok chain zero st hm hg⟩
    | track st n p peer h s db hf hv hi => exact track_ok hs hm hf hv hi
    | stop n => exact ⟨hs, trivial⟩

/-- C62. Whatever peers send and wherever runs are interrupted, every stored header with a number up to a block that was
reported by L1 is the header of the chain L1 reports. -/
theorem C62_secured [DecidableEq H] (c : Checks H B S) (chain : Nat → Header H B S) (hbind : c.Binding) (hc : Chain c chain)
    (zero : H) (node : Node H B S) (hr : SyncReach c zero (fun _ => True) P (fun cp => cp.2 = (chain cp.1).hash) node)
    (cp : Nat × H) (hcp : cp ∈ node.store.l1) (r : Header H B S) (hmem : r ∈ node.store.headers) (hle : r.number ≤ cp.1) :
    Same r (chain r.number) :=
  (reach_secure hbind hc hr).1.secured cp hcp r hmem hle

/-- C62. When the header phase of a run is over, all headers from genesis to the checkpoint are stored, each once, and they
are those of the chain L1 reports. -/
theorem C62_complete [DecidableEq H] (c : Checks H B S) (chain : Nat → Header H B S) (hbind : c.Binding) (hc : Chain c chain)
    (zero : H) (st : Store H B S) (cp : Nat × H)
    (hr : SyncReach c zero (fun _ => True) P (fun cp => cp.2 = (chain cp.1).hash) ⟨st, .headers cp⟩)
    (hg : nextGap zero st.headers cp.1 cp.2 = none) (n : Nat) (hn : n ≤ cp.1) :
    (∃ r ∈ st.headers, Same r (chain n)) ∧ ∀ r ∈ st.headers, ∀ q ∈ st.headers, r.number = n → q.number = n → r = q := by
  obtain ⟨hs, hm⟩ := reach_secure hbind hc hr
  obtain ⟨r, hr, hrn⟩ := (C40_none zero st.headers cp.1 cp.2).mp hg n hn
  refine ⟨⟨r, hr, ?_⟩, fun r hr q hq h1 h2 => hs.unique r hr q hq (h1.trans h2.symm)⟩
  have := hs.secured cp hm.2.1 r hr (by omega)
  rwa [hrn] at this

end Verif.Sync
