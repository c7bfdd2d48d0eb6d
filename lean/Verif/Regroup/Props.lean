import Verif.Regroup.RunLemmas
/-!
# Opening an old database keeps its transactions (C104)
-/
namespace Verif.Regroup
open Verif.Block (F Tx Receipt Event)
open Verif.Body (DB Row Hdr)

variable {E : Type}

/-- **C104.** Whichever way the threads take turns: if the migration ends without an error, then every block reads, in every way, as the transactions,
receipts and events the old table had for it, in their order; and every transaction is found by its hash where it was, with its receipt and its events. -/
theorem C104_kept (w : World E) (h : OldOk w) (hw : 0 < w.workers) (acts : List Act) (s : Sys E) (e : run w (start w) acts = some s)
    (hd : s.phase = .done) :
    s.db.headers = w.headers ∧
    (∀ x ∈ w.headers, ∃ l, Verif.Body.Reads s.db x.number l ∧ ∀ i t, l[i]? = some t ↔ At w x.number i t) ∧
    (∀ x n t r ev, s.db.withReceipt x = .ok (some (n, t, r, ev)) ↔ ∃ i, At w n i ((t, r), ev) ∧ t.hash = x) ∧
    (∀ x, s.db.withReceipt x ≠ .error ()) := by
  have hi := inv_run (inv_start w) e
  have ha := done_all hi hw hd
  have hown := done_owned h hi hw hd
  have hc := all_core h ha
  refine ⟨hi.headers, ?_, ?_, ?_⟩
  · intro x hx
    exact all_reads h ha (mem_numbers.2 ⟨x, hx, rfl⟩)
  · intro x n t r ev
    rw [(Verif.Body.receipt_core hc x).1]
    constructor
    · rintro ⟨l, i, h1, h2, h3⟩
      have hn : n ∈ w.numbers := by
        apply (header_some ha.headers).1
        unfold DB.dataFor at h1
        rcases hx : s.db.header n with _ | y
        · rw [hx] at h1; cases h1
        · exact ⟨y, rfl⟩
      obtain ⟨l', g1, g2⟩ := all_reads h ha hn
      rw [g1.data] at h1
      cases h1
      exact ⟨i, (g2 i _).1 h2, h3⟩
    · rintro ⟨i, h1, h2⟩
      have hn : n ∈ w.numbers := by
        obtain ⟨r', k1, k2, -⟩ := h1
        rw [← k2]
        exact mem_numbers.2 (hown r' k1)
      obtain ⟨l, g1, g2⟩ := all_reads h ha hn
      exact ⟨l, i, g1.data, (g2 i _).2 h1, h2⟩
  · intro x k
    obtain ⟨n, l, t, r, -, h2, h3, h4⟩ := (Verif.Body.receipt_core hc x).2 k
    have hn : n ∈ w.numbers := by
      apply (header_some ha.headers).1
      unfold DB.dataFor at h4
      rcases hx : s.db.header n with _ | y
      · rw [hx] at h4; cases h4
      · exact ⟨y, rfl⟩
    obtain ⟨l', g1, -⟩ := all_reads h ha hn
    rw [g1.data] at h4
    cases h4
    rw [g1.transactions] at h2
    cases h2
    exact h3 rfl

/-- **C104: nothing is left out silently.** A migration that ends without an error could decode every row, and every row was of a block with a header. -/
theorem C104_complete (w : World E) (h : OldOk w) (hw : 0 < w.workers) (acts : List Act) (s : Sys E) (e : run w (start w) acts = some s)
    (hd : s.phase = .done) : Decodes w ∧ Owned w := by
  have hi := inv_run (inv_start w) e
  have hown := done_owned h hi hw hd
  refine ⟨?_, hown⟩
  intro r hr
  rcases hx : w.decode r.body with _ | t
  · exfalso
    obtain ⟨q, -, h2⟩ := all_row h (done_all hi hw hd) (mem_numbers.2 (hown r hr))
    rw [regroup_none.2 ⟨r, hr, rfl, hx⟩] at h2
    cases h2
  · rfl

/-- **C104: it ends.** If every row can be decoded and is of a block with a header, then, whichever way the threads take turns, the migration does not fail,
some thread can go on until it is done, and it is done after a number of steps that is linear in the number of blocks. -/
theorem C104_ends (w : World E) (h : OldOk w) (hd : Decodes w) (ho : Owned w) (hw : 0 < w.workers) (acts : List Act) (s : Sys E)
    (e : run w (start w) acts = some s) :
    s.phase ≠ .failed ∧ (Stuck w s → s.phase = .done) ∧ acts.length ≤ 5 * w.headers.length + w.workers + 2 := by
  have hi := inv_run (inv_start w) e
  have hf := ok_run h hd ho hw (inv_start w) (by simp [start]) e
  refine ⟨hf, ?_, ?_⟩
  · intro hs
    rcases stuck_cases hi hs with g | g | ⟨-, -, -, -, -, g⟩
    · exact g
    · exact absurd g hf
    · exfalso
      have := dead_le h hi (bad := []) w.numbers.length (by
        rintro m - ⟨r, h1, -, h3⟩
        have := hd r h1
        rw [h3] at this
        cases this) (by omega)
      simp only [List.length_nil] at this
      omega
  · have := run_measure e
    rw [start_measure] at this
    omega

/-- **F103: C104 fails if a row cannot be decoded.** If one of the blocks of the first batch has a row that cannot be decoded, and fewer blocks of that batch
have one than there are threads, then the migration neither ends nor fails: whichever way the threads take turns, after finitely many steps the main thread
waits for a result that does not come, and the other threads for work that does not come. The node hangs while it starts, at every start. -/
theorem C104_hang_violated (w : World E) (h : OldOk w) (hlen : w.batch ≤ w.headers.length) (bad : List Nat) (hlt : bad.length < w.workers)
    (hb : ∀ n ∈ w.numbers.take w.batch, Bad w n → n ∈ bad) (n : Nat) (hn : n ∈ w.numbers.take w.batch) (hbn : Bad w n) :
    (∀ acts s, run w (start w) acts = some s →
      s.phase ≠ .done ∧ s.phase ≠ .failed ∧ acts.length ≤ 5 * w.headers.length + w.workers + 2 ∧
      ∃ acts' s', run w s acts' = some s' ∧ Stuck w s' ∧ s'.results = [] ∧ 0 < s'.idle ∧ ∃ k, s'.phase = .drain k) := by
  intro acts s e
  have hi := inv_run (inv_start w) e
  have hf : First w s := first_run h hb hlt hn hbn hlen (inv_start w) (.inl ⟨0, rfl, rfl⟩) e
  have hph : ∀ s : Sys E, First w s → s.phase ≠ .done ∧ s.phase ≠ .failed := by
    rintro s (⟨k, hp, -⟩ | ⟨l, hp, -⟩) <;> rw [hp] <;> simp
  refine ⟨(hph s hf).1, (hph s hf).2, ?_, ?_⟩
  · have := run_measure e
    rw [start_measure] at this
    omega
  · obtain ⟨acts', s', h1, h2⟩ := reach_stuck w s.measure s (Nat.le_refl _)
    have hi' := inv_run hi h1
    have hf' := first_run h hb hlt hn hbn hlen hi hf h1
    rcases stuck_cases hi' h2 with g | g | ⟨g1, -, -, g4, g5, -⟩
    · exact absurd g (hph s' hf').1
    · exact absurd g (hph s' hf').2
    · exact ⟨acts', s', h1, h2, g4, g5, g1⟩

/-! ## Cases -/

/-- A block header for the cases below. -/
def sampleHdr (n : Nat) : Hdr := ⟨n, ⟨0, 13, 0, 0⟩, 0, 0, 0, 0, 0⟩

/-- Rows are decoded from the hash of the transaction; zero cannot be decoded. -/
def sampleDecode (x : Nat) : Option ((Tx × Receipt) × List Event) :=
  if x = 0 then none else some ((⟨Fin.ofNat _ x, .deploy⟩, ⟨Fin.ofNat _ x, 0, [], none, 0, 0, 0, 0⟩), [⟨1, [], []⟩])

/-- Two blocks, the first with two transactions; four threads. -/
def sample : World Nat :=
  { headers := [sampleHdr 1, sampleHdr 0], old := [⟨11, 1, 0, 11⟩, ⟨20, 0, 1, 20⟩, ⟨10, 0, 0, 10⟩], decode := sampleDecode, batch := 50, workers := 4 }

/-- The same with a row that cannot be decoded, and batches of two blocks. -/
def damaged : World Nat :=
  { sample with old := [⟨11, 1, 0, 11⟩, ⟨20, 0, 1, 20⟩, ⟨10, 0, 0, 0⟩], batch := 2 }

theorem sample_ok : OldOk sample := by
  refine ⟨by decide, by decide, ?_, ?_⟩
  · intro n
    match n with
    | 0 => decide
    | 1 => decide
    | n + 2 => simp [sample]
  · intro r hr t e
    simp only [sample, List.mem_cons, List.not_mem_nil, or_false] at hr
    rcases hr with rfl | rfl | rfl <;> (cases e; decide)

theorem damaged_ok : OldOk damaged := by
  refine ⟨by decide, by decide, ?_, ?_⟩
  · intro n
    match n with
    | 0 => decide
    | 1 => decide
    | n + 2 => simp [sample, damaged]
  · intro r hr t e
    simp only [damaged, List.mem_cons, List.not_mem_nil, or_false] at hr
    rcases hr with rfl | rfl | rfl
    · cases e; decide
    · cases e; decide
    · cases e

theorem sample_decodes : Decodes sample := by
  intro r hr
  simp only [sample, List.mem_cons, List.not_mem_nil, or_false] at hr
  rcases hr with rfl | rfl | rfl <;> decide

theorem sample_owned : Owned sample := by
  intro r hr
  simp only [sample, List.mem_cons, List.not_mem_nil, or_false] at hr
  rcases hr with rfl | rfl | rfl
  · exact ⟨sampleHdr 0, by simp [sample], rfl⟩
  · exact ⟨sampleHdr 1, by simp [sample], rfl⟩
  · exact ⟨sampleHdr 0, by simp [sample], rfl⟩

/-- There are runs to the end. -/
theorem sample_done : ∃ acts s, run sample (start sample) acts = some s ∧ s.phase = .done := by
  obtain ⟨acts, s, h1, h2⟩ := reach_stuck sample _ (start sample) (Nat.le_refl _)
  exact ⟨acts, s, h1, (C104_ends sample sample_ok sample_decodes sample_owned (by decide) acts s h1).2.1 h2⟩

example : ∃ s : Sys Nat, ∃ r ev, s.db.withReceipt 11 = .ok (some (0, ⟨11, .deploy⟩, r, ev)) := by
  obtain ⟨acts, s, h1, h2⟩ := sample_done
  refine ⟨s, _, _, ((C104_kept sample sample_ok (by decide) acts s h1 h2).2.2.1 11 0 ⟨11, .deploy⟩ _ _).2
    ⟨1, ⟨⟨11, 1, 0, 11⟩, by simp [sample], rfl, rfl, rfl⟩, rfl⟩⟩

example : Decodes sample ∧ Owned sample := by
  obtain ⟨acts, s, h1, h2⟩ := sample_done
  exact C104_complete sample sample_ok (by decide) acts s h1 h2

example := C104_ends sample sample_ok sample_decodes sample_owned (by decide) [] (start sample) rfl

example : ∃ acts s, run damaged (start damaged) acts = some s ∧ Stuck damaged s ∧ ∃ k, s.phase = .drain k := by
  have hnum : damaged.numbers.take damaged.batch = damaged.numbers := by
    apply List.take_of_length_le
    simp [World.numbers, damaged, sample]
  obtain ⟨-, -, -, acts, s, h1, h2, -, -, h3⟩ := C104_hang_violated damaged damaged_ok (by decide) [0] (by decide)
    (by
      rintro n - ⟨r, hr, hn, hd⟩
      simp only [damaged, List.mem_cons, List.not_mem_nil, or_false] at hr
      rcases hr with rfl | rfl | rfl
      · cases hd
      · cases hd
      · simp [← hn])
    0 (by rw [hnum]; exact mem_numbers.2 ⟨sampleHdr 0, by simp [damaged, sample], rfl⟩)
    ⟨⟨10, 0, 0, 0⟩, by simp [damaged], rfl, rfl⟩ [] (start damaged) rfl
  exact ⟨acts, s, h1, h2, h3⟩

end Verif.Regroup
