import Verif.Regroup.TableLemmas
/-!
# Runs end, and do not fail
-/
namespace Verif.Regroup
open Verif.Block (F Tx Receipt Event)
open Verif.Body (DB Row Hdr)

variable {E : Type}

/-- What is left to do. -/
def Phase.weight : Phase → Nat
  | .feed _ => 2
  | .drain _ => 2
  | .final => 1
  | .done => 0
  | .failed => 0

/-- What is left to do. -/
def Sys.measure (s : Sys E) : Nat :=
  5 * s.todo.length + 4 * s.queue.length + 3 * s.busy.length + s.results.length + s.idle + s.phase.weight

theorem store_measure (s : Sys E) {r : Row} {rs : List Row} (hr : s.results = r :: rs) {p : Phase} (hp : p.weight ≤ s.phase.weight) (h0 : 0 < s.phase.weight) :
    (store s r rs p).measure < s.measure := by
  unfold store
  rcases insertRow s.db r with _ | db
  · have : Phase.failed.weight = 0 := rfl
    simp only [Sys.measure]
    omega
  · simp only [Sys.measure, hr, List.length_cons]
    omega

theorem step_measure {w : World E} {s s' : Sys E} {a : Act} (e : step w s a = some s') : s'.measure < s.measure := by
  cases a with
  | send =>
    unfold step at e
    rcases hp : s.phase with k | k | _ | _ | _ <;> simp only [hp] at e
    case feed =>
      rcases ht : s.todo with _ | ⟨n, rest⟩ <;> simp only [ht] at e
      · cases e
      · rcases hx : insertIndex n (w.rowsOf n) s.db.hashes with _ | t <;> simp only [hx] at e
        · cases e
          simp only [Sys.measure, hp, ht, Phase.weight]
          omega
        · by_cases ha : s.alive = 0
          · rw [if_pos ha] at e
            cases e
            simp only [Sys.measure, hp, ht, Phase.weight]
            omega
          · rw [if_neg ha] at e
            cases e
            have : (if k + 1 ≥ w.batch then Phase.drain (k + 1) else .feed (k + 1)).weight = 2 := by split <;> rfl
            simp only [Sys.measure, hp, ht, this, List.length_append, List.length_cons, List.length_nil]
            simp only [Phase.weight]
            omega
    all_goals cases e
  | close =>
    unfold step at e
    rcases hp : s.phase with k | k | _ | _ | _ <;> simp only [hp] at e
    case feed =>
      rcases ht : s.todo with _ | ⟨n, rest⟩ <;> simp only [ht] at e
      · cases e
        simp only [Sys.measure, hp, ht, Phase.weight]
        omega
      · cases e
    all_goals cases e
  | recv =>
    unfold step at e
    rcases hp : s.phase with k | k | _ | _ | _ <;> simp only [hp] at e
    case drain =>
      rcases k with _ | l
      · cases e
      · rcases hr : s.results with _ | ⟨r, rs⟩ <;> simp only [hr] at e
        · split at e
          · cases e
            simp only [Sys.measure, hp, hr, Phase.weight]
            omega
          · cases e
        · cases e
          refine store_measure s hr ?_ (by rw [hp]; exact Nat.zero_lt_two)
          rw [hp]
          split <;> exact Nat.le_refl _
    case final =>
      rcases hr : s.results with _ | ⟨r, rs⟩ <;> simp only [hr] at e
      · split at e
        · cases e
          have : (if s.inserted = w.old.length ∧ s.dead = 0 then Phase.done else .failed).weight = 0 := by split <;> rfl
          simp only [Sys.measure, hp, hr, this]
          simp only [Phase.weight]
          omega
        · cases e
      · cases e
        exact store_measure s hr (by rw [hp]; exact Nat.le_refl _) (by rw [hp]; decide)
    all_goals cases e
  | take =>
    unfold step at e
    rcases hq : s.queue with _ | ⟨j, q⟩ <;> simp only [hq] at e
    · cases e
    · rcases hd : s.idle with _ | i <;> simp only [hd] at e
      · cases e
      · cases e
        simp only [Sys.measure, hq, hd, List.length_append, List.length_cons, List.length_nil]
        omega
  | work i =>
    unfold step at e
    simp only at e
    rcases hb : s.busy[i]? with _ | j <;> simp only [hb] at e
    · cases e
    · have hlt := (List.getElem?_eq_some_iff.1 hb).1
      have hlen := List.length_eraseIdx_of_lt hlt
      rcases hx : regroup w j with _ | r <;> simp only [hx] at e <;> cases e
      · simp only [Sys.measure, hlen]
        omega
      · simp only [Sys.measure, hlen, List.length_append, List.length_cons, List.length_nil]
        omega
  | leave =>
    unfold step at e
    simp only at e
    split at e
    · next hc =>
      cases e
      simp only [Sys.measure]
      omega
    · cases e

theorem run_measure {w : World E} : ∀ {acts : List Act} {s s' : Sys E}, run w s acts = some s' → acts.length + s'.measure ≤ s.measure
  | [], s, s', e => by cases e; simp
  | a :: l, s, s', e => by
    rw [run] at e
    obtain ⟨t, h1, h2⟩ := Option.bind_eq_some_iff.1 e
    have := step_measure h1
    have := run_measure h2
    simp only [List.length_cons]
    omega

theorem start_measure (w : World E) : (start w).measure = 5 * w.headers.length + w.workers + 2 := by
  simp [Sys.measure, start, Phase.weight, World.numbers]

theorem run_append {w : World E} : ∀ {a b : List Act} {s : Sys E}, run w s (a ++ b) = (run w s a).bind fun s' => run w s' b
  | [], b, s => rfl
  | x :: a, b, s => by
    simp only [List.cons_append, run]
    rcases step w s x with _ | t
    · rfl
    · exact run_append (a := a)

/-- From every state one comes to a state in which nobody can do anything. -/
theorem reach_stuck (w : World E) : ∀ (m : Nat) (s : Sys E), s.measure ≤ m → ∃ acts s', run w s acts = some s' ∧ Stuck w s'
  | m, s, hm => by
    by_cases h : Stuck w s
    · exact ⟨[], s, rfl, h⟩
    · unfold Stuck at h
      have h' : ∃ a s', step w s a = some s' := by
        apply Classical.byContradiction
        intro k
        apply h
        intro a
        rcases hx : step w s a with _ | s'
        · rfl
        · exact absurd ⟨a, s', hx⟩ k
      obtain ⟨a, s', e⟩ := h'
      have := step_measure e
      match m, hm with
      | 0, hm => omega
      | m + 1, hm =>
        obtain ⟨acts, t, h1, h2⟩ := reach_stuck w m s' (by omega)
        exact ⟨a :: acts, t, by rw [run, e]; exact h1, h2⟩

/-- Who waits for ever: only the main thread, for the result of a worker that panicked. -/
theorem stuck_cases {w : World E} {s : Sys E} (hi : Inv w s) (hs : Stuck w s) :
    s.phase = .done ∨ s.phase = .failed ∨ (∃ k, s.phase = .drain k) ∧ s.queue = [] ∧ s.busy = [] ∧ s.results = [] ∧ 0 < s.idle ∧ 0 < s.dead := by
  have hb : s.busy = [] := by
    rcases hb : s.busy with _ | ⟨j, b⟩
    · rfl
    · have := hs (.work 0)
      unfold step at this
      simp only [hb, List.getElem?_cons_zero] at this
      rcases hx : regroup w j with _ | r <;> simp only [hx] at this <;> cases this
  have hq : s.queue = [] ∨ s.idle = 0 := by
    rcases hq : s.queue with _ | ⟨j, q⟩
    · exact .inl rfl
    · rcases hd : s.idle with _ | i
      · exact .inr rfl
      · have := hs .take
        unfold step at this
        simp only [hq, hd] at this
        cases this
  have hr := hs .recv
  rcases hp : s.phase with k | k | _ | _ | _
  · exfalso
    rcases ht : s.todo with _ | ⟨n, rest⟩
    · have := hs .close
      unfold step at this
      simp only [hp, ht] at this
      cases this
    · have := hs .send
      unfold step at this
      simp only [hp, ht] at this
      split at this
      · cases this
      · split at this <;> cases this
  · obtain ⟨h1, h2⟩ := hi.drain k hp
    rcases k with _ | l
    · omega
    · unfold step at hr
      rcases hres : s.results with _ | ⟨r, rs⟩
      · simp only [hp, hres] at hr
        split at hr
        · cases hr
        · next ha =>
          unfold Sys.alive at ha
          rw [hb] at ha
          have hq' : s.queue = [] := by
            rcases hq with h | h
            · exact h
            · exact absurd (by simp [h]) ha
          simp only [hq', hb, hres, List.length_nil] at h1
          simp only [List.length_nil, Nat.add_zero] at ha
          exact .inr (.inr ⟨⟨_, rfl⟩, hq', hb, rfl, by omega, by omega⟩)
      · simp only [hp, hres] at hr
        cases hr
  · exfalso
    unfold step at hr
    rcases hres : s.results with _ | ⟨r, rs⟩
    · simp only [hp, hres] at hr
      split at hr
      · cases hr
      · next ha =>
        unfold Sys.alive at ha
        rw [hb] at ha
        simp only [List.length_nil, Nat.add_zero] at ha
        have hq' : s.queue = [] := by
          rcases hq with h | h
          · exact h
          · exact absurd h ha
        have hl := hs .leave
        unfold step at hl
        simp only at hl
        rw [if_pos ⟨hp, hq', by omega⟩] at hl
        cases hl
    · simp only [hp, hres] at hr
      cases hr
  · exact .inl rfl
  · exact .inr (.inl rfl)

/-- If the workers have all ended none of them by a panic, then all is stored. -/
theorem all_of {w : World E} {s : Sys E} (hi : Inv w s) (ht : s.todo = []) (hq : s.queue = []) (hb : s.busy = []) (hr : s.results = []) (hd : s.dead = 0) :
    All w s.db := by
  obtain ⟨out, ended, gone, hj⟩ := hi.jobs
  have hn := hj.sent
  rw [ht, List.append_nil] at hn
  have hg : gone = [] := List.length_eq_zero_iff.1 (hj.dead.trans hd)
  refine ⟨hi.headers, by rw [hj.hashes, hn], ended, ?_, ?_⟩
  · have := hj.perm
    rw [hq, hb, hg] at this
    rw [hn]
    simpa using this
  · rw [hj.fin, hr, List.append_nil]

theorem done_all {w : World E} {s : Sys E} (hi : Inv w s) (hw : 0 < w.workers) (hd : s.phase = .done) : All w s.db := by
  obtain ⟨h1, h2, h3, h4, h5⟩ := hi.done hd
  have h6 := hi.workers
  rw [h2, h3, h5] at h6
  simp only [List.length_nil] at h6
  have hl : s.left ≠ 0 := by omega
  exact all_of hi (hi.final (.inr hd)) (hi.left hl).1 h2 h1 h5

theorem done_owned {w : World E} (h : OldOk w) {s : Sys E} (hi : Inv w s) (hw : 0 < w.workers) (hd : s.phase = .done) : Owned w := by
  have ha := done_all hi hw hd
  have h1 := all_count h ha
  rw [← hi.inserted, (hi.done hd).2.2.2.1] at h1
  have h2 := List.length_filter_eq_length_iff.1 h1.symm
  intro r hr
  have := h2 r hr
  simp only [List.contains_iff_mem] at this
  exact mem_numbers.1 this

/-- A block that is handed out has new hashes. -/
theorem send_index {w : World E} (h : OldOk w) {s : Sys E} (hi : Inv w s) {n : Nat} {rest : List Nat} (ht : s.todo = n :: rest) :
    insertIndex n (w.rowsOf n) s.db.hashes ≠ none := by
  obtain ⟨out, ended, gone, hj⟩ := hi.jobs
  have hnd := numbers_nodup h
  rw [hj.sent, ht] at hnd
  apply insertIndex_ok
  · exact ((rowsOf_perm w n).map (·.hash)).nodup_iff.2 (h.hashes.sublist (List.filter_sublist.map _))
  · intro x hx r hr e
    rw [hj.hashes, List.mem_flatMap] at hr
    obtain ⟨m, hm, hr⟩ := hr
    simp only [index, List.mem_map] at hr
    obtain ⟨y, hy, rfl⟩ := hr
    obtain ⟨g1, g2⟩ := mem_rowsOf.1 hx
    obtain ⟨g1', g2'⟩ := mem_rowsOf.1 hy
    have := inj_of_nodup h.hashes g1' g1 e
    subst this
    rw [List.nodup_append] at hnd
    exact hnd.2.2 m hm n (by simp) (g2'.symm.trans g2)

/-- A result can be stored. -/
theorem store_ok {w : World E} (h : OldOk w) {s : Sys E} (hi : Inv w s) {r : Row} {rs : List Row} (hr : s.results = r :: rs) : insertRow s.db r ≠ none := by
  obtain ⟨out, ended, gone, hj⟩ := hi.jobs
  have hfin := hj.fin
  have hnum := numbers_of hfin
  have hnd : (ended.map (·.number)).Nodup := by
    have hp := hj.perm.map (·.number)
    rw [job_number] at hp
    have ho : out.Nodup := by
      have := numbers_nodup h
      rw [hj.sent] at this
      exact (List.nodup_append.1 this).1
    have := hp.nodup_iff.1 ho
    simp only [List.map_append] at this
    exact (List.nodup_append.1 (List.nodup_append.1 (List.nodup_append.1 this).2.1).2.1).1
  have hmem : r.number ∈ w.numbers := by
    have : r.number ∈ ended.map (·.number) := by
      rw [← hnum, hr]
      simp
    obtain ⟨j, hje, hjn⟩ := List.mem_map.1 this
    have : j ∈ out.map (job w) := hj.perm.mem_iff.2 (by simp [hje])
    obtain ⟨n, hn, rfl⟩ := List.mem_map.1 this
    rw [← hjn, hj.sent]
    exact List.mem_append.2 (.inl hn)
  unfold insertRow
  rw [if_neg]
  · simp
  · intro k
    rw [Bool.or_eq_true] at k
    rcases k with k | k
    · obtain ⟨x, hx⟩ := (header_some hi.headers).2 hmem
      rw [hx] at k
      cases k
    · rw [List.any_eq_true] at k
      obtain ⟨x, hx, e⟩ := k
      rw [← hnum, hr, List.map_append, List.map_cons, List.nodup_append] at hnd
      exact hnd.2.2 x.number (List.mem_map_of_mem hx) r.number (by simp) (by simpa using e)

theorem store_phase {w : World E} (h : OldOk w) {s : Sys E} (hi : Inv w s) {r : Row} {rs : List Row} (hr : s.results = r :: rs) (p : Phase) :
    (store s r rs p).phase = p ∧ (store s r rs p).db.rows = s.db.rows ++ [r] := by
  unfold store
  rcases hx : insertRow s.db r with _ | db
  · exact absurd hx (store_ok h hi hr)
  · exact ⟨rfl, by rw [insertRow_some hx]⟩

/-- The jobs that are lost are those of blocks that cannot be decoded. -/
theorem dead_le {w : World E} (h : OldOk w) {s : Sys E} (hi : Inv w s) {bad : List Nat} (n : Nat) (hb : ∀ m ∈ w.numbers.take n, Bad w m → m ∈ bad)
    (ho : w.numbers.length ≤ n + s.todo.length) : s.dead ≤ bad.length := by
  obtain ⟨out, ended, gone, hj⟩ := hi.jobs
  rw [← hj.dead, ← List.length_map (f := (·.number))]
  apply List.Nodup.length_le_of_subset
  · have hp := hj.perm.map (·.number)
    rw [job_number] at hp
    have ho : out.Nodup := by
      have := numbers_nodup h
      rw [hj.sent] at this
      exact (List.nodup_append.1 this).1
    have := hp.nodup_iff.1 ho
    simp only [List.map_append] at this
    exact (List.nodup_append.1 (List.nodup_append.1 (List.nodup_append.1 this).2.1).2.1).2.1
  · intro m hm
    obtain ⟨j, hg, rfl⟩ := List.mem_map.1 hm
    have : j ∈ out.map (job w) := hj.perm.mem_iff.2 (by simp [hg])
    obtain ⟨k, hk, rfl⟩ := List.mem_map.1 this
    apply hb
    · rw [hj.sent] at ho ⊢
      rw [List.length_append] at ho
      have : out.length ≤ n := by omega
      rw [List.take_append, List.take_of_length_le this]
      exact List.mem_append.2 (.inl hk)
    · exact regroup_none.1 (hj.lost _ hg)

theorem ok_step {w : World E} (h : OldOk w) (hd : Decodes w) (ho : Owned w) (hw : 0 < w.workers) {s s' : Sys E} (hi : Inv w s) (hf : s.phase ≠ .failed)
    {a : Act} (e : step w s a = some s') : s'.phase ≠ .failed := by
  have hdead : s.dead = 0 := by
    have := dead_le h hi (bad := []) w.numbers.length (by
      rintro m - ⟨r, h1, -, h3⟩
      have := hd r h1
      rw [h3] at this
      cases this) (by omega)
    simpa using this
  have hwk := hi.workers
  cases a with
  | send =>
    unfold step at e
    rcases hp : s.phase with k | k | _ | _ | _ <;> simp only [hp] at e
    case feed =>
      rcases ht : s.todo with _ | ⟨n, rest⟩ <;> simp only [ht] at e
      · cases e
      · rcases hx : insertIndex n (w.rowsOf n) s.db.hashes with _ | t <;> simp only [hx] at e
        · exact absurd hx (send_index h hi ht)
        · have hl : s.left = 0 := by
            rcases Nat.eq_zero_or_pos s.left with g | g
            · exact g
            · have := (hi.left (by omega)).2
              rw [hp] at this
              simp at this
          rw [if_neg (by unfold Sys.alive; omega)] at e
          cases e
          simp only
          split <;> simp
    all_goals cases e
  | close =>
    unfold step at e
    rcases hp : s.phase with k | k | _ | _ | _ <;> simp only [hp] at e
    case feed =>
      rcases ht : s.todo with _ | ⟨n, rest⟩ <;> simp only [ht] at e <;> cases e
      simp
    all_goals cases e
  | recv =>
    unfold step at e
    rcases hp : s.phase with k | k | _ | _ | _ <;> simp only [hp] at e
    case drain =>
      rcases k with _ | l
      · cases e
      · rcases hr : s.results with _ | ⟨r, rs⟩ <;> simp only [hr] at e
        · have hl : s.left = 0 := by
            rcases Nat.eq_zero_or_pos s.left with g | g
            · exact g
            · have := (hi.left (by omega)).2
              rw [hp] at this
              simp at this
          rw [if_neg (by unfold Sys.alive; omega)] at e
          cases e
        · cases e
          rw [(store_phase h hi hr _).1]
          split <;> simp
    case final =>
      rcases hr : s.results with _ | ⟨r, rs⟩ <;> simp only [hr] at e
      · split at e
        · next ha =>
          unfold Sys.alive at ha
          have hl : s.left ≠ 0 := by omega
          have hb : s.busy = [] := List.length_eq_zero_iff.1 (by omega)
          have hall := all_of hi (hi.final (.inl hp)) (hi.left hl).1 hb hr hdead
          have hc : s.inserted = w.old.length ∧ s.dead = 0 := by
            refine ⟨?_, hdead⟩
            rw [hi.inserted, all_count h hall, List.length_filter_eq_length_iff]
            intro r hr
            simp only [List.contains_iff_mem]
            exact mem_numbers.2 (ho r hr)
          rw [if_pos hc] at e
          cases e
          simp
        · cases e
      · cases e
        rw [(store_phase h hi hr _).1]
        simp
    all_goals cases e
  | take =>
    unfold step at e
    simp only at e
    split at e <;> cases e
    exact hf
  | work i =>
    unfold step at e
    simp only at e
    split at e
    · cases e
    · split at e <;> cases e <;> exact hf
  | leave =>
    unfold step at e
    simp only at e
    split at e <;> cases e
    exact hf

theorem ok_run {w : World E} (h : OldOk w) (hd : Decodes w) (ho : Owned w) (hw : 0 < w.workers) : ∀ {acts : List Act} {s s' : Sys E}, Inv w s →
    s.phase ≠ .failed → run w s acts = some s' → s'.phase ≠ .failed
  | [], s, s', hi, hf, e => by cases e; exact hf
  | a :: l, s, s', hi, hf, e => by
    rw [run] at e
    obtain ⟨t, h1, h2⟩ := Option.bind_eq_some_iff.1 e
    exact ok_run h hd ho hw (inv_step hi h1) (ok_step h hd ho hw hi hf h1) h2

/-- Still at the first batch. -/
def First (w : World E) (s : Sys E) : Prop :=
  (∃ k, s.phase = .feed k ∧ s.db.rows = []) ∨ ∃ l, s.phase = .drain l ∧ s.db.rows.length + l = w.batch

theorem out_length {w : World E} {s : Sys E} {out : List Nat} {ended gone : List (Job E)} (hj : Jobs w s out ended gone) :
    out.length = s.queue.length + s.busy.length + s.results.length + s.dead + s.db.rows.length := by
  have h1 := hj.perm.length_eq
  have h2 := congrArg List.length hj.fin
  simp only [List.length_map, List.length_append] at h1 h2
  have := hj.dead
  omega

theorem first_step {w : World E} (h : OldOk w) {bad : List Nat} (hb : ∀ m ∈ w.numbers.take w.batch, Bad w m → m ∈ bad) (hlt : bad.length < w.workers)
    {m : Nat} (hm : m ∈ w.numbers.take w.batch) (hbm : Bad w m) (hlen : w.batch ≤ w.headers.length) {s s' : Sys E} (hi : Inv w s) (hf : First w s)
    {a : Act} (e : step w s a = some s') : First w s' := by
  have hnl : w.numbers.length = w.headers.length := by simpa using (numbers_perm w).length_eq
  have hpos : 0 < w.batch := by
    rcases Nat.eq_zero_or_pos w.batch with g | g
    · rw [g] at hm
      simp at hm
    · exact g
  obtain ⟨out, ended, gone, hj⟩ := hi.jobs
  have hol := out_length hj
  have hsl := congrArg List.length hj.sent
  rw [List.length_append] at hsl
  have hwk := hi.workers
  have hleft : s.left = 0 := by
    rcases Nat.eq_zero_or_pos s.left with g | g
    · exact g
    · have := (hi.left (by omega)).2
      rcases hf with ⟨k, hp, -⟩ | ⟨l, hp, -⟩ <;> rw [hp] at this <;> simp at this
  have hdead : s.dead < w.workers := by
    have := dead_le h hi w.batch hb (by
      rcases hf with ⟨k, hp, hr⟩ | ⟨l, hp, hr⟩
      · have := hi.feed k hp
        rw [hr] at hol
        simp only [List.length_nil] at hol
        omega
      · have := hi.drain l hp
        omega)
    omega
  have halive : s.alive ≠ 0 := by unfold Sys.alive; omega
  cases a with
  | send =>
    unfold step at e
    rcases hf with ⟨k, hp, hr⟩ | ⟨l, hp, hr⟩ <;> simp only [hp] at e
    · rcases ht : s.todo with _ | ⟨n, rest⟩ <;> simp only [ht] at e
      · cases e
      · rcases hx : insertIndex n (w.rowsOf n) s.db.hashes with _ | t <;> simp only [hx] at e
        · exact absurd hx (send_index h hi ht)
        · rw [if_neg halive] at e
          cases e
          have := hi.feed k hp
          by_cases hk : k + 1 ≥ w.batch
          · refine .inr ⟨k + 1, by simp [hk], ?_⟩
            simp only [hr, List.length_nil]
            omega
          · exact .inl ⟨k + 1, by simp [hk], hr⟩
    · cases e
  | close =>
    unfold step at e
    rcases hf with ⟨k, hp, hr⟩ | ⟨l, hp, hr⟩ <;> simp only [hp] at e
    · rcases ht : s.todo with _ | ⟨n, rest⟩ <;> simp only [ht] at e
      · exfalso
        have := hi.feed k hp
        rw [hr] at hol
        rw [ht] at hsl
        simp only [List.length_nil] at hol hsl
        omega
      · cases e
    · cases e
  | recv =>
    unfold step at e
    rcases hf with ⟨k, hp, hr⟩ | ⟨l, hp, hr⟩ <;> simp only [hp] at e
    · cases e
    · rcases l with _ | l
      · cases e
      · rcases hres : s.results with _ | ⟨r, rs⟩ <;> simp only [hres] at e
        · rw [if_neg halive] at e
          cases e
        · cases e
          obtain ⟨k1, k2⟩ := store_phase h hi hres (if l = 0 then .feed 0 else .drain l)
          have hpend := (hi.drain _ hp).1
          have hout : out.length = w.batch := by omega
          have hmo : m ∈ out := by
            rw [hj.sent, ← hout] at hm
            simpa using hm
          have hpos : 0 < s.queue.length + s.busy.length + s.dead := by
            have hjm : job w m ∈ s.queue ++ (s.busy ++ (ended ++ gone)) := hj.perm.mem_iff.1 (List.mem_map_of_mem hmo)
            have hnone := regroup_none.2 hbm
            rcases List.mem_append.1 hjm with g | g
            · have := List.length_pos_of_mem g; omega
            · rcases List.mem_append.1 g with g | g
              · have := List.length_pos_of_mem g; omega
              · rcases List.mem_append.1 g with g | g
                · exfalso
                  have : regroup w (job w m) ∈ ended.map (regroup w) := List.mem_map_of_mem g
                  rw [hj.fin, hnone] at this
                  simp at this
                · have := List.length_pos_of_mem g
                  have := hj.dead
                  omega
          rw [hres, List.length_cons] at hpend
          have hl0 : l ≠ 0 := by omega
          rw [if_neg hl0] at k1 k2
          right
          rw [if_neg hl0]
          refine ⟨l, k1, ?_⟩
          rw [k2, List.length_append, List.length_singleton]
          omega
  | take =>
    unfold step at e
    simp only at e
    split at e <;> cases e
    exact hf
  | work i =>
    unfold step at e
    simp only at e
    split at e
    · cases e
    · split at e <;> cases e <;> exact hf
  | leave =>
    unfold step at e
    simp only at e
    split at e <;> cases e
    exact hf

theorem first_run {w : World E} (h : OldOk w) {bad : List Nat} (hb : ∀ m ∈ w.numbers.take w.batch, Bad w m → m ∈ bad) (hlt : bad.length < w.workers)
    {m : Nat} (hm : m ∈ w.numbers.take w.batch) (hbm : Bad w m) (hlen : w.batch ≤ w.headers.length) : ∀ {acts : List Act} {s s' : Sys E}, Inv w s → First w s →
    run w s acts = some s' → First w s'
  | [], s, s', hi, hf, e => by cases e; exact hf
  | a :: l, s, s', hi, hf, e => by
    rw [run] at e
    obtain ⟨t, h1, h2⟩ := Option.bind_eq_some_iff.1 e
    exact first_run h hb hlt hm hbm hlen (inv_step hi h1) (first_step h hb hlt hm hbm hlen hi hf h1) h2

end Verif.Regroup
