import Verif.Submit.Lemmas

/-! # A transaction is in the tracker once -/
namespace Verif.Submit

open Spec

def Uniq (l : List Entry) : Prop := (l.map (·.hash)).Nodup

theorem Uniq.sub {l l' : List Entry} (h : Uniq l) (hs : l'.Sublist l) : Uniq l' := List.Nodup.sublist (hs.map _) h

theorem Uniq.front {l : List Entry} (h : Uniq l) (x : Entry) : Uniq (x :: l.filter (fun y => y.hash != x.hash)) := by
  unfold Uniq
  rw [List.map_cons, List.nodup_cons]
  refine ⟨?_, h.sub List.filter_sublist⟩
  intro hc
  rw [List.mem_map] at hc
  obtain ⟨y, hy, hyx⟩ := hc
  have := (List.mem_filter.1 hy).2
  simp [hyx] at this

theorem Uniq.get {p : Par} {now k : Nat} {l : List Entry} (h : Uniq l) : Uniq (cacheGet p now k l).1 := by
  unfold cacheGet
  split
  · exact h
  · rename_i e hf
    have hek : e.hash = k := by simpa using List.find?_some hf
    split
    · have := h.front e
      rw [hek] at this
      exact this
    · exact h

theorem Uniq.put {p : Par} {l : List Entry} (h : Uniq l) (x : Entry) : Uniq (put p x l) := by
  unfold Submit.put
  split
  · split
    · exact h.front x
    · unfold Uniq
      rw [List.map_map]
      have : ((fun y : Entry => y.hash) ∘ fun y => if y.hash == x.hash then x else y) = fun y => y.hash := by
        funext y
        by_cases hy : y.hash = x.hash <;> simp [hy]
      rw [this]
      exact h
  · rename_i ha
    unfold Uniq
    rw [List.map_cons, List.nodup_cons]
    refine ⟨?_, h⟩
    intro hc
    rw [List.mem_map] at hc
    obtain ⟨y, hy, hyx⟩ := hc
    exact ha (List.any_eq_true.2 ⟨y, hy, by simpa using hyx⟩)

theorem Uniq.room {l : List Entry} (h : Uniq l) (n : Nat) : Uniq (makeRoom n l) := by
  unfold makeRoom
  split
  · exact h.sub (List.dropLast_sublist l)
  · exact h

theorem Uniq.flush {p : Par} {now : Nat} {l : List Entry} (h : Uniq l) : Uniq (flush p now l) := h.sub List.filter_sublist

theorem Uniq.insert {p : Par} {now k n : Nat} {v : Variant} {l : List Entry} (h : Uniq l) : Uniq (insert p now k n v l) := by
  unfold Submit.insert cacheSet
  split
  · exact (h.flush.room _).put _
  · exact (h.flush.put _).room _

theorem Uniq.step {p : Par} {s : Node} (h : Uniq s.tracker) (a : Act) : Uniq (step p s a).tracker := by
  cases a with
  | submit w api t =>
    show Uniq (Submit.submit p w api s.now s.tracker t).tracker
    rcases submit_tracker p w api s.now s.tracker t with he | ⟨a, n, v, -, -, -, -, he⟩
    · rw [he]; exact h
    · rw [he]; exact h.insert
  | query api n gw k =>
    show Uniq (status p api n gw s.now s.tracker k).2
    unfold status
    split
    · exact h
    · exact h
    · split
      · exact h.get.flush
      · exact h.flush
  | get k => exact h.get
  | flush => exact h.flush
  | wait d => exact h

theorem run_uniq {p : Par} : ∀ (acts : List Act) (s : Node), Uniq s.tracker → Uniq (run p s acts).tracker
  | [], _, h => h
  | a :: as, _, h => run_uniq as _ (h.step a)

theorem uniq_find {l : List Entry} (hu : Uniq l) {e : Entry} (he : e ∈ l) : (l.find? fun x => x.hash == e.hash) = some e := by
  induction l with
  | nil => cases he
  | cons x xs ih =>
    unfold Uniq at hu
    rw [List.map_cons, List.nodup_cons] at hu
    rcases List.mem_cons.1 he with rfl | he'
    · simp
    · rw [List.find?_cons]
      have : x.hash ≠ e.hash := fun h' => hu.1 (List.mem_map.2 ⟨e, he', h'.symm⟩)
      have hb : (x.hash == e.hash) = false := by simpa using this
      rw [hb]
      exact ih hu.2 he'

theorem contains_iff {p : Par} {s : Node} (hu : Uniq s.tracker) (h : Nat) :
    (containsKey p s.now h s.tracker).2 = true ↔ Tracked p s h := by
  unfold containsKey cacheGet Tracked
  constructor
  · intro hc
    split at hc
    · cases hc
    · rename_i e hf
      split at hc
      · rename_i hfr
        refine ⟨e, List.mem_of_find?_eq_some hf, by simpa using List.find?_some hf, ?_⟩
        simpa [fresh] using hfr
      · cases hc
  · rintro ⟨e, he, rfl, hl⟩
    rw [uniq_find hu he]
    have : fresh p s.now e = true := by simpa [fresh] using hl
    simp [this]

end Verif.Submit
