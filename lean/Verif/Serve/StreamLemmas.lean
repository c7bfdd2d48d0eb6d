import Verif.Serve.DiffLemmas
/-! # Lemmas about an honest server and a client -/
namespace Verif.Serve

open Verif.Sync Verif.Block

variable {P R A T V E : Type}

theorem iterate_eq (numberOf : Nat → Option Nat) (handler : Nat → List T × Handled) (has : Nat → Bool) (items : Nat → List T)
    (hh : ∀ n, handler n = if has n then (items n, .next) else ([], .missing)) (it : Iteration) (n : Nat) (hn : n < 2 ^ 63)
    (hs : startNumber numberOf it.start = some n) :
    iterate numberOf handler it = ((servedBlocks has n it.step it.limit it.forward).flatMap items).map some ++ [none] := by
  unfold iterate servedBlocks
  by_cases hl : it.limit = 0
  · rw [if_pos hl, hl]; rfl
  · rw [if_neg hl, hs]
    simp only [serveLoop_eq has items handler it.step it.forward hh (min it.limit maxServed) n hn]
    rfl

theorem takeWhile_all {α : Type} (p : α → Bool) {l : List α} (h : ∀ x ∈ l, p x = true) : l.takeWhile p = l := by
  induction l with
  | nil => rfl
  | cons x l ih =>
    rw [List.takeWhile_cons_of_pos (h x List.mem_cons_self), ih fun y hy => h y (List.mem_cons_of_mem _ hy)]

theorem served_range (has : Nat → Bool) (start stop limit : Nat) (hl : limit = min (stop - start + 1) 500) (hss : start ≤ stop) (hstop : stop < 2 ^ 63)
    (h : ∀ n, start ≤ n → n ≤ stop → has n = true) :
    servedBlocks has start 1 limit true = List.range' start (min (stop + 1 - start) 100) := by
  unfold servedBlocks
  rw [takeWhile_all]
  · rw [List.map_map, List.range'_eq_map_range, show min limit 100 = min (stop + 1 - start) 100 by omega]
    apply List.map_congr_left
    intro i _
    simp only [Function.comp, position, if_true]
    have : ((start : Int) + (i : Int) * (1 : Nat)).toNat = start + i := by push_cast; omega
    exact this
  · intro x hx
    obtain ⟨i, hi, rfl⟩ := List.mem_map.1 hx
    rw [List.mem_range] at hi
    have e : position start 1 true i = ((start + i : Nat) : Int) := by simp [position]
    rw [e]
    have h1 : start + i ≤ stop := by omega
    have h2 : ((start + i : Nat) : Int) < 2 ^ 63 := by omega
    simp only [Int.toNat_natCast, h (start + i) (by omega) h1, Bool.and_true, Bool.and_eq_true, decide_eq_true_eq]
    exact ⟨Int.natCast_nonneg _, h2⟩

theorem served_down (has : Nat → Bool) (start stop limit : Nat) (hl : limit = min (start - stop + 1) 500) (hss : stop ≤ start) (hstop : start < 2 ^ 63)
    (h : ∀ n, stop ≤ n → n ≤ start → has n = true) :
    servedBlocks has start 1 limit false = (List.range (min (start + 1 - stop) 100)).map fun i => start - i := by
  unfold servedBlocks
  rw [takeWhile_all]
  · rw [List.map_map, show min limit 100 = min (start + 1 - stop) 100 by omega]
    apply List.map_congr_left
    intro i hi
    rw [List.mem_range] at hi
    simp only [Function.comp, position, Bool.false_eq_true, if_false]
    push_cast
    omega
  · intro x hx
    obtain ⟨i, hi, rfl⟩ := List.mem_map.1 hx
    rw [List.mem_range] at hi
    have h1 : stop + i ≤ start := by omega
    have e : position start 1 false i = ((start - i : Nat) : Int) := by simp only [position, Bool.false_eq_true, if_false]; push_cast; omega
    rw [e]
    have h2 : ((start - i : Nat) : Int) < 2 ^ 63 := by omega
    simp only [Int.toNat_natCast, h (start - i) (by omega) (by omega), Bool.and_true, Bool.and_eq_true, decide_eq_true_eq]
    exact ⟨Int.natCast_nonneg _, h2⟩

/-- What a server that has the blocks asked for answers. -/
theorem reply_eq (numberOf : Nat → Option Nat) (handler : Nat → List T × Handled) (items : Nat → List T) (lo stop : Nat) (hstop : stop < 2 ^ 63)
    (hh : ∀ n, lo ≤ n → n ≤ stop → handler n = (items n, .next)) (start : Nat) (hlo : lo ≤ start) (hss : start ≤ stop) :
    iterate numberOf handler (makeRequest start stop) =
      (List.range' start (min (stop + 1 - start) 100)).flatMap (fun n => (items n).map some) ++ [none] := by
  -- the blocks asked for are all in the range
  have hloop : ∀ (left n : Nat), lo ≤ n → n + left ≤ stop + 1 → n ≤ stop →
      serveLoop handler 1 true left n = ((List.range' n left).flatMap items, true) := by
    intro left
    induction left with
    | zero => intro n _ _ _; rfl
    | succ left ih =>
      intro n h1 h2 h3
      simp only [serveLoop, hh n h1 h3]
      by_cases h0 : left = 0
      · subst h0; simp
      · rw [if_neg h0]
        have e : nextNumber n 1 true = some (n + 1) := by
          unfold nextNumber blockNumber
          rw [if_pos rfl, if_pos (by omega), if_pos (by omega)]
        simp only [e, ih (n + 1) (by omega) (by omega) (by omega)]
        simp [List.range'_succ]
  have hlim : (makeRequest start stop).limit = min (stop - start + 1) 500 := by simp [makeRequest, hss, maxAsked]
  have hst : startNumber numberOf (makeRequest start stop).start = some start := by
    simp only [makeRequest, startNumber, blockNumber]; exact if_pos (by omega)
  unfold iterate
  rw [if_neg (by rw [hlim]; omega), hst]
  have hfw : (makeRequest start stop).forward = true := rfl
  have hstep : (makeRequest start stop).step = 1 := rfl
  have hmin : min (makeRequest start stop).limit maxServed = min (stop + 1 - start) 100 := by rw [hlim]; unfold maxServed; omega
  simp only [hfw, hstep, hmin, hloop (min (stop + 1 - start) 100) start hlo (by omega) hss]
  simp [List.map_flatMap]

/-- `fetch` from a server that has the blocks. -/
theorem fetch_honest {C : Type} {k : Kind R C A} (f : Option T → R) {items : Nat → List T} {handler : Nat → List T × Handled} {count : Nat → Nat}
    {a : Nat → A} {I : Nat → C → Prop} {start stop : Nat} (hss : start ≤ stop) (hstop : stop < 2 ^ 63)
    (hh : ∀ n, start ≤ n → n ≤ stop → handler n = (items n, .next))
    (H : Readable k (fun n => (items n).map (f ∘ some)) count a I start stop) (hfin : ∀ c acc n, k.absorb c acc n (f none) = .nextPeer)
    (numberOf : Nat → Option Nat) (peer : P) (rounds : Nat) (hr : stop + 1 - start ≤ 100 * rounds) :
    fetch (E := E) k start stop peer (fun s => (iterate numberOf handler (makeRequest s stop)).map f) count rounds =
      (blockItems start ((List.range' start (stop + 1 - start)).map fun n => (peer, a n)), .ended) := by
  refine sessions_honest (E := E) H (f none) hfin peer _ ?_ rounds start (Progress.new (count start)) (Nat.le_refl _) hss rfl hr
  intro s h1 h2
  rw [reply_eq numberOf handler items start stop hstop hh s h1 h2]
  simp [List.map_flatMap, List.map_map]

theorem reads_list (parse : R → Nat → Option A) : ∀ (rs : List R) (xs acc : List A), rs.length = xs.length →
    (∀ i r x, rs[i]? = some r → xs[i]? = some x → parse r (acc.length + i) = some x) →
    Reads (listKind parse) () acc rs.length rs () (acc ++ xs) := by
  intro rs
  induction rs with
  | nil =>
    intro xs acc hl _
    cases xs with
    | nil => rw [List.append_nil]; exact .done _ _
    | cons => simp at hl
  | cons r rs ih =>
    intro xs acc hl h
    cases xs with
    | nil => simp at hl
    | cons x xs =>
      have h0 : parse r acc.length = some x := h 0 r x rfl rfl
      have := ih xs (acc ++ [x]) (by simpa using hl) fun i r' x' h1 h2 => by
        have := h (i + 1) r' x' (by simpa using h1) (by simpa using h2)
        rw [List.length_append, List.length_singleton, Nat.add_assoc, Nat.add_comm 1 i]
        exact this
      rw [List.append_assoc, List.singleton_append] at this
      refine .step (n' := rs.length) ?_ this
      simp only [listKind, h0, Nat.add_sub_cancel]

/-! ## Events -/

theorem reads_events_more [DecidableEq T] {c' : Option T} {t : T} {pre a' : List (T × List V)} {n : Nat} {rest : List (EventResp T V)} :
    ∀ (vs ws : List V), Reads (eventKind T V) (some t) (pre ++ [(t, ws ++ vs)]) n rest c' a' →
      Reads (eventKind T V) (some t) (pre ++ [(t, ws)]) (vs.length + n) ((vs.map fun v => some (t, v)) ++ rest) c' a' := by
  intro vs
  induction vs with
  | nil => intro ws h; simpa using h
  | cons v vs ih =>
    intro ws h
    have := ih (ws ++ [v]) (by simpa using h)
    rw [List.length_cons, Nat.add_right_comm]
    refine .step (n' := vs.length + n) ?_ this
    simp [eventKind, absorbEvent]

/-- The hashes of the transactions with events, which the client tells apart. -/
def eventHashes (es : List Entry) : List F := (es.filter fun e => !e.events.isEmpty).map (·.hash)

theorem reads_events : ∀ (es : List Entry) (c : Option F) (acc : List (F × List Event)), (eventHashes es).Nodup →
    (∀ t, c = some t → t ∉ eventHashes es) →
    Reads (eventKind F Event) c acc (es.map (·.events.length)).sum ((es.flatMap fun e => e.events.map fun v => (e.hash, v)).map some)
      (((eventHashes es).getLast?).or c) (acc ++ arrivedEvents es) := by
  intro es
  induction es with
  | nil =>
    intro c acc _ _
    simp only [eventHashes, arrivedEvents, List.filter_nil, List.map_nil, List.getLast?_nil, Option.none_or, List.append_nil, List.flatMap_nil,
      List.sum_nil]
    exact .done _ _
  | cons e es ih =>
    intro c acc hn hc
    cases hv : e.events with
    | nil =>
      have h1 : eventHashes (e :: es) = eventHashes es := by simp [eventHashes, hv]
      have h2 : arrivedEvents (e :: es) = arrivedEvents es := by simp [arrivedEvents, hv]
      rw [h1] at hn hc ⊢
      rw [h2]
      simpa [hv] using ih c acc hn hc
    | cons v vs =>
      have h1 : eventHashes (e :: es) = e.hash :: eventHashes es := by simp [eventHashes, hv]
      have h2 : arrivedEvents (e :: es) = (e.hash, e.events) :: arrivedEvents es := by simp [arrivedEvents, hv]
      rw [h1] at hn hc ⊢
      rw [List.nodup_cons] at hn
      have hi := ih (some e.hash) (acc ++ [(e.hash, e.events)]) hn.2 (by intro t ht; cases ht; exact hn.1)
      rw [hv] at hi
      have hm := reads_events_more (T := F) (V := Event) (t := e.hash) (pre := acc) vs [v] hi
      have e1 : (e :: es).map (fun x => x.events.length) = (vs.length + 1) :: es.map (fun x => x.events.length) := by simp [hv]
      rw [e1, List.sum_cons, Nat.add_right_comm, h2, List.flatMap_cons, hv, List.map_cons, List.cons_append, List.map_cons, List.map_append]
      have e2 : (List.getLast? (e.hash :: eventHashes es)).or c = (List.getLast? (eventHashes es)).or (some e.hash) := by
        cases hg : eventHashes es with
        | nil => rfl
        | cons x xs => rw [List.getLast?_cons_cons]; cases hx : (x :: xs).getLast? <;> simp_all
      rw [e2]
      refine .step (n' := vs.length + (es.map fun x => x.events.length).sum) (c' := some e.hash) (a' := acc ++ [(e.hash, [v])]) ?_ ?_
      · have : c ≠ some e.hash := fun h => hc _ h List.mem_cons_self
        simp [eventKind, absorbEvent, this]
      · simpa [List.map_map, Function.comp_def] using hm

/-! ## Headers -/

theorem header_trip {h : Header} {g : Sig} (h1 : h.number < 2 ^ 63) (h2 : h.timestamp < 2 ^ 63) : headerFromDto (headerToDto h g) = some (h, g) := by
  have e1 : blockNumber h.number = some h.number := if_pos h1
  have e2 : blockNumber h.timestamp = some h.timestamp := if_pos h2
  simp only [headerFromDto, headerToDto, e1, e2, Verif.Common.C45_read_show]
  rfl

/-- How many headers are still to come. -/
def remaining (reverse : Bool) (start stop : Int) : Int := if reverse then start - stop + 1 else stop - start + 1

theorem done_iff (reverse : Bool) (start stop : Int) : headerDone reverse start stop = decide (remaining reverse start stop ≤ 0) := by
  unfold headerDone remaining
  cases reverse <;> simp <;> omega

theorem headerReply_list (reverse : Bool) (stop : Int) (peer : P) : ∀ (l : List A) (start : Int), (l.length : Int) ≤ remaining reverse start stop →
    headerReply reverse stop peer start (l.map .header ++ [.fin]) =
      (l.map fun a => (peer, a), if reverse then start - l.length else start + l.length, decide (remaining reverse start stop = l.length)) := by
  intro l
  induction l with
  | nil =>
    intro start h
    simp only [List.map_nil, List.nil_append, headerReply, done_iff, List.length_nil]
    have : decide (remaining reverse start stop ≤ 0) = decide (remaining reverse start stop = ((0 : Nat) : Int)) := by
      apply decide_eq_decide.2
      simp only [List.length_nil] at h
      omega
    rw [this]
    cases reverse <;> simp
  | cons a l ih =>
    intro start h
    have hn : remaining reverse (headerNext reverse start) stop = remaining reverse start stop - 1 := by
      unfold remaining headerNext; cases reverse <;> simp <;> omega
    have hd : headerDone reverse start stop = false := by
      rw [done_iff]; simp only [List.length_cons] at h; simp; omega
    simp only [List.map_cons, List.cons_append, headerReply, hd, Bool.false_eq_true, if_false]
    rw [ih (headerNext reverse start) (by rw [hn]; simp only [List.length_cons] at h; omega)]
    simp only [hn, List.length_cons]
    congr 2
    · unfold headerNext; cases reverse <;> simp <;> omega
    · apply decide_eq_decide.2; omega

end Verif.Serve
