import Verif.Serve.Spec
import Verif.Sync.FeedProps
import Verif.Common.VersionProps
/-! # Lemmas about serving blocks -/
namespace Verif.Serve

open Verif.Sync Verif.Block

/-! ## Which blocks are served -/

theorem position_next (n step : Nat) (i : Nat) : position n step true (i + 1) = position (n + step) step true i := by
  have : (i + 1) * step = i * step + step := Nat.succ_mul i step
  simp only [position, if_true]
  push_cast
  have h := congrArg (Nat.cast (R := Int)) this
  push_cast at h
  omega

theorem position_prev (n step : Nat) (h : step ≤ n) (i : Nat) : position n step false (i + 1) = position (n - step) step false i := by
  have : (i + 1) * step = i * step + step := Nat.succ_mul i step
  simp only [position, Bool.false_eq_true, if_false]
  have h' := congrArg (Nat.cast (R := Int)) this
  push_cast at h'
  push_cast [h]
  omega

theorem serveLoop_eq {T : Type} (has : Nat → Bool) (items : Nat → List T) (handler : Nat → List T × Handled) (step : Nat)
    (forward : Bool) (hh : ∀ n, handler n = if has n then (items n, .next) else ([], .missing)) :
    ∀ (left n : Nat), n < 2 ^ 63 → serveLoop handler step forward left n =
      (((((List.range left).map (position n step forward)).takeWhile fun n =>
        decide (0 ≤ n) && decide (n < 2 ^ 63) && has n.toNat).map Int.toNat).flatMap items, true) := by
  intro left
  induction left with
  | zero => intro n _; rfl
  | succ left ih =>
    intro n hn
    have h0 : position n step forward 0 = (n : Int) := by cases forward <;> simp [position]
    rw [List.range_succ_eq_map, List.map_cons, h0]
    simp only [serveLoop, hh n]
    cases hhas : has n with
    | false => simp [hhas]
    | true =>
      have hp : (decide ((0 : Int) ≤ (n : Int)) && decide ((n : Int) < 2 ^ 63) && has (n : Int).toNat) = true := by
        simp [hhas]; omega
      rw [List.takeWhile_cons_of_pos (p := fun n : Int => decide (0 ≤ n) && decide (n < 2 ^ 63) && has n.toNat) hp]
      simp only [if_true, Int.toNat_natCast, List.map_cons, List.flatMap_cons]
      by_cases hl : left = 0
      · subst hl; simp
      · rw [if_neg hl]
        obtain ⟨l, rfl⟩ : ∃ l, left = l + 1 := ⟨left - 1, by omega⟩
        have key : ∀ m, nextNumber n step forward = some m → m < 2 ^ 63 ∧
            ∀ i, position n step forward (i + 1) = position m step forward i := by
          intro m hm
          cases forward with
          | true =>
            simp only [nextNumber, if_true, blockNumber] at hm
            split at hm
            · split at hm
              · cases hm; exact ⟨by omega, position_next n step⟩
              · cases hm
            · cases hm
          | false =>
            simp only [nextNumber, Bool.false_eq_true, if_false, blockNumber] at hm
            split at hm
            · split at hm
              · cases hm; exact ⟨by omega, position_prev n step (by assumption)⟩
              · cases hm
            · cases hm
        have key' : nextNumber n step forward = none →
            ¬ (0 ≤ position n step forward 1 ∧ position n step forward 1 < 2 ^ 63) := by
          intro hm
          cases forward with
          | true =>
            simp only [nextNumber, if_true, blockNumber] at hm
            simp only [position, if_true]
            split at hm
            · split at hm
              · cases hm
              · omega
            · omega
          | false =>
            simp only [nextNumber, Bool.false_eq_true, if_false, blockNumber] at hm
            simp only [position, Bool.false_eq_true, if_false]
            split at hm
            · split at hm
              · cases hm
              · omega
            · omega
        cases hm : nextNumber n step forward with
        | none =>
          have hk := key' hm
          simp only
          rw [List.range_succ_eq_map, List.map_cons, List.map_cons, List.takeWhile_cons_of_neg]
          · simp
          · simp only [Bool.and_eq_true, decide_eq_true_eq, not_and]
            intro ⟨h1, h2⟩
            exact absurd ⟨h1, h2⟩ hk
        | some m =>
          obtain ⟨hm1, hm2⟩ := key m hm
          have hmap : List.map (position n step forward) (List.map Nat.succ (List.range (l + 1))) =
              List.map (position m step forward) (List.range (l + 1)) := by
            rw [List.map_map]
            exact List.map_congr_left fun i _ => hm2 i
          simp only [ih m hm1]
          rw [hmap]

theorem serveLoop_end {T : Type} (handler : Nat → List T × Handled) (step : Nat) (forward : Bool) :
    ∀ (left n : Nat), (serveLoop handler step forward left n).2 = false → ∃ m, (handler m).2 = .failed := by
  intro left
  induction left with
  | zero => intro n h; simp [serveLoop] at h
  | succ left ih =>
    intro n h
    simp only [serveLoop] at h
    split at h
    · rename_i items hh; exact ⟨n, by rw [hh]⟩
    · simp at h
    · split at h
      · simp at h
      · split at h
        · simp at h
        · exact ih _ h

/-! ## Conversions -/

theorem felt_val {n : Nat} (h : n < 2 ^ 128) : (felt n).val = n := by
  show n % P = n
  exact Nat.mod_eq_of_lt (Nat.lt_trans h (by unfold P; decide))

theorem bound_trip {b : Bound} (h : Bound.InRange b) : boundFromDto (boundToDto b) = some b := by
  obtain ⟨h1, h2⟩ := h
  have e1 : (felt b.amount).val = b.amount := felt_val (Nat.lt_trans h1 (by decide))
  have e2 : (felt b.price).val = b.price := felt_val h2
  simp [boundFromDto, boundToDto, e1, e2, h1, h2]

theorem v3_trip {v : V3} (h : V3.InRange v) : v3FromDto (v3ToDto v) = some v := by
  obtain ⟨h1, h2, h3⟩ := h
  unfold v3FromDto v3ToDto
  simp only [bound_trip h1, bound_trip h2]
  obtain ⟨a, b, c, d, e, f, g⟩ := v
  cases e with
  | none => rfl
  | some x => simp [bound_trip (h3 x rfl)]

theorem txn_trip {t : Txn} (h : Txn.InRange t) : txnFromDto (txnToDto t) = some (arrives t) := by
  cases t <;> try rfl
  all_goals simp only [txnToDto, txnFromDto, v3_trip (show V3.InRange _ from h)]; rfl

theorem gas_trip {n : Nat} (h : n < 2 ^ 128) : gasFromDto (some (felt n)) = some n := by
  simp [gasFromDto, felt_val h, h]

theorem rcpt_trip {r : Rcpt} (h : r.InRange) (hc : ∀ x ∈ r.counters, x < 2 ^ 32) (i : Nat) :
    ∃ d, rcptToDto r = some d ∧ rcptFromDto d i = some (r.arrives i) := by
  obtain ⟨h1, h2, h3, h4⟩ := h
  refine ⟨_, if_pos (by simpa using hc), ?_⟩
  simp only [rcptFromDto, gas_trip h1, gas_trip h2, gas_trip h3, gas_trip h4, List.map_map]
  rfl

theorem sendTxs_ok {es : List Entry} (h : ∀ e ∈ es, e.Sendable) :
    (sendTxs es).2 = .next ∧ (sendTxs es).1.length = es.length ∧
      ∀ i, i < es.length → ∀ m e, (sendTxs es).1[i]? = some m → es[i]? = some e → ∀ j,
        readTx (some m) j = some (e.hash, arrives e.txn, e.rcpt.arrives j) := by
  induction es with
  | nil => exact ⟨rfl, rfl, by intro i hi; simp at hi⟩
  | cons e es ih =>
    obtain ⟨g1, g2, g3⟩ := ih fun x hx => h x (List.mem_cons_of_mem _ hx)
    have he := h e List.mem_cons_self
    obtain ⟨d, hd, _⟩ := rcpt_trip he.rcpt he.counters 0
    simp only [sendTxs, hd]
    refine ⟨g1, by simp [g2], ?_⟩
    intro i hi m e' hm he' j
    cases i with
    | zero =>
      simp only [List.getElem?_cons_zero, Option.some.injEq] at hm he'
      subst hm; subst he'
      obtain ⟨d', hd', hr⟩ := rcpt_trip he.rcpt he.counters j
      rw [hd] at hd'; cases hd'
      simp [readTx, txn_trip he.txn, hr]
    | succ i =>
      simp only [List.getElem?_cons_succ] at hm he'
      exact g3 i (by simpa using hi) m e' hm he' j

/-! ## Honest servers and the client -/

variable {P R C A E : Type}

/-- The counts of the blocks from `start` to `stop`. -/
def countsFrom (count : Nat → Nat) (start stop : Nat) : List (Except E Nat) :=
  (List.range' start (stop + 1 - start)).map fun n => .ok (count n)

/-- Each block from `lo` to `hi` can be read from its messages; `I` says which values may be kept from the blocks before. -/
structure Readable (k : Kind R C A) (seg : Nat → List R) (count : Nat → Nat) (a : Nat → A) (I : Nat → C → Prop) (lo hi : Nat) :
    Prop where
  begin : ∀ n, I n k.carry
  reads : ∀ n c, lo ≤ n → n ≤ hi → I n c → ∃ c', Reads k c k.empty (count n) (seg n) c' (a n) ∧ I (n + 1) c'

theorem reads_zero {k : Kind R C A} {c c' : C} {a a' : A} {seg : List R} (h : Reads k c a 0 seg c' a') : seg = [] := by
  cases h; rfl

theorem serve_honest {k : Kind R C A} {seg : Nat → List R} {count : Nat → Nat} {a : Nat → A} {I : Nat → C → Prop} {lo stop : Nat}
    (H : Readable k seg count a I lo stop) (fin : R) (hfin : ∀ c acc n, k.absorb c acc n fin = .nextPeer) (peer : P) :
    ∀ (d start m : Nat) (c : C), stop = start + d → lo ≤ start → I start c → start + m ≤ stop + 1 →
      ∃ m', m ≤ m' ∧ start + m' ≤ stop + 1 ∧
        serve (E := E) k stop peer (countsFrom count (start + 1) stop) start (Progress.new (count start)) c
            ((List.range' start m).flatMap seg ++ [fin]) =
          (blockItems start ((List.range' start m').map fun n => (peer, a n)),
            if start + m' = stop + 1 then .ended
            else .waiting (start + m') (Progress.new (count (start + m'))) (countsFrom count (start + m' + 1) stop)) := by
  intro d
  induction d with
  | zero =>
    intro start m c hd hlo hI hm
    obtain ⟨c', hr, hI'⟩ := H.reads start c hlo (by omega) hI
    have hm1 : m = 0 ∨ m = 1 := by omega
    unfold serve
    rw [if_pos (by omega)]
    rcases hm1 with rfl | rfl
    · cases hc : count start with
      | zero =>
        rw [hc] at hr
        refine ⟨1, by omega, by omega, ?_⟩
        have hf := fill_reads hr [fin]
        have : seg start = [] := reads_zero hr
        simp only [this, List.nil_append] at hf
        simp only [Progress.new, List.range'_zero, List.flatMap_nil, List.nil_append, hf]
        rw [if_pos (by omega), if_pos (by omega)]
        simp [blockItems, List.range'_succ]
      | succ x =>
        refine ⟨0, by omega, by omega, ?_⟩
        simp only [Progress.new, List.range'_zero, List.flatMap_nil, List.nil_append, fill, hfin]
        rw [if_neg (by omega)]
        simp [blockItems, hc]
    · refine ⟨1, by omega, by omega, ?_⟩
      have hf := fill_reads hr [fin]
      simp only [Progress.new, List.range'_succ, List.range'_zero, List.flatMap_cons, List.flatMap_nil, List.append_nil, hf]
      rw [if_pos (by omega), if_pos (by omega)]
      simp [blockItems]
  | succ d ih =>
    intro start m c hd hlo hI hm
    obtain ⟨c', hr, hI'⟩ := H.reads start c hlo (by omega) hI
    have hcs : countsFrom (E := E) count (start + 1) stop = .ok (count (start + 1)) :: countsFrom count (start + 1 + 1) stop := by
      unfold countsFrom
      rw [show stop + 1 - (start + 1) = (stop + 1 - (start + 1 + 1)) + 1 by omega, List.range'_succ]
      rfl
    -- after the block, whatever is left
    have next : ∀ (j : Nat) (rest : List R), rest = (List.range' (start + 1) j).flatMap seg ++ [fin] → start + 1 + j ≤ stop + 1 →
        fill k c k.empty (count start) ((List.range' start m).flatMap seg ++ [fin]) = .full c' (a start) rest → m ≤ j + 1 →
        ∃ m', m ≤ m' ∧ start + m' ≤ stop + 1 ∧
          serve (E := E) k stop peer (countsFrom count (start + 1) stop) start (Progress.new (count start)) c
            ((List.range' start m).flatMap seg ++ [fin]) =
          (blockItems start ((List.range' start m').map fun n => (peer, a n)),
            if start + m' = stop + 1 then .ended
            else .waiting (start + m') (Progress.new (count (start + m'))) (countsFrom count (start + m' + 1) stop)) := by
      intro j rest hrest hj hf hmj
      obtain ⟨m', h1, h2, h3⟩ := ih (start + 1) j c' (by omega) (by omega) hI' hj
      refine ⟨m' + 1, by omega, by omega, ?_⟩
      unfold serve
      rw [if_pos (by omega)]
      simp only [Progress.new] at hf h3 ⊢
      simp only [hf]
      rw [if_neg (by omega), hcs]
      simp only
      rw [hrest, h3]
      rw [List.range'_succ, List.map_cons, blockItems]
      have e1 : start + (m' + 1) = start + 1 + m' := by omega
      rw [e1]
    cases m with
    | zero =>
      rcases Nat.eq_zero_or_pos (count start) with hc | hc
      · rw [hc] at hr
        have : seg start = [] := reads_zero hr
        have hf := fill_reads hr [fin]
        rw [this, List.nil_append] at hf
        exact next 0 [fin] rfl (by omega) (by rw [hc]; exact hf) (by omega)
      · refine ⟨0, by omega, by omega, ?_⟩
        obtain ⟨x, hx⟩ : ∃ x, count start = x + 1 := ⟨count start - 1, by omega⟩
        unfold serve
        rw [if_pos (by omega)]
        simp only [Progress.new, List.range'_zero, List.flatMap_nil, List.nil_append, hx, fill, hfin]
        rw [if_neg (by omega)]
        simp [blockItems, hx]
    | succ m =>
      refine next m _ rfl (by omega) ?_ (by omega)
      rw [List.range'_succ, List.flatMap_cons, List.append_assoc]
      exact fill_reads hr _

theorem sessions_ended (k : Kind R C A) (stop : Nat) (peer : P) (reply : Nat → List R) (rounds : Nat) :
    sessions (E := E) k stop peer reply rounds .ended = ([], .ended) := by cases rounds <;> rfl

/-- A client that keeps asking a server that has the blocks gets all of them. -/
theorem sessions_honest {k : Kind R C A} {seg : Nat → List R} {count : Nat → Nat} {a : Nat → A} {I : Nat → C → Prop} {lo stop : Nat}
    (H : Readable k seg count a I lo stop) (fin : R) (hfin : ∀ c acc n, k.absorb c acc n fin = .nextPeer) (peer : P)
    (reply : Nat → List R)
    (hreply : ∀ start, lo ≤ start → start ≤ stop → reply start = (List.range' start (min (stop + 1 - start) 100)).flatMap seg ++ [fin]) :
    ∀ (rounds start : Nat) (p : Progress), lo ≤ start → start ≤ stop → p.backup = count start → stop + 1 - start ≤ 100 * rounds →
      sessions (E := E) k stop peer reply rounds (.waiting start p (countsFrom count (start + 1) stop)) =
        (blockItems start ((List.range' start (stop + 1 - start)).map fun n => (peer, a n)), .ended) := by
  intro rounds
  induction rounds with
  | zero => intro start p _ hs _ hr; omega
  | succ rounds ih =>
    intro start p hlo hs hp hr
    obtain ⟨m', h1, h2, h3⟩ := serve_honest (E := E) H fin hfin peer (stop - start) start (min (stop + 1 - start) 100) k.carry
      (by omega) hlo (H.begin start) (by omega)
    have hroll : p.rollback = Progress.new (count start) := by simp [Progress.rollback, Progress.new, hp]
    simp only [sessions, attempt, hreply start hlo hs, hroll]
    rw [h3]
    by_cases he : start + m' = stop + 1
    · rw [if_pos he]
      simp only [sessions_ended]
      rw [show stop + 1 - start = m' by omega]
      simp
    · rw [if_neg he]
      have hh := ih (start + m') (Progress.new (count (start + m'))) (by omega) (by omega) rfl (by omega)
      simp only [hh]
      congr 1
      rw [show stop + 1 - start = m' + (stop + 1 - (start + m')) by omega, ← List.range'_append_1, List.map_append,
        blockItems_append]
      simp

end Verif.Serve
