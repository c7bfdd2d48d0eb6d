import Verif.Pend.Poll
import Verif.Pend.TxProps
/-!
# C86: the pre-confirmed data that is shown is the gateway's, and current

Whatever the gateway answers and whenever blocks are stored and removed, nothing panics, what is shown was given by the gateway for the block
number after the chain, and it only grows. A round that brings more transactions than all before is shown once it is handled, if it fits the
database then. That the data is current is violated in three ways.
-/
namespace Verif.Pend

/-- How many transactions a pending block shows, executed or not. -/
def Data.count (d : Data) : Nat := d.txs.length + d.cand.length

theorem Round.pre_number {r : Round} {p : GLatest} (h : r.preLatest = some p) : p.number = r.latest + 1 ∧ r.number = r.latest + 2 := by
  refine ⟨?_, by unfold Round.number; rw [h]; rfl⟩
  unfold Round.preLatest at h
  split at h
  · cases h; rfl
  · cases h

theorem Round.no_pre_number {r : Round} (h : r.preLatest = none) : r.number = r.latest + 1 := by
  unfold Round.number; rw [h]; rfl

theorem Round.next (r : Round) : r.event.next = r.latest + 1 := by
  unfold Ev.next Round.event
  cases h : r.preLatest with
  | none => exact r.no_pre_number h
  | some p => exact (r.pre_number h).1

theorem runs_snoc {s t : Sys} {l : List Act} {a : Act} (h : runs s (l ++ [a]) = some t) : ∃ m, runs s l = some m ∧ step m a = some t := by
  induction l generalizing s with
  | nil =>
    refine ⟨s, rfl, ?_⟩
    simpa [runs] using h
  | cons x l ih =>
    simp only [List.cons_append, runs, Option.bind_eq_some_iff] at h ⊢
    obtain ⟨m, h1, h2⟩ := h
    obtain ⟨k, h3, h4⟩ := ih h2
    exact ⟨k, ⟨m, h1, h3⟩, h4⟩

theorem runs_append {s t : Sys} {l k : List Act} : runs s (l ++ k) = some t ↔ ∃ m, runs s l = some m ∧ runs m k = some t := by
  induction l generalizing s with
  | nil => simp [runs]
  | cons x l ih =>
    simp only [List.cons_append, runs, Option.bind_eq_some_iff]
    constructor
    · rintro ⟨m, h1, h2⟩
      obtain ⟨q, h3, h4⟩ := ih.1 h2
      exact ⟨q, ⟨m, h1, h3⟩, h4⟩
    · rintro ⟨q, ⟨m, h1, h3⟩, h4⟩
      exact ⟨m, h1, ih.2 ⟨q, h3, h4⟩⟩

/-- What every action keeps. -/
structure Inv (acts : List Act) (s : Sys) : Prop where
  st : s.st = {} ∨ ∃ r, Act.poll r ∈ acts ∧ s.st = r.event.state
  queue : ∀ e ∈ s.queue, ∃ r, Act.poll r ∈ acts ∧ e = r.event
  data : s.data = ({} : Sys).data ∨ ∃ r, Act.poll r ∈ acts ∧ convert (r.block r.number) r.number r.preLatest = .ok s.data

theorem Inv.more {acts : List Act} {s : Sys} (h : Inv acts s) (a : Act) : Inv (acts ++ [a]) s :=
  ⟨h.st.imp id fun ⟨r, hr, e⟩ => ⟨r, List.mem_append_left _ hr, e⟩,
    fun e he => let ⟨r, hr, e⟩ := h.queue e he; ⟨r, List.mem_append_left _ hr, e⟩,
    h.data.imp id fun ⟨r, hr, e⟩ => ⟨r, List.mem_append_left _ hr, e⟩⟩

theorem store_cases {s t : Sys} {e : Ev} (h : store s e = some t) :
    t = s ∨ ∃ d, e.next = s.head + 1 ∧ convert e.block e.number e.pre = .ok d ∧ t = { s with data := d } := by
  unfold store at h
  split at h
  · rename_i hn
    split at h
    · rename_i d hd
      cases h
      exact .inr ⟨d, hn, hd, rfl⟩
    · cases h; exact .inl rfl
    · cases h
  · cases h; exact .inl rfl

theorem inv (acts : List Act) {s : Sys} (h : runs {} acts = some s) : Inv acts s := by
  induction acts using snoc_induction generalizing s with
  | h0 =>
    cases h
    exact ⟨.inl rfl, (fun e he => by cases he), .inl rfl⟩
  | h1 l a ih =>
    obtain ⟨m, hm, ha⟩ := runs_snoc h
    have hi := (ih hm).more a
    cases a with
    | poll r =>
      simp only [step, poll] at ha
      split at ha
      · cases ha
        refine ⟨.inr ⟨r, by simp, rfl⟩, fun e he => ?_, hi.data⟩
        rcases List.mem_append.1 he with he | he
        · exact hi.queue e he
        · rw [List.mem_singleton] at he
          exact ⟨r, by simp, he⟩
      · cases ha; exact hi
    | restart =>
      simp only [step] at ha
      cases ha
      exact ⟨.inl rfl, hi.queue, hi.data⟩
    | consume =>
      simp only [step] at ha
      split at ha
      · cases ha
      · rename_i e q hq
        have hq' : ∀ x ∈ q, x ∈ m.queue := fun x hx => by rw [hq]; exact List.mem_cons_of_mem _ hx
        rcases store_cases ha with rfl | ⟨d, -, hd, rfl⟩
        · exact ⟨hi.st, fun x hx => hi.queue x (hq' x hx), hi.data⟩
        · obtain ⟨r, hr, rfl⟩ := hi.queue e (by rw [hq]; exact List.mem_cons_self)
          exact ⟨hi.st, fun x hx => hi.queue x (hq' x hx), .inr ⟨r, hr, hd⟩⟩
    | grow x =>
      simp only [step] at ha
      cases ha
      exact ⟨hi.st, hi.queue, hi.data⟩
    | reorg n =>
      simp only [step] at ha
      split at ha
      · cases ha
        exact ⟨hi.st, hi.queue, hi.data⟩
      · cases ha

/-- What the view of data from a round is. -/
theorem view_round {s : Sys} {r : Round} (h : convert (r.block r.number) r.number r.preLatest = .ok s.data) :
    ∃ d, s.view = .ok d ∧
      (d = empty s.head 0 ∨
        d.number = r.number ∧ d.txs = executed (r.block r.number) ∧ d.cand = candidates (r.block r.number) ∧
        d.receipts = given (r.block r.number) ∧
        (s.head = r.latest ∧ d.preLatest.map (·.txs) = r.preLatest.map (·.txs) ∧ d.preLatest.map (·.number) = r.preLatest.map (·.number) ∨
          s.head = r.latest + 1 ∧ r.preLatest.isSome ∧ d.preLatest = none)) := by
  obtain ⟨-, -, e⟩ := convert_ok h
  unfold Sys.view
  rw [e]
  simp only [get, if_true]
  cases hp : r.preLatest with
  | none =>
    simp only [Option.map_none]
    have := r.no_pre_number hp
    by_cases hn : r.number = s.head + 1
    · rw [if_pos hn]
      exact ⟨_, rfl, .inr ⟨rfl, rfl, rfl, rfl, .inl ⟨by omega, rfl, rfl⟩⟩⟩
    · rw [if_neg hn]
      exact ⟨_, rfl, .inl rfl⟩
  | some p =>
    obtain ⟨h1, h2⟩ := r.pre_number hp
    simp only [Option.map_some, preLatest]
    by_cases ha : p.number = s.head + 1
    · rw [if_pos ha, if_pos (by omega)]
      exact ⟨_, rfl, .inr ⟨rfl, rfl, rfl, rfl, .inl ⟨by omega, rfl, rfl⟩⟩⟩
    · rw [if_neg ha]
      by_cases hb : p.number = s.head
      · rw [if_pos hb, if_pos (by omega)]
        exact ⟨_, rfl, .inr ⟨rfl, rfl, rfl, rfl, .inr ⟨by omega, rfl, rfl⟩⟩⟩
      · rw [if_neg hb]
        exact ⟨_, rfl, .inl rfl⟩

theorem view_at {s : Sys} {r : Round} (h : convert (r.block r.number) r.number r.preLatest = .ok s.data) (hh : s.head = r.latest) :
    ∃ d, s.view = .ok d ∧ d.number = r.number ∧ d.txs = executed (r.block r.number) ∧ d.cand = candidates (r.block r.number) ∧
      d.receipts = given (r.block r.number) ∧ d.preLatest.map (·.txs) = r.preLatest.map (·.txs) := by
  obtain ⟨-, -, e⟩ := convert_ok h
  unfold Sys.view
  rw [e]
  simp only [get, if_true]
  cases hp : r.preLatest with
  | none =>
    simp only [Option.map_none]
    have := r.no_pre_number hp
    rw [if_pos (by omega)]
    exact ⟨_, rfl, rfl, rfl, rfl, rfl, rfl⟩
  | some p =>
    obtain ⟨h1, h2⟩ := r.pre_number hp
    simp only [Option.map_some, preLatest]
    rw [if_pos (by omega), if_pos (by omega)]
    exact ⟨_, rfl, rfl, rfl, rfl, rfl, rfl⟩

theorem view_init (s : Sys) (h : s.data = ({} : Sys).data) : s.view = .ok (empty s.head 0) := by
  unfold Sys.view
  rw [h]
  rfl

/-- C86. No execution makes the consumer or a query panic. -/
theorem C86_no_panic (acts : List Act) {s : Sys} (h : runs {} acts = some s) :
    (∃ d, s.view = .ok d) ∧ (s.queue ≠ [] → ∃ t, step s .consume = some t) := by
  have hi := inv acts h
  constructor
  · rcases hi.data with hd | ⟨r, -, hr⟩
    · exact ⟨_, view_init s hd⟩
    · obtain ⟨d, hd, -⟩ := view_round hr
      exact ⟨d, hd⟩
  · intro hq
    simp only [step]
    cases hqe : s.queue with
    | nil => exact absurd hqe hq
    | cons e q =>
      simp only
      obtain ⟨r, -, rfl⟩ := hi.queue e (by rw [hqe]; exact List.mem_cons_self)
      unfold store
      split
      · have : convert r.event.block r.event.number r.event.pre ≠ .error .panic := by
          unfold convert
          split
          · simp
          · split
            · rename_i hne
              exfalso
              apply hne
              show ((r.preLatest.map fun p => p.number + 1).getD r.number) = r.number
              cases hp : r.preLatest with
              | none => rfl
              | some p =>
                have := r.pre_number hp
                simp only [Option.map_some, Option.getD_some]
                omega
            · simp
        split
        · exact ⟨_, rfl⟩
        · exact ⟨_, rfl⟩
        · rename_i he
          exact absurd he this
      · exact ⟨_, rfl⟩

/-- C86. What is shown is what the gateway gave in one round for that block number, when its chain had the height that the database has now; or
one less, if the pre-latest block of that round has the height of the database now. -/
theorem C86_given (acts : List Act) {s : Sys} (h : runs {} acts = some s) {d : Data} (hd : s.view = .ok d)
    (hne : d.txs ≠ [] ∨ d.cand ≠ [] ∨ d.preLatest ≠ none) :
    ∃ r, Act.poll r ∈ acts ∧ d.number = r.number ∧ d.txs = executed (r.block r.number) ∧ d.cand = candidates (r.block r.number) ∧
      d.receipts = given (r.block r.number) ∧
      (s.head = r.latest ∧ d.preLatest.map (·.txs) = r.preLatest.map (·.txs) ∧ d.preLatest.map (·.number) = r.preLatest.map (·.number) ∨
        s.head = r.latest + 1 ∧ r.preLatest.isSome ∧ d.preLatest = none) := by
  have hemp : d ≠ empty s.head 0 := by
    rintro rfl
    rcases hne with h | h | h <;> exact h rfl
  rcases (inv acts h).data with hi | ⟨r, hr, hc⟩
  · rw [view_init s hi] at hd
    cases hd
    exact absurd rfl hemp
  · obtain ⟨d', hd', hc'⟩ := view_round hc
    rw [hd] at hd'
    cases hd'
    rcases hc' with hc' | hc'
    · exact absurd hc' hemp
    · exact ⟨r, hr, hc'⟩

/-! ## It only grows -/

/-- Order of block number and then number of transactions. -/
def Before (a b : Nat × Nat) : Prop := a.1 < b.1 ∨ a.1 = b.1 ∧ a.2 ≤ b.2

theorem Before.trans {a b c : Nat × Nat} (h : Before a b) (k : Before b c) : Before a c := by
  unfold Before at *; omega

theorem Before.refl (a : Nat × Nat) : Before a a := by unfold Before; omega

/-- Number and transactions of data, of an event and of the poller's state. -/
def Data.key (d : Data) : Nat × Nat := (d.number, d.count)
def Ev.key (e : Ev) : Nat × Nat := (e.number, e.block.txs.length)
def PState.key (s : PState) : Nat × Nat := (s.number, s.count)

theorem count_block (g : GBlock) : (executed g).length + (candidates g).length = g.txs.length := by
  unfold executed candidates
  generalize (given g).map (·.tx) = ks
  induction g.txs with
  | nil => rfl
  | cons t l ih =>
    rw [List.filter_cons, List.filter_cons]
    cases ks.contains t.hash
    · rw [if_neg (by simp), if_pos (by simp), List.length_cons, List.length_cons]
      omega
    · rw [if_pos (by simp), if_neg (by simp), List.length_cons, List.length_cons]
      omega

theorem convert_key {e : Ev} {d : Data} (h : convert e.block e.number e.pre = .ok d) : d.key = e.key := by
  obtain ⟨-, -, rfl⟩ := convert_ok h
  exact Prod.ext rfl (count_block e.block)

theorem news_key {s new : PState} (h : s.news new = true) : Before s.key new.key := by
  unfold PState.news at h
  unfold Before PState.key
  simp only
  split at h
  · cases h
  · split at h
    · omega
    · split at h
      · cases h
      · omega

/-- Data, queue and state of the poller in order. -/
structure InOrder (s : Sys) : Prop where
  queue : s.queue.Pairwise fun a b => Before a.key b.key
  low : ∀ e ∈ s.queue, Before s.data.key e.key
  high : ∀ e ∈ s.queue, Before e.key s.st.key
  both : Before s.data.key s.st.key

theorem step_order {s t : Sys} {a : Act} (hs : InOrder s) (hr : a ≠ .restart) (h : step s a = some t) :
    InOrder t ∧ Before s.data.key t.data.key := by
  cases a with
  | poll r =>
    simp only [step, poll] at h
    split at h
    · rename_i hc
      cases h
      have hk : Before s.st.key r.event.key := news_key (Bool.and_eq_true _ _ ▸ hc).2
      refine ⟨⟨?_, fun e he => ?_, fun e he => ?_, hs.both.trans hk⟩, Before.refl _⟩
      · rw [List.pairwise_append]
        refine ⟨hs.queue, List.pairwise_singleton _ _, fun a ha b hb => ?_⟩
        rw [List.mem_singleton] at hb
        subst hb
        exact (hs.high a ha).trans hk
      · rcases List.mem_append.1 he with he | he
        · exact hs.low e he
        · rw [List.mem_singleton] at he
          subst he
          exact hs.both.trans hk
      · rcases List.mem_append.1 he with he | he
        · exact (hs.high e he).trans hk
        · rw [List.mem_singleton] at he
          subst he
          exact Before.refl _
    · cases h; exact ⟨hs, Before.refl _⟩
  | restart => exact absurd rfl hr
  | consume =>
    simp only [step] at h
    split at h
    · cases h
    · rename_i e q hq
      have hp := hs.queue
      rw [hq, List.pairwise_cons] at hp
      have hin : ∀ x ∈ q, x ∈ s.queue := fun x hx => by rw [hq]; exact List.mem_cons_of_mem _ hx
      have he : e ∈ s.queue := by rw [hq]; exact List.mem_cons_self
      rcases store_cases h with rfl | ⟨d, -, hd, rfl⟩
      · exact ⟨⟨hp.2, fun x hx => hs.low x (hin x hx), fun x hx => hs.high x (hin x hx), hs.both⟩, Before.refl _⟩
      · have hk := convert_key hd
        refine ⟨⟨hp.2, fun x hx => ?_, fun x hx => hs.high x (hin x hx), ?_⟩, ?_⟩
        · show Before d.key x.key
          rw [hk]; exact hp.1 x hx
        · show Before d.key s.st.key
          rw [hk]; exact hs.high e he
        · show Before s.data.key d.key
          rw [hk]; exact hs.low e he
  | grow x => simp only [step] at h; cases h; exact ⟨⟨hs.queue, hs.low, hs.high, hs.both⟩, Before.refl _⟩
  | reorg n =>
    simp only [step] at h
    split at h
    · cases h; exact ⟨⟨hs.queue, hs.low, hs.high, hs.both⟩, Before.refl _⟩
    · cases h

theorem runs_order {s t : Sys} {acts : List Act} (hs : InOrder s) (hr : Act.restart ∉ acts) (h : runs s acts = some t) :
    InOrder t ∧ Before s.data.key t.data.key := by
  induction acts generalizing s with
  | nil => cases h; exact ⟨hs, Before.refl _⟩
  | cons a l ih =>
    simp only [runs, Option.bind_eq_some_iff] at h
    obtain ⟨m, h1, h2⟩ := h
    obtain ⟨k1, k2⟩ := step_order hs (fun e => hr (e ▸ List.mem_cons_self)) h1
    obtain ⟨k3, k4⟩ := ih k1 (fun e => hr (List.mem_cons_of_mem _ e)) h2
    exact ⟨k3, k2.trans k4⟩

theorem order_init : InOrder {} :=
  ⟨List.Pairwise.nil, (fun e he => by cases he), (fun e he => by cases he), Before.refl _⟩

/-- What is not empty is the stored data. -/
theorem view_key {s : Sys} {d : Data} (h : s.view = .ok d) (hne : d.count ≠ 0) : d.key = s.data.key := by
  unfold Sys.view get at h
  simp only [if_true] at h
  split at h
  · split at h
    · split at h
      · cases h; rfl
      · cases h
    · split at h
      · split at h
        · cases h; rfl
        · cases h
      · cases h; exact absurd rfl hne
  · split at h
    · cases h; rfl
    · cases h; exact absurd rfl hne

/-- C86. As long as the polling task runs, a pending block that is shown again has at least as many transactions as before, whatever happened in
between. -/
theorem C86_grows (as bs : List Act) {s t : Sys} (hs : runs {} as = some s) (ht : runs s bs = some t) (hr : Act.restart ∉ as ++ bs) {d d' : Data}
    (hd : s.view = .ok d) (hd' : t.view = .ok d') (hn : d.number = d'.number) (hne : d'.count ≠ 0) : d.count ≤ d'.count := by
  have hr1 : Act.restart ∉ as := fun e => hr (List.mem_append_left _ e)
  have hr2 : Act.restart ∉ bs := fun e => hr (List.mem_append_right _ e)
  have ho := (runs_order order_init hr1 hs).1
  have hb := (runs_order ho hr2 ht).2
  by_cases h0 : d.count = 0
  · omega
  · have e1 := view_key hd h0
    have e2 := view_key hd' hne
    rw [← e1, ← e2] at hb
    unfold Before Data.key at hb
    simp only at hb
    omega

/-! ## News is shown -/

/-- The round brings more than each of the rounds before: a higher block, or more transactions. -/
def Brings (acts : List Act) (r : Round) : Prop :=
  ∀ q, Act.poll q ∈ acts → q.number < r.number ∨ q.number = r.number ∧ (q.block q.number).txs.length < (r.block r.number).txs.length

theorem brings_news {acts : List Act} {s : Sys} (h : runs {} acts = some s) {r : Round} (hb : Brings acts r) :
    s.st.news r.event.state = true := by
  have hpos : 0 < r.number := by
    cases hp : r.preLatest with
    | none => have := r.no_pre_number hp; omega
    | some p => have := r.pre_number hp; omega
  rcases (inv acts h).st with e | ⟨q, hq, e⟩
  · rw [e]
    unfold PState.news
    have h1 : ¬ r.event.state.number < ({} : PState).number := Nat.not_lt_zero _
    have h2 : ({} : PState).number < r.event.state.number := hpos
    rw [if_neg h1, if_pos h2]
  · rw [e]
    have := hb q hq
    unfold PState.news
    have e1 : r.event.state.number = r.number := rfl
    have e2 : q.event.state.number = q.number := rfl
    have e3 : r.event.state.count = (r.block r.number).txs.length := rfl
    have e4 : q.event.state.count = (q.block q.number).txs.length := rfl
    rw [e1, e2, e3, e4]
    rcases this with h1 | ⟨h1, h2⟩
    · rw [if_neg (by omega), if_pos h1]
    · rw [if_neg (by omega), if_neg (by omega), if_neg (by omega), if_pos h2]

/-- Consuming the queue to its end: the last event decides, if it fits. -/
theorem consume_all {s : Sys} {q : List Ev} {e : Ev} {d : Data} (hq : s.queue = q ++ [e])
    (hok : ∀ x ∈ q, convert x.block x.number x.pre ≠ .error .panic) (hn : e.next = s.head + 1)
    (hc : convert e.block e.number e.pre = .ok d) :
    ∃ t, runs s (List.replicate (q.length + 1) .consume) = some t ∧ t.data = d ∧ t.chain = s.chain ∧ t.queue = [] := by
  induction q generalizing s with
  | nil =>
    rw [List.nil_append] at hq
    refine ⟨{ s with queue := [], data := d }, ?_, rfl, rfl, rfl⟩
    simp only [List.length_nil, Nat.zero_add, List.replicate_one, runs, step, hq, store]
    rw [if_pos (by exact hn), hc]
    rfl
  | cons x q ih =>
    have hst : ∃ m, step s .consume = some m ∧ m.queue = q ++ [e] ∧ m.chain = s.chain := by
      simp only [step, hq, List.cons_append, store]
      split
      · split
        · exact ⟨_, rfl, rfl, rfl⟩
        · exact ⟨_, rfl, rfl, rfl⟩
        · rename_i he
          exact absurd he (hok x List.mem_cons_self)
      · exact ⟨_, rfl, rfl, rfl⟩
    obtain ⟨m, h1, h2, h3⟩ := hst
    obtain ⟨t, k1, k2, k3, k4⟩ := ih h2 (fun y hy => hok y (List.mem_cons_of_mem _ hy)) (by unfold Sys.head at *; rw [h3]; exact hn)
    refine ⟨t, ?_, k2, k3.trans h3, k4⟩
    rw [List.length_cons, List.replicate_succ]
    simp only [runs]
    rw [h1]
    exact k1

theorem queue_ok {acts : List Act} {s : Sys} (h : runs {} acts = some s) : ∀ x ∈ s.queue, convert x.block x.number x.pre ≠ .error .panic := by
  intro x hx
  obtain ⟨r, -, rfl⟩ := (inv acts h).queue x hx
  unfold convert
  split
  · simp
  · split
    · rename_i hne
      exfalso
      apply hne
      show ((r.preLatest.map fun p => p.number + 1).getD r.number) = r.number
      cases hp : r.preLatest with
      | none => rfl
      | some p =>
        have := r.pre_number hp
        simp only [Option.map_some, Option.getD_some]
        omega
    · simp

/-- C86, news: a round that brings a higher block or more transactions than all rounds before is shown when the events in the queue have been
handled, if the database has the height of the gateway's chain then. -/
theorem C86_current_partial (acts : List Act) {s : Sys} (h : runs {} acts = some s) {r : Round} (hin : r.latest - r.current ≤ 6 ∧ r.current - r.latest ≤ 6)
    (hb : Brings acts r) (hat : s.head = r.latest) (hal : Aligned (r.block r.number).txs (r.block r.number).receipts) :
    ∃ k t d, runs s (.poll r :: List.replicate k .consume) = some t ∧ t.queue = [] ∧ t.chain = s.chain ∧ t.view = .ok d ∧
      d.number = r.number ∧ d.txs = executed (r.block r.number) ∧ d.cand = candidates (r.block r.number) ∧
      d.receipts = given (r.block r.number) ∧ d.preLatest.map (·.txs) = r.preLatest.map (·.txs) := by
  have hnews := brings_news h hb
  have hpn : ∀ p ∈ r.preLatest, p.number + 1 = r.number := by
    intro p hp
    have := r.pre_number hp
    omega
  obtain ⟨w, hw, -, -⟩ := C85_accepted hal hpn
  have hpoll : poll s r = { s with st := r.event.state, queue := s.queue ++ [r.event] } := by
    unfold poll
    rw [if_pos]
    rw [hnews, Bool.and_true]
    exact decide_eq_true hin
  obtain ⟨t, h1, h2, h3, h4⟩ := consume_all (s := { s with st := r.event.state, queue := s.queue ++ [r.event] }) (q := s.queue)
    (e := r.event) (d := w) rfl (queue_ok h) (by rw [r.next]; exact congrArg (· + 1) hat.symm) hw
  have hh : t.head = r.latest := by unfold Sys.head at *; rw [h3]; exact hat
  obtain ⟨d, hd, hc⟩ := view_at (s := t) (r := r) (by rw [h2]; exact hw) hh
  refine ⟨s.queue.length + 1, t, d, ?_, h4, h3, hd, hc⟩
  simp only [runs, step]
  rw [hpoll]
  exact h1

/-- C86. When the pre-latest block has become the latest one, so that the same pre-confirmed block now comes alone, that is passed on, too. -/
theorem C86_cleared (acts : List Act) {s : Sys} (h : runs {} acts = some s) {r q : Round} (hin : r.latest - r.current ≤ 6 ∧ r.current - r.latest ≤ 6)
    (hiq : q.latest - q.current ≤ 6 ∧ q.current - q.latest ≤ 6) (hb : Brings acts r) (hp : r.preLatest.isSome) (hq : q.preLatest = none)
    (hn : q.latest = r.latest + 1) (hc : (q.block q.number).txs.length = (r.block r.number).txs.length) :
    ∃ t, runs s [.poll r, .poll q] = some t ∧ t.queue = s.queue ++ [r.event, q.event] := by
  have hnews := brings_news h hb
  have hpoll : poll s r = { s with st := r.event.state, queue := s.queue ++ [r.event] } := by
    unfold poll
    rw [if_pos]
    rw [hnews, Bool.and_true]
    exact decide_eq_true hin
  have hnum : q.number = r.number := by
    obtain ⟨p, hp'⟩ := Option.isSome_iff_exists.1 hp
    have := (r.pre_number hp').2
    have := q.no_pre_number hq
    omega
  have hnews' : r.event.state.news q.event.state = true := by
    unfold PState.news
    have e1 : r.event.state.number = r.number := rfl
    have e2 : q.event.state.number = q.number := rfl
    have e3 : r.event.state.count = (r.block r.number).txs.length := rfl
    have e4 : q.event.state.count = (q.block q.number).txs.length := rfl
    have e5 : r.event.state.pre = true := hp
    have e6 : q.event.state.pre = false := by show q.preLatest.isSome = false; rw [hq]; rfl
    rw [if_neg (by omega), if_neg (by omega), if_neg (by omega), if_neg (by omega), e5, e6]
    rfl
  refine ⟨{ s with st := q.event.state, queue := s.queue ++ [r.event] ++ [q.event] }, ?_, by simp⟩
  simp only [runs, step, Option.bind_some]
  rw [hpoll]
  unfold poll
  rw [if_pos]
  show (q.inSync && r.event.state.news q.event.state) = true
  rw [hnews', Bool.and_true]
  exact decide_eq_true hiq

/-! ## What is not shown -/

/-- A round without news changes nothing, however often it is repeated. -/
theorem stalled {s t : Sys} {r : Round} (hq : s.queue = []) (hn : s.st.news r.event.state = false) (bs : List Act)
    (hb : ∀ a ∈ bs, a = .poll r ∨ a = .consume) (h : runs s bs = some t) : t = s := by
  induction bs with
  | nil => cases h; rfl
  | cons a l ih =>
    simp only [runs, Option.bind_eq_some_iff] at h
    obtain ⟨m, h1, h2⟩ := h
    rcases hb a List.mem_cons_self with rfl | rfl
    · have : m = s := by
        simp only [step, poll] at h1
        rw [hn, Bool.and_false] at h1
        cases h1
        rfl
      subst this
      exact ih (fun a ha => hb a (List.mem_cons_of_mem _ ha)) h2
    · simp only [step] at h1
      rw [hq] at h1
      cases h1

/-- No pending block with a matching parent. -/
def noPending : GLatest := ⟨0, 0, [], [], {}⟩

/-- One transaction, not executed yet, and then executed. -/
def exWaiting : Round := ⟨0, 7, 0, noPending, fun _ => ⟨[⟨600, 0⟩], [none], [none]⟩⟩
def exDone : Round := ⟨0, 7, 0, noPending, fun _ => ⟨[⟨600, 0⟩], [some ⟨600, 0, 0⟩], [some {}]⟩⟩

/-- C86 is violated: when a transaction that was a candidate gets executed and no transaction joins the block, that is never shown, however often
the gateway is asked and says so. -/
theorem C86_promotion_violated : ∃ s, runs {} [.grow 7, .poll exWaiting, .consume] = some s ∧
    executed (exDone.block exDone.number) = [⟨600, 0⟩] ∧ exDone.inSync = true ∧ s.head = exDone.latest ∧ exWaiting.number = exDone.number ∧
    ∀ bs t, (∀ a ∈ bs, a = .poll exDone ∨ a = .consume) → runs s bs = some t →
      ∃ d, t.view = .ok d ∧ d.number = 1 ∧ d.txs = [] ∧ d.cand = [⟨600, 0⟩] := by
  refine ⟨_, rfl, by decide, by decide, rfl, by decide, fun bs t hb h => ?_⟩
  obtain rfl := stalled (r := exDone) rfl (by decide) bs hb h
  exact ⟨_, rfl, rfl, rfl, rfl⟩

/-- The block after the gateway's block 1. -/
def exAhead : Round := ⟨1, 8, 0, noPending, fun _ => ⟨[⟨600, 0⟩], [some ⟨600, 0, 0⟩], [some {}]⟩⟩

/-- C86 is violated: an event that is handled before the block it follows is stored is dropped. The node then gets to the gateway's height and
shows nothing, although the gateway is asked again and again. -/
theorem C86_early_violated : ∃ s, runs {} [.grow 7, .poll exAhead, .consume, .grow 8] = some s ∧
    executed (exAhead.block exAhead.number) = [⟨600, 0⟩] ∧ exAhead.inSync = true ∧ s.head = exAhead.latest ∧ s.chain.getLast? = some exAhead.hash ∧
    ∀ bs t, (∀ a ∈ bs, a = .poll exAhead ∨ a = .consume) → runs s bs = some t →
      ∃ d, t.view = .ok d ∧ d.number = 2 ∧ d.txs = [] ∧ d.cand = [] := by
  refine ⟨_, rfl, by decide, by decide, rfl, rfl, fun bs t hb h => ?_⟩
  obtain rfl := stalled (r := exAhead) rfl (by decide) bs hb h
  exact ⟨_, rfl, rfl, rfl, rfl⟩

/-- Block 2 on the block with hash 8, and on the one with hash 9 that replaces it. -/
def exOldFork : Round := ⟨1, 8, 1, noPending, fun _ => ⟨[⟨600, 0⟩, ⟨601, 0⟩], [some ⟨600, 0, 0⟩, some ⟨601, 0, 0⟩], [some {}, some {}]⟩⟩
def exNewFork : Round := ⟨1, 9, 1, noPending, fun _ => ⟨[⟨700, 0⟩], [some ⟨700, 0, 0⟩], [some {}]⟩⟩

/-- C86 is violated: after a reorg the pending block of the old fork is shown on the new one, and as long as the gateway gives a block with fewer
transactions it stays. -/
theorem C86_fork_violated : ∃ s, runs {} [.grow 7, .grow 8, .poll exOldFork, .consume, .reorg 1, .grow 9] = some s ∧
    s.chain = [7, 9] ∧ s.chain.getLast? = some exNewFork.hash ∧ exOldFork.hash ∉ s.chain ∧ executed (exNewFork.block exNewFork.number) = [⟨700, 0⟩] ∧
    ∀ bs t, (∀ a ∈ bs, a = .poll exNewFork ∨ a = .consume) → runs s bs = some t →
      ∃ d, t.view = .ok d ∧ d.number = 2 ∧ d.txs = [⟨600, 0⟩, ⟨601, 0⟩] := by
  refine ⟨_, rfl, rfl, rfl, by decide, by decide, fun bs t hb h => ?_⟩
  obtain rfl := stalled (r := exNewFork) rfl (by decide) bs hb h
  exact ⟨_, rfl, rfl, rfl⟩

/-- C86 is violated: after the gateway's chain has become shorter nothing is passed on until it is as high as before, whatever the gateway says. -/
theorem C86_lower_violated (acts : List Act) {s : Sys} (h : runs {} acts = some s) {r : Round} (hin : r.latest - r.current ≤ 6 ∧ r.current - r.latest ≤ 6)
    (hb : Brings acts r) (bs : List Act) (hbs : ∀ a ∈ bs, ∃ q, a = .poll q ∧ q.number < r.number) {t : Sys}
    (ht : runs s (.poll r :: bs) = some t) : t.queue = s.queue ++ [r.event] := by
  have hnews := brings_news h hb
  have hpoll : poll s r = { s with st := r.event.state, queue := s.queue ++ [r.event] } := by
    unfold poll
    rw [if_pos]
    rw [hnews, Bool.and_true]
    exact decide_eq_true hin
  simp only [runs, step, Option.bind_some] at ht
  rw [hpoll] at ht
  generalize hm : ({ s with st := r.event.state, queue := s.queue ++ [r.event] } : Sys) = m at ht
  have hst : m.st = r.event.state := by rw [← hm]
  have : t = m := by
    clear hm
    induction bs with
    | nil => cases ht; rfl
    | cons a l ih =>
      obtain ⟨q, rfl, hq⟩ := hbs a List.mem_cons_self
      simp only [runs, step, Option.bind_some] at ht
      have : poll m q = m := by
        unfold poll
        rw [if_neg]
        rw [hst]
        have : r.event.state.news q.event.state = false := by
          unfold PState.news
          exact if_pos hq
        rw [this, Bool.and_false]
        simp
      rw [this] at ht
      exact ih (fun a ha => hbs a (List.mem_cons_of_mem _ ha)) ht
  rw [this, ← hm]

/-! ## Examples -/

/-- A round with a pre-latest block, and the next one in which that block is the latest. -/
def exBoth : Round := ⟨0, 7, 0, ⟨0, 7, [⟨500, 0⟩], [⟨500, 0, 0⟩], {}⟩, fun _ => ⟨[⟨600, 0⟩], [some ⟨600, 0, 0⟩], [some {}]⟩⟩
def exAlone : Round := ⟨1, 8, 0, ⟨0, 7, [⟨500, 0⟩], [⟨500, 0, 0⟩], {}⟩, fun _ => ⟨[⟨600, 0⟩], [some ⟨600, 0, 0⟩], [some {}]⟩⟩

/-- The hypotheses of `C86_given`, `C86_grows`, `C86_current_partial` and `C86_cleared` are met. -/
example : ∃ s t d d', runs {} [.grow 7, .poll exWaiting, .consume] = some s ∧ s.view = .ok d ∧ d.cand ≠ [] ∧
    runs s [.poll exBoth, .consume] = some t ∧ t.view = .ok d' ∧ d'.txs = [⟨600, 0⟩] ∧ d'.number = 2 ∧ d'.preLatest.map (·.number) = some 1 ∧
    Brings [.grow 7, .poll exWaiting, .consume] exBoth ∧ s.head = exBoth.latest ∧ exBoth.preLatest.isSome ∧ exAlone.preLatest = none ∧
    exAlone.latest = exBoth.latest + 1 := by
  refine ⟨_, _, _, _, rfl, rfl, by decide, rfl, rfl, rfl, rfl, rfl, ?_, rfl, rfl, rfl, rfl⟩
  intro q hq
  simp at hq
  subst hq
  exact .inl (by decide)

/-- The hypotheses of `C86_lower_violated` are met. -/
example : ∃ s, runs {} [.grow 7, .poll exWaiting] = some s ∧ Brings [.grow 7, .poll exWaiting] exOldFork ∧ exWaiting.number < exOldFork.number := by
  refine ⟨_, rfl, ?_, by decide⟩
  intro q hq
  simp at hq
  subst hq
  exact .inl (by decide)

end Verif.Pend
