import Verif.Drive.Spec
/-! # Lemmas about the driver of a consensus engine -/

namespace Verif.Drive

variable {P W Q V L H S : Type} (env : Env P W Q V L H S)

theorem inputs_append (a b : List (Hist P W Q L H)) : inputs (a ++ b) = inputs a ++ inputs b := by
  simp [inputs, List.filterMap_append]

theorem toEntry_of (e : CoreEntry P W Q) : [(toEntry e : Entry P W Q V)] = entryOf (.append e) := by
  cases e with
  | timeout t => obtain ⟨k, r⟩ := t; cases k <;> rfl
  | proposal p => rfl
  | vote w => rfl
  | proposed q => rfl

theorem toEntry_not_decision (e : CoreEntry P W Q) : (toEntry e : Entry P W Q V).isDecision = false := by
  cases e <;> rfl

theorem toInput_toEntry (e : CoreEntry P W Q) : (toInput (toEntry e : Entry P W Q V) : Option (Input P W Q L H)) = some e.input := by
  cases e with
  | timeout t => obtain ⟨k, r⟩ := t; cases k <;> rfl
  | proposal p => rfl
  | vote w => rfl
  | proposed q => rfl

/-! ### What an engine does to its parts -/

/-- How a state follows from another by giving the core some inputs. -/
structure Follows (st st' : St P W Q V L H S) (is : List (Input P W Q L H)) (evs : List (Event P W V)) (ens : List (Entry P W Q V)) : Prop where
  queue : st'.queue = st.queue
  out : st'.out = st.out ++ evs
  file : st'.file = st.file
  log : st'.log = st.log ++ (if st.file then ens else [])
  marked : st'.marked = (st.marked || (st.file && ens.any (·.isDecision)))
  inputs : inputs st'.hist = inputs st.hist ++ is

theorem Follows.refl (st : St P W Q V L H S) : Follows st st [] [] [] := by
  constructor <;> simp

theorem Follows.trans {a b c : St P W Q V L H S} {i1 i2 e1 e2 n1 n2} (h1 : Follows a b i1 e1 n1) (h2 : Follows b c i2 e2 n2) :
    Follows a c (i1 ++ i2) (e1 ++ e2) (n1 ++ n2) := by
  constructor
  · rw [h2.queue, h1.queue]
  · rw [h2.out, h1.out, List.append_assoc]
  · rw [h2.file, h1.file]
  · rw [h2.log, h1.log, h1.file]
    cases a.file <;> simp
  · rw [h2.marked, h1.marked, h1.file, List.any_append]
    cases a.file <;> cases a.marked <;> simp
  · rw [h2.inputs, h1.inputs, List.append_assoc]

theorem append_follows (st : St P W Q V L H S) (e : Entry P W Q V) : Follows st (st.append e) [] [] [e] := by
  unfold St.append
  cases hf : st.file with
  | false => constructor <;> simp [hf]
  | true =>
    constructor <;> simp [hf]
    cases e <;> simp [Entry.isDecision]

theorem apply_follows (st st' : St P W Q V L H S) (e : Effect P W Q V) (h : st.apply env e = some st') :
    st'.core = st.core ∧ Follows st st' [] (eventOf e) (entryOf e) := by
  cases e with
  | publishProposal p => simp only [St.apply, Option.some.injEq] at h; subst h; exact ⟨rfl, by constructor <;> simp [St.emit, eventOf, entryOf]⟩
  | publishVote p => simp only [St.apply, Option.some.injEq] at h; subst h; exact ⟨rfl, by constructor <;> simp [St.emit, eventOf, entryOf]⟩
  | restream p => simp only [St.apply, Option.some.injEq] at h; subst h; exact ⟨rfl, by constructor <;> simp [St.emit, eventOf, entryOf]⟩
  | republish p => simp only [St.apply, Option.some.injEq] at h; subst h; exact ⟨rfl, by constructor <;> simp [St.emit, eventOf, entryOf]⟩
  | getValue hh r =>
    cases r with
    | none => simp [St.apply] at h
    | some r => simp only [St.apply, Option.some.injEq] at h; subst h; exact ⟨rfl, by constructor <;> simp [St.emit, eventOf, entryOf]⟩
  | decide hh r v =>
    cases r with
    | none => simp [St.apply] at h
    | some r =>
      simp only [St.apply, Option.some.injEq] at h
      subst h
      have h1 : Follows st (st.emit (.decision hh r v)) [] [.decision hh r v] [] := by constructor <;> simp [St.emit]
      have h2 := append_follows (st.emit (.decision hh r v)) (.decision hh v)
      refine ⟨?_, h1.trans h2⟩
      unfold St.append
      split <;> rfl
  | schedule t => simp only [St.apply, Option.some.injEq] at h; subst h; exact ⟨rfl, by constructor <;> simp [St.schedule, eventOf, entryOf, inputs]⟩
  | cancel t => simp only [St.apply, Option.some.injEq] at h; subst h; exact ⟨rfl, by constructor <;> simp [eventOf, entryOf, inputs]⟩
  | cancelAll => simp only [St.apply, Option.some.injEq] at h; subst h; exact ⟨rfl, by constructor <;> simp [eventOf, entryOf, inputs]⟩
  | reset => simp only [St.apply, Option.some.injEq] at h; subst h; exact ⟨rfl, by constructor <;> simp [eventOf, entryOf, inputs]⟩
  | append e =>
    simp only [St.apply, Option.some.injEq] at h
    subst h
    have := append_follows st (toEntry e)
    rw [toEntry_of] at this
    refine ⟨?_, this⟩
    unfold St.append
    split <;> rfl
  | other => simp only [St.apply, Option.some.injEq] at h; subst h; exact ⟨rfl, Follows.refl _⟩

theorem applyAll_follows (es : List (Effect P W Q V)) (st st' : St P W Q V L H S) (h : st.applyAll env es = some st') :
    st'.core = st.core ∧ Follows st st' [] (es.flatMap eventOf) (es.flatMap entryOf) := by
  induction es generalizing st with
  | nil => simp only [St.applyAll, Option.some.injEq] at h; subst h; exact ⟨rfl, Follows.refl _⟩
  | cons e es ih =>
    simp only [St.applyAll] at h
    split at h
    · rename_i s1 h1
      obtain ⟨c1, f1⟩ := apply_follows env st s1 e h1
      obtain ⟨c2, f2⟩ := ih s1 h
      exact ⟨c2.trans c1, f1.trans f2⟩
    · simp at h

theorem process_follows (st st' : St P W Q V L H S) (i : Input P W Q L H) (h : st.process env i = some st') :
    st'.core = (env.core st.core i).1 ∧
      Follows st st' [i] ((env.core st.core i).2.1.flatMap eventOf ++ if (env.core st.core i).2.2 then [.error] else [])
        ((env.core st.core i).2.1.flatMap entryOf) := by
  simp only [St.process] at h
  split at h
  · simp at h
  · rename_i s1 h1
    simp only [Option.some.injEq] at h
    obtain ⟨c1, f1⟩ := applyAll_follows env _ _ _ h1
    have f0 : Follows st { st with core := (env.core st.core i).1, hist := st.hist ++ [.fed i] } [i] [] [] := by
      constructor <;> simp [inputs]
    have f2 := f0.trans f1
    subst h
    split
    · rename_i he
      have f3 : Follows s1 (s1.emit .error) [] [.error] [] := by constructor <;> simp [St.emit]
      have := f2.trans f3
      simp only [List.append_nil, List.nil_append] at this
      exact ⟨c1, this⟩
    · rename_i he
      simp only [List.append_nil, List.nil_append] at f2 ⊢
      exact ⟨c1, f2⟩

/-! ### The core's outcome -/

theorem outcome_append (core : S → Input P W Q L H → S × List (Effect P W Q V) × Bool) (a b : List (Input P W Q L H)) (s : S) :
    outcome core s (a ++ b) =
      ((outcome core (outcome core s a).1 b).1, (outcome core s a).2.1 ++ (outcome core (outcome core s a).1 b).2.1,
        (outcome core s a).2.2 ++ (outcome core (outcome core s a).1 b).2.2) := by
  induction a generalizing s with
  | nil => simp [outcome]
  | cons i is ih =>
    simp only [List.cons_append, outcome, ih, List.append_assoc]

/-- The core was given these inputs, and its outcome is in the state. -/
def Gives (st st' : St P W Q V L H S) (is : List (Input P W Q L H)) : Prop :=
  st'.core = (outcome env.core st.core is).1 ∧ Follows st st' is (outcome env.core st.core is).2.1 (outcome env.core st.core is).2.2

theorem Gives.refl (st : St P W Q V L H S) : Gives env st st [] := ⟨rfl, Follows.refl st⟩

theorem Gives.trans {a b c : St P W Q V L H S} {i1 i2} (h1 : Gives env a b i1) (h2 : Gives env b c i2) : Gives env a c (i1 ++ i2) := by
  have ho := outcome_append env.core i1 i2 a.core
  refine ⟨?_, ?_⟩
  · rw [ho, h2.1, h1.1]
  · rw [ho, ← h1.1]
    exact h1.2.trans h2.2

theorem process_gives (st st' : St P W Q V L H S) (i : Input P W Q L H) (h : st.process env i = some st') : Gives env st st' [i] := by
  obtain ⟨c, f⟩ := process_follows env st st' i h
  refine ⟨c, ?_⟩
  simpa only [outcome, List.append_nil] using f

theorem drain_gives (now fuel : Nat) (st st' : St P W Q V L H S) (h : st.drain env now fuel = .ok st') :
    ∃ ts : List Timeout, Gives env st st' (ts.map .timeout) := by
  induction fuel generalizing st with
  | zero => simp [St.drain] at h
  | succ n ih =>
    simp only [St.drain] at h
    split at h
    · simp only [Res.ok.injEq] at h; subst h; exact ⟨[], Gives.refl env _⟩
    · rename_i s hs
      split at h
      · simp only [Res.ok.injEq] at h; subst h; exact ⟨[], Gives.refl env _⟩
      · split at h
        · simp at h
        · rename_i s1 h1
          obtain ⟨ts, ht⟩ := ih s1 h
          have g0 : Gives env st { st with heap := st.heap.erase s, hist := st.hist ++ [.fired s.timeout now] } [] :=
            ⟨rfl, by constructor <;> simp [outcome, inputs]⟩
          have := (g0.trans env (process_gives env _ s1 _ h1)).trans env ht
          exact ⟨s.timeout :: ts, this⟩

/-! ### Timeouts -/

/-- The reading of the clock that a line of the history is about. -/
def Hist.time : Hist P W Q L H → Option Nat
  | .scheduled _ a => some a
  | .reset a => some a
  | _ => none

/-- Every waiting timeout is accounted for in the history. -/
structure TInv (st : St P W Q V L H S) : Prop where
  over : ∀ e ∈ st.heap, Over env.duration st.hist e.timeout e.due
  past : ∀ x ∈ st.hist, ∀ a, x.time = some a → a ≤ env.clock st.reads
  fired : ∀ pre t now post, st.hist = pre ++ .fired t now :: post → Over env.duration pre t now
  count : ∀ t, firedCount st.hist t + st.heap.countP (fun s => s.timeout == t) ≤ scheduledCount st.hist t

theorem clock_le (hm : Monotone env.clock) (i k : Nat) : env.clock i ≤ env.clock (i + k) := by
  induction k with
  | zero => exact Nat.le_refl _
  | succ k ih => exact Nat.le_trans ih (hm _)

theorem Over.mono {d : Kind → Nat} {h : List (Hist P W Q L H)} {t : Timeout} {n m : Nat} (ho : Over d h t n) (hle : n ≤ m) : Over d h t m := by
  obtain ⟨a, b, at', h1, h2, h3, h4, h5⟩ := ho
  exact ⟨a, b, at', h1, h2, h3, by omega, fun r hr => by have := h5 r hr; omega⟩

theorem Over.snoc {d : Kind → Nat} {h : List (Hist P W Q L H)} {t : Timeout} {n : Nat} {x : Hist P W Q L H} (ho : Over d h t n)
    (h1 : x ≠ .cancelled t) (h2 : x ≠ .cancelledAll) (h3 : ∀ r, x = .reset r → r + d t.kind ≤ n) : Over d (h ++ [x]) t n := by
  obtain ⟨a, b, at', e1, e2, e3, e4, e5⟩ := ho
  refine ⟨a, b ++ [x], at', by rw [e1]; simp, ?_, ?_, e4, ?_⟩
  · simp only [List.mem_append, List.mem_singleton, not_or]; exact ⟨e2, fun e => h1 e.symm⟩
  · simp only [List.mem_append, List.mem_singleton, not_or]; exact ⟨e3, fun e => h2 e.symm⟩
  · intro r hr
    simp only [List.mem_append, List.mem_singleton] at hr
    rcases hr with hr | hr
    · exact e5 r hr
    · exact h3 r hr.symm

theorem snoc_fired {h : List (Hist P W Q L H)} {x : Hist P W Q L H} {pre t now post} (he : h ++ [x] = pre ++ .fired t now :: post) :
    (∃ post', h = pre ++ .fired t now :: post') ∨ (h = pre ∧ x = .fired t now) := by
  cases hp : post.reverse with
  | nil =>
    have : post = [] := by simpa using hp
    subst this
    have hl := List.append_inj' he (by simp)
    right
    exact ⟨hl.1, by simpa using hl.2⟩
  | cons y ys =>
    have hpost : post = ys.reverse ++ [y] := by
      have := congrArg List.reverse hp
      simpa using this
    subst hpost
    left
    have he' : h ++ [x] = (pre ++ .fired t now :: ys.reverse) ++ [y] := by rw [he]; simp
    exact ⟨_, (List.append_inj' he' (by simp)).1⟩

theorem firedCount_snoc (h : List (Hist P W Q L H)) (x : Hist P W Q L H) (t : Timeout) :
    firedCount (h ++ [x]) t = firedCount h t + (match x with | .fired u _ => if u = t then 1 else 0 | _ => 0) := by
  simp only [firedCount, List.countP_append, List.countP_singleton]
  cases x <;> simp

theorem scheduledCount_snoc (h : List (Hist P W Q L H)) (x : Hist P W Q L H) (t : Timeout) :
    scheduledCount (h ++ [x]) t = scheduledCount h t + (match x with | .scheduled u _ => if u = t then 1 else 0 | _ => 0) := by
  simp only [scheduledCount, List.countP_append, List.countP_singleton]
  cases x <;> simp

theorem countP_erase_add (p : Sched → Bool) (l : List Sched) (a : Sched) (h : a ∈ l) :
    (l.erase a).countP p + (if p a then 1 else 0) = l.countP p := by
  rw [(List.perm_cons_erase h).countP_eq p, List.countP_cons]

theorem tinv_congr {st st' : St P W Q V L H S} (h : TInv env st) (h1 : st'.heap = st.heap) (h2 : st'.hist = st.hist) (h3 : st'.reads = st.reads) :
    TInv env st' := by
  constructor
  · rw [h1, h2]; exact h.over
  · rw [h2, h3]; exact h.past
  · rw [h2]; exact h.fired
  · rw [h1, h2]; exact h.count

theorem tinv_emit {st : St P W Q V L H S} (h : TInv env st) (e : Event P W V) : TInv env (st.emit e) := tinv_congr env h rfl rfl rfl

theorem tinv_append {st : St P W Q V L H S} (h : TInv env st) (e : Entry P W Q V) : TInv env (st.append e) := by
  unfold St.append
  split
  · exact tinv_congr env h rfl rfl rfl
  · exact h

theorem tinv_schedule (hm : Monotone env.clock) {st : St P W Q V L H S} (h : TInv env st) (t : Timeout) : TInv env (st.schedule env t) := by
  constructor
  · intro e he
    simp only [St.schedule, List.mem_cons] at he ⊢
    rcases he with he | he
    · subst he
      exact ⟨st.hist, [], _, rfl, by simp, by simp, Nat.le_refl _, by simp⟩
    · exact (h.over e he).snoc (by simp) (by simp) (by simp)
  · intro x hx a hxe
    simp only [St.schedule, List.mem_append, List.mem_singleton] at hx ⊢
    rcases hx with hx | hx
    · exact Nat.le_trans (h.past x hx a hxe) (hm _)
    · rw [hx] at hxe
      simp only [Hist.time, Option.some.injEq] at hxe
      rw [← hxe]
      exact hm _
  · intro pre u now post he
    simp only [St.schedule] at he
    rcases snoc_fired he with ⟨p, hp⟩ | ⟨_, hx⟩
    · exact h.fired pre u now p hp
    · simp at hx
  · intro u
    simp only [St.schedule, firedCount_snoc, scheduledCount_snoc, List.countP_cons]
    have := h.count u
    by_cases hu : t = u
    · simp [hu]; omega
    · simp [hu]; omega

theorem tinv_apply (hm : Monotone env.clock) (st st' : St P W Q V L H S) (e : Effect P W Q V) (h : TInv env st) (ha : st.apply env e = some st') : TInv env st' := by
  cases e with
  | publishProposal p => simp only [St.apply, Option.some.injEq] at ha; subst ha; exact tinv_emit env h _
  | publishVote p => simp only [St.apply, Option.some.injEq] at ha; subst ha; exact tinv_emit env h _
  | restream p => simp only [St.apply, Option.some.injEq] at ha; subst ha; exact tinv_emit env h _
  | republish p => simp only [St.apply, Option.some.injEq] at ha; subst ha; exact tinv_emit env h _
  | getValue hh r =>
    cases r with
    | none => simp [St.apply] at ha
    | some r => simp only [St.apply, Option.some.injEq] at ha; subst ha; exact tinv_emit env h _
  | decide hh r v =>
    cases r with
    | none => simp [St.apply] at ha
    | some r => simp only [St.apply, Option.some.injEq] at ha; subst ha; exact tinv_append env (tinv_emit env h _) _
  | schedule t => simp only [St.apply, Option.some.injEq] at ha; subst ha; exact tinv_schedule env hm h t
  | append e => simp only [St.apply, Option.some.injEq] at ha; subst ha; exact tinv_append env h _
  | other => simp only [St.apply, Option.some.injEq] at ha; subst ha; exact h
  | cancel t =>
    simp only [St.apply, Option.some.injEq] at ha
    subst ha
    constructor
    · intro e he
      simp only [List.mem_filter, ne_eq, decide_not, Bool.not_eq_eq_eq_not, Bool.not_true, decide_eq_false_iff_not] at he
      exact (h.over e he.1).snoc (by simp only [ne_eq, Hist.cancelled.injEq]; exact fun e' => he.2 e'.symm) (by simp) (by simp)
    · intro x hx a hxe
      simp only [List.mem_append, List.mem_singleton] at hx
      rcases hx with hx | hx
      · exact h.past x hx a hxe
      · rw [hx] at hxe; simp [Hist.time] at hxe
    · intro pre u now post he
      rcases snoc_fired he with ⟨p, hp⟩ | ⟨_, hx⟩
      · exact h.fired pre u now p hp
      · simp at hx
    · intro u
      simp only [firedCount_snoc, scheduledCount_snoc]
      have := h.count u
      have hle : (st.heap.filter (fun s => decide (s.timeout ≠ t))).countP (fun s => s.timeout == u) ≤ st.heap.countP (fun s => s.timeout == u) :=
        List.Sublist.countP_le List.filter_sublist
      omega
  | cancelAll =>
    simp only [St.apply, Option.some.injEq] at ha
    subst ha
    constructor
    · intro e he; simp at he
    · intro x hx a hxe
      simp only [List.mem_append, List.mem_singleton] at hx
      rcases hx with hx | hx
      · exact h.past x hx a hxe
      · rw [hx] at hxe; simp [Hist.time] at hxe
    · intro pre u now post he
      rcases snoc_fired he with ⟨p, hp⟩ | ⟨_, hx⟩
      · exact h.fired pre u now p hp
      · simp at hx
    · intro u
      simp only [firedCount_snoc, scheduledCount_snoc, List.countP_nil]
      have := h.count u
      omega
  | reset =>
    simp only [St.apply, Option.some.injEq] at ha
    subst ha
    constructor
    · intro e he
      simp only [List.mem_map] at he
      obtain ⟨o, ho, he⟩ := he
      subst he
      obtain ⟨a, b, at', e1, e2, e3, e4, e5⟩ := h.over o ho
      have hat : at' ≤ env.clock st.reads := h.past (.scheduled o.timeout at') (by rw [e1]; simp) _ rfl
      refine ⟨a, b ++ [.reset (env.clock st.reads)], at', by simp only [e1]; simp, ?_, ?_, ?_, ?_⟩
      · simpa using e2
      · simpa using e3
      · simp only; omega
      · intro r hr
        simp only [List.mem_append, List.mem_singleton, Hist.reset.injEq] at hr
        rcases hr with hr | hr
        · have := h.past (.reset r) (by rw [e1]; simp [hr]) r rfl
          simp only; omega
        · rw [hr]; exact Nat.le_refl _
    · intro x hx a hxe
      simp only [List.mem_append, List.mem_singleton] at hx
      rcases hx with hx | hx
      · exact Nat.le_trans (h.past x hx a hxe) (hm _)
      · rw [hx] at hxe; simp only [Hist.time, Option.some.injEq] at hxe; rw [← hxe]; exact hm _
    · intro pre u now post he
      rcases snoc_fired he with ⟨p, hp⟩ | ⟨_, hx⟩
      · exact h.fired pre u now p hp
      · simp at hx
    · intro u
      simp only [firedCount_snoc, scheduledCount_snoc, List.countP_map]
      have := h.count u
      have : ((fun s : Sched => s.timeout == u) ∘ fun s : Sched => { s with due := env.clock st.reads + env.duration s.timeout.kind }) = fun s => s.timeout == u := rfl
      rw [this]
      omega

theorem tinv_applyAll (hm : Monotone env.clock) (es : List (Effect P W Q V)) (st st' : St P W Q V L H S) (h : TInv env st)
    (ha : st.applyAll env es = some st') : TInv env st' := by
  induction es generalizing st with
  | nil => simp only [St.applyAll, Option.some.injEq] at ha; subst ha; exact h
  | cons e es ih =>
    simp only [St.applyAll] at ha
    split at ha
    · rename_i s1 h1
      exact ih s1 (tinv_apply env hm st s1 e h h1) ha
    · simp at ha

theorem tinv_process (hm : Monotone env.clock) (st st' : St P W Q V L H S) (i : Input P W Q L H) (h : TInv env st)
    (hp : st.process env i = some st') : TInv env st' := by
  simp only [St.process] at hp
  split at hp
  · simp at hp
  · rename_i s1 h1
    simp only [Option.some.injEq] at hp
    have h0 : TInv env { st with core := (env.core st.core i).1, hist := st.hist ++ [.fed i] } := by
      constructor
      · intro e he
        exact (h.over e he).snoc (by simp) (by simp) (by simp)
      · intro x hx a hxe
        simp only [List.mem_append, List.mem_singleton] at hx
        rcases hx with hx | hx
        · exact h.past x hx a hxe
        · rw [hx] at hxe; simp [Hist.time] at hxe
      · intro pre u now post he
        rcases snoc_fired he with ⟨p, hp⟩ | ⟨_, hx⟩
        · exact h.fired pre u now p hp
        · simp at hx
      · intro u
        simp only [firedCount_snoc, scheduledCount_snoc]
        exact h.count u
    have h2 := tinv_applyAll env hm _ _ _ h0 h1
    subst hp
    split
    · exact tinv_emit env h2 _
    · exact h2

theorem tinv_drain (hm : Monotone env.clock) (hl : Least env.first) (now fuel : Nat) (st st' : St P W Q V L H S) (h : TInv env st)
    (hd : st.drain env now fuel = .ok st') : TInv env st' := by
  induction fuel generalizing st with
  | zero => simp [St.drain] at hd
  | succ n ih =>
    simp only [St.drain] at hd
    split at hd
    · simp only [Res.ok.injEq] at hd; subst hd; exact h
    · rename_i s hs
      split at hd
      · simp only [Res.ok.injEq] at hd; subst hd; exact h
      · rename_i hdue
        split at hd
        · simp at hd
        · rename_i s1 h1
          have hmem := ((hl st.heap).2 s hs).1
          refine ih s1 (tinv_process env hm _ s1 _ ?_ h1) hd
          constructor
          · intro e he
            exact (h.over e (List.mem_of_mem_erase he)).snoc (by simp) (by simp) (by simp)
          · intro x hx a hxe
            simp only [List.mem_append, List.mem_singleton] at hx
            rcases hx with hx | hx
            · exact h.past x hx a hxe
            · rw [hx] at hxe; simp [Hist.time] at hxe
          · intro pre u now' post he
            rcases snoc_fired he with ⟨p, hp⟩ | ⟨hpre, hx⟩
            · exact h.fired pre u now' p hp
            · simp only [Hist.fired.injEq] at hx
              rw [← hpre, ← hx.1, ← hx.2]
              exact (h.over s hmem).mono (by omega)
          · intro u
            have := h.count u
            have he := countP_erase_add (fun s => s.timeout == u) st.heap s hmem
            simp only [firedCount_snoc, scheduledCount_snoc]
            by_cases hu : s.timeout = u
            · simp [hu] at he ⊢
              omega
            · simp [hu] at he ⊢
              omega

theorem tinv_poll (hm : Monotone env.clock) (hl : Least env.first) (fuel : Nat) (st st' : St P W Q V L H S) (e : Option (Event P W V)) (h : TInv env st)
    (hp : st.poll env fuel = .ok (st', e)) : TInv env st' := by
  simp only [St.poll] at hp
  split at hp
  · simp at hp
  · simp at hp
  · rename_i s1 h1
    have h0 : TInv env { st with reads := st.reads + 1 } :=
      ⟨h.over, fun x hx a hxe => Nat.le_trans (h.past x hx a hxe) (hm _), h.fired, h.count⟩
    have h2 := tinv_drain env hm hl _ fuel _ s1 h0 h1
    split at hp
    · simp at hp
    · rename_i s2 hc
      have h3 : TInv env s2 := by
        simp only [St.command] at hc
        split at hc
        · simp only [Option.some.injEq] at hc; subst hc; exact h2
        · refine tinv_process env hm _ s2 _ ?_ hc
          exact tinv_congr env h2 rfl rfl rfl
      split at hp
      · simp only [Res.ok.injEq, Prod.mk.injEq] at hp; rw [← hp.1]; exact h3
      · simp only [Res.ok.injEq, Prod.mk.injEq] at hp; rw [← hp.1]; exact tinv_congr env h3 rfl rfl rfl

theorem tinv_run (hm : Monotone env.clock) (hl : Least env.first) (ops : List (Op P W L H)) (st st' : St P W Q V L H S) (evs evs' : List (Event P W V))
    (h : TInv env st) (hr : run env st evs ops = .ok (st', evs')) : TInv env st' := by
  induction ops generalizing st evs with
  | nil => simp only [run, Res.ok.injEq, Prod.mk.injEq] at hr; rw [← hr.1]; exact h
  | cons o ops ih =>
    cases o with
    | submit c =>
      refine ih (st.submit c) evs ?_ hr
      exact tinv_congr env h rfl rfl rfl
    | poll fuel =>
      simp only [run] at hr
      split at hr
      · simp at hr
      · simp at hr
      · rename_i s1 e h1
        exact ih s1 _ (tinv_poll env hm hl fuel st s1 e h h1) hr

theorem tinv_engine (s : S) (file : Bool) (log : List (Entry P W Q V)) : TInv env (engine s file log) := by
  constructor
  · intro e he; simp [engine] at he
  · intro x hx; simp [engine] at hx
  · intro pre t now post he; simp [engine] at he
  · intro t; simp [engine, firedCount, scheduledCount]

theorem tinv_replay (hm : Monotone env.clock) (es : List (Entry P W Q V)) (st st' : St P W Q V L H S) (r r' : Option Nat) (h : TInv env st)
    (hr : st.replay env r es = some (st', r')) : TInv env st' := by
  induction es generalizing st r with
  | nil => simp only [St.replay, Option.some.injEq, Prod.mk.injEq] at hr; rw [← hr.1]; exact h
  | cons e es ih =>
    simp only [St.replay] at hr
    split at hr
    · exact ih _ _ h hr
    · split at hr
      · simp at hr
      · split at hr
        · simp at hr
        · rename_i s1 h1
          exact ih s1 _ (tinv_process env hm st s1 _ h h1) hr

/-! ### Timeouts that are due -/

/-- How many timeouts are due. -/
def due (now : Nat) (st : St P W Q V L H S) : Nat := st.heap.countP fun s => decide (s.due ≤ now)

theorem due_apply (hm : Monotone env.clock) (hp : ∀ k, 0 < env.duration k) (now : Nat) (st st' : St P W Q V L H S) (e : Effect P W Q V)
    (hn : now ≤ env.clock st.reads) (ha : st.apply env e = some st') : now ≤ env.clock st'.reads ∧ due now st' ≤ due now st := by
  have happ : ∀ (st : St P W Q V L H S) (x : Entry P W Q V), (st.append x).reads = st.reads ∧ (st.append x).heap = st.heap := by
    intro st x; unfold St.append; split <;> exact ⟨rfl, rfl⟩
  cases e with
  | publishProposal p => simp only [St.apply, Option.some.injEq] at ha; subst ha; exact ⟨hn, Nat.le_refl _⟩
  | publishVote p => simp only [St.apply, Option.some.injEq] at ha; subst ha; exact ⟨hn, Nat.le_refl _⟩
  | restream p => simp only [St.apply, Option.some.injEq] at ha; subst ha; exact ⟨hn, Nat.le_refl _⟩
  | republish p => simp only [St.apply, Option.some.injEq] at ha; subst ha; exact ⟨hn, Nat.le_refl _⟩
  | getValue hh r =>
    cases r with
    | none => simp [St.apply] at ha
    | some r => simp only [St.apply, Option.some.injEq] at ha; subst ha; exact ⟨hn, Nat.le_refl _⟩
  | decide hh r v =>
    cases r with
    | none => simp [St.apply] at ha
    | some r =>
      simp only [St.apply, Option.some.injEq] at ha; subst ha
      obtain ⟨h1, h2⟩ := happ (st.emit (.decision hh r v)) (.decision hh v)
      rw [h1]
      refine ⟨hn, ?_⟩
      unfold due
      rw [h2]
      exact Nat.le_refl _
  | schedule t =>
    simp only [St.apply, Option.some.injEq] at ha; subst ha
    refine ⟨Nat.le_trans hn (hm _), ?_⟩
    have := hp t.kind
    have hx : ¬ env.clock st.reads + env.duration t.kind ≤ now := by omega
    simp [due, St.schedule, List.countP_cons, hx]
  | append e =>
    simp only [St.apply, Option.some.injEq] at ha; subst ha
    obtain ⟨h1, h2⟩ := happ st (toEntry e)
    rw [h1]
    refine ⟨hn, ?_⟩
    unfold due
    rw [h2]
    exact Nat.le_refl _
  | other => simp only [St.apply, Option.some.injEq] at ha; subst ha; exact ⟨hn, Nat.le_refl _⟩
  | cancel t =>
    simp only [St.apply, Option.some.injEq] at ha; subst ha
    exact ⟨hn, List.Sublist.countP_le List.filter_sublist⟩
  | cancelAll =>
    simp only [St.apply, Option.some.injEq] at ha; subst ha
    exact ⟨hn, by simp [due]⟩
  | reset =>
    simp only [St.apply, Option.some.injEq] at ha; subst ha
    refine ⟨Nat.le_trans hn (hm _), ?_⟩
    have : (st.heap.map (fun s => ({ s with due := env.clock st.reads + env.duration s.timeout.kind } : Sched))).countP (fun s => decide (s.due ≤ now)) = 0 := by
      rw [List.countP_eq_zero]
      intro x hx
      obtain ⟨o, _, ho⟩ := List.mem_map.mp hx
      have := hp o.timeout.kind
      subst ho
      simp only [decide_eq_true_eq]
      omega
    simp only [due, this]
    omega

theorem due_applyAll (hm : Monotone env.clock) (hp : ∀ k, 0 < env.duration k) (now : Nat) (es : List (Effect P W Q V)) (st st' : St P W Q V L H S)
    (hn : now ≤ env.clock st.reads) (ha : st.applyAll env es = some st') : now ≤ env.clock st'.reads ∧ due now st' ≤ due now st := by
  induction es generalizing st with
  | nil => simp only [St.applyAll, Option.some.injEq] at ha; subst ha; exact ⟨hn, Nat.le_refl _⟩
  | cons e es ih =>
    simp only [St.applyAll] at ha
    split at ha
    · rename_i s1 h1
      obtain ⟨a, b⟩ := due_apply env hm hp now st s1 e hn h1
      obtain ⟨c, d⟩ := ih s1 a ha
      exact ⟨c, by omega⟩
    · simp at ha

theorem due_process (hm : Monotone env.clock) (hp : ∀ k, 0 < env.duration k) (now : Nat) (i : Input P W Q L H) (st st' : St P W Q V L H S)
    (hn : now ≤ env.clock st.reads) (ha : st.process env i = some st') : now ≤ env.clock st'.reads ∧ due now st' ≤ due now st := by
  simp only [St.process] at ha
  split at ha
  · simp at ha
  · rename_i s1 h1
    have := due_applyAll env hm hp now _ _ s1 (by exact hn) h1
    simp only [Option.some.injEq] at ha
    subst ha
    split
    · exact this
    · exact this

theorem due_erase (now : Nat) (st : St P W Q V L H S) (s : Sched) (h : List (Hist P W Q L H)) (hm : s ∈ st.heap) (hd : s.due ≤ now) :
    due now { st with heap := st.heap.erase s, hist := h } + 1 = due now st := by
  have he := countP_erase_add (fun s => decide (s.due ≤ now)) st.heap s hm
  simp only [hd, decide_true, if_true] at he
  exact he

theorem drain_due (hm : Monotone env.clock) (hp : ∀ k, 0 < env.duration k) (hl : Least env.first) (now fuel : Nat) (st : St P W Q V L H S)
    (hn : now ≤ env.clock st.reads) :
    (due now st < fuel → st.drain env now fuel ≠ .more) ∧
      ∀ st', st.drain env now fuel = .ok st' → now ≤ env.clock st'.reads ∧ due now st' = 0 := by
  induction fuel generalizing st with
  | zero => exact ⟨by omega, by intro st' h; simp [St.drain] at h⟩
  | succ n ih =>
    simp only [St.drain]
    split
    · rename_i hf
      have := (hl st.heap).1 hf
      refine ⟨by simp, ?_⟩
      intro st' h
      simp only [Res.ok.injEq] at h
      subst h
      exact ⟨hn, by simp [due, this]⟩
    · rename_i s hs
      obtain ⟨hmem, hleast⟩ := (hl st.heap).2 s hs
      split
      · rename_i hlt
        refine ⟨by simp, ?_⟩
        intro st' h
        simp only [Res.ok.injEq] at h
        subst h
        refine ⟨hn, ?_⟩
        simp only [due, List.countP_eq_zero, decide_eq_true_eq]
        intro x hx
        have := hleast x hx
        omega
      · rename_i hge
        split
        · exact ⟨by simp, by intro st' h; simp at h⟩
        · rename_i s1 h1
          obtain ⟨a, b⟩ := due_process env hm hp now _ _ s1 (by exact hn) h1
          have he := due_erase now st s (st.hist ++ [.fired s.timeout now]) hmem (by omega)
          obtain ⟨c, d⟩ := ih s1 a
          exact ⟨fun h => c (by omega), d⟩

end Verif.Drive
