import Verif.Drive.Lemmas
/-! # C100: what the driver of a consensus engine does -/

namespace Verif.Drive

variable {P W Q V L H S : Type} (env : Env P W Q V L H S)

/-! ### Examples -/

/-- The first of those with the least due time. -/
def exFirst : List Sched → Option Sched
  | [] => none
  | s :: l =>
    match exFirst l with
    | none => some s
    | some x => if s.due ≤ x.due then some s else some x

theorem exFirst_least : Least exFirst := by
  intro l
  induction l with
  | nil => simp [exFirst]
  | cons s l ih =>
    refine ⟨?_, ?_⟩
    · intro h
      simp only [exFirst] at h
      split at h
      · simp at h
      · split at h <;> simp at h
    · intro x h
      simp only [exFirst] at h
      split at h
      · rename_i hn
        have := ih.1 hn
        simp only [Option.some.injEq] at h
        subst h this
        simp
      · rename_i y hy
        obtain ⟨hm, hl⟩ := ih.2 y hy
        split at h
        · simp only [Option.some.injEq] at h
          subst h
          refine ⟨by simp, ?_⟩
          intro z hz
          simp only [List.mem_cons] at hz
          rcases hz with hz | hz
          · rw [hz]; exact Nat.le_refl _
          · have := hl z hz; omega
        · simp only [Option.some.injEq] at h
          subst h
          refine ⟨by simp [hm], ?_⟩
          intro z hz
          simp only [List.mem_cons] at hz
          rcases hz with hz | hz
          · rw [hz]; omega
          · exact hl z hz

/-- A core that starts with a timeout, votes when it is over, and decides on the second vote
that it gets; everything is a number. -/
def exCore (s : Nat) : Input Nat Nat Nat Nat Nat → Nat × List (Effect Nat Nat Nat Nat) × Bool
  | .startHeight _ => (s, [.schedule ⟨.propose, some 0⟩, .schedule ⟨.prevote, some 0⟩], false)
  | .timeout t => (s, [.append (.timeout t), .append (.vote 5), .publishVote 5, .cancel ⟨.prevote, some 0⟩], false)
  | .vote w => if s = 1 then (2, [.append (.vote w), .cancelAll, .decide 9 (some 0) w], false) else (s + 1, [.append (.vote w)], false)
  | .proposal _ => (s, [], true)
  | _ => (s, [.reset], false)

def exEnv : Env Nat Nat Nat Nat Nat Nat Nat := ⟨exCore, fun n => 10 * n, fun k => if k = .propose then 15 else 40, exFirst, some⟩

theorem exEnv_clock : Monotone exEnv.clock := by intro i; simp only [exEnv]; omega

/-! ### What is given to the core, and what comes of it -/

theorem run_gives (ops : List (Op P W L H)) (st st' : St P W Q V L H S) (evs evs' : List (Event P W V))
    (hr : run env st evs ops = .ok (st', evs')) :
    ∃ is, inputs st'.hist = inputs st.hist ++ is ∧ st'.core = (outcome env.core st.core is).1 ∧
      evs' ++ st'.out = evs ++ st.out ++ (outcome env.core st.core is).2.1 ∧ st'.file = st.file ∧
      st'.log = st.log ++ (if st.file then (outcome env.core st.core is).2.2 else []) ∧
      st'.marked = (st.marked || (st.file && (outcome env.core st.core is).2.2.any (·.isDecision))) ∧
      is.filter (fun i => !isTimeout i) ++ st'.queue.map (·.input) = st.queue.map (·.input) ++ (submitted ops).map (·.input) := by
  induction ops generalizing st evs with
  | nil =>
    simp only [run, Res.ok.injEq, Prod.mk.injEq] at hr
    rw [← hr.1, ← hr.2]
    exact ⟨[], by simp [outcome, submitted]⟩
  | cons o ops ih =>
    cases o with
    | submit c =>
      obtain ⟨is, h1, h2, h3, h4, h5, h6, h7⟩ := ih (st.submit c) evs hr
      refine ⟨is, h1, h2, h3, h4, h5, h6, ?_⟩
      rw [h7]
      simp [St.submit, submitted]
    | poll fuel =>
      simp only [run] at hr
      split at hr
      · simp at hr
      · simp at hr
      · rename_i s3 e hpoll
        obtain ⟨is, h1, h2, h3, h4, h5, h6, h7⟩ := ih s3 _ hr
        simp only [St.poll] at hpoll
        split at hpoll
        · simp at hpoll
        · simp at hpoll
        · rename_i s1 hd
          obtain ⟨ts, g1⟩ := drain_gives env _ fuel _ s1 hd
          have g0 : Gives env st { st with reads := st.reads + 1 } [] := ⟨rfl, by constructor <;> simp [outcome]⟩
          have g := g0.trans env g1
          simp only [List.nil_append] at g
          split at hpoll
          · simp at hpoll
          · rename_i s2 hc
            -- the state after the command, and what was given in this poll
            have hx : ∃ cs : List (Cmd P W L H), st.queue = cs ++ s2.queue ∧
                s2.core = (outcome env.core st.core (ts.map .timeout ++ cs.map (·.input))).1 ∧
                s2.out = st.out ++ (outcome env.core st.core (ts.map .timeout ++ cs.map (·.input))).2.1 ∧
                s2.file = st.file ∧
                s2.log = st.log ++ (if st.file then (outcome env.core st.core (ts.map .timeout ++ cs.map (·.input))).2.2 else []) ∧
                s2.marked = (st.marked || (st.file && (outcome env.core st.core (ts.map .timeout ++ cs.map (·.input))).2.2.any (·.isDecision))) ∧
                inputs s2.hist = inputs st.hist ++ (ts.map .timeout ++ cs.map (·.input)) := by
              simp only [St.command] at hc
              split at hc
              · rename_i hq
                simp only [Option.some.injEq] at hc
                subst hc
                have f := g.2
                exact ⟨[], by rw [f.queue]; rfl, by simpa using g.1, by simpa using f.out, f.file, by simpa using f.log, by simpa using f.marked, by simpa using f.inputs⟩
              · rename_i c cs hq
                have g2 := process_gives env _ s2 _ hc
                have ho := outcome_append env.core (ts.map .timeout) [c.input] st.core
                have f1 := g.2
                have f2 := g2.2
                have hcore : s1.core = (outcome env.core st.core (ts.map .timeout)).1 := g.1
                refine ⟨[c], ?_, ?_, ?_, ?_, ?_, ?_, ?_⟩
                · rw [f2.queue, ← f1.queue, hq]; rfl
                · rw [List.map_singleton, ho, g2.1]; simp only [hcore]
                · rw [List.map_singleton, ho, f2.out]; simp only [f1.out, hcore, List.append_assoc]
                · rw [f2.file]; exact f1.file
                · rw [List.map_singleton, ho, f2.log]
                  simp only [f1.log, f1.file, hcore]
                  cases st.file <;> simp
                · rw [List.map_singleton, ho, f2.marked]
                  simp only [f1.marked, f1.file, hcore, List.any_append]
                  cases st.file <;> cases st.marked <;> simp
                · rw [f2.inputs]; simp only [f1.inputs]; simp
            obtain ⟨cs, k1, k2, k3, k4, k5, k6, k7⟩ := hx
            have hs3 : s3.core = s2.core ∧ e.toList ++ s3.out = s2.out ∧ s3.file = s2.file ∧ s3.log = s2.log ∧ s3.marked = s2.marked ∧
                s3.queue = s2.queue ∧ s3.hist = s2.hist := by
              split at hpoll
              · rename_i ho
                simp only [Res.ok.injEq, Prod.mk.injEq] at hpoll
                rw [← hpoll.1, ← hpoll.2]
                simp
              · rename_i x xs ho
                simp only [Res.ok.injEq, Prod.mk.injEq] at hpoll
                rw [← hpoll.1, ← hpoll.2]
                simp [ho]
            obtain ⟨m1, m2, m3, m4, m5, m6, m7⟩ := hs3
            have hcomp := outcome_append env.core (ts.map .timeout ++ cs.map (·.input)) is st.core
            rw [← k2, ← m1] at hcomp
            refine ⟨(ts.map .timeout ++ cs.map (·.input)) ++ is, ?_, ?_, ?_, ?_, ?_, ?_, ?_⟩
            · rw [h1, m7, k7, List.append_assoc]
            · rw [hcomp]; exact h2
            · rw [hcomp, h3]
              have : evs ++ e.toList ++ s3.out = evs ++ st.out ++ (outcome env.core st.core (ts.map .timeout ++ cs.map (·.input))).2.1 := by
                rw [List.append_assoc, m2, k3, List.append_assoc]
              rw [this, List.append_assoc]
            · rw [h4, m3, k4]
            · rw [hcomp, h5, m4, k5, m3, k4]
              cases st.file <;> simp
            · rw [hcomp, h6, m5, k6, m3, k4, List.any_append]
              cases st.file <;> cases st.marked <;> simp
            · have ht : (ts.map (Input.timeout : Timeout → Input P W Q L H)).filter (fun i => !isTimeout i) = [] := by
                rw [List.filter_eq_nil_iff]
                intro x hx
                obtain ⟨t, _, rfl⟩ := List.mem_map.mp hx
                simp [isTimeout]
              have hcs : (cs.map (fun c : Cmd P W L H => (c.input : Input P W Q L H))).filter (fun i => !isTimeout i) = cs.map (·.input) := by
                rw [List.filter_eq_self]
                intro x hx
                obtain ⟨c, _, rfl⟩ := List.mem_map.mp hx
                cases c <;> rfl
              rw [List.filter_append, List.filter_append, ht, hcs, List.nil_append, List.append_assoc, h7, m6, k1]
              simp [submitted]

/-- The engine is what its core makes of the inputs, whatever the caller does: the events that
were returned and those that wait are all that the core asked for, in that order, none lost
and none twice, and so are the lines of the log. -/
theorem C100_engine (s : S) (log : List (Entry P W Q V)) (ops : List (Op P W L H)) (st : St P W Q V L H S) (evs : List (Event P W V))
    (hr : run env (engine s true log) [] ops = .ok (st, evs)) :
    st.core = (outcome env.core s (inputs st.hist)).1 ∧ evs ++ st.out = (outcome env.core s (inputs st.hist)).2.1 ∧
      st.log = log ++ (outcome env.core s (inputs st.hist)).2.2 := by
  obtain ⟨is, h1, h2, h3, h4, h5, h6, h7⟩ := run_gives env ops _ st [] evs hr
  simp only [engine, inputs, List.filterMap_nil, List.nil_append, if_true] at h1 h2 h3 h5
  simp only [inputs, h1]
  exact ⟨h2, h3, h5⟩

/-- Commands are given to the core once each and in their order; what else it is given are
timeouts. -/
theorem C100_commands (s : S) (file : Bool) (log : List (Entry P W Q V)) (ops : List (Op P W L H)) (st : St P W Q V L H S) (evs : List (Event P W V))
    (hr : run env (engine s file log) [] ops = .ok (st, evs)) :
    (inputs st.hist).filter (fun i => !isTimeout i) ++ st.queue.map (·.input) = (submitted ops).map (·.input) := by
  obtain ⟨is, h1, _, _, _, _, _, h7⟩ := run_gives env ops _ st [] evs hr
  simp only [engine, inputs, List.filterMap_nil, List.nil_append, List.map_nil] at h1 h7
  simp only [inputs, h1]
  exact h7

/-- A poll takes the first command that waits. -/
theorem C100_next (c : Cmd P W L H) (cs : List (Cmd P W L H)) (fuel : Nat) (st st' : St P W Q V L H S) (e : Option (Event P W V))
    (hq : st.queue = c :: cs) (hp : st.poll env fuel = .ok (st', e)) : st'.queue = cs := by
  simp only [St.poll] at hp
  split at hp
  · simp at hp
  · simp at hp
  · rename_i s1 hd
    obtain ⟨ts, g⟩ := drain_gives env _ fuel _ s1 hd
    have hq1 : s1.queue = c :: cs := by rw [g.2.queue]; exact hq
    simp only [St.command, hq1] at hp
    split at hp
    · simp at hp
    · rename_i s2 hc
      have := (process_gives env _ s2 _ hc).2.queue
      split at hp
      · simp only [Res.ok.injEq, Prod.mk.injEq] at hp
        rw [← hp.1]; exact this
      · simp only [Res.ok.injEq, Prod.mk.injEq] at hp
        rw [← hp.1]; exact this

def exOps : List (Op Nat Nat Nat Nat) := [.submit (.startHeight 9), .submit (.vote 7), .poll 3, .poll 3, .poll 3, .submit (.vote 8), .poll 3, .poll 3]

example : (match run exEnv (engine 0 true []) [] exOps with
    | .ok (st, evs) => (evs, st.log, st.isFinalized, st.heap)
    | _ => ([], [], false, [])) =
    ([.gossipVote 5, .decision 9 0 8], [.timeout "propose" (some 0), .vote 5, .vote 7, .vote 8, .decision 9 8], true, []) := by decide

/-! ### Timeouts -/

/-- A timeout is given to the core only if it was scheduled, was not cancelled since, and its
duration has passed since it was scheduled and since every reset; and at most as often as it
was scheduled. -/
theorem C100_timeout (hm : Monotone env.clock) (hl : Least env.first) (s : S) (file : Bool) (log : List (Entry P W Q V)) (ops : List (Op P W L H))
    (st : St P W Q V L H S) (evs : List (Event P W V)) (hr : run env (engine s file log) [] ops = .ok (st, evs)) :
    (∀ pre t now post, st.hist = pre ++ .fired t now :: post → Over env.duration pre t now) ∧
      ∀ t, firedCount st.hist t ≤ scheduledCount st.hist t := by
  have h := tinv_run env hm hl ops _ st [] evs (tinv_engine env s file log) hr
  exact ⟨h.fired, fun t => by have := h.count t; omega⟩

theorem apply_overs (e : Effect P W Q V) (a b : St P W Q V L H S) (h : a.apply env e = some b) : overs b.hist = overs a.hist := by
  have happ : ∀ (st : St P W Q V L H S) (x : Entry P W Q V), (st.append x).hist = st.hist := by
    intro st x; unfold St.append; split <;> rfl
  cases e with
  | getValue hh r => cases r <;> simp only [St.apply, Option.some.injEq, reduceCtorEq] at h; subst h; rfl
  | decide hh r v => cases r <;> simp only [St.apply, Option.some.injEq, reduceCtorEq] at h; subst h; rw [happ]; rfl
  | append e => simp only [St.apply, Option.some.injEq] at h; subst h; rw [happ]
  | publishProposal p => simp only [St.apply, Option.some.injEq] at h; subst h; rfl
  | publishVote p => simp only [St.apply, Option.some.injEq] at h; subst h; rfl
  | restream p => simp only [St.apply, Option.some.injEq] at h; subst h; rfl
  | republish p => simp only [St.apply, Option.some.injEq] at h; subst h; rfl
  | schedule t => simp only [St.apply, Option.some.injEq] at h; subst h; simp [St.schedule, overs]
  | cancel t => simp only [St.apply, Option.some.injEq] at h; subst h; simp [overs]
  | cancelAll => simp only [St.apply, Option.some.injEq] at h; subst h; simp [overs]
  | reset => simp only [St.apply, Option.some.injEq] at h; subst h; simp [overs]
  | other => simp only [St.apply, Option.some.injEq] at h; subst h; rfl

theorem applyAll_overs (es : List (Effect P W Q V)) (a b : St P W Q V L H S) (h : a.applyAll env es = some b) : overs b.hist = overs a.hist := by
  induction es generalizing a with
  | nil => simp only [St.applyAll, Option.some.injEq] at h; subst h; rfl
  | cons e es ih =>
    simp only [St.applyAll] at h
    split at h
    · rename_i c hc
      rw [ih c h, apply_overs env e a c hc]
    · simp at h

theorem process_overs (i : Input P W Q L H) (a b : St P W Q V L H S) (h : a.process env i = some b) : overs b.hist = overs a.hist := by
  simp only [St.process] at h
  split at h
  · simp at h
  · rename_i c hc
    simp only [Option.some.injEq] at h
    have h1 := applyAll_overs env _ _ c hc
    have h2 : overs (a.hist ++ [.fed i]) = overs a.hist := by simp [overs]
    rw [h2] at h1
    subst h
    split
    · exact h1
    · exact h1

theorem drain_overs (now fuel : Nat) (a b : St P W Q V L H S) (h : a.drain env now fuel = .ok b) (ha : timeouts (inputs a.hist) = overs a.hist) :
    timeouts (inputs b.hist) = overs b.hist := by
  induction fuel generalizing a with
  | zero => simp [St.drain] at h
  | succ n ih =>
    simp only [St.drain] at h
    split at h
    · simp only [Res.ok.injEq] at h; subst h; exact ha
    · rename_i s hs
      split at h
      · simp only [Res.ok.injEq] at h; subst h; exact ha
      · split at h
        · simp at h
        · rename_i c hc
          refine ih c h ?_
          rw [process_overs env _ _ c hc, (process_gives env _ c _ hc).2.inputs]
          simp only [timeouts, inputs, overs] at ha
          simp [timeouts, inputs, overs, ha]

/-- The timeouts that the core was given are those that were found to be over, in that
order. -/
theorem C100_given (s : S) (file : Bool) (log : List (Entry P W Q V)) (ops : List (Op P W L H)) (st : St P W Q V L H S) (evs : List (Event P W V))
    (hr : run env (engine s file log) [] ops = .ok (st, evs)) : timeouts (inputs st.hist) = overs st.hist := by
  have key : ∀ (ops : List (Op P W L H)) (a b : St P W Q V L H S) (ea eb : List (Event P W V)), run env a ea ops = .ok (b, eb) →
      timeouts (inputs a.hist) = overs a.hist → timeouts (inputs b.hist) = overs b.hist := by
    intro ops
    induction ops with
    | nil => intro a b ea eb h ha; simp only [run, Res.ok.injEq, Prod.mk.injEq] at h; rw [← h.1]; exact ha
    | cons o ops ih =>
      intro a b ea eb h ha
      cases o with
      | submit c => exact ih (a.submit c) b ea eb h ha
      | poll fuel =>
        simp only [run] at h
        split at h
        · simp at h
        · simp at h
        · rename_i s3 e hpoll
          refine ih s3 b _ eb h ?_
          simp only [St.poll] at hpoll
          split at hpoll
          · simp at hpoll
          · simp at hpoll
          · rename_i s1 hd
            have h1 := drain_overs env _ fuel _ s1 hd ha
            split at hpoll
            · simp at hpoll
            · rename_i s2 hc
              have h2 : timeouts (inputs s2.hist) = overs s2.hist := by
                simp only [St.command] at hc
                split at hc
                · simp only [Option.some.injEq] at hc; subst hc; exact h1
                · rename_i c cs hq
                  rw [process_overs env _ _ s2 hc, (process_gives env _ s2 _ hc).2.inputs]
                  have : timeouts [(c.input : Input P W Q L H)] = [] := by cases c <;> rfl
                  simp only [timeouts, List.filterMap_append] at this h1 ⊢
                  rw [this, List.append_nil, h1]
              split at hpoll
              · simp only [Res.ok.injEq, Prod.mk.injEq] at hpoll; rw [← hpoll.1]; exact h2
              · simp only [Res.ok.injEq, Prod.mk.injEq] at hpoll; rw [← hpoll.1]; exact h2
  exact key ops _ st [] evs hr rfl

/-- After a poll nothing waits that was due when it began. -/
theorem C100_on_time (hm : Monotone env.clock) (hp : ∀ k, 0 < env.duration k) (hl : Least env.first) (fuel : Nat) (st st' : St P W Q V L H S)
    (e : Option (Event P W V)) (h : st.poll env fuel = .ok (st', e)) : ∀ x ∈ st'.heap, env.clock st.reads < x.due := by
  simp only [St.poll] at h
  split at h
  · simp at h
  · simp at h
  · rename_i s1 hd
    obtain ⟨a, b⟩ := (drain_due env hm hp hl (env.clock st.reads) fuel { st with reads := st.reads + 1 } (hm _)).2 s1 hd
    split at h
    · simp at h
    · rename_i s2 hc
      have h2 : due (env.clock st.reads) s2 = 0 := by
        simp only [St.command] at hc
        split at hc
        · simp only [Option.some.injEq] at hc; subst hc; exact b
        · have := (due_process env hm hp (env.clock st.reads) _ _ s2 (by exact a) hc).2
          have hb : due (env.clock st.reads) s1 = 0 := b
          simp only [due] at this hb ⊢
          omega
      have h3 : st'.heap = s2.heap := by
        split at h
        · simp only [Res.ok.injEq, Prod.mk.injEq] at h; rw [← h.1]
        · simp only [Res.ok.injEq, Prod.mk.injEq] at h; rw [← h.1]
      intro x hx
      rw [h3] at hx
      simp only [due, List.countP_eq_zero, decide_eq_true_eq] at h2
      have := h2 x hx
      omega

/-- A poll comes to an end, whatever timeouts the core schedules while it goes on: it handles at
most those that were waiting. -/
theorem C100_poll_ends (hm : Monotone env.clock) (hp : ∀ k, 0 < env.duration k) (hl : Least env.first) (st : St P W Q V L H S) :
    st.poll env (st.heap.length + 1) ≠ .more := by
  have := (drain_due env hm hp hl (env.clock st.reads) (st.heap.length + 1) { st with reads := st.reads + 1 } (hm _)).1 (by
    have : due (env.clock st.reads) ({ st with reads := st.reads + 1 } : St P W Q V L H S) ≤ st.heap.length := List.countP_le_length
    omega)
  intro h
  simp only [St.poll] at h
  split at h
  · simp at h
  · rename_i hx; exact this hx
  · split at h
    · simp at h
    · split at h <;> simp at h

example : Monotone exEnv.clock ∧ (∀ k, 0 < exEnv.duration k) ∧ Least exEnv.first :=
  ⟨exEnv_clock, by intro k; simp only [exEnv]; split <;> omega, exFirst_least⟩

/-! ### Decisions and the log -/

theorem decision_entry (core : S → Input P W Q L H → S × List (Effect P W Q V) × Bool) (is : List (Input P W Q L H)) (s : S) (h r : Nat) (v : V)
    (he : .decision h r v ∈ (outcome core s is).2.1) : .decision h v ∈ (outcome core s is).2.2 := by
  induction is generalizing s with
  | nil => simp [outcome] at he
  | cons i is ih =>
    simp only [outcome, List.mem_append] at he ⊢
    rcases he with (he | he) | he
    · left
      obtain ⟨e, hm, hx⟩ := List.mem_flatMap.mp he
      refine List.mem_flatMap.mpr ⟨e, hm, ?_⟩
      cases e with
      | decide a b c => cases b <;> simp [eventOf] at hx; simp [entryOf, hx]
      | getValue a b => cases b <;> simp [eventOf] at hx
      | _ => simp [eventOf] at hx
    · split at he <;> simp at he
    · right; exact ih _ he

/-- A decision that is returned is in the log already, and the height is finished. -/
theorem C100_decision (s : S) (log : List (Entry P W Q V)) (ops : List (Op P W L H)) (st : St P W Q V L H S) (evs : List (Event P W V))
    (hr : run env (engine s true log) [] ops = .ok (st, evs)) (h r : Nat) (v : V) (he : .decision h r v ∈ evs) :
    .decision h v ∈ st.log ∧ st.isFinalized = true := by
  obtain ⟨is, _, _, h3, h4, h5, h6, _⟩ := run_gives env ops _ st [] evs hr
  simp only [engine, List.nil_append, if_true, Bool.false_or, Bool.true_and] at h3 h4 h5 h6
  have hm := decision_entry env.core is s h r v (by rw [← h3]; simp [he])
  refine ⟨by rw [h5]; simp [hm], ?_⟩
  simp only [St.isFinalized, h4, h6, Bool.true_and, List.any_eq_true]
  exact ⟨_, hm, rfl⟩

/-- A new engine is finished only if there is a decision. -/
theorem C100_finished (s : S) (file : Bool) (log : List (Entry P W Q V)) (ops : List (Op P W L H)) (st : St P W Q V L H S) (evs : List (Event P W V))
    (hr : run env (engine s file log) [] ops = .ok (st, evs)) (hf : st.isFinalized = true) :
    ∃ h v, .decision h v ∈ (outcome env.core s (inputs st.hist)).2.2 := by
  obtain ⟨is, h1, _, _, h4, _, h6, _⟩ := run_gives env ops _ st [] evs hr
  simp only [engine, inputs, List.filterMap_nil, List.nil_append, Bool.false_or] at h1 h6
  simp only [St.isFinalized, Bool.and_eq_true] at hf
  rw [h6, Bool.and_eq_true, List.any_eq_true] at hf
  obtain ⟨_, _, x, hx, hd⟩ := hf
  simp only [inputs, h1]
  cases x with
  | decision h v => exact ⟨h, v, hx⟩
  | proposal p => simp [Entry.isDecision] at hd
  | vote w => simp [Entry.isDecision] at hd
  | timeout k r => simp [Entry.isDecision] at hd
  | proposed q => simp [Entry.isDecision] at hd

/-- If the file of the log cannot be opened, the engine votes and decides all the same, without
any line in a log, and is never finished. -/
theorem C100_no_log_violated (s : S) (log : List (Entry P W Q V)) (ops : List (Op P W L H)) (st : St P W Q V L H S) (evs : List (Event P W V))
    (hr : run env (engine s false log) [] ops = .ok (st, evs)) :
    st.log = log ∧ st.isFinalized = false ∧ evs ++ st.out = (outcome env.core s (inputs st.hist)).2.1 := by
  obtain ⟨is, h1, _, h3, h4, h5, _, _⟩ := run_gives env ops _ st [] evs hr
  simp only [engine, inputs, List.filterMap_nil, List.nil_append, Bool.false_eq_true, if_false, List.append_nil] at h1 h3 h4 h5
  refine ⟨h5, by simp [St.isFinalized, h4], ?_⟩
  simp only [inputs, h1]
  exact h3

example : (match run exEnv (engine 0 false []) [] exOps with
    | .ok (st, evs) => (evs, st.log, st.isFinalized)
    | _ => ([], [], true)) = ([.gossipVote 5, .decision 9 0 8], [], false) := by decide

/-! ### Restarting from a log -/

/-- What an engine writes to its log is read back as the same input. -/
theorem C100_round_trip (e : CoreEntry P W Q) : (toInput (toEntry e : Entry P W Q V) : Option (Input P W Q L H)) = some e.input := toInput_toEntry e

theorem replay_gives (es : List (Entry P W Q V)) (st st' : St P W Q V L H S) (r r' : Option Nat) (h : st.replay env r es = some (st', r')) :
    ∃ is, (es.filter (fun e => !e.isDecision)).map toInput = is.map some ∧ Gives env st st' is ∧
      (∀ n, r' = some n ↔ n ∈ (r.toList ++ es.filterMap (·.voteRound env)) ∧ ∀ m ∈ r.toList ++ es.filterMap (·.voteRound env), m ≤ n) := by
  induction es generalizing st r with
  | nil =>
    simp only [St.replay, Option.some.injEq, Prod.mk.injEq] at h
    rw [← h.1, ← h.2]
    refine ⟨[], rfl, Gives.refl env _, ?_⟩
    intro n
    cases r with
    | none => simp
    | some x => simp; omega
  | cons e es ih =>
    simp only [St.replay] at h
    split at h
    · rename_i hd
      obtain ⟨is, h1, h2, h3⟩ := ih st r h
      refine ⟨is, by simpa [List.filter_cons, hd] using h1, h2, ?_⟩
      have hv : e.voteRound env = none := by cases e <;> simp [Entry.isDecision] at hd; rfl
      simpa [List.filterMap_cons, hv] using h3
    · rename_i hd
      split at h
      · simp at h
      · rename_i i hi
        split at h
        · simp at h
        · rename_i s1 hs
          obtain ⟨is, h1, h2, h3⟩ := ih s1 _ h
          refine ⟨i :: is, ?_, (process_gives env st s1 i hs).trans env h2, ?_⟩
          · simp only [List.filter_cons, hd, Bool.not_false, if_true, List.map_cons, hi, h1]
          · intro n
            rw [h3 n]
            cases hv : e.voteRound env with
            | none => cases r <;> simp [maxRound, List.filterMap_cons, hv]
            | some x =>
              cases r with
              | none => simp [maxRound, List.filterMap_cons, hv]
              | some y =>
                simp only [maxRound, List.filterMap_cons, hv, Option.toList_some, List.mem_append, List.mem_singleton, List.mem_cons,
                  List.singleton_append]
                constructor
                · rintro ⟨a, b⟩
                  have hb := b (max y x) (Or.inl rfl)
                  refine ⟨?_, ?_⟩
                  · rcases a with a | a
                    · rcases Nat.le_total x y with hxy | hxy
                      · left; rw [a, Nat.max_eq_left hxy]
                      · right; left; rw [a, Nat.max_eq_right hxy]
                    · right; right; exact a
                  · intro m hm
                    rcases hm with hm | hm | hm
                    · have := Nat.le_max_left y x; omega
                    · have := Nat.le_max_right y x; omega
                    · exact b m (Or.inr hm)
                · rintro ⟨a, b⟩
                  have b1 := b y (Or.inl rfl)
                  have b2 := b x (Or.inr (Or.inl rfl))
                  refine ⟨?_, ?_⟩
                  · rcases a with a | a | a
                    · left; rw [Nat.max_eq_left (by omega)]; exact a
                    · left; rw [Nat.max_eq_right (by omega)]; exact a
                    · right; exact a
                  · intro m hm
                    rcases hm with hm | hm
                    · rw [hm]; exact Nat.max_le.mpr ⟨b1, b2⟩
                    · exact b m (Or.inr (Or.inr hm))

/-- After a restart the core of a height that is not finished has been given every line of its
log but decisions, in their order; the height is started only after them.  If there were
votes, the last round with one is sent again after its time. -/
theorem C100_restart (s : S) (file : Bool) (entries : List (Entry P W Q V)) (h : H) (st : St P W Q V L H S) (hr : restart env s file entries h = some st) :
    (inputs st.hist).map some = (entries.filter (fun e => !e.isDecision)).map toInput ∧
      st.core = (outcome env.core s (inputs st.hist)).1 ∧ st.out = (outcome env.core s (inputs st.hist)).2.1 ∧ st.queue = [.startHeight h] ∧
      ∀ n, n ∈ entries.filterMap (·.voteRound env) → (∀ m ∈ entries.filterMap (·.voteRound env), m ≤ n) →
        ∃ x ∈ st.heap, x.timeout = ⟨.rebroadcast, some n⟩ := by
  simp only [restart] at hr
  split at hr
  · simp at hr
  · rename_i s1 r h1
    simp only [Option.some.injEq] at hr
    simp only [St.recover] at h1
    obtain ⟨is, k1, k2, k3⟩ := replay_gives env entries _ s1 none r h1
    have hi := k2.2.inputs
    simp only [St.submit, engine, inputs, List.filterMap_nil, List.nil_append] at hi
    have hc := k2.1
    have ho := k2.2.out
    have hq := k2.2.queue
    simp only [St.submit, engine, List.nil_append] at hc ho hq
    have hst : inputs st.hist = is ∧ st.core = s1.core ∧ st.out = s1.out ∧ st.queue = s1.queue := by
      subst hr
      cases r with
      | none => exact ⟨hi, rfl, rfl, rfl⟩
      | some r => exact ⟨by simp [St.rebroadcast, St.schedule, inputs]; simpa [inputs] using hi, rfl, rfl, rfl⟩
    obtain ⟨a, b, c, d⟩ := hst
    refine ⟨by rw [a, k1], by rw [a, b, hc], by rw [a, c, ho], by rw [d, hq], ?_⟩
    intro n hn hmax
    have := (k3 n).mpr ⟨by simpa using hn, by simpa using hmax⟩
    subst this
    subst hr
    exact ⟨_, List.mem_cons_self, rfl⟩

/-- ... and one that is finished is not started again. -/
theorem C100_restore (s : S) (entries : List (Entry P W Q V)) (h : H) (st : St P W Q V L H S) (hr : restore env s true entries h = some st) 
    (hd : entries.any (·.isDecision) = true) : st.queue = [] ∧ st.isFinalized = true := by
  simp only [restore] at hr
  split at hr
  · simp at hr
  · rename_i s1 r h1
    simp only [Option.some.injEq] at hr
    simp only [St.recover] at h1
    obtain ⟨is, _, k2, _⟩ := replay_gives env entries _ s1 none r h1
    have hq := k2.2.queue
    have hm := k2.2.marked
    have hf := k2.2.file
    simp only [engine, hd, Bool.and_true, Bool.or_true, Bool.true_or, Bool.false_or] at hq hm hf
    have hfin : (s1.rebroadcast env r).isFinalized = true ∧ (s1.rebroadcast env r).queue = [] := by
      cases r <;> simp [St.rebroadcast, St.schedule, St.isFinalized, hm, hf, hq]
    rw [if_pos hfin.1] at hr
    subst hr
    exact ⟨hfin.2, hfin.1⟩

example : (restart exEnv 0 true [.vote 7, .timeout "propose" (some 0), .vote 5] 9).map (fun st => (st.core, st.queue, st.heap)) =
    some (2, [.startHeight 9], [⟨⟨.rebroadcast, some 7⟩, 40⟩]) := by decide
example : (restore exEnv 0 true [.vote 7, .vote 5, .decision 9 8] 9).map (fun st => (st.queue, st.isFinalized)) = some ([], true) := by decide

theorem apply_some (st : St P W Q V L H S) (e : Effect P W Q V) (h : (∀ h, e ≠ .getValue h none) ∧ ∀ h v, e ≠ .decide h none v) :
    ∃ st', st.apply env e = some st' := by
  cases e with
  | getValue a b => cases b with
    | none => exact absurd rfl (h.1 a)
    | some r => exact ⟨_, rfl⟩
  | decide a b c => cases b with
    | none => exact absurd rfl (h.2 a c)
    | some r => exact ⟨_, rfl⟩
  | _ => exact ⟨_, rfl⟩

theorem applyAll_some (es : List (Effect P W Q V)) (st : St P W Q V L H S) (h : ∀ e ∈ es, (∀ h, e ≠ .getValue h none) ∧ ∀ h v, e ≠ .decide h none v) :
    ∃ st', st.applyAll env es = some st' := by
  induction es generalizing st with
  | nil => exact ⟨_, rfl⟩
  | cons e es ih =>
    obtain ⟨s1, h1⟩ := apply_some env st e (h e (by simp))
    obtain ⟨s2, h2⟩ := ih s1 (fun x hx => h x (by simp [hx]))
    exact ⟨s2, by simp only [St.applyAll, h1, h2]⟩

theorem process_some (hd : RoundsDefined env.core) (st : St P W Q V L H S) (i : Input P W Q L H) : ∃ st', st.process env i = some st' := by
  obtain ⟨s1, h1⟩ := applyAll_some env (env.core st.core i).2.1 { st with core := (env.core st.core i).1, hist := st.hist ++ [.fed i] } (hd st.core i)
  exact ⟨_, by simp only [St.process, h1]; rfl⟩

/-- Restarting from what an engine wrote does not panic, and nor does polling, if the core asks
for nothing in a round that is nil. -/
theorem C100_no_panic_partial (hd : RoundsDefined env.core) (s : S) (file : Bool) (h : H) :
    (∀ entries : List (Entry P W Q V), (∀ e ∈ entries, e.isDecision = true ∨ ∃ c, e = toEntry c) → restart env s file entries h ≠ none) ∧
      ∀ (st : St P W Q V L H S) fuel, st.poll env fuel ≠ .panic := by
  have hrep : ∀ (es : List (Entry P W Q V)) (st : St P W Q V L H S) r, (∀ e ∈ es, e.isDecision = true ∨ ∃ c, e = toEntry c) →
      st.replay env r es ≠ none := by
    intro es
    induction es with
    | nil => intro st r _; simp [St.replay]
    | cons e es ih =>
      intro st r he
      simp only [St.replay]
      split
      · exact ih st r (fun x hx => he x (by simp [hx]))
      · rename_i hn
        rcases he e (by simp) with h1 | ⟨c, hc⟩
        · exact absurd h1 hn
        · obtain ⟨s1, h1⟩ := process_some env hd st (c.input : Input P W Q L H)
          subst hc
          rw [toInput_toEntry]
          simp only [h1]
          exact ih s1 _ (fun x hx => he x (by simp [hx]))
  constructor
  · intro entries he
    intro hn
    simp only [restart, St.recover] at hn
    split at hn
    · rename_i h0
      exact hrep entries _ none he h0
    · simp at hn
  · intro st fuel
    have hdr : ∀ (fuel now : Nat) (st : St P W Q V L H S), st.drain env now fuel ≠ .panic := by
      intro fuel now
      induction fuel with
      | zero => intro st; simp [St.drain]
      | succ n ih =>
        intro st
        simp only [St.drain]
        split
        · simp
        · split
          · simp
          · rename_i sc _ _
            obtain ⟨s1, h1⟩ := process_some env hd { st with heap := st.heap.erase sc, hist := st.hist ++ [.fired sc.timeout now] } (.timeout sc.timeout)
            simp only [h1]
            exact ih s1
    intro hp
    simp only [St.poll] at hp
    split at hp
    · rename_i h0; exact hdr _ _ _ h0
    · simp at hp
    · rename_i s1 _
      split at hp
      · rename_i hc
        simp only [St.command] at hc
        split at hc
        · simp at hc
        · rename_i c cs _
          obtain ⟨s2, h2⟩ := process_some env hd { s1 with queue := cs } c.input
          rw [h2] at hc
          simp at hc
      · split at hp <;> simp at hp

example : RoundsDefined exEnv.core := by
  intro s i e he
  cases i <;> simp only [exEnv, exCore] at he
  case vote w => split at he <;> simp at he <;> (try rcases he with rfl | rfl | rfl) <;> (try subst he) <;> simp
  case timeout t => simp at he; rcases he with rfl | rfl | rfl | rfl <;> simp
  case startHeight h => simp at he; rcases he with rfl | rfl <;> simp
  case propose l => simp at he; subst he; simp
  case proposed q => simp at he; subst he; simp
  case proposal p => simp at he

/-- A line with a timeout of an unknown kind, which a reader of the log accepts, is not skipped
as a corrupted entry but makes every start panic. -/
theorem C100_unknown_kind_violated (s : S) (file : Bool) (h : H) (entries : List (Entry P W Q V)) (k : String) (r : Option Nat)
    (hm : .timeout k r ∈ entries) (hk : k ∉ ["propose", "prevote", "precommit", "rebroadcast"]) : restart env s file entries h = none := by
  have hrep : ∀ (es : List (Entry P W Q V)) (st : St P W Q V L H S) q, .timeout k r ∈ es → st.replay env q es = none := by
    intro es
    induction es with
    | nil => intro st q hx; simp at hx
    | cons e es ih =>
      intro st q hx
      simp only [List.mem_cons] at hx
      simp only [St.replay]
      rcases hx with hx | hx
      · subst hx
        simp only [List.mem_cons, List.not_mem_nil, or_false, not_or] at hk
        simp [Entry.isDecision, toInput, kindOf, hk]
      · split
        · exact ih st q hx
        · split
          · rfl
          · split
            · rfl
            · exact ih _ _ hx
  simp only [restart, St.recover]
  split
  · rfl
  · rename_i s1 q h0
    rw [hrep entries _ none hm] at h0
    simp at h0

example : (restart exEnv 0 true [.vote 7, .timeout "commit" (some 0)] 9).isNone = true ∧ (restart exEnv 0 true [.vote 7] 9).isNone = false := by decide

/-- With nothing to do the engine answers at once that there is nothing, as often as it is
asked, until a timeout is due: it never waits. -/
theorem C100_spin_violated (hl : Least env.first) (st : St P W Q V L H S) (evs : List (Event P W V)) (n : Nat) (hq : st.queue = []) (ho : st.out = [])
    (hd : ∀ k < n, ∀ x ∈ st.heap, env.clock (st.reads + k) < x.due) :
    run env st evs (List.replicate n (.poll 1)) = .ok ({ st with reads := st.reads + n }, evs) := by
  induction n generalizing st with
  | zero => rfl
  | succ n ih =>
    have hp : st.poll env 1 = .ok ({ st with reads := st.reads + 1 }, none) := by
      have hdr : St.drain env (env.clock st.reads) 1 { st with reads := st.reads + 1 } = .ok { st with reads := st.reads + 1 } := by
        simp only [St.drain]
        split
        · rfl
        · rename_i s hs
          have := hd 0 (by omega) s ((hl st.heap).2 s hs).1
          simp only [Nat.add_zero] at this
          rw [if_pos this]
      unfold St.poll
      rw [hdr]
      simp only [St.command, hq, ho]
    simp only [List.replicate_succ, run, hp, Option.toList_none, List.append_nil]
    rw [ih { st with reads := st.reads + 1 } hq ho (fun k hk x hx => by
      have := hd (k + 1) (by omega) x hx
      rw [show st.reads + (k + 1) = st.reads + 1 + k by omega] at this
      exact this)]
    simp only [Res.ok.injEq, Prod.mk.injEq, and_true]
    congr 1
    omega

example : let st : St Nat Nat Nat Nat Nat Nat Nat := engine 0 false []
    st.queue = [] ∧ st.out = [] ∧ st.heap = [] := by decide

end Verif.Drive
