import Verif.Stat.Lemmas

/-!
# C107: the sync status the node reports

What `starknet_syncing` and the monitoring endpoints answer, for every interleaving of the task
that follows the gateway, the consumer of downloaded blocks and the requests.
-/

namespace Verif.Stat

/-! ## What the answer is made of -/

/-- In every reachable state, `starknet_syncing` answers from the history alone.  Before any head of
the gateway is noted it answers `false`.  After that the answer depends on the node's current block
`c` and the highest block `h` known: an internal error if `h` is below `c`, `false` if `h` is less
than six blocks above, and otherwise the status with exactly the starting block, `c` and `h`. -/
theorem C107_answer {chain : List Blk} {gateway : Blk} {w : Bool} {acts : List Act} {s : Sys}
    (h : Reach chain gateway w acts s) (ht : HashesTell s.log) :
    (NoHead s.log ∧ syncing s.status = .no) ∨
    ∃ c hi, Current (chain.head?.getD ⟨0, 0⟩) s.log c ∧ Highest s.log hi ∧
      (hi.num < c.num → syncing s.status = .internalError) ∧
      (c.num ≤ hi.num → hi.num < c.num + 6 → syncing s.status = .no) ∧
      (c.num + 6 ≤ hi.num → syncing s.status = .status ⟨chain.head?.getD ⟨0, 0⟩, c, hi⟩) := by
  have hi := inv_reach h
  cases hst : s.status with
  | none => exact .inl ⟨hi.none hst, rfl⟩
  | some st =>
    have h1 := hi.starting st hst
    have h2 := hi.current st hst
    have h3 := hi.highest st hst ht
    rw [starting_reach h] at h1 h2
    refine .inr ⟨st.current, st.highest, h2, h3, ?_, ?_, ?_⟩
    · intro hl; simp [syncing, hl]
    · intro h4 h5
      simp only [syncing]
      rw [if_neg (by omega), if_pos (by omega)]
    · intro h4
      simp only [syncing]
      rw [if_neg (by omega), if_neg (by omega), ← h1]

/-- A node started at block 3, a gateway at block 20: the status is shown. -/
example : ∃ s, Reach [⟨3, 33⟩, ⟨2, 32⟩] ⟨20, 50⟩ true [.take, .publish, .receive ⟨4, 34⟩] s ∧
    HashesTell s.log ∧ syncing s.status = .status ⟨⟨3, 33⟩, ⟨4, 34⟩, ⟨20, 50⟩⟩ := by
  refine ⟨_, rfl, ?_, rfl⟩
  intro x y hx hy e
  simp [init] at hx hy
  rcases hx with rfl | rfl <;> rcases hy with rfl | rfl <;> first | rfl | simp at e

/-- The history decides which block is the current one and how high the highest one is, so
`C107_answer` leaves no choice. -/
theorem C107_answer_unique {st : Blk} {l : List Note} {c c' hi hi' : Blk}
    (h1 : Current st l c) (h2 : Current st l c') (h3 : Highest l hi) (h4 : Highest l hi') :
    c = c' ∧ hi.num = hi'.num := by
  have key : ∀ {α : Type} (P : α → Bool) (a b c d : List α) (x y : α), P x → P y →
      a ++ x :: b = c ++ y :: d → (∀ z ∈ a, ¬ P z) → (∀ z ∈ c, ¬ P z) → a = c ∧ x = y ∧ b = d := by
    intro α P a
    induction a with
    | nil =>
      intro b c d x y hx hy e _ hc
      cases c with
      | nil => simpa using e
      | cons z c =>
        simp at e
        exact absurd (e.1 ▸ hx) (hc z (by simp))
    | cons z a ih =>
      intro b c d x y hx hy e ha hc
      cases c with
      | nil =>
        simp at e
        exact absurd (e.1 ▸ hy) (ha z (by simp))
      | cons z' c =>
        simp at e
        have := ih b c d x y hx hy e.2 (fun w hw => ha w (by simp [hw])) (fun w hw => hc w (by simp [hw]))
        simp [e.1, this]
  have key' : ∀ {α : Type} (P : α → Bool) (a b c d : List α) (x y : α), P x → P y →
      a ++ x :: b = c ++ y :: d → (∀ z ∈ b, ¬ P z) → (∀ z ∈ d, ¬ P z) → a = c ∧ x = y ∧ b = d := by
    intro α P a b c d x y hx hy e hb hd
    have e' := congrArg List.reverse e
    simp only [List.reverse_append, List.reverse_cons, List.append_assoc, List.singleton_append] at e'
    have := key P b.reverse a.reverse d.reverse c.reverse x y hx hy e'
      (fun z hz => hb z (by simpa using hz)) (fun z hz => hd z (by simpa using hz))
    simp only [List.reverse_inj] at this
    exact ⟨this.2.2, this.2.1, this.1⟩
  let isHead : Note → Bool := fun | .head _ => true | _ => false
  let isBlock : Note → Bool := fun | .block _ => true | _ => false
  have nh : ∀ {l : List Note}, NoHead l → ∀ z ∈ l, ¬ isHead z := by
    intro l hl z hz
    cases z with
    | head b => exact absurd hz (hl b)
    | block b => simp [isHead]
    | reorg t => simp [isHead]
  have nb : ∀ {l : List Note}, NoBlock l → ∀ z ∈ l, ¬ isBlock z := by
    intro l hl z hz
    cases z with
    | block b => exact absurd hz (hl b)
    | head b => simp [isBlock]
    | reorg t => simp [isBlock]
  constructor
  · obtain ⟨p, x, q, rfl, hp, hq⟩ := h1
    obtain ⟨p', x', q', e, hp', hq'⟩ := h2
    obtain ⟨rfl, _, rfl⟩ := key isHead p q p' q' _ _ rfl rfl e (nh hp) (nh hp')
    rcases hq with ⟨u, v, rfl, hv⟩ | ⟨hn, rfl⟩
    · rcases hq' with ⟨u', v', e', hv'⟩ | ⟨hn', rfl⟩
      · have := key' isBlock _ _ _ _ _ _ rfl rfl e' (nb hv) (nb hv')
        simpa using this.2.1
      · exact absurd (by simp) (hn' c)
    · rcases hq' with ⟨u', v', rfl, hv'⟩ | ⟨hn', rfl⟩
      · exact absurd (by simp) (hn c')
      · rfl
  · obtain ⟨p, x, q, rfl, hp, hb, hx, hm⟩ := h3
    obtain ⟨p', x', q', e, hp', hb', hx', hm'⟩ := h4
    obtain ⟨rfl, ex, rfl⟩ := key' isHead p q p' q' _ _ rfl rfl e (nh hp) (nh hp')
    cases ex
    rcases hb with rfl | hb
    · rcases hb' with rfl | hb'
      · rfl
      · have := hm _ hb'; omega
    · rcases hb' with rfl | hb'
      · have := hm' _ hb; omega
      · have := hm _ hb'; have := hm' _ hb; omega

/-- Both say something about a real history. -/
example : Current ⟨3, 33⟩ [.head ⟨20, 50⟩, .block ⟨4, 34⟩] ⟨4, 34⟩ ∧
    Highest [.head ⟨20, 50⟩, .block ⟨4, 34⟩] ⟨20, 50⟩ := by
  refine ⟨⟨[], _, _, rfl, by simp [NoHead], .inl ⟨[], [], rfl, by simp [NoBlock]⟩⟩,
    ⟨[], _, _, rfl, by simp [NoHead], .inl rfl, by simp, by simp⟩⟩

/-! ## When the answer is an error -/

/-- If the gateway never goes back, was never behind the database and no block is accepted before a
head at least as high was noted, then the request never fails. -/
theorem C107_no_error_partial {chain : List Blk} {gateway : Blk} {w : Bool} {acts : List Act}
    {s : Sys} (h : Reach chain gateway w acts s) (ht : HashesTell s.log)
    (hs : Steady (chain.head?.getD ⟨0, 0⟩) s.log) :
    syncing s.status ≠ .internalError ∧ syncedRoute s ≠ .dropped := by
  have hi := inv_reach h
  cases hst : s.status with
  | none => simp [syncing, syncedRoute, hst]
  | some st =>
    have h2 := hi.current st hst
    have h3 := hi.highest st hst ht
    rw [starting_reach h] at h2
    have key : st.current.num ≤ st.highest.num := by
      obtain ⟨p, x, q, e, hq, -, hx, hm⟩ := h3
      obtain ⟨hs1, hs2⟩ := hs
      obtain ⟨hs11, hs12⟩ := hs1 p x q e
      obtain ⟨p', x', q', e', hp', hc⟩ := h2
      rcases hc with ⟨u, v, rfl, hv⟩ | ⟨_, hc⟩
      · -- a block: after the last head, or before it
        have hmem : Note.block st.current ∈ s.log := by rw [e']; simp
        rw [e] at hmem
        rcases List.mem_append.mp hmem with hm1 | hm1
        · obtain ⟨a, b, rfl⟩ := List.append_of_mem hm1
          obtain ⟨g, hg, hgl⟩ := hs2 a st.current (b ++ .head x :: q) (by simp [e])
          have := hs12 g (by simp [hg])
          omega
        · rcases List.mem_cons.mp hm1 with hm1 | hm1
          · cases hm1
          · exact hm _ hm1
      · rw [hc]; omega
    constructor
    · simp only [syncing]
      rw [if_neg (by omega)]
      split <;> simp
    · simp only [syncedRoute, hst]
      rw [if_neg (c := st.highest.num < st.current.num) (by omega)]
      split
      · simp
      · split <;> simp

/-- A steady history with two heads and two blocks. -/
example : ∃ s, Reach [⟨3, 33⟩] ⟨4, 34⟩ true
    [.take, .publish, .receive ⟨4, 34⟩, .commit, .poll ⟨5, 35⟩, .take, .publish,
      .receive ⟨5, 35⟩] s ∧ Steady ⟨3, 33⟩ s.log ∧ s.log.length = 4 := by
  refine ⟨_, rfl, ?_, rfl⟩
  constructor
  · intro pre h post e
    simp [init] at e
    rcases pre with _ | ⟨a, _ | ⟨b, _ | ⟨c, _ | ⟨d, pre⟩⟩⟩⟩ <;> simp at e <;>
      first
        | (obtain ⟨rfl, _⟩ := e; simp; done)
        | (obtain ⟨rfl, rfl, rfl, _⟩ := e; simp; done)
  · intro pre h post e
    simp [init] at e
    rcases pre with _ | ⟨a, _ | ⟨b, _ | ⟨c, _ | ⟨d, pre⟩⟩⟩⟩ <;> simp at e <;>
      first
        | (obtain ⟨rfl, rfl, _⟩ := e; exact ⟨_, by simp; rfl, by simp⟩)
        | (obtain ⟨rfl, rfl, rfl, rfl, _⟩ := e; exact ⟨⟨5, 35⟩, by simp, by simp⟩)

/-- In any state with a status, once the node notes a head of the gateway below the current block
(and with another hash than the highest one), every request for the status fails and the monitoring
server gives no answer to `/ready/synced` once the node is ready. -/
theorem C107_behind_violated {s : Sys} {st : Status} {b : Blk} (hst : s.status = some st)
    (ht : s.taken = some b) (hh : st.highest.hash ≠ b.hash) (hb : b.num < st.current.num) :
    ∃ t, step s .publish = some t ∧ syncing t.status = .internalError ∧
      (s.ready = true → syncedRoute t = .dropped) := by
  refine ⟨_, by simp only [step, ht]; rfl, ?_, ?_⟩
  · simp [hst, publishHead, hh, syncing, hb]
  · intro hr
    simp [hst, publishHead, hh, syncedRoute, hr, hb]

/-- A node restarted with block 20 while the gateway is at block 18: the request fails. -/
theorem C107_restart_violated : ∃ s, Reach [⟨20, 70⟩, ⟨19, 69⟩] ⟨18, 68⟩ true
    [.setReady, .take, .publish] s ∧
    syncing s.status = .internalError ∧ syncedRoute s = .dropped := ⟨_, rfl, rfl, rfl⟩

/-- A gateway that only ever goes forward: the status task has read block 10 when the consumer
accepts block 11; the write of block 10 comes last.  The request fails. -/
theorem C107_race_violated : ∃ s, Reach [⟨9, 59⟩] ⟨9, 59⟩ true
    [.take, .publish, .poll ⟨10, 60⟩, .receive ⟨10, 60⟩, .commit, .take,
      .poll ⟨11, 61⟩, .receive ⟨11, 61⟩, .commit, .publish] s ∧
    syncing s.status = .internalError ∧ s.chain.head? = some ⟨11, 61⟩ := ⟨_, rfl, rfl, rfl⟩

/-! ## The current block against the stored chain -/

/-- If the last change of the chain is a block accepted after a head was noted, then that block is
the reported current block, and unless it is still being stored it is the newest stored block. -/
theorem C107_current_partial {chain : List Blk} {gateway : Blk} {w : Bool} {acts : List Act}
    {s : Sys} (h : Reach chain gateway w acts s) {pre post : List Note} {g b : Blk}
    (hl : s.log = pre ++ .block b :: post) (hg : .head g ∈ pre) (hb : NoBlock post)
    (hr : NoReorg post) :
    ∃ st, s.status = some st ∧ st.current = b ∧
      (s.storing = none → s.chain.head? = some b) := by
  have hi := inv_reach h
  have hc := chain_reach h pre b post hl hb hr
  cases hst : s.status with
  | none => exact absurd (by rw [hl]; simp [hg]) (hi.none hst g)
  | some st =>
    refine ⟨st, rfl, ?_, ?_⟩
    · obtain ⟨p, x, q, e, hp, hq⟩ := hi.current st hst
      have hmem : Note.block b ∈ q ∧ ∃ q1, q = q1 ++ .block b :: post := by
        rw [hl] at e
        rcases List.append_eq_append_iff.mp e with ⟨m, rfl, e2⟩ | ⟨m, rfl, e2⟩
        · -- `pre` ends before the first head
          exact absurd (by simp [hg]) (hp g)
        · cases m with
          | nil => cases e2
          | cons y m =>
            simp at e2
            obtain ⟨rfl, rfl⟩ := e2
            exact ⟨by simp, m, rfl⟩
      obtain ⟨hmem, q1, rfl⟩ := hmem
      rcases hq with ⟨u, v, e2, hv⟩ | ⟨hn, _⟩
      · rcases List.append_eq_append_iff.mp e2 with ⟨m, rfl, e3⟩ | ⟨m, rfl, e3⟩
        · cases m with
          | nil => simp at e3; exact e3.1.symm
          | cons y m =>
            simp at e3
            exact absurd (by rw [e3.2]; simp) (hb st.current)
        · cases m with
          | nil => simp at e3; exact e3.1
          | cons y m =>
            simp at e3
            exact absurd (by rw [e3.2]; simp) (hv b)
      · exact absurd hmem (hn b)
    · intro hn
      rcases hc with h | h
      · rw [hn] at h; cases h
      · exact h.2

/-- A node that has stored block 4 reports it. -/
example : ∃ s, Reach [⟨3, 33⟩] ⟨20, 50⟩ true [.take, .publish, .receive ⟨4, 34⟩, .commit] s ∧
    s.log = [.head ⟨20, 50⟩] ++ .block ⟨4, 34⟩ :: [] ∧ s.storing = none ∧
    NoBlock [] ∧ NoReorg [] := ⟨_, rfl, rfl, rfl, by simp [NoBlock], by simp [NoReorg]⟩

/-- A rollback leaves the reported current block where it was: in every state in which a
rollback removes the reported current block, the status goes on naming it. -/
theorem C107_reorg_violated {s t : Sys} {st : Status} {tail : Nat} (hst : s.status = some st)
    (h : step s (.reorg tail) = some t) (hok : t.stopped = false) (hc : tail ≤ st.current.num) :
    t.status = some st ∧ st.current ∉ t.chain := by
  simp only [step] at h
  split at h
  · split at h
    · cases h; cases hok
    · rename_i chain hch
      cases h
      refine ⟨hst, ?_⟩
      simp only [reorgChain] at hch
      split at hch
      · cases hch
        intro hm
        have := (List.mem_filter.mp hm).2
        simp at this
        omega
      · cases hch
  · cases h

/-- Sixteen blocks behind after a rollback, and the answer is still `false`; the block named as current
is gone. -/
example : ∃ s t, Reach (List.range 21 |>.reverse.map fun n => ⟨n, 100 + n⟩) ⟨20, 120⟩ true
    [.take, .publish] s ∧ step s (.reorg 5) = some t ∧ t.stopped = false ∧
    syncing t.status = .no ∧ t.chain.head? = some ⟨4, 104⟩ := ⟨_, _, rfl, rfl, rfl, rfl, rfl⟩

/-- The current block is named before it is stored, and also when storing it fails. -/
theorem C107_early_violated : ∃ s, Reach [⟨3, 33⟩] ⟨20, 50⟩ true
    [.take, .publish, .receive ⟨4, 34⟩, .fail] s ∧
    syncing s.status = .status ⟨⟨3, 33⟩, ⟨4, 34⟩, ⟨20, 50⟩⟩ ∧ ⟨4, 34⟩ ∉ s.chain ∧
    s.stopped = true := ⟨_, rfl, rfl, by simp [init], rfl⟩

/-- Blocks accepted before the first head is noted do not count: the node has stored block 10, the
gateway's head, and says that it is still at block 3. -/
theorem C107_late_violated : ∃ s, Reach [⟨3, 33⟩] ⟨10, 40⟩ true
    [.receive ⟨4, 34⟩, .commit, .receive ⟨5, 35⟩, .commit, .receive ⟨6, 36⟩, .commit,
      .receive ⟨7, 37⟩, .commit, .receive ⟨8, 38⟩, .commit, .receive ⟨9, 39⟩, .commit,
      .receive ⟨10, 40⟩, .commit, .take, .publish] s ∧
    syncing s.status = .status ⟨⟨3, 33⟩, ⟨3, 33⟩, ⟨10, 40⟩⟩ ∧
    s.chain.head? = some ⟨10, 40⟩ := ⟨_, rfl, rfl, rfl⟩

/-- A node whose sync does not start the status task (peer-to-peer sync and consensus nodes) answers
`false` in every reachable state, however far behind, and never reports itself as synced. -/
theorem C107_other_modes_violated {chain : List Blk} {gateway : Blk} {acts : List Act} {s : Sys}
    (h : Reach chain gateway false acts s) :
    syncing s.status = .no ∧ syncedRoute s = .unavailable := by
  have := run_inv (fun s => s.watching = false ∧ s.taken = none ∧ s.status = none) unwatched_step
    acts _ s ⟨rfl, rfl, rfl⟩ h
  constructor
  · rw [this.2.2]; rfl
  · simp only [syncedRoute, this.2.2]
    split <;> rfl

/-- The node is 1000 blocks behind and has stored everything it was given. -/
example : ∃ s, Reach [⟨3, 33⟩] ⟨1003, 50⟩ false [.receive ⟨4, 34⟩, .commit, .setReady] s ∧
    s.chain.head? = some ⟨4, 34⟩ ∧ s.watch.num = 1003 := ⟨_, rfl, rfl, rfl⟩

/-! ## The monitoring endpoints -/

/-- `/health` always answers; `/ready` says yes exactly from the moment the node is ready, for
good; `/ready/synced` says yes exactly if the node is ready, a head of the gateway was noted, and
the highest block known is at or above the current one by less than six. -/
theorem C107_monitoring {chain : List Blk} {gateway : Blk} {w : Bool} {acts : List Act} {s : Sys}
    (h : Reach chain gateway w acts s) (ht : HashesTell s.log) :
    health s = .ok ∧
    (readyRoute s = .ok ↔ Act.setReady ∈ acts) ∧ (readyRoute s = .unavailable ↔ Act.setReady ∉ acts) ∧
    (syncedRoute s = .ok ↔ Act.setReady ∈ acts ∧ ∃ c hi, Current (chain.head?.getD ⟨0, 0⟩) s.log c ∧
      Highest s.log hi ∧ c.num ≤ hi.num ∧ hi.num < c.num + 6) := by
  have hready : s.ready = true ↔ Act.setReady ∈ acts := by
    have gen : ∀ (acts : List Act) (u v : Sys), run u acts = some v →
        (v.ready = true ↔ u.ready = true ∨ Act.setReady ∈ acts) := by
      intro acts
      induction acts with
      | nil => intro u v e; cases e; simp
      | cons a as ih =>
        intro u v e
        simp only [run] at e
        cases hst : step u a with
        | none => simp [hst] at e
        | some x =>
          simp only [hst, Option.bind_some] at e
          rw [ih x v e, List.mem_cons]
          have : x.ready = true ↔ u.ready = true ∨ Act.setReady = a := by
            cases a <;> simp only [step] at hst
            all_goals repeat' split at hst
            all_goals first
              | (cases hst; simp; done)
              | cases hst
          rw [this]
          constructor
          · rintro ((h | h) | h)
            · exact .inl h
            · exact .inr (.inl h)
            · exact .inr (.inr h)
          · rintro (h | h | h)
            · exact .inl (.inl h)
            · exact .inl (.inr h)
            · exact .inr h
    have := gen acts _ s h
    simpa [init] using this
  have hi := inv_reach h
  refine ⟨rfl, ?_, ?_, ?_⟩
  · rw [← hready]; cases hr : s.ready <;> simp [readyRoute, hr]
  · rw [← hready]; cases hr : s.ready <;> simp [readyRoute, hr]
  · rw [← hready]
    cases hr : s.ready with
    | false => simp [syncedRoute, hr]
    | true =>
      cases hst : s.status with
      | none =>
        simp only [syncedRoute, hr, hst]
        simp
        intro c hc
        obtain ⟨p, x, q, e, _⟩ := hc
        exact absurd (by rw [e]; simp) (hi.none hst x)
      | some st =>
        have h2 := hi.current st hst
        have h3 := hi.highest st hst ht
        rw [starting_reach h] at h2
        simp only [syncedRoute, hr, hst]
        constructor
        · intro hk
          refine ⟨trivial, st.current, st.highest, h2, h3, ?_⟩
          split at hk
          · cases hk
          · split at hk
            · cases hk
            · split at hk
              · omega
              · cases hk
        · rintro ⟨_, c, hi', hc, hh, h4, h5⟩
          obtain ⟨rfl, e⟩ := C107_answer_unique h2 hc h3 hh
          rw [if_neg (by simp), if_neg (by omega), if_pos (by omega)]

/-- A ready node at the gateway's head. -/
example : ∃ s, Reach [⟨3, 33⟩] ⟨4, 34⟩ true
    [.setReady, .take, .publish, .receive ⟨4, 34⟩, .commit] s ∧ syncedRoute s = .ok ∧
    readyRoute s = .ok := ⟨_, rfl, rfl, rfl⟩

/-- Whenever `/ready/synced` says yes, `starknet_syncing` answers `false`. -/
theorem C107_agree {s : Sys} (h : syncedRoute s = .ok) : syncing s.status = .no := by
  simp only [syncedRoute] at h
  split at h
  · cases h
  · split at h
    · rename_i st hst
      rw [hst]
      simp only [syncing]
      split at h
      · cases h
      · split at h
        · rename_i h1 h2; rw [if_neg h1, if_pos h2]
        · cases h
    · cases h

/-- The other way round it does not hold: a ready node that has noted no head yet. -/
example : ∃ s, Reach [⟨3, 33⟩] ⟨20, 50⟩ true [.setReady] s ∧ syncing s.status = .no ∧
    syncedRoute s = .unavailable := ⟨_, rfl, rfl, rfl⟩

/-! ## Catching up -/

/-- From every reachable state in which the consumer works and is idle, and the status task (if it
holds nothing) runs: whatever head the gateway answers next, if it is a block that continues the
chain, then after the node takes note of it and stores it, `starknet_syncing` answers `false` and
names no error. -/
theorem C107_caught_up {chain : List Blk} {gateway : Blk} {acts : List Act} {s : Sys}
    (h : Reach chain gateway true acts s) (h1 : s.storing = none) (h2 : s.stopped = false)
    (h3 : s.taken = none) (b : Blk) (hb : s.next ≤ b.num) (hn : b.hash ≠ s.seen)
    (ht : HashesTell (s.log ++ [.head b])) :
    ∃ t, run s [.poll b, .take, .publish, .receive b, .commit] = some t ∧
      syncing t.status = .no ∧ (s.ready = true → syncedRoute t = .ok) ∧
      t.chain = b :: s.chain := by
  have hw : s.watching = true := by
    refine run_inv (fun s => s.watching = true) ?_ acts _ s rfl h
    intro s a t hs h
    cases a <;> simp only [step] at h
    all_goals repeat' split at h
    all_goals first | (cases h; exact hs) | cases h
  have hi := inv_reach h
  have key : ∀ st : Option Status, s.status = st → ∃ x, acceptBlock b (some (publishHead s.starting b st)) = some x ∧
      syncing (some x) = .no ∧ x.current.num ≤ x.highest.num ∧ x.highest.num < x.current.num + 6 := by
    intro st hst
    cases st with
    | none => exact ⟨_, rfl, by simp [publishHead, syncing], by simp [publishHead],
        by simp [publishHead]⟩
    | some st =>
      by_cases hh : st.highest.hash = b.hash
      · by_cases hl : st.highest.num ≤ b.num
        · exact ⟨⟨st.starting, b, b⟩, by simp [publishHead, hh, acceptBlock, hl],
            by simp [syncing], by simp, by simp⟩
        · have e : st.highest = b := by
            refine ht _ _ ?_ (.inl (by simp)) hh
            rcases hi.origin st hst with h | h <;> simp [h]
          exact absurd (by rw [e]; exact Nat.le_refl _) hl
      · exact ⟨⟨st.starting, b, b⟩, by simp [publishHead, hh, acceptBlock], by simp [syncing],
          by simp, by simp⟩
  obtain ⟨x, hx, hs, hx1, hx2⟩ := key s.status rfl
  refine ⟨_, by simp [run, step, hw, h3, hn, h1, h2, Nat.not_lt.mpr hb]; rfl, ?_, ?_, rfl⟩
  · simp only; rw [hx]; exact hs
  · intro hr
    simp only [syncedRoute, hr]
    rw [hx]
    simp only
    rw [if_neg (by simp), if_neg (by omega), if_pos (by omega)]

/-- A node at block 4 and a gateway that goes on to block 5. -/
example : ∃ s, Reach [⟨3, 33⟩] ⟨4, 44⟩ true [.take, .publish, .receive ⟨4, 44⟩, .commit] s ∧
    s.storing = none ∧ s.stopped = false ∧ s.taken = none ∧ s.next = 5 ∧ s.seen = 44 ∧
    HashesTell (s.log ++ [.head ⟨5, 45⟩]) := by
  refine ⟨_, rfl, rfl, rfl, rfl, rfl, rfl, ?_⟩
  intro x y hx hy e
  simp [init] at hx hy
  rcases hx with (rfl | rfl) | rfl <;> rcases hy with (rfl | rfl) | rfl <;>
    first | rfl | simp at e

end Verif.Stat
