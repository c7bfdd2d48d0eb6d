import Verif.Subs.Pending

/-!
# C84: updates for pre-confirmed blocks
-/

namespace Verif.Subs.Pending

variable {pass : Nat → Fin → Bool}

/-- Everything recorded was sent, and only for blocks that are not stored. -/
structure Inv (s : St) : Prop where
  mem : ∀ u ∈ s.sent, Out.upd u ∈ s.out
  fin : ∀ u ∈ s.sent, u.fin ≠ .acceptedOnL2

theorem sendOne_inv {s : St} {u : Upd} (h : Inv s) (hu : u.fin ≠ .acceptedOnL2) : Inv (sendOne pass s u) := by
  unfold sendOne
  split
  · exact h
  · split
    · exact h
    · refine ⟨fun x hx => ?_, fun x hx => ?_⟩
      · rcases List.mem_append.1 hx with k | k
        · exact List.mem_append_left _ (h.mem x k)
        · rw [List.mem_singleton.1 k]
          exact List.mem_append_right _ List.mem_cons_self
      · rcases List.mem_append.1 hx with k | k
        · exact h.fin x k
        · rw [List.mem_singleton.1 k]
          exact hu

theorem sendAll_inv : ∀ (us : List Upd) {s : St}, Inv s → (∀ u ∈ us, u.fin ≠ .acceptedOnL2) → Inv (sendAll pass s us)
  | [], _, h, _ => h
  | u :: us, _, h, hu => sendAll_inv us (sendOne_inv h (hu u List.mem_cons_self)) fun x hx => hu x (List.mem_cons_of_mem _ hx)

theorem updates_fin (v : View) : ∀ u ∈ v.updates, u.fin ≠ .acceptedOnL2 := by
  intro u hu
  unfold View.updates at hu
  rcases List.mem_append.1 hu with k | k <;> obtain ⟨h, _, e⟩ := List.mem_map.1 k <;> rw [← e] <;> exact Fin.noConfusion

theorem preLatest_fin (n : Nat) (txs : List Nat) : ∀ u ∈ txs.map (fun h => (⟨n, h, .preConfirmed⟩ : Upd)), u.fin ≠ .acceptedOnL2 := by
  intro u hu
  obtain ⟨h, _, e⟩ := List.mem_map.1 hu
  rw [← e]
  exact Fin.noConfusion

theorem foldBlock_eq (old : List Upd) : ∀ (us : List Upd) (out : List Out), (∀ u ∈ us, u ∉ old) →
    us.foldl (blockOne pass old) out = out ++ (us.filter fun u => pass u.tx u.fin).map .upd
  | [], out, _ => by simp
  | u :: us, out, h => by
    rw [List.foldl_cons, foldBlock_eq old us _ fun x hx => h x (List.mem_cons_of_mem _ hx)]
    unfold blockOne
    cases hp : pass u.tx u.fin with
    | false => simp [hp]
    | true => simp [hp, h u List.mem_cons_self]

theorem onBlock_out {s : St} (hI : Inv s) (n : Nat) (txs : List Nat) :
    (onBlock pass s n txs).out = s.out ++ (txs.filter fun h => pass h .acceptedOnL2).map fun h => .upd ⟨n, h, .acceptedOnL2⟩ := by
  change (txs.map (⟨n, ·, .acceptedOnL2⟩)).foldl (blockOne pass _) s.out = _
  rw [foldBlock_eq]
  · congr 1
    induction txs with
    | nil => rfl
    | cons h t ih =>
      simp only [List.map_cons, List.filter_cons]
      cases pass h .acceptedOnL2 <;> simp [ih]
  · intro u hu hm
    obtain ⟨h, _, e⟩ := List.mem_map.1 hu
    exact hI.fin u (List.mem_filter.1 hm).1 (by rw [← e])

theorem step_inv {s : St} (h : Inv s) (i : Input) : Inv (stepIn pass s i) := by
  cases i with
  | pending v =>
    change Inv (onPending pass s v)
    unfold onPending
    have h1 := sendAll_inv (pass := pass) v.updates h (updates_fin v)
    cases v.preLatest with
    | none => exact h1
    | some p =>
      change Inv (onPreLatest pass _ p.1 p.2)
      unfold onPreLatest
      split
      · exact h1
      · exact sendAll_inv _ h1 (preLatest_fin _ _)
  | block n txs =>
    refine ⟨fun u hu => ?_, fun u hu => h.fin u (List.mem_filter.1 hu).1⟩
    change _ ∈ (onBlock pass s n txs).out
    rw [onBlock_out h]
    exact List.mem_append_left _ (h.mem u (List.mem_filter.1 hu).1)
  | reorg k =>
    exact ⟨fun u hu => List.mem_append_left _ (h.mem u (List.mem_filter.1 hu).1), fun u hu => h.fin u (List.mem_filter.1 hu).1⟩

theorem run_inv : ∀ (is : List Input) {s : St}, Inv s → Inv (runIn pass s is)
  | [], _, h => h
  | i :: is, _, h => run_inv is (step_inv h i)

theorem fresh_inv : Inv fresh := ⟨fun _ h => absurd h List.not_mem_nil, fun _ h => absurd h List.not_mem_nil⟩

/-- **Every transaction of an announced block is sent as accepted on L2, once and in order**, if asked for, whatever came
before. -/
theorem C84_accepted (is : List Input) (n : Nat) (txs : List Nat) :
    (runIn pass fresh (is ++ [.block n txs])).out =
      (runIn pass fresh is).out ++ (txs.filter fun h => pass h .acceptedOnL2).map fun h => .upd ⟨n, h, .acceptedOnL2⟩ := by
  have e : runIn pass fresh (is ++ [.block n txs]) = onBlock pass (runIn pass fresh is) n txs := by
    simp [runIn, stepIn]
  rw [e, onBlock_out (run_inv is fresh_inv)]

/-! ### Sent when seen -/

theorem sendOne_mono {s : St} {u x : Upd} (h : x ∈ s.sent) : x ∈ (sendOne pass s u).sent := by
  unfold sendOne
  split
  · exact h
  · split
    · exact h
    · exact List.mem_append_left _ h

theorem sendAll_mono : ∀ (us : List Upd) {s : St} {x : Upd}, x ∈ s.sent → x ∈ (sendAll pass s us).sent
  | [], _, _, h => h
  | _ :: us, _, _, h => sendAll_mono us (sendOne_mono h)

theorem sendAll_mem : ∀ (us : List Upd) {s : St} {u : Upd}, u ∈ us → pass u.tx u.fin = true → u ∈ (sendAll pass s us).sent
  | v :: us, s, u, h, hp => by
    rcases List.mem_cons.1 h with e | e
    · subst e
      refine sendAll_mono us ?_
      unfold sendOne
      rw [if_neg (by simp [hp])]
      split
      · assumption
      · exact List.mem_append_right _ List.mem_cons_self
    · exact sendAll_mem us e hp

theorem onPreLatest_mono {s : St} {n : Nat} {txs : List Nat} {x : Upd} (h : x ∈ s.sent) : x ∈ (onPreLatest pass s n txs).sent := by
  unfold onPreLatest
  split
  · exact h
  · exact sendAll_mono _ h

theorem seen_aux (is : List Input) (v : View) (u : Upd) (hu : u ∈ v.updates) (hp : pass u.tx u.fin = true) :
    Out.upd u ∈ (runIn pass fresh (is ++ [.pending v])).out := by
  have e : runIn pass fresh (is ++ [.pending v]) = onPending pass (runIn pass fresh is) v := by simp [runIn, stepIn]
  have hI : Inv (runIn pass fresh (is ++ [.pending v])) := run_inv _ fresh_inv
  refine hI.mem u ?_
  rw [e]
  have h1 := sendAll_mem (pass := pass) v.updates (s := runIn pass fresh is) hu hp
  unfold onPending
  cases v.preLatest with
  | none => exact h1
  | some p => exact onPreLatest_mono h1

/-- **What is seen pre-confirmed or as a candidate is sent**: after the pending data was handled, every transaction of its
pre-confirmed block and every candidate that was asked for has been sent. -/
theorem C84_seen (is : List Input) (v : View) (h : Nat) :
    (h ∈ v.txs → pass h .preConfirmed = true → Out.upd ⟨v.number, h, .preConfirmed⟩ ∈ (runIn pass fresh (is ++ [.pending v])).out) ∧
      (h ∈ v.candidates → pass h .candidate = true → Out.upd ⟨v.number, h, .candidate⟩ ∈ (runIn pass fresh (is ++ [.pending v])).out) :=
  ⟨fun hm hp => seen_aux is v _ (List.mem_append_left _ (List.mem_map.2 ⟨h, hm, rfl⟩)) hp,
    fun hm hp => seen_aux is v _ (List.mem_append_right _ (List.mem_map.2 ⟨h, hm, rfl⟩)) hp⟩

theorem sendOne_new (s : St) (u : Upd) : ∃ new, (sendOne pass s u).out = s.out ++ new ∧
    (pass u.tx u.fin = true → u ∉ s.sent → Out.upd u ∈ new) ∧ (∀ x, x ∉ s.sent → x ∈ (sendOne pass s u).sent → Out.upd x ∈ new) := by
  unfold sendOne
  split
  · rename_i h
    exact ⟨[], (List.append_nil _).symm, fun k => (by rw [h] at k; cases k), fun x hx hy => absurd hy hx⟩
  · split
    · rename_i h
      exact ⟨[], (List.append_nil _).symm, fun _ k => absurd h k, fun x hx hy => absurd hy hx⟩
    · refine ⟨[.upd u], rfl, fun _ _ => List.mem_cons_self, fun x hx hy => ?_⟩
      rcases List.mem_append.1 hy with k | k
      · exact absurd k hx
      · rw [List.mem_singleton.1 k]
        exact List.mem_cons_self

theorem sendAll_new : ∀ (us : List Upd) (s : St), ∃ new, (sendAll pass s us).out = s.out ++ new ∧
    ∀ u ∈ us, pass u.tx u.fin = true → u ∉ s.sent → Out.upd u ∈ new
  | [], s => ⟨[], (List.append_nil _).symm, fun _ h => absurd h List.not_mem_nil⟩
  | a :: us, s => by
    obtain ⟨x, hx, h1, h2⟩ := sendOne_new (pass := pass) s a
    obtain ⟨y, hy, h3⟩ := sendAll_new us (sendOne pass s a)
    refine ⟨x ++ y, ?_, fun u hu hp hn => ?_⟩
    · change (sendAll pass (sendOne pass s a) us).out = _
      rw [hy, hx, List.append_assoc]
    · rcases List.mem_cons.1 hu with e | e
      · subst e
        exact List.mem_append_left _ (h1 hp hn)
      · by_cases hs : u ∈ (sendOne pass s a).sent
        · exact List.mem_append_left _ (h2 u hn hs)
        · exact List.mem_append_right _ (h3 u e hp hs)

/-- **After a reorg everything from there on is sent anew**: a transaction seen pre-confirmed in a block at or above the
first one taken back is sent, again if need be, after the notice. -/
theorem C84_after_reorg (is : List Input) (k : Nat) (v : View) (h : Nat) (hm : h ∈ v.txs) (hk : k ≤ v.number)
    (hp : pass h .preConfirmed = true) : ∃ new,
    (runIn pass fresh (is ++ [.reorg k, .pending v])).out = (runIn pass fresh is).out ++ .reorg k :: new ∧
      Out.upd ⟨v.number, h, .preConfirmed⟩ ∈ new := by
  have e : runIn pass fresh (is ++ [.reorg k, .pending v]) = onPending pass (onReorg (runIn pass fresh is) k) v := by
    simp [runIn, stepIn]
  rw [e]
  generalize runIn pass fresh is = s
  have hn : (⟨v.number, h, .preConfirmed⟩ : Upd) ∉ (onReorg s k).sent := by
    intro hc
    have := (List.mem_filter.1 hc).2
    simp at this
    omega
  obtain ⟨x, hx, h1⟩ := sendAll_new (pass := pass) v.updates (onReorg s k)
  have hmem := h1 ⟨v.number, h, .preConfirmed⟩ (List.mem_append_left _ (List.mem_map.2 ⟨h, hm, rfl⟩)) hp hn
  have ho : (onReorg s k).out = s.out ++ [.reorg k] := rfl
  have hrest : ∃ y, (onPending pass (onReorg s k) v).out = (sendAll pass (onReorg s k) v.updates).out ++ y := by
    unfold onPending
    cases v.preLatest with
    | none => exact ⟨[], (List.append_nil _).symm⟩
    | some p =>
      simp only [Option.elim]
      unfold onPreLatest
      split
      · exact ⟨[], (List.append_nil _).symm⟩
      · obtain ⟨y, hy, _⟩ := sendAll_new (pass := pass) (p.2.map (⟨p.1, ·, .preConfirmed⟩)) (sendAll pass (onReorg s k) v.updates)
        exact ⟨y, hy⟩
  obtain ⟨y, hy⟩ := hrest
  refine ⟨x ++ y, ?_, List.mem_append_left _ hmem⟩
  rw [hy, hx, ho]
  simp

example : (runIn (fun _ _ => true) fresh ([.pending ⟨5, [1], [], none⟩] ++ [.reorg 5, .pending ⟨5, [1], [], none⟩])).out =
    [.upd ⟨5, 1, .preConfirmed⟩, .reorg 5, .upd ⟨5, 1, .preConfirmed⟩] := by decide

/-- **Nothing is sent that was not asked for.** -/
theorem C84_asked (is : List Input) (u : Upd) (hu : Out.upd u ∈ (runIn pass fresh is).out) : pass u.tx u.fin = true := by
  have one : ∀ (s : St) (x : Upd), (∀ u, Out.upd u ∈ s.out → pass u.tx u.fin = true) →
      ∀ u, Out.upd u ∈ (sendOne pass s x).out → pass u.tx u.fin = true := by
    intro s x hs u hu
    unfold sendOne at hu
    split at hu
    · exact hs u hu
    · rename_i h
      split at hu
      · exact hs u hu
      · rcases List.mem_append.1 hu with k | k
        · exact hs u k
        · have := List.mem_singleton.1 k
          injection this with this
          rw [this]
          simpa using h
  have all : ∀ (us : List Upd) (s : St), (∀ u, Out.upd u ∈ s.out → pass u.tx u.fin = true) →
      ∀ u, Out.upd u ∈ (sendAll pass s us).out → pass u.tx u.fin = true := by
    intro us
    induction us with
    | nil => exact fun s hs => hs
    | cons x us ih => exact fun s hs => ih (sendOne pass s x) (one s x hs)
  have blk : ∀ (old us : List Upd) (out : List Out), (∀ u, Out.upd u ∈ out → pass u.tx u.fin = true) →
      ∀ u, Out.upd u ∈ us.foldl (blockOne pass old) out → pass u.tx u.fin = true := by
    intro old us
    induction us with
    | nil => exact fun out h => h
    | cons x us ih =>
      intro out h
      refine ih (blockOne pass old out x) ?_
      intro u hu
      unfold blockOne at hu
      split at hu
      · exact h u hu
      · rename_i hx
        split at hu
        · exact h u hu
        · rcases List.mem_append.1 hu with k | k
          · exact h u k
          · have := List.mem_singleton.1 k
            injection this with this
            rw [this]
            simpa using hx
  have key : ∀ (is : List Input) (s : St), (∀ u, Out.upd u ∈ s.out → pass u.tx u.fin = true) →
      ∀ u, Out.upd u ∈ (runIn pass s is).out → pass u.tx u.fin = true := by
    intro is
    induction is with
    | nil => exact fun s h => h
    | cons i is ih =>
      intro s h
      refine ih (stepIn pass s i) ?_
      cases i with
      | pending v =>
        change ∀ u, Out.upd u ∈ (onPending pass s v).out → _
        unfold onPending
        have h1 := all v.updates s h
        cases v.preLatest with
        | none => exact h1
        | some p =>
          simp only [Option.elim]
          unfold onPreLatest
          split
          · exact h1
          · exact all _ _ h1
      | block n txs => exact blk _ _ s.out h
      | reorg k =>
        intro u hu
        rcases List.mem_append.1 hu with j | j
        · exact h u j
        · cases List.mem_singleton.1 j
  exact key is fresh (fun _ h => absurd h List.not_mem_nil) u hu

/-- **What is seen pre-latest is sent if nothing was sent for that block before**, in particular if the client asked for
pre-confirmed transactions and the block was not seen pre-confirmed. -/
theorem C84_pre_latest_partial (is : List Input) (v : View) (n : Nat) (txs : List Nat) (h : Nat) (hv : v.preLatest = some (n, txs))
    (hne : v.number ≠ n) (hno : ∀ x f, Out.upd ⟨n, x, f⟩ ∉ (runIn pass fresh is).out) (hh : h ∈ txs) (hp : pass h .preConfirmed = true) :
    Out.upd ⟨n, h, .preConfirmed⟩ ∈ (runIn pass fresh (is ++ [.pending v])).out := by
  have e : runIn pass fresh (is ++ [.pending v]) = onPending pass (runIn pass fresh is) v := by simp [runIn, stepIn]
  have hI : Inv (runIn pass fresh (is ++ [.pending v])) := run_inv _ fresh_inv
  have hI0 : Inv (runIn pass fresh is) := run_inv _ fresh_inv
  refine hI.mem _ ?_
  rw [e]
  unfold onPending
  rw [hv]
  simp only [Option.elim]
  unfold onPreLatest
  have key : ∀ (us : List Upd) (s : St), (∀ u ∈ us, u.number ≠ n) → (∀ u ∈ s.sent, u.number ≠ n) → ∀ u ∈ (sendAll pass s us).sent, u.number ≠ n := by
    intro us
    induction us with
    | nil => exact fun s _ hs => hs
    | cons a us ih =>
      intro s hus hs
      refine ih (sendOne pass s a) (fun u hu => hus u (List.mem_cons_of_mem _ hu)) ?_
      intro u hu
      unfold sendOne at hu
      split at hu
      · exact hs u hu
      · split at hu
        · exact hs u hu
        · rcases List.mem_append.1 hu with k | k
          · exact hs u k
          · rw [List.mem_singleton.1 k]
            exact hus a List.mem_cons_self
  have hs0 : ∀ u ∈ (runIn pass fresh is).sent, u.number ≠ n := by
    intro u hu en
    have := hI0.mem u hu
    obtain ⟨m, x, f⟩ := u
    simp only at en
    subst en
    exact hno x f this
  have hup : ∀ u ∈ v.updates, u.number ≠ n := by
    intro u hu
    unfold View.updates at hu
    rcases List.mem_append.1 hu with k | k <;> obtain ⟨x, _, ex⟩ := List.mem_map.1 k <;> rw [← ex] <;> exact hne
  have hany : (sendAll pass (runIn pass fresh is) v.updates).sent.any (fun u => u.number == n) = false := by
    rw [List.any_eq_false]
    intro u hu
    simpa using key _ _ hup hs0 u hu
  rw [hany]
  exact sendAll_mem _ (List.mem_map.2 ⟨h, hh, rfl⟩) hp

/-- A pre-latest block with two transactions under a pre-confirmed one. -/
example : (runIn (fun _ _ => true) fresh [.pending ⟨6, [3], [4], some (5, [1, 2])⟩, .block 5 [1, 2]]).out =
    [.upd ⟨6, 3, .preConfirmed⟩, .upd ⟨6, 4, .candidate⟩, .upd ⟨5, 1, .preConfirmed⟩, .upd ⟨5, 2, .preConfirmed⟩,
      .upd ⟨5, 1, .acceptedOnL2⟩, .upd ⟨5, 2, .acceptedOnL2⟩] := by decide

/-- **Transactions of a pre-latest block can go unreported.**  The block was seen pre-confirmed with its first transaction;
when it is next seen it is pre-latest and has a second one.  That is never sent as pre-confirmed, however often the
pending data with that pre-latest block changes. -/
theorem C84_pre_latest_violated (n a b : Nat) (hab : a ≠ b) (vs : List View)
    (hvs : ∀ v ∈ vs, v.number = n + 1 ∧ v.preLatest = some (n, [a, b])) :
    Out.upd ⟨n, b, .preConfirmed⟩ ∉ (runIn (fun _ _ => true) fresh (.pending ⟨n, [a], [], none⟩ :: vs.map .pending)).out := by
  have h0 : runIn (fun _ _ => true) fresh (.pending ⟨n, [a], [], none⟩ :: vs.map .pending) =
      runIn (fun _ _ => true) ⟨[⟨n, a, .preConfirmed⟩], [.upd ⟨n, a, .preConfirmed⟩]⟩ (vs.map .pending) := rfl
  rw [h0]
  have key : ∀ (vs : List View) (s : St), (∀ v ∈ vs, v.number = n + 1 ∧ v.preLatest = some (n, [a, b])) →
      (⟨n, a, .preConfirmed⟩ : Upd) ∈ s.sent → Out.upd ⟨n, b, .preConfirmed⟩ ∉ s.out →
      Out.upd ⟨n, b, .preConfirmed⟩ ∉ (runIn (fun _ _ => true) s (vs.map .pending)).out := by
    intro vs
    induction vs with
    | nil => exact fun s _ _ h => h
    | cons v vs ih =>
      intro s hv hs ho
      obtain ⟨hn, hl⟩ := hv v List.mem_cons_self
      have h1 : (⟨n, a, .preConfirmed⟩ : Upd) ∈ (sendAll (fun _ _ => true) s v.updates).sent := sendAll_mono _ hs
      have hstep : stepIn (fun _ _ => true) s (.pending v) = sendAll (fun _ _ => true) s v.updates := by
        change onPending _ s v = _
        unfold onPending
        rw [hl]
        simp only [Option.elim]
        unfold onPreLatest
        rw [if_pos]
        rw [List.any_eq_true]
        exact ⟨_, h1, by simp⟩
      have hout : ∀ (us : List Upd) (s : St), (∀ u ∈ us, u.number ≠ n) → Out.upd ⟨n, b, .preConfirmed⟩ ∉ s.out →
          Out.upd ⟨n, b, .preConfirmed⟩ ∉ (sendAll (fun _ _ => true) s us).out := by
        intro us
        induction us with
        | nil => exact fun s _ h => h
        | cons u us ih2 =>
          intro s hu h
          refine ih2 (sendOne _ s u) (fun x hx => hu x (List.mem_cons_of_mem _ hx)) ?_
          unfold sendOne
          split
          · exact h
          · split
            · exact h
            · intro hm
              rcases List.mem_append.1 hm with k | k
              · exact h k
              · have := List.mem_singleton.1 k
                injection this with this
                exact hu u List.mem_cons_self (by rw [← this])
      change Out.upd ⟨n, b, .preConfirmed⟩ ∉ (runIn (fun _ _ => true) (stepIn (fun _ _ => true) s (.pending v)) (vs.map .pending)).out
      rw [hstep]
      refine ih _ (fun w hw => hv w (List.mem_cons_of_mem _ hw)) h1 (hout _ s ?_ ho)
      intro u hu
      unfold View.updates at hu
      rcases List.mem_append.1 hu with k | k <;> obtain ⟨x, _, ex⟩ := List.mem_map.1 k <;> rw [← ex] <;> simp [hn]
  refine key vs _ hvs List.mem_cons_self ?_
  simp
  exact fun e => hab e.symm

example : ∃ vs : List View, vs.length = 2 ∧ ∀ v ∈ vs, v.number = 5 + 1 ∧ v.preLatest = some (5, [1, 2]) :=
  ⟨[⟨6, [], [], some (5, [1, 2])⟩, ⟨6, [3], [], some (5, [1, 2])⟩], rfl, by simp⟩

/-! ### At most once -/

/-- The input makes the task forget what it sent for block `n`. -/
def Input.forgets (n : Nat) : Input → Prop
  | .pending _ => False
  | .block m _ => m = n
  | .reorg k => k ≤ n

/-- How often the update was sent so far. -/
def sentCount (s : St) (u : Upd) : Nat := s.out.count (.upd u)

theorem sendOne_count {s : St} {u x : Upd} (B : Nat) (h : sentCount s u ≤ B ∧ (u ∈ s.sent ∨ sentCount s u < B)) :
    sentCount (sendOne pass s x) u ≤ B ∧ (u ∈ (sendOne pass s x).sent ∨ sentCount (sendOne pass s x) u < B) := by
  unfold sendOne
  split
  · exact h
  · split
    · exact h
    · rename_i hx
      by_cases e : u = x
      · subst e
        have := h.2.resolve_left hx
        refine ⟨?_, Or.inl (List.mem_append_right _ List.mem_cons_self)⟩
        simp only [sentCount, List.count_append] at *
        simp
        omega
      · have hc : sentCount ⟨s.sent ++ [x], s.out ++ [.upd x]⟩ u = sentCount s u := by
          simp only [sentCount, List.count_append]
          have : List.count (Out.upd u) [Out.upd x] = 0 := by
            rw [List.count_eq_zero]
            intro hm
            have := List.mem_singleton.1 hm
            injection this with this
            exact e this
          omega
        rw [hc]
        exact ⟨h.1, h.2.imp (List.mem_append_left _) id⟩

theorem sendAll_count {u : Upd} (B : Nat) : ∀ (us : List Upd) {s : St}, (sentCount s u ≤ B ∧ (u ∈ s.sent ∨ sentCount s u < B)) →
    sentCount (sendAll pass s us) u ≤ B ∧ (u ∈ (sendAll pass s us).sent ∨ sentCount (sendAll pass s us) u < B)
  | [], _, h => h
  | _ :: us, _, h => sendAll_count B us (sendOne_count B h)

theorem step_count {u : Upd} (hu : u.fin ≠ .acceptedOnL2) {s : St} (hI : Inv s) (B : Nat) (i : Input) (hi : ¬ i.forgets u.number)
    (h : sentCount s u ≤ B ∧ (u ∈ s.sent ∨ sentCount s u < B)) :
    sentCount (stepIn pass s i) u ≤ B ∧ (u ∈ (stepIn pass s i).sent ∨ sentCount (stepIn pass s i) u < B) := by
  cases i with
  | pending v =>
    have h1 := sendAll_count (pass := pass) B v.updates h
    change sentCount (onPending pass s v) u ≤ B ∧ (u ∈ (onPending pass s v).sent ∨ sentCount (onPending pass s v) u < B)
    unfold onPending
    cases v.preLatest with
    | none => exact h1
    | some p =>
      simp only [Option.elim]
      unfold onPreLatest
      split
      · exact h1
      · exact sendAll_count B _ h1
  | block n txs =>
    have hn : n ≠ u.number := hi
    have hc : sentCount (onBlock pass s n txs) u = sentCount s u := by
      unfold sentCount
      rw [onBlock_out hI, List.count_append]
      have : List.count (Out.upd u) ((txs.filter fun h => pass h .acceptedOnL2).map fun h => Out.upd ⟨n, h, .acceptedOnL2⟩) = 0 := by
        rw [List.count_eq_zero]
        intro hm
        obtain ⟨x, _, ex⟩ := List.mem_map.1 hm
        injection ex with ex
        exact hu (by rw [← ex])
      omega
    change sentCount (onBlock pass s n txs) u ≤ B ∧ (_ ∨ sentCount (onBlock pass s n txs) u < B)
    rw [hc]
    refine ⟨h.1, h.2.imp (fun k => ?_) id⟩
    refine List.mem_filter.2 ⟨k, ?_⟩
    simpa using fun e => hn e.symm
  | reorg k =>
    have hk : u.number < k := Nat.lt_of_not_le hi
    have hc : sentCount (onReorg s k) u = sentCount s u := by
      simp [sentCount, onReorg, List.count_append]
    change sentCount (onReorg s k) u ≤ B ∧ (_ ∨ sentCount (onReorg s k) u < B)
    rw [hc]
    exact ⟨h.1, h.2.imp (fun j => List.mem_filter.2 ⟨j, by simpa using hk⟩) id⟩

/-- **At most once until the block is stored or taken back.**  While neither block `n` nor a reorg of it is announced, a
candidate or pre-confirmed update of block `n` is sent at most once; from the start of the subscription, at most once at all. -/
theorem C84_once (before during : List Input) (u : Upd) (hu : u.fin ≠ .acceptedOnL2) (hd : ∀ i ∈ during, ¬ i.forgets u.number) :
    (runIn pass fresh (before ++ during)).out.count (.upd u) ≤ (runIn pass fresh before).out.count (.upd u) + 1 := by
  have e : runIn pass fresh (before ++ during) = runIn pass (runIn pass fresh before) during := by simp [runIn]
  rw [e]
  have hI := run_inv (pass := pass) before fresh_inv
  generalize runIn pass fresh before = s at hI
  have key : ∀ (during : List Input) (s : St) (B : Nat), Inv s → (∀ i ∈ during, ¬ i.forgets u.number) →
      (sentCount s u ≤ B ∧ (u ∈ s.sent ∨ sentCount s u < B)) → sentCount (runIn pass s during) u ≤ B := by
    intro during
    induction during with
    | nil => exact fun _ _ _ _ h => h.1
    | cons i is ih =>
      intro s B hI hd h
      exact ih (stepIn pass s i) B (step_inv hI i) (fun j hj => hd j (List.mem_cons_of_mem _ hj))
        (step_count hu hI B i (hd i List.mem_cons_self) h)
  exact key during s (sentCount s u + 1) hI hd ⟨Nat.le_succ _, Or.inr (Nat.lt_succ_self _)⟩

/-- The same block in four versions of the pending data. -/
example : (runIn (fun _ _ => true) fresh ([] ++ [.pending ⟨5, [], [1], none⟩, .pending ⟨5, [1], [2], none⟩, .block 4 [9],
    .pending ⟨5, [1, 2], [], none⟩, .pending ⟨6, [], [], some (5, [1, 2])⟩])).out =
    [.upd ⟨5, 1, .candidate⟩, .upd ⟨5, 1, .preConfirmed⟩, .upd ⟨5, 2, .candidate⟩, .upd ⟨4, 9, .acceptedOnL2⟩, .upd ⟨5, 2, .preConfirmed⟩] := by
  decide

/-- **An update can be sent twice, and after the block was stored.**  The pending data changed and the block was announced
while the task was busy; `select!` took the block first, which made the task forget what it had sent. -/
theorem C84_repeat_violated (n a : Nat) :
    (runIn (fun _ _ => true) fresh [.pending ⟨n, [a], [], none⟩, .block n [a], .pending ⟨n, [a], [], none⟩]).out =
      [.upd ⟨n, a, .preConfirmed⟩, .upd ⟨n, a, .acceptedOnL2⟩, .upd ⟨n, a, .preConfirmed⟩] := by
  simp [runIn, stepIn, onPending, sendAll, View.updates, sendOne, onBlock, blockOne, fresh]

end Verif.Subs.Pending
