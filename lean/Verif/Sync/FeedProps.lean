import Verif.Sync.Feed

/-!
# Block data from peers arrives complete and in order (C64)
-/

namespace Verif.Sync

variable {P R A C E : Type}

/-! ## Headers -/

/-- The headers a reply starts with. -/
def headersOf : List (HeaderResp A) → List A
  | .header a :: rs => a :: headersOf rs
  | _ => []

/-- The headers of the replies with their senders. -/
def sentHeaders (replies : List (P × Option (List (HeaderResp A)))) : List (P × A) :=
  replies.flatMap fun r => ((r.2.map headersOf).getD []).map (r.1, ·)

/-- The number that follows `n` headers. -/
def headerAfter (reverse : Bool) (start : Int) (n : Nat) : Int := if reverse then start - n else start + n

theorem headerReply_spec (reverse : Bool) (stop : Int) (peer : P) (rs : List (HeaderResp A)) :
    ∀ (start : Int) (n : Nat), (headerAfter reverse start n = headerNext reverse stop) →
      headerReply reverse stop peer start rs =
        ((((headersOf rs).map (peer, ·)).take n), headerAfter reverse start (min n (headersOf rs).length),
          decide (n ≤ (headersOf rs).length)) := by
  have hdone : ∀ start n, headerAfter reverse start n = headerNext reverse stop →
      headerDone reverse start stop = decide (n = 0) := by
    intro start n h
    cases reverse <;> simp [headerAfter, headerNext, headerDone] at h ⊢ <;> omega
  induction rs with
  | nil =>
    intro start n h
    simp only [headerReply, headersOf, List.map_nil, List.take_nil, List.length_nil, Nat.min_zero, hdone start n h]
    refine Prod.ext rfl (Prod.ext ?_ (by simp))
    cases reverse <;> simp [headerAfter]
  | cons r rs ih =>
    intro start n h
    have hstart : headerAfter reverse start 0 = start := by cases reverse <;> simp [headerAfter]
    cases r with
    | header a =>
      simp only [headerReply, headersOf, hdone start n h]
      cases n with
      | zero => simp [hstart]
      | succ n =>
        have h' : headerAfter reverse (headerNext reverse start) n = headerNext reverse stop := by
          cases reverse <;> simp [headerAfter, headerNext] at h ⊢ <;> omega
        simp only [decide_eq_true_eq, Nat.succ_ne_zero, if_false, ih _ n h']
        refine Prod.ext (by simp) (Prod.ext ?_ (by simp))
        simp only [List.length_cons]
        rw [show min (n + 1) ((headersOf rs).length + 1) = min n (headersOf rs).length + 1 by omega]
        cases reverse <;> simp [headerAfter, headerNext] <;> omega
    | unparsed => simp [headerReply, headersOf, hdone start n h, hstart]
    | fin => simp [headerReply, headersOf, hdone start n h, hstart]
    | err => simp [headerReply, headersOf, hdone start n h, hstart]

theorem headerLoop_spec (reverse : Bool) (stop : Int) (replies : List (P × Option (List (HeaderResp A)))) :
    ∀ (start : Int) (n : Nat), 0 < n → headerAfter reverse start n = headerNext reverse stop →
      headerLoop reverse stop start replies = ((sentHeaders replies).take n,
        headerAfter reverse start (min n (sentHeaders replies).length), decide (n ≤ (sentHeaders replies).length)) := by
  induction replies with
  | nil =>
    intro start n hn h
    refine Prod.ext (by simp [headerLoop, sentHeaders]) (Prod.ext ?_ (by simp [headerLoop, sentHeaders]; omega))
    cases reverse <;> simp [headerLoop, sentHeaders, headerAfter]
  | cons r more ih =>
    intro start n hn h
    obtain ⟨peer, rs⟩ := r
    have hs : sentHeaders ((peer, rs) :: more) = ((rs.map headersOf).getD []).map (peer, ·) ++ sentHeaders more := rfl
    cases rs with
    | none =>
      rw [hs]
      simpa [headerLoop] using ih start n hn h
    | some rs =>
      rw [hs]
      simp only [Option.map_some, Option.getD_some]
      simp only [headerLoop, headerReply_spec reverse stop peer rs start n h]
      by_cases hle : n ≤ (headersOf rs).length
      · simp only [hle, decide_true, if_true, List.length_append, List.length_map]
        refine Prod.ext ?_ (Prod.ext ?_ ?_)
        · rw [List.take_append_of_le_length (by simpa using hle)]
        · simp only
          congr 1
          omega
        · simp; omega
      · have h' : headerAfter reverse (headerAfter reverse start (headersOf rs).length) (n - (headersOf rs).length) =
            headerNext reverse stop := by
          cases reverse <;> simp [headerAfter, headerNext] at h ⊢ <;> omega
        rw [Nat.min_eq_right (by omega)]
        simp only [hle, decide_false, Bool.false_eq_true, if_false]
        rw [ih _ _ (by omega) h']
        refine Prod.ext ?_ (Prod.ext ?_ ?_)
        · simp only [List.take_append, List.length_map]
        · simp only [List.length_append, List.length_map]
          cases reverse <;> simp [headerAfter] <;> omega
        · simp only [List.length_append, List.length_map]
          by_cases hx : n - (headersOf rs).length ≤ (sentHeaders more).length <;> simp [hx] <;> omega

/-- C64. The header stream delivers the headers of the replies in the order in which they came, each up to its first response
that is not a header, and of all of them exactly as many as there are blocks asked for; it has ended if and only if these are
complete, and otherwise the next request starts where the delivered ones end. -/
theorem C64_headers (start stop : Nat) (h : start ≤ stop) (reverse : Bool)
    (replies : List (P × Option (List (HeaderResp A)))) :
    let out := (headerStream start stop reverse replies).1
    out = (sentHeaders replies).take (stop + 1 - start) ∧
      ((headerStream start stop reverse replies).2.2 = true ↔ out.length = stop + 1 - start) ∧
      (headerStream start stop reverse replies).2.1 =
        if reverse then (stop : Int) - out.length else (start : Int) + out.length := by
  have hr : headerStream start stop reverse replies = ((sentHeaders replies).take (stop + 1 - start),
      headerAfter reverse (if reverse then (stop : Int) else start) (min (stop + 1 - start) (sentHeaders replies).length),
      decide (stop + 1 - start ≤ (sentHeaders replies).length)) := by
    unfold headerStream
    cases reverse with
    | true =>
      simp only [if_true]
      exact headerLoop_spec true start replies stop (stop + 1 - start) (by omega) (by simp [headerAfter, headerNext]; omega)
    | false =>
      simp only [Bool.false_eq_true, if_false]
      exact headerLoop_spec false stop replies start (stop + 1 - start) (by omega) (by simp [headerAfter, headerNext]; omega)
  rw [hr]
  refine ⟨rfl, by simp; omega, ?_⟩
  cases reverse <;> simp [headerAfter, List.length_take]

example : headerStream 3 4 true [(0, none), (1, some [.header "4", .fin, .header "x"]), (2, some [.header "3", .header "2"])] =
    ([(1, "4"), (2, "3")], 2, true) := rfl

/-! ## Blocks -/

/-- The responses `seg`, read one after the other with `n` expected, make up the block `a` with nothing left to expect. -/
inductive Reads (k : Kind R C A) : C → A → Nat → List R → C → A → Prop
  | done (c : C) (a : A) : Reads k c a 0 [] c a
  | step {c c' c'' : C} {a a' a'' : A} {n n' : Nat} {r : R} {seg : List R} :
    k.absorb c a (n + 1) r = .ok c' a' n' → Reads k c' a' n' seg c'' a'' → Reads k c a (n + 1) (r :: seg) c'' a''

/-- A reply starts with the blocks `as` of `ns` items each, one directly after the other, and `rest` follows. -/
inductive Splits (k : Kind R C A) : C → List Nat → List R → List A → C → List R → Prop
  | nil (c : C) (rs : List R) : Splits k c [] rs [] c rs
  | cons {c c' c'' : C} {n : Nat} {ns : List Nat} {seg rs rest : List R} {a : A} {as : List A} :
    Reads k c k.empty n seg c' a → Splits k c' ns rs as c'' rest → Splits k c (n :: ns) (seg ++ rs) (a :: as) c'' rest

/-- The blocks `bs` with `ns` items come, in this order, from the starts of the replies. -/
inductive Delivered (k : Kind R C A) : List Nat → List (P × Option (List R)) → List (P × A) → Prop
  | nil : Delivered k [] [] []
  | failed {ns : List Nat} {peer : P} {more : List (P × Option (List R))} {bs : List (P × A)} :
    Delivered k ns more bs → Delivered k ns ((peer, none) :: more) bs
  | reply {ns ns' : List Nat} {peer : P} {rs rest : List R} {as : List A} {c : C} {more : List (P × Option (List R))}
    {bs : List (P × A)} : Splits k k.carry ns rs as c rest → Delivered k ns' more bs →
    Delivered k (ns ++ ns') ((peer, some rs) :: more) (as.map (peer, ·) ++ bs)

/-- The items of the stream for blocks from `start`. -/
def blockItems (start : Nat) : List (P × A) → List (Except (FeedErr E) (P × A × Nat))
  | [] => []
  | (p, a) :: bs => .ok (p, a, start) :: blockItems (start + 1) bs

/-- What follows the blocks: after all of them nothing; while peers are asked nothing; and an error if the counts failed. -/
inductive FeedEnd (start stop : Nat) (counts : List (Except E Nat)) (n : Nat) :
    List (Except (FeedErr E) (P × A × Nat)) → FeedState E → Prop
  | complete : start + n = stop + 1 → FeedEnd start stop counts n [] .ended
  | waiting (p : Progress) (rest : List (Except E Nat)) (m : Nat) : start + n ≤ stop → p.backup = m →
    counts.drop n = .ok m :: rest → FeedEnd start stop counts n [] (.waiting (start + n) p rest)
  | failed (e : E) (rest : List (Except E Nat)) : start + n ≤ stop → counts.drop n = .error e :: rest →
    FeedEnd start stop counts n [.error (.counts e)] .ended
  | premature : start + n ≤ stop → counts.drop n = [] → FeedEnd start stop counts n [.error .premature] .ended
  | panicked : FeedEnd start stop counts n [] .panicked

theorem fill_full {k : Kind R C A} {c : C} {a : A} {n : Nat} {rs : List R} {c' : C} {a' : A} {rest : List R}
    (h : fill k c a n rs = .full c' a' rest) : ∃ seg, rs = seg ++ rest ∧ Reads k c a n seg c' a' := by
  induction rs generalizing c a n with
  | nil =>
    cases n with
    | zero => simp only [fill, Filled.full.injEq] at h; obtain ⟨rfl, rfl, rfl⟩ := h; exact ⟨[], rfl, .done _ _⟩
    | succ n => simp [fill] at h
  | cons r rs ih =>
    cases n with
    | zero => simp only [fill, Filled.full.injEq] at h; obtain ⟨rfl, rfl, rfl⟩ := h; exact ⟨[], rfl, .done _ _⟩
    | succ n =>
      simp only [fill] at h
      cases hr : k.absorb c a (n + 1) r with
      | ok c1 a1 n1 =>
        simp only [hr] at h
        obtain ⟨seg, rfl, hs⟩ := ih h
        exact ⟨r :: seg, rfl, .step hr hs⟩
      | nextPeer => simp [hr] at h
      | panic => simp [hr] at h

theorem fill_reads {k : Kind R C A} {c : C} {a : A} {n : Nat} {seg : List R} {c' : C} {a' : A}
    (h : Reads k c a n seg c' a') (rest : List R) : fill k c a n (seg ++ rest) = .full c' a' rest := by
  induction h with
  | done c a => cases rest <;> rfl
  | step hr _ ih => simp only [List.cons_append, fill, hr]; exact ih

/-- What one reply adds. -/
theorem serve_spec (k : Kind R C A) (stop : Nat) (peer : P) (counts : List (Except E Nat)) :
    ∀ (start : Nat) (p : Progress) (c : C) (rs : List R), start ≤ stop → p.count = p.backup →
      ∃ ns as c' rest tail, Splits k c ns rs as c' rest ∧
        ns.map Except.ok = (.ok p.count :: counts).take as.length ∧
        (serve k stop peer counts start p c rs).1 = blockItems start (as.map (peer, ·)) ++ tail ∧
        FeedEnd start stop (.ok p.count :: counts) as.length tail (serve k stop peer counts start p c rs).2 := by
  induction counts with
  | nil =>
    intro start p c rs hle hp
    unfold serve
    simp only [if_pos hle]
    cases hf : fill k c k.empty p.count rs with
    | nextPeer left =>
      refine ⟨[], [], c, rs, [], .nil _ _, rfl, rfl, ?_⟩
      exact .waiting _ _ _ hle hp.symm (by simp)
    | panic => exact ⟨[], [], c, rs, [], .nil _ _, rfl, rfl, .panicked⟩
    | full c' a rest =>
      obtain ⟨seg, rfl, hr⟩ := fill_full hf
      simp only
      by_cases he : start = stop
      · rw [if_pos he]
        exact ⟨[p.count], [a], c', rest, [], .cons hr (.nil _ _), rfl, rfl, .complete (by simp; omega)⟩
      · rw [if_neg he]
        exact ⟨[p.count], [a], c', rest, _, .cons hr (.nil _ _), rfl, rfl, .premature (by simp; omega) (by simp)⟩
  | cons x counts ih =>
    intro start p c rs hle hp
    unfold serve
    simp only [if_pos hle]
    cases hf : fill k c k.empty p.count rs with
    | nextPeer left =>
      refine ⟨[], [], c, rs, [], .nil _ _, rfl, rfl, ?_⟩
      exact .waiting _ _ _ hle hp.symm (by simp)
    | panic => exact ⟨[], [], c, rs, [], .nil _ _, rfl, rfl, .panicked⟩
    | full c' a rest =>
      obtain ⟨seg, rfl, hr⟩ := fill_full hf
      simp only
      by_cases he : start = stop
      · rw [if_pos he]
        exact ⟨[p.count], [a], c', rest, [], .cons hr (.nil _ _), rfl, rfl, .complete (by simp; omega)⟩
      · rw [if_neg he]
        cases x with
        | error e =>
          exact ⟨[p.count], [a], c', rest, _, .cons hr (.nil _ _), rfl, rfl, .failed e counts (by simp; omega) (by simp)⟩
        | ok n =>
          simp only
          obtain ⟨ns, as, c'', rest', tail, h1, h2, h3, h4⟩ := ih (start + 1) (Progress.new n) c' rest (by omega) rfl
          refine ⟨p.count :: ns, a :: as, c'', rest', tail, .cons hr h1, ?_, ?_, ?_⟩
          · simpa [Progress.new] using h2
          · rw [h3]; rfl
          · simp only [List.length_cons]
            revert h4
            generalize (serve k stop peer counts (start + 1) (Progress.new n) c' rest).2 = s
            intro h4
            cases h4 with
            | complete h => exact .complete (by omega)
            | waiting p' rest m h hm hd =>
              rw [show start + 1 + as.length = start + (as.length + 1) by omega]
              exact .waiting p' rest m (by omega) hm (by simpa [Progress.new] using hd)
            | failed e rest h hd => exact .failed e rest (by omega) (by simpa [Progress.new] using hd)
            | premature h hd => exact .premature (by omega) (by simpa [Progress.new] using hd)
            | panicked => exact .panicked

theorem blockItems_append (start : Nat) (bs bs' : List (P × A)) :
    (blockItems start (bs ++ bs') : List (Except (FeedErr E) (P × A × Nat))) =
      blockItems start bs ++ blockItems (start + bs.length) bs' := by
  induction bs generalizing start with
  | nil => simp [blockItems]
  | cons b bs ih =>
    simp only [List.cons_append, blockItems, ih, List.length_cons]
    rw [show start + 1 + bs.length = start + (bs.length + 1) by omega]

/-- Nothing is delivered by replies that come when the stream is over. -/
theorem Delivered.none (k : Kind R C A) (replies : List (P × Option (List R))) : Delivered k [] replies [] := by
  induction replies with
  | nil => exact .nil
  | cons r replies ih =>
    obtain ⟨p, r⟩ := r
    cases r with
    | none => exact .failed ih
    | some rs => exact .reply (ns := []) (as := []) (.nil _ rs) ih

theorem feedLoop_over (k : Kind R C A) (stop : Nat) (replies : List (P × Option (List R))) (s : FeedState E)
    (h : ∀ a b c, s ≠ .waiting a b c) : feedLoop k stop s replies = ([], s) := by
  induction replies with
  | nil => rfl
  | cons r more ih =>
    cases s with
    | waiting a b c => exact absurd rfl (h a b c)
    | ended => simp [feedLoop, attempt, ih]
    | panicked => simp [feedLoop, attempt, ih]

theorem feedLoop_spec (k : Kind R C A) (stop : Nat) (replies : List (P × Option (List R))) :
    ∀ (start : Nat) (p : Progress) (counts : List (Except E Nat)), start ≤ stop →
      ∃ ns bs tail, Delivered k ns replies bs ∧ ns.map Except.ok = (.ok p.backup :: counts).take bs.length ∧
        (feedLoop k stop (.waiting start p counts) replies).1 = blockItems start bs ++ tail ∧
        FeedEnd start stop (.ok p.backup :: counts) bs.length tail (feedLoop k stop (.waiting start p counts) replies).2 := by
  induction replies with
  | nil =>
    intro start p counts hle
    exact ⟨[], [], [], .nil, rfl, rfl, .waiting p counts p.backup hle rfl rfl⟩
  | cons r more ih =>
    intro start p counts hle
    obtain ⟨peer, rs⟩ := r
    cases rs with
    | none =>
      obtain ⟨ns, bs, tail, h1, h2, h3, h4⟩ := ih start p counts hle
      exact ⟨ns, bs, tail, .failed h1, h2, by simpa [feedLoop, attempt] using h3, by simpa [feedLoop, attempt] using h4⟩
    | some rs =>
      obtain ⟨ns, as, c, rest, tail, h1, h2, h3, h4⟩ := serve_spec k stop peer counts start p.rollback k.carry rs hle rfl
      simp only [feedLoop, attempt]
      revert h3 h4
      generalize serve k stop peer counts start p.rollback k.carry rs = res
      obtain ⟨out, s⟩ := res
      intro h3 h4
      simp only at h3 h4
      have hb : p.rollback.count = p.backup := rfl
      rw [hb] at h2 h4
      by_cases hw : ∃ a b c, s = .waiting a b c
      · obtain ⟨a, b, c', rfl⟩ := hw
        cases h4 with
        | waiting p' rest' m hle' hm hd =>
          obtain ⟨ns', bs, tail', g1, g2, g3, g4⟩ := ih (start + as.length) b c' hle'
          rw [← hm] at hd
          refine ⟨ns ++ ns', as.map (peer, ·) ++ bs, tail', .reply h1 g1, ?_, ?_, ?_⟩
          · rw [List.map_append, h2, g2, ← hd]
            simp only [List.length_append, List.length_map]
            rw [List.take_add]
          · rw [h3, g3, List.append_nil, blockItems_append]
            simp
          · simp only [List.length_append, List.length_map]
            revert g4
            generalize (feedLoop k stop (.waiting (start + as.length) b c') more).2 = s'
            intro g4
            cases g4 with
            | complete h => exact .complete (by omega)
            | waiting p2 rest2 m2 h hm2 hd2 =>
              rw [show start + as.length + bs.length = start + (as.length + bs.length) by omega]
              exact .waiting p2 rest2 m2 (by omega) hm2 (by rw [← List.drop_drop, hd]; exact hd2)
            | failed e rest2 h hd2 => exact .failed e rest2 (by omega) (by rw [← List.drop_drop, hd]; exact hd2)
            | premature h hd2 => exact .premature (by omega) (by rw [← List.drop_drop, hd]; exact hd2)
            | panicked => exact .panicked
      · have hover : ∀ a b c, s ≠ .waiting a b c := fun a b c h => hw ⟨a, b, c, h⟩
        simp only [feedLoop_over k stop more s hover, List.append_nil]
        refine ⟨ns, as.map (peer, ·), tail, ?_, by simpa using h2, h3, by simpa using h4⟩
        simpa using Delivered.reply (peer := peer) h1 (Delivered.none k more)

/-- C64. Whatever the replies, the stream delivers the blocks from `start` in order and each once. The data of each block is read
from consecutive responses of one peer, directly after those of the block that peer delivered before, and takes up exactly the
expected count. The stream ends after `stop`, or with an error when a count is missing, and not otherwise (but see
`C64_no_panic` and `C64_events_violated`). -/
theorem C64_blocks (k : Kind R C A) (start stop : Nat) (h : start ≤ stop) (counts : List (Except E Nat))
    (replies : List (P × Option (List R))) :
    ∃ ns bs tail, Delivered k ns replies bs ∧ ns.map Except.ok = counts.take bs.length ∧
      (feed k start stop counts replies).1 = blockItems start bs ++ tail ∧
      FeedEnd start stop counts bs.length tail (feed k start stop counts replies).2 := by
  unfold feed
  cases counts with
  | nil => exact ⟨[], [], _, .none k replies, rfl, rfl, .premature (by simpa using h) (by simp)⟩
  | cons x counts =>
    cases x with
    | error e => exact ⟨[], [], _, .none k replies, rfl, rfl, .failed e counts (by simpa using h) (by simp)⟩
    | ok n => exact feedLoop_spec k stop replies start (Progress.new n) counts h

/-- C64. A peer that has the blocks that are still missing completes the stream. -/
theorem C64_completes (k : Kind R C A) (start stop : Nat) (p : Progress) (ns : List Nat) (counts : List (Except E Nat))
    (peer : P) (rs rest : List R) (as : List A) (c : C) (hs : Splits k k.carry ns rs as c rest)
    (hn : ns.map Except.ok = .ok p.backup :: counts) (hl : start + as.length = stop + 1)
    (more : List (P × Option (List R))) :
    feedLoop k stop (.waiting start p counts) ((peer, some rs) :: more) =
      (blockItems start (as.map (peer, ·)), .ended) := by
  have key : ∀ (ns : List Nat) (as : List A) (c c' : C) (rs rest : List R) (n : Nat) (counts : List (Except E Nat))
      (start : Nat), Splits k c ns rs as c' rest → ns.map Except.ok = .ok n :: counts → start + as.length = stop + 1 →
      serve k stop peer counts start (Progress.new n) c rs = (blockItems start (as.map (peer, ·)), .ended) := by
    intro ns
    induction ns with
    | nil => intro as c c' rs rest n counts start _ h; simp at h
    | cons m ns ih =>
      intro as c c' rs rest n counts start hs hn hl
      cases hs with
      | @cons _ c1 _ _ _ seg rs _ a as hr hs =>
        simp only [List.map_cons, List.cons.injEq, Except.ok.injEq] at hn
        obtain ⟨rfl, rfl⟩ := hn
        simp only [List.length_cons] at hl
        unfold serve
        have hf := fill_reads hr rs
        simp only [Progress.new, if_pos (show start ≤ stop by omega), hf]
        cases ns with
        | nil =>
          cases hs
          simp only [List.length_nil] at hl
          simp [if_pos (show start = stop by omega), blockItems]
        | cons m' ns =>
          have hlen : as.length ≠ 0 := by
            cases hs
            simp
          simp only [if_neg (show ¬ start = stop by omega), List.map_cons]
          have hi := ih as c1 c' rs rest m' _ (start + 1) hs rfl (by omega)
          simp only [Progress.new] at hi
          simp [hi, blockItems]
  have hk := key ns as k.carry c rs rest p.backup counts start hs hn hl
  have : p.rollback = Progress.new p.backup := rfl
  simp only [feedLoop, attempt, this, hk, feedLoop_over k stop more (.ended : FeedState E) (by intros; simp), List.append_nil]

/-- A reply with two blocks of one and two items, as `C64_completes` asks for. -/
example : Splits (listKind fun (r : Option String) i => r.map (·, i)) () [1, 2] [some "a", some "b", some "c", none]
    [[("a", 0)], [("b", 0), ("c", 1)]] () [none] :=
  .cons (seg := [_]) (.step rfl (.done _ _)) (.cons (seg := [_, _]) (.step rfl (.step rfl (.done _ _))) (.nil _ _))

theorem feedLoop_panicked {k : Kind R C A} {stop : Nat} (hk : ∀ c a n r, k.absorb c a n r ≠ .panic) :
    ∀ (replies : List (P × Option (List R))) (s : FeedState E), s ≠ .panicked → (feedLoop k stop s replies).2 ≠ .panicked := by
  have hfill : ∀ (rs : List R) c a n, fill k c a n rs ≠ .panic := by
    intro rs
    induction rs with
    | nil => intro c a n; cases n <;> simp [fill]
    | cons r rs ih =>
      intro c a n
      cases n with
      | zero => simp [fill]
      | succ n =>
        simp only [fill]
        cases hr : k.absorb c a (n + 1) r with
        | ok c a n => exact ih _ _ _
        | nextPeer => simp
        | panic => exact absurd hr (hk _ _ _ _)
  have hserve : ∀ (peer : P) (counts : List (Except E Nat)) (start : Nat) (p : Progress) (c : C) (rs : List R),
      (serve k stop peer counts start p c rs).2 ≠ .panicked := by
    intro peer counts
    induction counts with
    | nil =>
      intro start p c rs
      unfold serve
      split
      · cases hf : fill k c k.empty p.count rs with
        | nextPeer left => simp
        | panic => exact absurd hf (hfill _ _ _ _)
        | full c a rs => simp only; split <;> simp
      · simp
    | cons x counts ih =>
      intro start p c rs
      unfold serve
      split
      · cases hf : fill k c k.empty p.count rs with
        | nextPeer left => simp
        | panic => exact absurd hf (hfill _ _ _ _)
        | full c a rs =>
          simp only
          split
          · simp
          · cases x with
            | error e => simp
            | ok n => exact ih _ _ _ _
      · simp
  intro replies
  induction replies with
  | nil => intro s hs; exact hs
  | cons r more ih =>
    intro s hs
    obtain ⟨peer, rs⟩ := r
    simp only [feedLoop]
    apply ih
    cases s with
    | waiting start p counts =>
      cases rs with
      | none => simp [attempt]
      | some rs => exact hserve _ _ _ _ _ _
    | ended => simp [attempt]
    | panicked => exact absurd rfl hs

/-- C64. No reply makes the task of the streams of transactions, classes and state diffs panic. -/
theorem C64_no_panic (start stop : Nat) (counts : List (Except E Nat)) :
    (∀ (parse : R → Nat → Option A) (replies : List (P × Option (List R))),
      (feed (listKind parse) start stop counts replies).2 ≠ .panicked) ∧
    ∀ (system : Nat → Bool) (replies : List (P × Option (List DiffResp))),
      (feed (diffKind system) start stop counts replies).2 ≠ .panicked := by
  constructor
  · intro parse replies
    unfold feed
    cases counts with
    | nil => simp
    | cons x counts =>
      cases x with
      | error e => simp
      | ok n =>
        refine feedLoop_panicked ?_ replies _ (by simp)
        intro c a n r
        simp only [listKind]
        cases parse r a.length <;> simp
  · intro system replies
    unfold feed
    cases counts with
    | nil => simp
    | cons x counts =>
      cases x with
      | error e => simp
      | ok n =>
        refine feedLoop_panicked ?_ replies _ (by simp)
        intro c a n r
        cases r with
        | contract address nonce ch values =>
          simp only [diffKind, absorbDiff]
          split
          · simp
          · split
            · simp
            · cases nonce <;> cases ch <;> simp only <;> (try split) <;> simp
        | declared h casm => cases casm <;> simp only [diffKind, absorbDiff] <;> split <;> simp
        | stop => simp [diffKind, absorbDiff]

/-- C64. A block of transactions or classes: as many as expected, each parsed with its position in the block. -/
theorem C64_items (parse : R → Nat → Option A) (n : Nat) (seg : List R) (as : List A) :
    Reads (listKind parse) () [] n seg () as ↔
      seg.length = n ∧ as.length = n ∧ ∀ i r, seg[i]? = some r → parse r i = as[i]? := by
  have key : ∀ (seg : List R) (acc : List A) (n : Nat) (as : List A),
      Reads (listKind parse) () acc n seg () as ↔ ∃ xs, as = acc ++ xs ∧ seg.length = n ∧ xs.length = n ∧
        ∀ i r, seg[i]? = some r → parse r (acc.length + i) = xs[i]? := by
    intro seg
    induction seg with
    | nil =>
      intro acc n as
      constructor
      · intro h
        cases h
        exact ⟨[], by simp⟩
      · rintro ⟨xs, rfl, h1, h2, -⟩
        simp only [List.length_nil] at h1
        subst h1
        rw [List.length_eq_zero_iff] at h2
        subst h2
        rw [List.append_nil]
        exact .done _ _
    | cons r seg ih =>
      intro acc n as
      constructor
      · intro h
        cases h with
        | @step _ c' _ _ a' _ n _ _ _ hr h =>
          simp only [listKind] at hr
          cases hp : parse r acc.length with
          | none => simp [hp] at hr
          | some x =>
            simp only [hp, Took.ok.injEq, true_and] at hr
            obtain ⟨h1, h2⟩ := hr
            subst h1
            have hn : n + 1 - 1 = n := by omega
            rw [hn] at h2
            subst h2
            obtain ⟨xs, rfl, g1, g2, g3⟩ := (ih _ _ _).mp h
            refine ⟨x :: xs, by simp, by simp [g1], by simp [g2], ?_⟩
            intro i r' hi
            cases i with
            | zero =>
              simp only [List.getElem?_cons_zero, Option.some.injEq] at hi
              subst hi
              simpa using hp
            | succ i =>
              have := g3 i r' (by simpa using hi)
              simp only [List.length_append, List.length_cons, List.length_nil] at this
              rw [List.getElem?_cons_succ, ← this]
              congr 1
              omega
      · rintro ⟨xs, rfl, rfl, h2, h3⟩
        cases xs with
        | nil => simp at h2
        | cons x xs =>
          have hp : parse r acc.length = some x := by simpa using h3 0 r rfl
          refine .step (c' := ()) (a' := acc ++ [x]) (n' := seg.length) ?_ ?_
          · simp [listKind, hp]
          · refine (ih _ _ _).mpr ⟨xs, by simp, rfl, by simpa using h2, ?_⟩
            intro i r' hi
            have := h3 (i + 1) r' (by simpa using hi)
            rw [List.getElem?_cons_succ] at this
            rw [← this]
            congr 1
            simp
            omega
  rw [key seg [] n as]
  constructor
  · rintro ⟨xs, rfl, h1, h2, h3⟩
    exact ⟨h1, h2, by simpa using h3⟩
  · rintro ⟨h1, h2, h3⟩
    exact ⟨as, by simp, h1, h2, by simpa using h3⟩

/-- Two peers: the first stops in the middle of block 8. The second starts block 8 over. -/
example : feed (E := Unit) (P := Nat) (listKind fun (r : Option String) i => r.map (·, i)) 7 8 [.ok 1, .ok 2]
    [(1, some [some "a", some "b"]), (2, none), (3, some [some "c", some "d", some "e"])] =
      ([.ok (1, [("a", 0)], 7), .ok (3, [("c", 0), ("d", 1)], 8)], .ended) := rfl

/-! ## State diffs -/

/-- The changes in a response: storage, nonce, class, declared classes. -/
def DiffResp.values : DiffResp → List ((Nat × Nat) × Nat)
  | .contract a _ _ vs => vs.map fun v => ((a, v.1), v.2)
  | _ => []

def DiffResp.nonces (system : Nat → Bool) : DiffResp → List (Nat × Nat)
  | .contract a (some n) _ _ => if system a then [] else [(a, n)]
  | _ => []

def DiffResp.classes (system : Nat → Bool) : DiffResp → List (Nat × Nat)
  | .contract a _ (some h) _ => if system a then [] else [(a, h)]
  | _ => []

def DiffResp.sierra : DiffResp → List (Nat × Nat)
  | .declared h (some casm) => [(h, casm)]
  | _ => []

def DiffResp.cairo : DiffResp → List Nat
  | .declared h none => [h]
  | _ => []

/-- The number of changes in a state diff. -/
def DiffAcc.size (a : DiffAcc) : Nat :=
  a.storage.length + a.nonces.length + a.deployed.length + a.sierra.length + a.cairo.length

theorem absorbDiff_ok {system : Nat → Bool} {acc acc' : DiffAcc} {n n' : Nat} {r : DiffResp}
    (h : absorbDiff system acc n r = .ok () acc' n') :
    acc'.storage = r.values.reverse ++ acc.storage ∧ acc'.nonces = r.nonces system ++ acc.nonces ∧
      acc'.deployed = r.classes system ++ acc.deployed ∧ acc'.sierra = r.sierra ++ acc.sierra ∧
      acc'.cairo = r.cairo ++ acc.cairo ∧ acc'.size + n' = acc.size + n := by
  cases r with
  | contract address nonce ch values =>
    simp only [absorbDiff] at h
    split at h
    · simp at h
    · split at h
      · simp only [Took.ok.injEq, true_and] at h
        obtain ⟨rfl, rfl⟩ := h
        rename_i hs
        cases nonce <;> cases ch <;>
          simp [DiffResp.values, DiffResp.nonces, DiffResp.classes, DiffResp.sierra, DiffResp.cairo, hs, DiffAcc.size] <;> omega
      · rename_i hs
        cases nonce <;> cases ch <;> simp only at h <;> (try split at h) <;>
          simp only [Took.ok.injEq, true_and, reduceCtorEq] at h <;>
          obtain ⟨rfl, rfl⟩ := h <;>
          simp [DiffResp.values, DiffResp.nonces, DiffResp.classes, DiffResp.sierra, DiffResp.cairo, hs, DiffAcc.size] <;>
          omega
  | declared hh casm =>
    cases casm <;> simp only [absorbDiff] at h <;> split at h <;> simp only [Took.ok.injEq, true_and, reduceCtorEq] at h <;>
      obtain ⟨rfl, rfl⟩ := h <;>
      simp [DiffResp.values, DiffResp.nonces, DiffResp.classes, DiffResp.sierra, DiffResp.cairo, DiffAcc.size] <;> omega
  | stop => simp [absorbDiff] at h

/-- C64. A state diff has exactly the expected number of changes, and they are those of the responses in order (the last one in
front); nonce and class of a system contract are dropped. -/
theorem C64_diff (system : Nat → Bool) (n : Nat) (seg : List DiffResp) (a : DiffAcc)
    (h : Reads (diffKind system) () (diffKind system).empty n seg () a) :
    a.size = n ∧ a.storage = (seg.flatMap (·.values)).reverse ∧ a.nonces = (seg.flatMap (·.nonces system)).reverse ∧
      a.deployed = (seg.flatMap (·.classes system)).reverse ∧ a.sierra = (seg.flatMap (·.sierra)).reverse ∧
      a.cairo = (seg.flatMap (·.cairo)).reverse := by
  have key : ∀ c acc n seg c' a, Reads (diffKind system) c acc n seg c' a →
      a.size = acc.size + n ∧ a.storage = (seg.flatMap (·.values)).reverse ++ acc.storage ∧
      a.nonces = (seg.flatMap (·.nonces system)).reverse ++ acc.nonces ∧
      a.deployed = (seg.flatMap (·.classes system)).reverse ++ acc.deployed ∧
      a.sierra = (seg.flatMap (·.sierra)).reverse ++ acc.sierra ∧
      a.cairo = (seg.flatMap (·.cairo)).reverse ++ acc.cairo := by
    intro c acc n seg c' a h
    induction h with
    | done => simp
    | step hr _ ih =>
      obtain ⟨h1, h2, h3, h4, h5, h6⟩ := absorbDiff_ok hr
      obtain ⟨g1, g2, g3, g4, g5, g6⟩ := ih
      rename_i r seg _
      have e1 : (r.nonces system).reverse = r.nonces system := by
        cases r with
        | contract a n c v => cases n <;> simp [DiffResp.nonces]; split <;> rfl
        | _ => rfl
      have e2 : (r.classes system).reverse = r.classes system := by
        cases r with
        | contract a n c v => cases c <;> simp [DiffResp.classes]; split <;> rfl
        | _ => rfl
      have e3 : r.sierra.reverse = r.sierra := by
        cases r with
        | declared h c => cases c <;> rfl
        | _ => rfl
      have e4 : r.cairo.reverse = r.cairo := by
        cases r with
        | declared h c => cases c <;> rfl
        | _ => rfl
      refine ⟨by omega, ?_, ?_, ?_, ?_, ?_⟩
      · rw [g2, h1]; simp
      · rw [g3, h2]; simp [e1]
      · rw [g4, h3]; simp [e2]
      · rw [g5, h4]; simp [e3]
      · rw [g6, h5]; simp [e4]
  have := key _ _ _ _ _ _ h
  simpa [diffKind, DiffAcc.size] using this

example : Reads (diffKind fun a => a ≤ 2) () (diffKind fun a => a ≤ 2).empty 4
    [.contract 9 (some 1) none [(5, 6), (7, 8)], .declared 3 none] ()
    ⟨[9], [((9, 7), 8), ((9, 5), 6)], [(9, 1)], [], [], [3]⟩ :=
  .step rfl (.step rfl (.done _ _))

/-- C64, violated for the size of the data. A peer can add to a block with one change as many entries of contracts without changes
as it likes; the count does not notice. -/
theorem C64_size_violated (m : Nat) : ∃ seg a, Reads (diffKind fun a => a ≤ 2) () (diffKind fun a => a ≤ 2).empty 1 seg () a ∧
    m ≤ a.touched.length ∧ a.touched.Nodup ∧ a.size = 1 := by
  have key : ∀ (l : List Nat) (acc : DiffAcc), Reads (diffKind fun a => a ≤ 2) () acc 1
      (l.map (fun x => .contract x none none []) ++ [.declared 7 none]) ()
      { acc with touched := l.reverse ++ acc.touched, cairo := 7 :: acc.cairo } := by
    intro l
    induction l with
    | nil => intro acc; exact .step rfl (.done _ _)
    | cons x l ih =>
      intro acc
      have hx : (diffKind fun a => a ≤ 2).absorb () acc 1 (.contract x none none []) =
          .ok () { acc with touched := x :: acc.touched } 1 := by
        simp [diffKind, absorbDiff]
      have := Reads.step hx (ih { acc with touched := x :: acc.touched })
      simpa using this
  refine ⟨_, _, key ((List.range m).map (· + 3)) _, by simp, ?_, rfl⟩
  simp only [diffKind, List.append_nil]
  rw [List.nodup_iff_pairwise_ne, List.pairwise_reverse, List.pairwise_map]
  exact (List.nodup_range (n := m)).imp fun h => by omega

/-! ## Events -/

/-- The events of a block in order, each with its transaction. -/
def ungroup {T V : Type} (groups : List (T × List V)) : List (T × V) := groups.flatMap fun g => g.2.map (g.1, ·)

theorem getLast_concat {α : Type} (pre : List α) (x : α) : (pre ++ [x]).getLast? = some x := by simp

theorem events_reads {T V : Type} [DecidableEq T] {c : Option T} {acc : List (T × List V)} {n : Nat}
    {seg : List (EventResp T V)} {c' : Option T} {a : List (T × List V)} (h : Reads (eventKind T V) c acc n seg c' a)
    (hinv : acc = [] ∨ c = acc.getLast?.map (·.1)) (hne : ∀ g ∈ acc, g.2 ≠ [])
    (hadj : ∀ i g g', acc[i]? = some g → acc[i + 1]? = some g' → g.1 ≠ g'.1) :
    seg.length = n ∧ (ungroup a).map some = (ungroup acc).map some ++ seg ∧ (∀ g ∈ a, g.2 ≠ []) ∧
      (∀ i g g', a[i]? = some g → a[i + 1]? = some g' → g.1 ≠ g'.1) ∧
      (seg ≠ [] → c' = a.getLast?.map (·.1)) ∧ (seg = [] → c' = c) := by
  induction h with
  | done c a => exact ⟨rfl, by simp, hne, hadj, by simp, by simp⟩
  | @step c c1 c2 acc acc1 acc2 n n1 r seg hr hrest ih =>
    simp only [eventKind] at hr
    cases r with
    | none => simp [absorbEvent] at hr
    | some tv =>
      obtain ⟨t, v⟩ := tv
      simp only [absorbEvent] at hr
      by_cases hc : c = some t
      · rw [if_pos hc] at hr
        cases hl : acc.getLast? with
        | none => simp [hl] at hr
        | some last =>
          simp only [hl, Took.ok.injEq] at hr
          obtain ⟨rfl, rfl, rfl⟩ := hr
          obtain ⟨pre, rfl⟩ := List.getLast?_eq_some_iff.mp hl
          have hlt : last.1 = t := by
            rcases hinv with h | h
            · simp at h
            · rw [hc] at h; simpa using h.symm
          simp only [List.dropLast_concat] at hrest ih ⊢
          obtain ⟨g1, g2, g3, g4, g5, g6⟩ := ih (.inr (by simp [hc, hlt])) (by
            intro g hg
            rcases List.mem_append.mp hg with hg | hg
            · exact hne g (by simp [hg])
            · simp only [List.mem_singleton] at hg; subst hg; simp) (by
            intro i g g' hi hi'
            by_cases hlast : i + 1 = pre.length
            · have e1 : (pre ++ [last])[i]? = some g := by
                rw [List.getElem?_append_left (by omega)] at hi ⊢; exact hi
              have e2 : (pre ++ [last])[i + 1]? = some last := by
                rw [List.getElem?_append_right (by omega)]; simp [hlast]
              rw [List.getElem?_append_right (by omega)] at hi'
              simp only [hlast, Nat.sub_self, List.getElem?_cons_zero, Option.some.injEq] at hi'
              subst hi'
              exact hadj i g last e1 e2
            · by_cases hlt : i + 1 < pre.length
              · rw [List.getElem?_append_left (by omega)] at hi hi'
                exact hadj i g g' (by rw [List.getElem?_append_left (by omega)]; exact hi)
                  (by rw [List.getElem?_append_left (by omega)]; exact hi')
              · rw [List.getElem?_eq_none (by simp; omega)] at hi'
                simp at hi')
          refine ⟨by simp only [List.length_cons]; omega, ?_, g3, g4, ?_, by simp⟩
          · rw [g2]
            simp [ungroup, hlt]
          · intro _
            by_cases hs : seg = []
            · subst hs
              cases hrest
              simp [hc, hlt]
            · exact g5 hs
      · rw [if_neg hc] at hr
        simp only [Took.ok.injEq] at hr
        obtain ⟨rfl, rfl, rfl⟩ := hr
        obtain ⟨g1, g2, g3, g4, g5, g6⟩ := ih (.inr (by simp)) (by
            intro g hg
            rcases List.mem_append.mp hg with hg | hg
            · exact hne g hg
            · simp only [List.mem_singleton] at hg; subst hg; simp) (by
            intro i g g' hi hi'
            by_cases hlast : i + 1 = acc.length
            · rw [List.getElem?_append_left (by omega)] at hi
              rw [List.getElem?_append_right (by omega)] at hi'
              simp only [hlast, Nat.sub_self, List.getElem?_cons_zero, Option.some.injEq] at hi'
              subst hi'
              have hgl : acc.getLast? = some g := by
                rw [List.getLast?_eq_getElem?, ← hlast]
                exact hi
              rcases hinv with h | h
              · subst h; simp at hi
              · intro he
                apply hc
                rw [h, hgl]
                simpa using he
            · by_cases hlt : i + 1 < acc.length
              · rw [List.getElem?_append_left (by omega)] at hi hi'
                exact hadj i g g' hi hi'
              · rw [List.getElem?_eq_none (by simp; omega)] at hi'
                simp at hi')
        refine ⟨by simp only [List.length_cons]; omega, ?_, g3, g4, ?_, by simp⟩
        · rw [g2]
          simp [ungroup]
        · intro _
          by_cases hs : seg = []
          · subst hs
            cases hrest
            simp
          · exact g5 hs

/-- C64. The events of a block are those of the responses in order, as many as expected, in groups of neighbours of the same
transaction. -/
theorem C64_events {T V : Type} [DecidableEq T] (c c' : Option T) (n : Nat) (seg : List (EventResp T V))
    (a : List (T × List V)) (h : Reads (eventKind T V) c [] n seg c' a) :
    seg.length = n ∧ seg = (ungroup a).map some ∧ (∀ g ∈ a, g.2 ≠ []) ∧
      ∀ i g g', a[i]? = some g → a[i + 1]? = some g' → g.1 ≠ g'.1 := by
  obtain ⟨h1, h2, h3, h4, -⟩ := events_reads h (.inl rfl) (by simp) (by simp)
  exact ⟨h1, by simpa [ungroup] using h2.symm, h3, h4⟩

example : Reads (eventKind Nat String) (some 1) [] 3 [some (4, "a"), some (4, "b"), some (5, "c")] (some 5)
    [(4, ["a", "b"]), (5, ["c"])] :=
  .step rfl (.step rfl (.step rfl (.done _ _)))

/-- The event stream is like the others if there is a first count. -/
theorem eventFeed_eq (k : Kind R C A) (start stop : Nat) (n : Nat) (counts : List (Except E Nat))
    (replies : List (P × Option (List R))) :
    eventFeed k start stop (.ok n :: counts) replies = feed k start stop (.ok n :: counts) replies := rfl

/-- C64, violated for events. A peer sends, as the first event of a block, one of the transaction of the last event before. The
task panics: the stream ends early and without an error, whoever else has the events. -/
theorem C64_events_violated (more : List (Nat × Option (List (EventResp Nat String)))) :
    eventFeed (E := Unit) (eventKind Nat String) 0 1 [.ok 1, .ok 1] ((1, some [some (5, "a"), some (5, "b")]) :: more) =
      ([.ok (1, [(5, ["a"])], 0)], .panicked) := by
  have h : attempt (E := Unit) (eventKind Nat String) 1 (.waiting 0 (Progress.new 1) [.ok 1])
      (1, some [some (5, "a"), some (5, "b")]) = ([.ok (1, [(5, ["a"])], 0)], .panicked) := rfl
  simp only [eventFeed, feedLoop, h, feedLoop_over _ 1 more (.panicked : FeedState Unit) (by intros; simp), List.append_nil]

/-- C64, violated for events. If the first count cannot be read the stream ends without an error. -/
theorem C64_events_silent_violated (k : Kind R C A) (start stop : Nat) (e : E) (counts : List (Except E Nat))
    (replies : List (P × Option (List R))) : eventFeed k start stop (.error e :: counts) replies = ([], .ended) := rfl

theorem events_fill_panic {T V : Type} [DecidableEq T] (rs : List (EventResp T V)) :
    ∀ (c : Option T) (acc : List (T × List V)) (n : Nat), fill (eventKind T V) c acc n rs = .panic →
      acc = [] ∧ ∃ t v rest, rs = some (t, v) :: rest ∧ c = some t := by
  induction rs with
  | nil => intro c acc n h; cases n <;> simp [fill] at h
  | cons r rs ih =>
    intro c acc n h
    cases n with
    | zero => simp [fill] at h
    | succ n =>
      simp only [fill, eventKind] at h
      cases r with
      | none => simp [absorbEvent] at h
      | some tv =>
        obtain ⟨t, v⟩ := tv
        simp only [absorbEvent] at h
        by_cases hc : c = some t
        · simp only [if_pos hc] at h
          cases hl : acc.getLast? with
          | none => exact ⟨by simpa using hl, t, v, rs, rfl, hc⟩
          | some last =>
            simp only [hl] at h
            obtain ⟨h0, -⟩ := ih _ _ _ h
            simp at h0
        · simp only [if_neg hc] at h
          obtain ⟨h0, -⟩ := ih _ _ _ h
          simp at h0

theorem serve_panic {k : Kind R C A} {stop : Nat} {peer : P} (counts : List (Except E Nat)) :
    ∀ (start : Nat) (p : Progress) (c : C) (rs : List R),
      (serve k stop peer counts start p c rs).2 = .panicked → p.count = p.backup →
      ∃ ns as c' rest n, Splits k c ns rs as c' rest ∧ fill k c' k.empty n rest = .panic ∧
        (ns ++ [n]).map Except.ok <+: .ok p.count :: counts := by
  induction counts with
  | nil =>
    intro start p c rs h hp
    unfold serve at h
    split at h
    · cases hf : fill k c k.empty p.count rs with
      | nextPeer left => simp [hf] at h
      | panic => exact ⟨[], [], c, rs, p.count, .nil _ _, hf, by simp⟩
      | full c a rs => simp only [hf] at h; split at h <;> simp at h
    · simp at h
  | cons x counts ih =>
    intro start p c rs h hp
    unfold serve at h
    split at h
    · cases hf : fill k c k.empty p.count rs with
      | nextPeer left => simp [hf] at h
      | panic => exact ⟨[], [], c, rs, p.count, .nil _ _, hf, by simp⟩
      | full c1 a rs1 =>
        simp only [hf] at h
        split at h
        · simp at h
        · cases x with
          | error e => simp at h
          | ok m =>
            simp only at h
            obtain ⟨ns, as, c', rest, n, h1, h2, h3⟩ := ih (start + 1) (Progress.new m) c1 rs1 h rfl
            obtain ⟨seg, rfl, hr⟩ := fill_full hf
            refine ⟨p.count :: ns, a :: as, c', rest, n, .cons hr h1, h2, ?_⟩
            simpa [Progress.new] using h3
    · simp at h

theorem events_carry {T V : Type} [DecidableEq T] {c c' : Option T} {ns : List Nat} {rs rest : List (EventResp T V)}
    {as : List (List (T × List V))} (h : Splits (eventKind T V) c ns rs as c' rest) :
    ∃ read, rs = read ++ rest ∧ (read = [] ∧ c' = c ∨ ∃ pre t v, read = pre ++ [some (t, v)] ∧ c' = some t) := by
  induction h with
  | nil c rs => exact ⟨[], rfl, .inl ⟨rfl, rfl⟩⟩
  | @cons c c1 c2 n ns seg rs rest a as hr _ ih =>
    obtain ⟨read, rfl, hc⟩ := ih
    refine ⟨seg ++ read, by simp, ?_⟩
    rcases hc with ⟨rfl, rfl⟩ | ⟨pre, t, v, rfl, hc⟩
    · by_cases hs : seg = []
      · subst hs
        cases hr
        exact .inl ⟨rfl, rfl⟩
      · obtain ⟨-, h2, h3, -, h5, -⟩ := events_reads hr (.inl rfl) (by simp [eventKind]) (by simp [eventKind])
        have h5 := h5 hs
        cases hl : a.getLast? with
        | none =>
          exfalso
          apply hs
          have : a = [] := by simpa using hl
          subst this
          simpa [ungroup, eventKind] using h2.symm
        | some g =>
          obtain ⟨as', rfl⟩ := List.getLast?_eq_some_iff.mp hl
          cases hv : g.2.getLast? with
          | none => exact absurd (by simpa using hv) (h3 g (by simp))
          | some v =>
            obtain ⟨vs, hvs⟩ := List.getLast?_eq_some_iff.mp hv
            refine .inr ⟨(ungroup as').map some ++ vs.map (fun v => some (g.1, v)), g.1, v, ?_, ?_⟩
            · have h2' : seg = (ungroup (as' ++ [g])).map some := by simpa [ungroup, eventKind] using h2.symm
              rw [h2']
              simp [ungroup, hvs]
            · rw [h5]; simp
    · exact .inr ⟨seg ++ pre, t, v, by simp, hc⟩

/-- C64, partial for events. The task panics only if a peer sends two events of the same transaction one after the other of which
the second is the first of a block. Missing: such peers (`C64_events_violated`). -/
theorem C64_events_partial {T V : Type} [DecidableEq T] (start stop : Nat) (counts : List (Except E Nat))
    (replies : List (P × Option (List (EventResp T V))))
    (h : (eventFeed (eventKind T V) start stop counts replies).2 = .panicked) :
    ∃ peer rs, (peer, some rs) ∈ replies ∧ ∃ pre t v v' post ns as,
      rs = pre ++ some (t, v) :: some (t, v') :: post ∧
      Splits (eventKind T V) none ns rs as (some t) (some (t, v') :: post) ∧ ns.map Except.ok <:+: counts := by
  have key : ∀ (replies : List (P × Option (List (EventResp T V)))) (start : Nat) (p : Progress)
      (cs : List (Except E Nat)), (.ok p.backup :: cs) <:+ counts →
      (feedLoop (eventKind T V) stop (.waiting start p cs) replies).2 = .panicked →
      ∃ peer rs, (peer, some rs) ∈ replies ∧ ∃ pre t v v' post ns as,
        rs = pre ++ some (t, v) :: some (t, v') :: post ∧
        Splits (eventKind T V) none ns rs as (some t) (some (t, v') :: post) ∧ ns.map Except.ok <:+: counts := by
    intro replies
    induction replies with
    | nil => intro start p cs _ h; simp [feedLoop] at h
    | cons r more ih =>
      intro start p cs hcs h
      obtain ⟨peer, rs⟩ := r
      cases rs with
      | none =>
        obtain ⟨peer', rs', hm, hx⟩ := ih start p cs hcs (by simpa [feedLoop, attempt] using h)
        exact ⟨peer', rs', by simp [hm], hx⟩
      | some rs =>
        simp only [feedLoop, attempt] at h
        cases hs : (serve (eventKind T V) stop peer cs start p.rollback (eventKind T V).carry rs).2 with
        | ended => rw [hs, feedLoop_over _ _ _ _ (by intros; simp)] at h; simp at h
        | panicked =>
          obtain ⟨ns, as, c', rest, n, h1, h2, h3⟩ := serve_panic cs start p.rollback _ rs hs rfl
          obtain ⟨-, t, v', post, rfl, rfl⟩ := events_fill_panic _ _ _ _ h2
          obtain ⟨read, hread, hc⟩ := events_carry h1
          refine ⟨peer, rs, by simp, ?_⟩
          rcases hc with ⟨-, hc⟩ | ⟨pre, t', v, rfl, hc⟩
          · simp [eventKind] at hc
          · simp only [Option.some.injEq] at hc
            subst hc
            refine ⟨pre, t, v, v', post, ns, as, by rw [hread]; simp, h1, ?_⟩
            obtain ⟨x, hx⟩ := h3
            obtain ⟨y, hy⟩ := hcs
            refine ⟨y, [.ok n] ++ x, ?_⟩
            rw [← hy, show (Except.ok p.backup : Except E Nat) = .ok p.rollback.count from rfl, ← hx]
            simp
        | waiting start' p' cs' =>
          rw [hs] at h
          have hsuf : (.ok p'.backup :: cs' : List (Except E Nat)) <:+ counts := by
            by_cases hle : start ≤ stop
            · obtain ⟨ns, as, c, rest, tail, -, -, -, h4⟩ :=
                serve_spec (eventKind T V) stop peer cs start p.rollback (eventKind T V).carry rs hle rfl
              rw [hs] at h4
              cases h4 with
              | waiting _ _ m _ hm hd =>
                rw [hm, ← hd]
                exact (List.drop_suffix _ _).trans hcs
            · unfold serve at hs
              simp [hle] at hs
          obtain ⟨peer', rs', hm, hx⟩ := ih start' p' cs' hsuf h
          exact ⟨peer', rs', by simp [hm], hx⟩
  unfold eventFeed at h
  cases counts with
  | nil => simp at h
  | cons x counts =>
    cases x with
    | error e => simp at h
    | ok n => exact key replies start (Progress.new n) counts (List.suffix_refl _) h

/-! ## Counts -/

/-- C64. If the database has the count of every block from `start` to `stop`, and answers a query with the counts of some of the
blocks asked for from the first on, at least one, the stream of counts is exactly these counts in order. -/
theorem C64_counts (get : Nat → Nat → Except E (List Nat)) (count : Nat → Nat) (batch start stop : Nat) (empty : E)
    (hget : ∀ s n, start ≤ s → 0 < n → s + n ≤ stop + 1 →
      ∃ m, 0 < m ∧ m ≤ n ∧ get s n = .ok ((List.range m).map fun i => count (s + i)))
    (hb : 0 < batch) :
    countsStream get batch start stop empty = (List.range (stop + 1 - start)).map fun i => .ok (count (start + i)) := by
  have key : ∀ fuel s, start ≤ s → stop + 1 - s ≤ fuel →
      countsLoop get batch stop empty fuel s = (List.range (stop + 1 - s)).map fun i => .ok (count (s + i)) := by
    intro fuel
    induction fuel with
    | zero => intro s _ h; simp [countsLoop, show stop + 1 - s = 0 by omega]
    | succ fuel ih =>
      intro s hs hf
      simp only [countsLoop]
      by_cases hle : s ≤ stop
      · rw [if_pos hle]
        obtain ⟨m, h1, h2, h3⟩ := hget s (min batch (stop - s + 1)) hs (by omega) (by omega)
        rw [h3]
        cases m with
        | zero => omega
        | succ m =>
          have hr : (List.range (m + 1)).map (fun i => count (s + i)) =
              count s :: (List.range m).map (fun i => count (s + (i + 1))) := by
            rw [List.range_succ_eq_map]
            simp [Function.comp_def]
          rw [hr]
          simp only
          rw [← hr, ih _ (by simp; omega) (by simp; omega)]
          have hlen : ((List.range (m + 1)).map fun i => count (s + i)).length = m + 1 := by simp
          rw [hlen]
          have e : List.range (stop + 1 - s) =
              List.range (m + 1) ++ (List.range (stop + 1 - (s + (m + 1)))).map (m + 1 + ·) := by
            rw [← List.range_add]
            congr 1
            omega
          rw [e, List.map_append, List.map_map, List.map_map]
          congr 1
          apply List.map_congr_left
          intro i _
          simp [Nat.add_assoc]
      · rw [if_neg hle, show stop + 1 - s = 0 by omega]
        rfl
  exact key _ start (Nat.le_refl _) (Nat.le_refl _)

example : countsStream (E := Unit) (fun s n => .ok ((List.range (min n 2)).map fun i => s + i)) 100 3 5 () =
    [.ok 3, .ok 4, .ok 5] := rfl

end Verif.Sync
