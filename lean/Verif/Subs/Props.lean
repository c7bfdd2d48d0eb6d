import Verif.Subs.Lemmas
import Verif.Subs.Spec

/-!
# C82: what a subscription sends

`C82_stream`, `C82_caught_up`, `C82_once` are for chains that only grow; `C82_follows` is for a subscription that keeps
up with every announcement, reorgs included.  The `_violated` theorems show what goes wrong otherwise.
-/

namespace Verif.Subs

variable {items : Nat → List Nat} {B : Nat}

theorem msgs_eq_wanted (chain : List Nat) : ∀ (d i j : Nat), j - i = d → j ≤ chain.length →
    msgs items chain i j = wanted items (chain.take j) i
  | 0, i, j, hd, hj => by
    have h₁ : msgs items chain i j = [] := by simp [msgs, hd]
    have h₂ : (chain.take j).zipIdx.drop i = [] := by
      apply List.drop_of_length_le
      simp
      omega
    rw [h₁]
    simp [wanted, h₂]
  | d + 1, i, j, hd, hj => by
    have hlt : i < j := by omega
    have hl : i < (chain.take j).zipIdx.length := by simp; omega
    have hic : i < chain.length := by omega
    rw [msgs_step chain hlt, msgs_eq_wanted chain d (i + 1) j (by omega) hj]
    unfold wanted
    rw [List.drop_eq_getElem_cons hl, List.flatMap_cons, List.getElem?_eq_getElem hic]
    simp [blockMsgs]

theorem msgs_all (chain : List Nat) (i : Nat) : msgs items chain i chain.length = wanted items chain i := by
  rw [msgs_eq_wanted chain _ i chain.length rfl (Nat.le_refl _), List.take_of_length_le (Nat.le_refl _)]

theorem msgs_prefix (chain : List Nat) {i j k : Nat} (h₁ : i ≤ j) (h₂ : j ≤ k) :
    msgs items chain i j <+: msgs items chain i k := by
  rw [← msgs_append chain h₁ h₂]
  exact List.prefix_append _ _

theorem prefix_of_eq {a b c d : List Msg} (h : a ++ b ++ c = d) : a <+: d := by
  rw [← h, List.append_assoc]
  exact List.prefix_append _ _

theorem inv_out {d start : Nat} {s : Sys} (hI : Inv items d start s) :
    s.out <+: wanted items s.chain start ∨
      (d = 1 ∧ ∃ n, start ≤ n ∧ n < s.chain.length ∧ s.out <+: wanted items (s.chain.take (n + 1)) start ++ wanted items s.chain n) := by
  have hg := hI.good
  have ha := announced_le s
  unfold Good at hg
  cases hph : s.phase with
  | catching cur =>
    simp only [hph] at hg
    left
    rw [hg.2.2.2.1, ← msgs_all]
    exact msgs_prefix _ hg.1 hg.2.1
  | opening cur =>
    simp only [hph] at hg
    left
    rw [hg.2.2.2.1, ← msgs_all]
    exact msgs_prefix _ (Nat.le_of_lt hg.1) hg.2.1
  | half cur =>
    simp only [hph] at hg
    left
    rw [hg.2.1, ← msgs_all]
    exact msgs_prefix _ (Nat.le_of_lt hg.1) hg.2.2.1
  | waiting cur =>
    simp only [hph] at hg
    left
    rw [hg.2.1, ← msgs_all]
    exact msgs_prefix _ (Nat.le_of_lt hg.1) hg.2.2.1
  | live =>
    simp only [hph] at hg
    have hb := hI.begun
    have hs : start ≤ announced s := by
      unfold announced
      split <;> omega
    rcases hg with h | ⟨hd, n, h1, h2, h3⟩
    · left
      rw [← msgs_all]
      exact (prefix_of_eq h).trans (msgs_prefix _ hs ha)
    · right
      refine ⟨hd, n, h1, by omega, ?_⟩
      have e := msgs_eq_wanted (items := items) s.chain _ start (n + 1) rfl (by omega)
      rw [← e, ← msgs_all]
      refine (prefix_of_eq h3).trans ?_
      rw [← msgs_append s.chain (Nat.le_of_lt h2) ha, ← List.append_assoc]
      exact List.prefix_append _ _

/-- **No gaps, in order, and at most one block repeated.**  While the chain only grows, whatever the sync task and the
subscription do and in whatever order, what the client was sent is the beginning of what it is owed; or that with the
messages of a single block `n` sent a second time. -/
theorem C82_stream (chain : List Nat) (u : Bool) (start : Nat) (acts : List Act) (s : Sys) (hB : 0 < B)
    (hs : start < chain.length) (hp : ∀ a ∈ acts, a.plain = true) (h : run items B (init chain u start) acts = some s) :
    s.out <+: wanted items s.chain start ∨
      ∃ n, start ≤ n ∧ n < s.chain.length ∧ s.out <+: wanted items (s.chain.take (n + 1)) start ++ wanted items s.chain n :=
  (inv_out (inv_run hB acts (inv_init chain u start 1 (Nat.le_refl _) hs) hp (Or.inl rfl) h)).imp id And.right

/-- **Everything arrives.**  Once the subscription forwards and all queues are empty, the client has been sent
everything it is owed. -/
theorem C82_caught_up (chain : List Nat) (u : Bool) (start : Nat) (acts : List Act) (s : Sys) (hB : 0 < B)
    (hs : start < chain.length) (hp : ∀ a ∈ acts, a.plain = true) (h : run items B (init chain u start) acts = some s)
    (hl : s.phase = .live) (hh : s.heads = []) (hm : s.mid = []) (hn : s.pending = none) :
    s.out = wanted items s.chain start ∨
      ∃ n, start ≤ n ∧ n < s.chain.length ∧ s.out = wanted items (s.chain.take (n + 1)) start ++ wanted items s.chain n := by
  have hI := inv_run hB acts (inv_init (items := items) chain u start 1 (Nat.le_refl _) hs) hp (Or.inl rfl) h
  have hg := hI.good
  have ha : announced s = s.chain.length := by simp [announced, hn]
  unfold Good at hg
  simp only [hl] at hg
  have e : s.out ++ s.mid ++ flat items s.heads = s.out := by simp [hh, hm, flat]
  rw [e, ha] at hg
  rcases hg with k | ⟨_, n, h1, h2, h3⟩
  · left
    rw [k, msgs_all]
  · right
    refine ⟨n, h1, h2, ?_⟩
    rw [h3, msgs_all, msgs_eq_wanted s.chain _ start (n + 1) rfl (by omega)]

/-- **Each message once** when no batch of the catch-up reads a block before it is announced. -/
theorem C82_once (chain : List Nat) (u : Bool) (start : Nat) (acts : List Act) (s : Sys) (hB : 0 < B)
    (hs : start < chain.length) (hp : ∀ a ∈ acts, a.plain = true) (hc : Calm items B (init chain u start) acts)
    (h : run items B (init chain u start) acts = some s) : s.out <+: wanted items s.chain start := by
  rcases inv_out (inv_run hB acts (inv_init chain u start 0 (Nat.zero_le _) hs) hp (Or.inr hc) h) with k | ⟨e, _⟩
  · exact k
  · cases e

/-- A subscription from block 1 of a chain of three that sees two more blocks, one of them in the gap. -/
example : ∃ s, run (fun id => [id]) 2 (init [10, 11, 12] true 1)
      [.announce, .batch, .commit 13, .announce, .batch, .openHeads, .openReorgs, .commit 14, .announce, .takeHead, .first] = some s ∧
    s.phase = .live ∧ s.out = wanted (fun id => [id]) [10, 11, 12, 13, 14] 1 ∧ s.out.length = 4 ∧ s.heads = [] ∧ s.mid = [] ∧ s.pending = none :=
  ⟨_, rfl, rfl, by decide, by decide, rfl, rfl, rfl⟩

example : Calm (fun id => [id]) 2 (init [10, 11, 12] true 1) [.announce, .batch] := by
  refine ⟨by decide, fun t h => ⟨fun _ => ?_, fun u _ => trivial⟩⟩
  cases h
  rfl

/-- **A block can be sent twice.**  The head is committed, the catch-up reads and sends it, the subscription opens, and
only then is the block announced. -/
theorem C82_repeat_violated (x : Nat) :
    ∃ acts s, (∀ a ∈ acts, Act.plain a = true) ∧ run (fun _ => [0]) 64 (init [x] true 0) acts = some s ∧
      s.out = [.item 0 x 0, .item 0 x 0] ∧ s.chain = [x] :=
  ⟨[.batch, .openHeads, .openReorgs, .announce, .takeHead, .first], _, by decide, rfl, rfl, rfl⟩

/-! ### Held back -/

/-- The subscription waits for its first message, and nothing is on the way. -/
def Idle (items : Nat → List Nat) (s : Sys) : Prop :=
  (∃ cur, s.phase = .waiting cur) ∧ s.mid = [] ∧ s.reorgs = [] ∧
    flat items s.heads = [] ∧ ∀ note, s.pending = some note → ∃ n id, note = .block n id ∧ items id = []

/-- A schedule that commits no block with a message for this client, and no reorg. -/
def Silent (items : Nat → List Nat) : Act → Prop
  | .commit id => items id = []
  | .reorg _ | .failCommit _ => False
  | _ => True

theorem idle_step {s t : Sys} {a : Act} (hi : Idle items s) (ha : Silent items a) (h : step items B s a = some t) :
    Idle items t ∧ t.out = s.out := by
  obtain ⟨⟨cur, hph⟩, hm, hr, hf, hp⟩ := hi
  cases a with
  | reorg k => exact ha.elim
  | failCommit id => exact ha.elim
  | commit id =>
    simp only [step] at h
    split at h
    · cases h
      exact ⟨⟨⟨cur, hph⟩, hm, hr, hf, fun note e => ⟨_, _, (Option.some.inj e).symm, ha⟩⟩, rfl⟩
    · cases h
  | announce =>
    simp only [step] at h
    cases hpe : s.pending with
    | none =>
      rw [hpe] at h
      cases h
    | some note =>
      rw [hpe] at h
      obtain ⟨n, id, e, hid⟩ := hp note hpe
      subst e
      cases h
      have hb : blockMsgs items n id = [] := by simp [blockMsgs, hid]
      refine ⟨⟨⟨cur, hph⟩, hm, hr, ?_, fun _ e => (by cases e)⟩, rfl⟩
      simp only [announce, hph, Phase.hearsHeads, if_true]
      rw [flat_snoc, hf, hb]
      rfl
  | batch => simp only [step, hph] at h; cases h
  | openHeads => simp only [step, hph] at h; cases h
  | openReorgs => simp only [step, hph] at h; cases h
  | takeHead =>
    simp only [step, hph, Phase.hearsReorgs, if_true] at h
    cases hhd : s.heads with
    | nil =>
      simp only [hhd] at h
      cases h
    | cons x xs =>
      simp only [hhd] at h
      cases h
      rw [hhd, flat_cons, List.append_eq_nil_iff] at hf
      refine ⟨⟨⟨cur, rfl⟩, ?_, hr, hf.2, hp⟩, rfl⟩
      change s.mid ++ blockMsgs items x.1 x.2 = []
      rw [hm, hf.1]
      rfl
  | takeReorg =>
    simp only [step, hph, Phase.hearsReorgs, if_true, hr] at h
    cases h
  | first =>
    simp only [step, hph, hm] at h
    cases h
  | forward =>
    simp only [step, hph] at h
    cases h

theorem idle_run : ∀ (acts : List Act) {s t : Sys}, Idle items s → (∀ a ∈ acts, Silent items a) →
    run items B s acts = some t → t.out = s.out
  | [], s, t, _, _, h => by
    cases h
    rfl
  | a :: as, s, t, hi, ha, h => by
    unfold run at h
    cases hs : step items B s a with
    | none =>
      rw [hs] at h
      cases h
    | some u =>
      rw [hs] at h
      have k := idle_step hi (ha a List.mem_cons_self) hs
      exact (idle_run as k.1 (fun b hb => ha b (List.mem_cons_of_mem _ hb)) h).trans k.2

/-- **A message can be held back for ever.**  A block with a message is committed and announced after the last batch and
before the subscription opens.  It is sent only when a later message arrives: however long the program runs, and however
many further blocks without a message for this client are committed and announced, the client is not sent it. -/
theorem C82_held_back_violated (x y m : Nat) (hx : items x = []) (hy : items y = [m]) :
    ∃ acts s, (∀ a ∈ acts, Act.plain a = true) ∧ run items 64 (init [x] false 0) acts = some s ∧ s.phase = .waiting 1 ∧
      s.chain = [x, y] ∧ s.pending = none ∧ wanted items s.chain 0 = [.item 1 y m] ∧
      ∀ more t, (∀ a ∈ more, Silent items a) → run items 64 s more = some t → t.out = [] := by
  have e : msgs items [x] 0 1 = [] := by
    rw [msgs_last [x] (n := 0) (id := x) rfl]
    simp [blockMsgs, hx]
  let s : Sys := ⟨[x, y], none, .waiting 1, [], [], [], [] ++ msgs items [x] 0 1⟩
  have hr : run items 64 (init [x] false 0) [.batch, .commit y, .announce, .openHeads, .openReorgs] = some s := rfl
  refine ⟨_, s, by simp [Act.plain], hr, rfl, rfl, rfl, ?_, ?_⟩
  · simp [wanted, s, hx, hy]
  · intro more t hmore hrun
    have hi : Idle items s := ⟨⟨1, rfl⟩, rfl, rfl, rfl, fun _ h => by cases h⟩
    rw [idle_run more hi hmore hrun]
    change [] ++ msgs items [x] 0 1 = []
    rw [e]
    rfl

/-! ### Reorgs -/

/-- **A reorg between the catch-up and the opening is never reported**, and the blocks that replaced the ones sent are
not sent: the client was sent blocks 0, 1, 2 of one chain and then block 3 of another. -/
theorem C82_reorg_missed_violated (a b c b' c' d' : Nat) (hb : b ≠ b') (hc : c ≠ c') :
    ∃ acts s, run (fun _ => [0]) 64 (init [a, b, c] false 0) acts = some s ∧ s.phase = .live ∧ s.heads = [] ∧ s.reorgs = [] ∧
      s.mid = [] ∧ s.pending = none ∧ s.chain = [a, b', c', d'] ∧
      s.out = [.item 0 a 0, .item 1 b 0, .item 2 c 0, .item 3 d' 0] ∧ (∀ k, Msg.reorg k ∉ s.out) ∧
      Msg.item 1 b' 0 ∉ s.out ∧ Msg.item 2 c' 0 ∉ s.out := by
  refine ⟨[.batch, .reorg 1, .announce, .commit b', .announce, .commit c', .announce, .openHeads, .openReorgs, .commit d',
    .announce, .takeHead, .first], _, rfl, rfl, rfl, rfl, rfl, rfl, rfl, rfl, ?_, ?_, ?_⟩
  · intro k
    change Msg.reorg k ∉ [Msg.item 0 a 0, .item 1 b 0, .item 2 c 0, .item 3 d' 0]
    simp
  · change Msg.item 1 b' 0 ∉ [Msg.item 0 a 0, .item 1 b 0, .item 2 c 0, .item 3 d' 0]
    simp
    exact hb.symm
  · change Msg.item 2 c' 0 ∉ [Msg.item 0 a 0, .item 1 b 0, .item 2 c 0, .item 3 d' 0]
    simp
    exact hc.symm

/-- **The notice can come after the block that replaces.**  Both are announced in order, on two channels that are read
in any order; a client that drops what the notice takes back then drops the new block, which is on the chain. -/
theorem C82_reorg_order_violated (a b c b' : Nat) :
    ∃ acts s, run (fun _ => [0]) 64 (init [a] false 0) acts = some s ∧ s.phase = .live ∧ s.heads = [] ∧ s.reorgs = [] ∧
      s.mid = [] ∧ s.pending = none ∧ s.chain = [a, b'] ∧
      s.out = [.item 0 a 0, .item 1 b 0, .item 2 c 0, .item 1 b' 0, .reorg 1] ∧ view s.out = [(a, 0)] :=
  ⟨[.batch, .openHeads, .openReorgs, .commit b, .announce, .takeHead, .first, .commit c, .announce, .takeHead, .forward,
    .reorg 1, .announce, .commit b', .announce, .takeHead, .takeReorg, .forward, .forward],
    _, rfl, rfl, rfl, rfl, rfl, rfl, rfl, rfl, rfl⟩

/-- **A block that was not stored can be announced**: the notification is sent whether or not the commit succeeded. -/
theorem C82_failed_commit_violated (a b : Nat) :
    ∃ acts s, run (fun _ => [0]) 64 (init [a] false 0) acts = some s ∧ s.chain = [a] ∧ s.out = [.item 0 a 0, .item 1 b 0] :=
  ⟨[.batch, .openHeads, .openReorgs, .failCommit b, .announce, .takeHead, .first], _, rfl, rfl, rfl⟩

/-! ### A subscription that keeps up -/

/-- A write of the sync task. -/
inductive Write where
  | block (id : Nat)
  | reorg (k : Nat)

/-- The write is committed, announced, and the subscription passes it on before the next write. -/
def Write.round : Write → List Act
  | .block id => [.commit id, .announce, .takeHead, .forward]
  | .reorg k => [.reorg k, .announce, .takeReorg, .forward]

/-- Forwarding, with nothing on the way. -/
def Settled (s : Sys) : Prop := s.phase = .live ∧ s.heads = [] ∧ s.reorgs = [] ∧ s.mid = [] ∧ s.pending = none

theorem view_snoc (ms : List Msg) (m : Msg) : view (ms ++ [m]) = (match m with
    | .item n id _ => view ms ++ [(id, n)]
    | .reorg k => (view ms).filter (·.2 < k)) := by
  have e : ∀ l, view l = l.foldl (fun v m => match m with
    | .item n id _ => v ++ [(id, n)]
    | .reorg k => v.filter (·.2 < k)) [] := by
    intro l
    cases l <;> rfl
  rw [e, List.foldl_append, ← e]
  cases m <;> rfl

theorem run_append (as bs : List Act) : ∀ s : Sys, run items B s (as ++ bs) = (run items B s as).bind fun t => run items B t bs := by
  induction as with
  | nil => intro s; rfl
  | cons a as ih =>
    intro s
    change (step items B s a).bind _ = ((step items B s a).bind _).bind _
    cases step items B s a with
    | none => rfl
    | some t => exact ih t

theorem zipIdx_filter' (k : Nat) : ∀ (l : List Nat) (lo j : Nat),
    ((l.zipIdx j).drop lo).filter (fun p : Nat × Nat => p.2 < k) = ((l.take (k - j)).zipIdx j).drop lo
  | [], lo, j => by simp
  | x :: xs, lo, j => by
    by_cases hk : j < k
    · have e : k - j = (k - (j + 1)) + 1 := by omega
      rw [e, List.take_succ_cons, List.zipIdx_cons, List.zipIdx_cons]
      cases lo with
      | zero =>
        have ih := zipIdx_filter' k xs 0 (j + 1)
        simp only [List.drop_zero] at ih ⊢
        rw [List.filter_cons_of_pos (by simpa using hk), ih]
      | succ lo => exact zipIdx_filter' k xs lo (j + 1)
    · have e : k - j = 0 := by omega
      rw [e, List.take_zero, List.zipIdx_nil, List.drop_nil, List.filter_eq_nil_iff]
      intro p hp
      have hm := List.mem_of_mem_drop hp
      have := List.le_snd_of_mem_zipIdx hm
      simp
      omega

theorem zipIdx_filter (l : List Nat) (lo k : Nat) :
    (l.zipIdx.drop lo).filter (fun p : Nat × Nat => p.2 < k) = (l.take k).zipIdx.drop lo := zipIdx_filter' k l lo 0

theorem follow_round {s t : Sys} (w : Write) {lo : Nat} (hs : Settled s) (hv : view s.out = s.chain.zipIdx.drop lo)
    (hlo : lo ≤ s.chain.length) (h : run (fun _ => [0]) B s w.round = some t) :
    Settled t ∧ ∃ lo', lo' ≤ lo ∧ lo' ≤ t.chain.length ∧ view t.out = t.chain.zipIdx.drop lo' := by
  obtain ⟨h1, h2, h3, h4, h5⟩ := hs
  obtain ⟨chain, pending, phase, heads, reorgs, mid, out⟩ := s
  simp only at h1 h2 h3 h4 h5 hv hlo
  subst h1 h2 h3 h4 h5
  cases w with
  | block id =>
    cases h
    refine ⟨⟨rfl, rfl, rfl, rfl, rfl⟩, lo, Nat.le_refl _, ?_, ?_⟩
    · simp [announce]
      omega
    · change view (out ++ [.item chain.length id 0]) = (chain ++ [id]).zipIdx.drop lo
      rw [view_snoc]
      change view out ++ [(id, chain.length)] = _
      rw [hv, List.zipIdx_append, List.drop_append_of_le_length (by simpa using hlo)]
      simp
  | reorg k =>
    simp only [Write.round, run] at h
    by_cases hk : k < chain.length
    · simp only [step, hk, and_true, if_true, Option.bind] at h
      cases h
      refine ⟨⟨rfl, rfl, rfl, rfl, rfl⟩, min lo k, Nat.min_le_left _ _, ?_, ?_⟩
      · simp [announce]
        omega
      · change view (out ++ [.reorg k]) = (chain.take k).zipIdx.drop (min lo k)
        rw [view_snoc]
        change (view out).filter _ = _
        rw [hv, zipIdx_filter]
        by_cases hl : lo ≤ k
        · rw [Nat.min_eq_left hl]
        · rw [Nat.min_eq_right (by omega), List.drop_of_length_le (by simp; omega), List.drop_of_length_le (by simp; omega)]
    · simp [step, hk] at h

/-- **A client of a subscription that keeps up has the chain**, through any sequence of new blocks and reorgs: the
blocks it was sent, less those taken back, are the blocks of the chain from some point at or below its first. -/
theorem C82_follows (ws : List Write) : ∀ {s t : Sys} {lo : Nat}, Settled s → view s.out = s.chain.zipIdx.drop lo →
    lo ≤ s.chain.length → run (fun _ => [0]) B s (ws.flatMap Write.round) = some t →
    Settled t ∧ ∃ lo', lo' ≤ lo ∧ view t.out = t.chain.zipIdx.drop lo' := by
  induction ws with
  | nil =>
    intro s t lo hs hv _ h
    cases h
    exact ⟨hs, lo, Nat.le_refl _, hv⟩
  | cons w ws ih =>
    intro s t lo hs hv hlo h
    rw [List.flatMap_cons, run_append] at h
    cases hr : run (fun _ => [0]) B s w.round with
    | none =>
      rw [hr] at h
      cases h
    | some u =>
      rw [hr] at h
      obtain ⟨hu, lo', k1, k2, k3⟩ := follow_round w hs hv hlo hr
      obtain ⟨ht, lo'', k4, k5⟩ := ih hu k3 k2 h
      exact ⟨ht, lo'', Nat.le_trans k4 k1, k5⟩

/-- A settled subscription with the chain from block 1, then a reorg and two blocks. -/
example : ∃ s t, Settled s ∧ view s.out = s.chain.zipIdx.drop 1 ∧
    run (fun _ => [0]) 64 s ([Write.reorg 2, .block 7, .block 8].flatMap Write.round) = some t ∧ t.chain = [1, 2, 7, 8] ∧
    view t.out = [(2, 1), (7, 2), (8, 3)] :=
  ⟨⟨[1, 2, 3], none, .live, [], [], [], [.item 1 2 0, .item 2 3 0]⟩, _, ⟨rfl, rfl, rfl, rfl, rfl⟩, rfl, rfl, rfl, rfl⟩

end Verif.Subs
