import Verif.Head.SysLemmas
import Verif.Head.Props
/-! # C73: following the gateway -/
namespace Verif.Head

/-! ## The node as a whole -/

/-- C73, when the producer is started again only with an empty channel: in every state that a node that keeps all blocks can reach, whatever the gateway and L1
answer and however the tasks run, the stored blocks are one chain from block 0, and the consumer does not stop. Missing: the producer is started again while
events wait (`C73_restart_violated`, `C73_unlinked_violated`, `C73_finalized_violated`), and a gateway that gives a block of another number
(`C73_number_violated`). -/
theorem C73_system_partial {s : Sys} (h : Sys.Reach false s) : Linked s.consumer.db.blocks ∧ FromGenesis s.consumer.db.blocks ∧ ¬ s.Stops := by
  obtain ⟨f, hd, _⟩ := sinv_reach h
  refine ⟨hd.first.1, hd.first.2, ?_⟩
  rintro ⟨e, q, hq, hs⟩
  rw [hq] at hd
  cases hd with
  | cons _ _ _ hs' _ => rw [hs] at hs'; cases hs'

/-- C73: when the channel is empty, the last stored block is the one that the producer follows on from. -/
theorem C73_head_partial {s : Sys} (h : Sys.Reach false s) (hq : s.queue = []) :
    s.producer.head = s.consumer.db.latest.map fun b => (b.number, b.hash) := by
  obtain ⟨f, hd, hm⟩ := sinv_reach h
  rw [hq] at hd
  cases hd with
  | nil hl _ => rw [latest_eq hl]; exact hm.head

/-- C73: the events that the consumer gets are as `C46` and `C74` assume. -/
theorem C73_follows_partial {s : Sys} (h : Sys.Reach false s) : ∃ ann, Reach none s.consumer ann := by
  induction h with
  | init size => exact ⟨[], .init⟩
  | step hr hs ih =>
    obtain ⟨ann, ih⟩ := ih
    cases hs with
    | round _ _ _ _ _ => exact ⟨ann, ih⟩
    | finalize _ _ => exact ⟨ann, ih⟩
    | l1 _ _ => exact ⟨ann, ih⟩
    | restart _ _ => exact ⟨ann, ih⟩
    | reboot _ => exact ⟨ann, .restart ih⟩
    | consume hs =>
      obtain ⟨f, hd, _⟩ := sinv_reach hr
      cases hd with
      | cons _ _ hf _ _ => exact ⟨_, .step _ ih hf hs⟩

/-- A gateway that has nothing to say about a reorg. -/
def noAns : Nat → Ans := fun _ => .fail

/-- The gateway gives block `b`. -/
theorem round_block {race : Bool} {p : Producer} {q : List Event} {c : Consumer} (h : Sys.Reach race ⟨p, q, c⟩) (b : Blk) (full : Bool)
    (hn : b.number = p.next) (hp : ∀ x, p.head.map (·.2) = some x → b.parent = x) :
    Sys.Reach race ⟨⟨some (p.next, b.hash), p.cache.push p.next b.hash full⟩, q ++ [.downloaded b true], c⟩ := by
  refine .step h (.round (.block b true) noAns full (fun b' v e => by cases e; exact hn) ?_)
  unfold Producer.round
  simp only [download, if_true, Option.bind_some]
  rw [if_neg]
  · rfl
  · cases hh : p.head with
    | none => simp
    | some x =>
      rw [hh] at hp
      have := hp x.2 rfl
      simp [this]

/-- A node with block 0 stored and nothing in the channel. -/
def node0 : Sys := ⟨⟨some (0, 100), ⟨0, 0, [(0, 100)]⟩⟩, [], ⟨⟨[blk 0], [], none⟩, 1⟩⟩

theorem reach_node0 (race : Bool) : Sys.Reach race node0 := by
  have h := round_block (.init (race := race) 10) (blk 0) false rfl (by intro x hx; cases hx)
  exact .step h (.consume (by decide))

/-- A node with blocks 0 and 1 stored. -/
def node1 : Sys := ⟨⟨some (1, 101), ⟨1, 0, [(1, 101), (0, 100)]⟩⟩, [], ⟨⟨[blk 0, blk 1], [], none⟩, 2⟩⟩

theorem reach_node1 (race : Bool) : Sys.Reach race node1 := by
  have h := round_block (reach_node0 race) (blk 1) false rfl (by intro x hx; cases hx; rfl)
  exact .step h (.consume (by decide))

/-- The answers of a gateway that has block 0 and other blocks after it. -/
def forkAns : Nat → Ans := gateway [blk 0, ⟨1, 201, 100⟩, ⟨2, 202, 201⟩]

/-- The same node, when the gateway has taken block 1 back and the producer has seen this. -/
def node1Reorg : Sys := ⟨⟨some (0, 100), ⟨0, 0, [(0, 100)]⟩⟩, [.reorg 1], ⟨⟨[blk 0, blk 1], [], none⟩, 2⟩⟩

theorem reach_node1Reorg (race : Bool) : Sys.Reach race node1Reorg :=
  .step (reach_node1 race) (.round (p' := ⟨some (0, 100), ⟨0, 0, [(0, 100)]⟩⟩) (es := [.reorg 1]) (forkAns 2) forkAns false
    (by intro b v e; cases e; rfl) (by decide))

example : Linked node1Reorg.consumer.db.blocks ∧ FromGenesis node1Reorg.consumer.db.blocks ∧ ¬ node1Reorg.Stops :=
  C73_system_partial (reach_node1Reorg false)

example : node1.producer.head = node1.consumer.db.latest.map fun b => (b.number, b.hash) := C73_head_partial (reach_node1 false) rfl

example : ∃ ann, Reach none node1Reorg.consumer ann := C73_follows_partial (reach_node1Reorg false)

/-- C73 is violated: the producer finds a reorg and sends it, fails at the next block, and is started again before the reorg is carried out. It finds the same
reorg again. The first one is carried out, and at the second the consumer stops, which ends the sync. -/
theorem C73_restart_violated : ∃ s : Sys, Sys.Reach true s ∧ s.Stops := by
  have h1 : Sys.Reach true ⟨⟨some (1, 101), ⟨1, 0, [(1, 101), (0, 100)]⟩⟩, [.reorg 1], ⟨⟨[blk 0, blk 1], [], none⟩, 2⟩⟩ :=
    .step (reach_node1Reorg true) (.restart 10 (.inl rfl))
  have h2 : Sys.Reach true ⟨⟨some (0, 100), ⟨0, 0, [(0, 100)]⟩⟩, [.reorg 1, .reorg 1], ⟨⟨[blk 0, blk 1], [], none⟩, 2⟩⟩ :=
    .step h1 (.round (p' := ⟨some (0, 100), ⟨0, 0, [(0, 100)]⟩⟩) (es := [.reorg 1]) (forkAns 2) forkAns false
      (by intro b v e; cases e; rfl) (by decide))
  have h3 : Sys.Reach true ⟨⟨some (0, 100), ⟨0, 0, [(0, 100)]⟩⟩, [.reorg 1], ⟨⟨[blk 0], [], none⟩, 1⟩⟩ := .step h2 (.consume (by decide))
  exact ⟨_, h3, .reorg 1, [], rfl, by decide⟩

/-- C73 is violated: block 1 is in the channel when the producer is started again. The gateway has another block 1 by then, which is left out as a duplicate, and
the block after it is stored on a block that is not its parent. -/
theorem C73_unlinked_violated : ∃ s : Sys, Sys.Reach true s ∧ s.consumer.db.blocks = [blk 0, blk 1, ⟨2, 202, 201⟩] ∧ ¬ Linked s.consumer.db.blocks := by
  have h1 := round_block (reach_node0 true) (blk 1) false rfl (by intro x hx; cases hx; rfl)
  have h2 : Sys.Reach true ⟨⟨some (0, 100), ⟨0, 0, [(0, 100)]⟩⟩, [.downloaded (blk 1) true], ⟨⟨[blk 0], [], none⟩, 1⟩⟩ :=
    .step h1 (.restart 10 (.inl rfl))
  have h3 := round_block h2 ⟨1, 201, 100⟩ false rfl (by intro x hx; cases hx; rfl)
  have h4 := round_block h3 ⟨2, 202, 201⟩ false rfl (by intro x hx; cases hx; rfl)
  have h5 := Sys.Reach.step h4 (.consume (c' := ⟨⟨[blk 0, blk 1], [], none⟩, 2⟩) (by decide))
  have h6 := Sys.Reach.step h5 (.consume (c' := ⟨⟨[blk 0, blk 1], [], none⟩, 2⟩) (by decide))
  have h7 := Sys.Reach.step h6 (.consume (c' := ⟨⟨[blk 0, blk 1, ⟨2, 202, 201⟩], [], none⟩, 3⟩) (by decide))
  refine ⟨_, h7, rfl, ?_⟩
  intro hl
  exact absurd hl.2.1.2 (by decide)

/-- C73 is violated: after a block of consensus the number that the consumer waits for stays as it was. When the producer is started again before the block is
stored, it sends the block of the gateway with the same number. This duplicate is not left out, and the consumer stops. -/
theorem C73_finalized_violated : ∃ s : Sys, Sys.Reach true s ∧ s.Stops ∧ s.queue = [.downloaded (blk 1) true] ∧ s.consumer.db.block 1 = some (blk 1) := by
  have h1 : Sys.Reach true ⟨_, [.finalized 1 101 true], ⟨⟨[blk 0], [], none⟩, 1⟩⟩ := .step (reach_node0 true) (.finalize 101 false)
  have h2 : Sys.Reach true ⟨⟨some (0, 100), ⟨0, 0, [(0, 100)]⟩⟩, [.finalized 1 101 true], ⟨⟨[blk 0], [], none⟩, 1⟩⟩ := .step h1 (.restart 10 (.inl rfl))
  have h3 := round_block h2 (blk 1) false rfl (by intro x hx; cases hx; rfl)
  have h4 := Sys.Reach.step h3 (.consume (c' := ⟨⟨[blk 0, blk 1], [], none⟩, 1⟩) (by decide))
  exact ⟨_, h4, ⟨_, _, rfl, by decide⟩, rfl, by decide⟩

/-- The same duplicate after a block of the gateway is left out. -/
example : (⟨⟨[blk 0, blk 1], [], none⟩, 2⟩ : Consumer).step none (.downloaded (blk 1) true) = some ⟨⟨[blk 0, blk 1], [], none⟩, 2⟩ := by decide

/-- C73 is violated by a gateway that answers with a block of another number, which is hashed right and names the head as its parent: it is stored, and the
chain has a gap. -/
theorem C73_number_violated : ∃ (p' : Producer) (c' : Consumer),
    node0.producer.round (.block ⟨7, 107, 100⟩ true) noAns true false = some (p', [.downloaded ⟨7, 107, 100⟩ true]) ∧
      node0.consumer.step none (.downloaded ⟨7, 107, 100⟩ true) = some c' ∧ c'.db.blocks = [blk 0, ⟨7, 107, 100⟩] ∧ p'.next = 2 :=
  ⟨⟨some (1, 107), ⟨1, 0, [(1, 107), (0, 100)]⟩⟩, ⟨⟨[blk 0, ⟨7, 107, 100⟩], [], none⟩, 2⟩, by decide, by decide, rfl, rfl⟩

/-! ## Where a reorg begins -/

theorem download_gateway {g : List Blk} {c : Cache} {k : Nat} {prev : Hash} : ∃ d, download k (some prev) c (gateway g k) = some d ∧
    ∀ b, d = .block b ↔ g[k]? = some b := by
  unfold gateway
  cases hg : g[k]? with
  | some b => exact ⟨.block b, rfl, fun b' => by simp⟩
  | none =>
    cases hl : g.getLast?.map fun b => (b.number, b.hash) with
    | none => exact ⟨.wait, rfl, fun b => by simp⟩
    | some nh =>
      obtain ⟨n, h⟩ := nh
      simp only [download, Option.isNone_some, Bool.false_eq_true, and_false, if_false]
      split
      · exact ⟨.retry, rfl, fun b => by simp⟩
      · generalize (if n + 1 = k then some prev else c.get n) = o
        by_cases ho : o = some h
        · exact ⟨.wait, by rw [if_pos ho], fun b => by simp⟩
        · exact ⟨.reorg, by rw [if_neg ho], fun b => by simp⟩

/-- One step of the search. -/
theorem walk_gateway {g : List Blk} {c : Cache} {k : Nat} {prev : Hash} (hc : c.get k = some prev) :
    (Common g c k ∧ walk c (gateway g) (k + 1) = some (some (k, prev))) ∨ (¬ Common g c k ∧ walk c (gateway g) (k + 1) = walk c (gateway g) k) := by
  obtain ⟨d, hd, hb⟩ := download_gateway (g := g) (c := c) (k := k) (prev := prev)
  have hw : walk c (gateway g) (k + 1) = (some d).bind fun d => match d with
      | .block b => if b.hash = prev then some (some (k, prev)) else walk c (gateway g) k
      | _ => walk c (gateway g) k := by
    rw [← hd]
    conv => lhs; unfold walk
    rw [hc]
    rfl
  rw [Option.bind_some] at hw
  have hcom : Common g c k ↔ ∃ b, d = .block b ∧ b.hash = prev := by
    unfold Common
    constructor
    · rintro ⟨b, h1, h2⟩
      rw [hc] at h2
      exact ⟨b, (hb b).mpr h1, (Option.some.inj h2).symm⟩
    · rintro ⟨b, h1, h2⟩
      exact ⟨b, (hb b).mp h1, by rw [hc, h2]⟩
  rw [hcom]
  cases d with
  | block b =>
    simp only at hw
    by_cases h : b.hash = prev
    · exact .inl ⟨⟨b, rfl, h⟩, by rw [hw, if_pos h]⟩
    · refine .inr ⟨?_, by rw [hw, if_neg h]⟩
      rintro ⟨b', h1, h2⟩
      cases h1; exact h h2
  | wait => exact .inr ⟨(by rintro ⟨b, h1, _⟩; cases h1), hw⟩
  | retry => exact .inr ⟨(by rintro ⟨b, h1, _⟩; cases h1), hw⟩
  | reorg => exact .inr ⟨(by rintro ⟨b, h1, _⟩; cases h1), hw⟩

/-- C73: against a gateway with any chain `g`, when the hashes below the head are in the cache, the search finds the highest block that the node and the gateway
have in common, or that there is none. -/
theorem C73_reorg_point (g : List Blk) (c : Cache) (n : Nat) (hc : ∀ j, j < n → (c.get j).isSome) :
    (walk c (gateway g) n = some none ∧ ∀ j, j < n → ¬ Common g c j) ∨
    ∃ k h, walk c (gateway g) n = some (some (k, h)) ∧ k < n ∧ Common g c k ∧ c.get k = some h ∧ ∀ j, k < j → j < n → ¬ Common g c j := by
  induction n with
  | zero => exact .inl ⟨rfl, fun j hj => by omega⟩
  | succ n ih =>
    obtain ⟨prev, hp⟩ := Option.isSome_iff_exists.mp (hc n (by omega))
    rcases walk_gateway (g := g) hp with ⟨h1, h2⟩ | ⟨h1, h2⟩
    · exact .inr ⟨n, prev, h2, by omega, h1, hp, fun j h3 h4 => by omega⟩
    · have hj : ∀ j, j < n + 1 → j < n ∨ j = n := fun j h => by omega
      rcases ih (fun j hj => hc j (by omega)) with ⟨h3, h4⟩ | ⟨k, h, h3, h4, h5, h6, h7⟩
      · refine .inl ⟨by rw [h2, h3], fun j h => ?_⟩
        rcases hj j h with h | rfl
        · exact h4 j h
        · exact h1
      · refine .inr ⟨k, h, by rw [h2, h3], by omega, h5, h6, fun j h8 h9 => ?_⟩
        rcases hj j h9 with h | rfl
        · exact h7 j h8 h
        · exact h1

example : walk ⟨2, 0, [(2, 102), (1, 101), (0, 100)]⟩ (gateway [blk 0, ⟨1, 201, 100⟩]) 2 = some (some (0, 100)) := by decide
example : ∀ j, j < 2 → ((⟨2, 0, [(2, 102), (1, 101), (0, 100)]⟩ : Cache).get j).isSome := by decide

/-- C73: when the blocks in common are below what the cache holds, the search fails. The producer is started again with the same blocks and fails again: the node
does not follow such a reorg. -/
theorem C73_beyond_cache (g : List Blk) (c : Cache) (n m : Nat) (hm : m < n) (hc : c.get m = none) (hj : ∀ j, m < j → j < n → ¬ Common g c j) :
    walk c (gateway g) n = none := by
  induction n with
  | zero => omega
  | succ n ih =>
    by_cases hmn : m = n
    · subst hmn
      conv => lhs; unfold walk
      rw [hc]; rfl
    · cases hp : c.get n with
      | none =>
        conv => lhs; unfold walk
        rw [hp]; rfl
      | some prev =>
        rcases walk_gateway (g := g) hp with ⟨h1, _⟩ | ⟨_, h2⟩
        · exact absurd h1 (hj n (by omega) (by omega))
        · rw [h2]
          exact ih (by omega) fun j h3 h4 => hj j h3 (by omega)

example : walk ⟨2, 1, [(2, 102), (1, 101)]⟩ (gateway [blk 0, ⟨1, 201, 100⟩]) 2 = none :=
  C73_beyond_cache _ _ 2 0 (by decide) (by decide) (by
    intro j h1 h2
    have : j = 1 := by omega
    subst this
    rintro ⟨b, h3, h4⟩
    simp at h3; subst h3
    exact absurd h4 (by decide))

/-- A block that the gateway does not have is not taken for a reorganisation when the gateway is at that block or above, or when the block at
its head is the one that is followed at that height. -/
theorem C73_no_false_reorg {n hn : Nat} {prev : Option Hash} {hh : Hash} {c : Cache}
    (h : n ≤ hn ∨ (hn + 1 = n ∧ prev = some hh) ∨ (hn + 1 < n ∧ c.get hn = some hh)) :
    download n prev c (.notFound (some (hn, hh))) ≠ some .reorg := by
  simp only [download]
  rcases h with h | ⟨h, e⟩ | ⟨h, e⟩
  · rw [if_pos h]; simp
  · rw [if_neg (by omega)]; subst e; simp [h]
  · rw [if_neg (by omega), if_neg (by omega), if_neg (by omega : ¬ hn + 1 = n), e]; simp

example : download 5 (some 7) Cache.reset (.notFound (some (5, 9))) = some .retry ∧
    download 5 (some 7) Cache.reset (.notFound (some (4, 7))) = some .wait ∧
    download 5 (some 7) Cache.reset (.notFound (some (4, 9))) = some .reorg := by decide

end Verif.Head
