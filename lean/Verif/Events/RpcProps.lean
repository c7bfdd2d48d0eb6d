import Verif.Events.RpcPages
import Verif.Events.Props
/-
C26: pages over the pre-latest and the pre-confirmed block. C49: starknet_getEvents over stored and pending blocks.
-/
namespace Verif.Events

/-! ### the pending data -/

/-- The pending data that a query works with follows the stored blocks, whatever the last poll of the sequencer gave, as
long as its pre-confirmed block was the child of its pre-latest block (which is asserted when it is received, pending.rs
240-245). In particular the assertions in `PendingWatcher::get` hold. -/
theorem C26_pending_follows (chain : List Body) (hne : chain ≠ []) (v09 : Bool) (w : Pending)
    (hw : ∀ b, w.preLatest = some b → b.number + 1 = w.preConfirmed.number) :
    ∃ p, pendingGet (some (chain.length - 1)) v09 w = some p ∧ Follows chain p ∧
      (p.preConfirmed = w.preConfirmed ∨ p.preConfirmed.receipts = []) ∧ (p.preLatest = w.preLatest ∨ p.preLatest = none) := by
  have hpos := List.length_pos_iff.2 hne
  have hempty : Follows chain (emptyPending (chain.length - 1)) := ⟨hne, by simp only [emptyPending]; omega⟩
  unfold pendingGet
  simp only [Option.getD_some]
  cases v09 with
  | false => exact ⟨_, rfl, hempty, .inr rfl, .inr rfl⟩
  | true =>
    simp only [if_true]
    cases hpl : w.preLatest with
    | none =>
      simp only
      split
      next h => exact ⟨w, rfl, ⟨hne, by rw [hpl]; simp only; omega⟩, .inl rfl, .inr hpl⟩
      next => exact ⟨_, rfl, hempty, .inr rfl, .inr rfl⟩
    | some b =>
      have := hw b hpl
      simp only
      split
      next h =>
        exact ⟨w, rfl, ⟨hne, by rw [hpl]; simp only; omega⟩, .inl rfl, .inl hpl⟩
      next =>
        split
        next h =>
          exact ⟨_, rfl, ⟨hne, by simp only; omega⟩, .inl rfl, .inr rfl⟩
        next => exact ⟨_, rfl, hempty, .inr rfl, .inr rfl⟩

/-! ### C26 -/

/-- The wanted events of a pending block, in order. -/
def pendingWanted (addrs : List Felt) (keys : List (List Felt)) (b : PendingBlock) : List REvent :=
  (b.receipts.flatMap fun r => r.2.2.zipIdx.map fun ei => ⟨ei.1, none, b.number, r.1, r.2.1, ei.2⟩).filter fun e => wanted addrs keys e.event

/-- A request for the pending blocks: following the tokens gives the wanted events of the pre-latest block (if there is
one) and then those of the pre-confirmed block. -/
theorem C26_pending_pages (c : Cfg) (limit : Nat) (hl : 1 ≤ limit) (r : Request) (hp : 1 ≤ r.chunk) (hp' : r.chunk ≤ 1024)
    (hk : r.keys.length ≤ 16) (hfrom : r.fromBlock = some .preConfirmed) (hto : r.toBlock = some .preConfirmed ∨ r.toBlock = none)
    (w : Moment) (hr : Reached c w.ops w.sys) (hf : Follows w.chain w.pending) (k : Nat) (evs : List REvent)
    (h : Session c limit r none (List.replicate k w) evs) :
    evs = (match w.pending.preLatest with | some b => pendingWanted r.addrs r.keys b | none => []) ++
      pendingWanted r.addrs r.keys w.pending.preConfirmed := by
  have hans : Answerable c r w.chain.length w := ⟨hr, hf, ⟨fun n hn => by rcases hto with e | e <;> rw [e] at hn <;> simp at hn,
    fun _ n hn => by rw [hfrom] at hn; simp at hn, fun b _ hn => by rcases hto with e | e <;> rw [e] at hn <;> simp at hn,
    fun _ hn => by rw [hfrom] at hn; simp at hn, fun n hn => by rcases hto with e | e <;> rw [e] at hn <;> simp at hn,
    fun n hn => by rw [hfrom] at hn; simp at hn⟩, by rw [hfrom]; rfl⟩
  have hL : rangeLast w.chain w.pending r.toBlock = some w.pending.preConfirmed.number := by rcases hto with e | e <;> rw [e] <;> rfl
  have := session_fixed hl hp hp' hk hans hL h (fun x hx => (List.mem_replicate.1 hx).2) (by simp) (RValid.zero ..)
  rw [this]
  simp only [Option.getD_none, List.drop_zero]
  have hpc := wantedAt_preConfirmed (addrs := r.addrs) (keys := r.keys) hf
  have hpc' : pendingWanted r.addrs r.keys w.pending.preConfirmed = wantedAt w.chain w.pending r.addrs r.keys w.pending.preConfirmed.number := hpc
  rw [hpc']
  have hff := hf.2
  cases hpl : w.pending.preLatest with
  | none =>
    rw [hpl] at hff
    simp only at hff
    rw [hff, answerAt_one]
    rfl
  | some b =>
    rw [hpl] at hff
    simp only at hff
    have h2 : pendingWanted r.addrs r.keys b = wantedAt w.chain w.pending r.addrs r.keys b.number := wantedAt_preLatest hf hpl
    simp only
    rw [h2, hff.2, answerAt_two, hff.1]

/-- There always is such a session. -/
theorem C26_pending_session (c : Cfg) (limit : Nat) (hl : 1 ≤ limit) (r : Request) (hp : 1 ≤ r.chunk) (hp' : r.chunk ≤ 1024)
    (hk : r.keys.length ≤ 16) (hfrom : r.fromBlock = some .preConfirmed) (hto : r.toBlock = some .preConfirmed ∨ r.toBlock = none)
    (w : Moment) (hr : Reached c w.ops w.sys) (hf : Follows w.chain w.pending) :
    ∃ k, Session c limit r none (List.replicate k w)
      ((match w.pending.preLatest with | some b => pendingWanted r.addrs r.keys b | none => []) ++
        pendingWanted r.addrs r.keys w.pending.preConfirmed) := by
  have hans : Answerable c r w.chain.length w := ⟨hr, hf, ⟨fun n hn => by rcases hto with e | e <;> rw [e] at hn <;> simp at hn,
    fun _ n hn => by rw [hfrom] at hn; simp at hn, fun b _ hn => by rcases hto with e | e <;> rw [e] at hn <;> simp at hn,
    fun _ hn => by rw [hfrom] at hn; simp at hn, fun n hn => by rcases hto with e | e <;> rw [e] at hn <;> simp at hn,
    fun n hn => by rw [hfrom] at hn; simp at hn⟩, by rw [hfrom]; rfl⟩
  have hL : rangeLast w.chain w.pending r.toBlock = some w.pending.preConfirmed.number := by rcases hto with e | e <;> rw [e] <;> rfl
  obtain ⟨k, evs, hs⟩ := session_exists hl hp hp' hk hans hL _ _ none (by simp) (RValid.zero ..) (Nat.le_refl _) (Nat.le_refl _)
  refine ⟨k, ?_⟩
  rw [← C26_pending_pages c limit hl r hp hp' hk hfrom hto w hr hf k evs hs]
  exact hs

/-! ### C49 -/

/-- Whatever is stored, pending or added between the pages: following the tokens of a request whose range is `PlainRange`
gives the answer for the moment of the last page (up to the block hashes, which pending blocks do not have). -/
theorem C49_sessions_partial (c : Cfg) (limit : Nat) (hl : 1 ≤ limit) (r : Request) (hp : 1 ≤ r.chunk) (hp' : r.chunk ≤ 1024)
    (hk : r.keys.length ≤ 16) (a : Nat) (ws : List Moment) (evs : List REvent) (h : Session c limit r none ws evs)
    (hw : ∀ w ∈ ws, Reached c w.ops w.sys ∧ Follows w.chain w.pending ∧ PlainRange w.chain w.pending r ∧ rangeFirst w.chain r.fromBlock = some a)
    (hg : ws.Pairwise Moment.Extends) :
    ∃ w L, ws.getLast? = some w ∧ rangeLast w.chain w.pending r.toBlock = some L ∧
      evs.map REvent.noHash = (answerAt w.chain w.pending r.addrs r.keys a L).map REvent.noHash := by
  obtain ⟨w, L, h1, h2, h3⟩ := session_spec hl hp hp' hk h (fun w hx => ⟨(hw w hx).1, (hw w hx).2.1, (hw w hx).2.2.1, (hw w hx).2.2.2⟩) hg
    (fun w L _ _ => ⟨by simp, RValid.zero ..⟩)
  exact ⟨w, L, h1, h2, by simpa using h3⟩

/-- On a node that does not change, there is a session, and it gives exactly the answer. -/
theorem C49_fixed_partial (c : Cfg) (limit : Nat) (hl : 1 ≤ limit) (r : Request) (hp : 1 ≤ r.chunk) (hp' : r.chunk ≤ 1024)
    (hk : r.keys.length ≤ 16) (a : Nat) (w : Moment) (hr : Reached c w.ops w.sys) (hf : Follows w.chain w.pending)
    (hpl : PlainRange w.chain w.pending r) (ha : rangeFirst w.chain r.fromBlock = some a) :
    ∃ k L, rangeLast w.chain w.pending r.toBlock = some L ∧
      Session c limit r none (List.replicate k w) (answerAt w.chain w.pending r.addrs r.keys a L) := by
  have hans : Answerable c r a w := ⟨hr, hf, hpl, ha⟩
  obtain ⟨L, hL, -⟩ := hans.last
  obtain ⟨k, evs, hs⟩ := session_exists hl hp hp' hk hans hL _ _ none (by simp) (RValid.zero ..) (Nat.le_refl _) (Nat.le_refl _)
  have := session_fixed hl hp hp' hk hans hL hs (fun x hx => (List.mem_replicate.1 hx).2) (by simp) (RValid.zero ..)
  refine ⟨k, L, hL, ?_⟩
  simp only [Option.getD_none, List.drop_zero] at this
  rw [← this]
  exact hs

/-! ### examples and violations -/

namespace RpcExample

/-- Three stored blocks (`Example.ops2`), a pre-latest block 3 and a pre-confirmed block 4. -/
def pre : Pending where
  preLatest := some { number := 3, receipts := [(400, 0, [ev 1 [5], ev 2 [5]])] }
  preConfirmed := { number := 4, receipts := [(500, 0, [ev 3 [9]]), (501, 1, [ev 4 [5]])] }

/-- The same later: block 3 is stored, block 4 has one more transaction. -/
def ops3 : List Op := Example.ops2 ++ [.block { hash := 4, txs := [(400, [ev 1 [5], ev 2 [5]])] }]
def pre' : Pending where
  preLatest := none
  preConfirmed := { number := 4, receipts := [(500, 0, [ev 3 [9]]), (501, 1, [ev 4 [5]]), (502, 2, [ev 5 [5]])] }

theorem reached3 : ∃ s, Reached tiny ops3 s := by
  obtain ⟨s, h, -⟩ := run_inv (c := tiny) (crashOk_of_check (ops := ops3) (by decide))
  exact ⟨s, crashOk_of_check (by decide), h, by decide⟩

def req : Request := { fromBlock := some (.number 1), toBlock := none, addrs := [], keys := [[5#256], []], chunk := 2 }

def page1 : List REvent := [⟨ev 3 [5, 7], some 3, 2, 300, 0, 1⟩, ⟨ev 1 [5], none, 3, 400, 0, 0⟩]
def page2 : List REvent := [⟨ev 2 [5], some 4, 3, 400, 0, 1⟩, ⟨ev 4 [5], none, 4, 501, 1, 0⟩]
def page3 : List REvent := [⟨ev 5 [5], none, 4, 502, 2, 0⟩]

instance (chain : List Body) (p : Pending) : Decidable (Follows chain p) := by
  unfold Follows
  cases p.preLatest <;> simp only <;> infer_instance

/-- All hypotheses of `C49_sessions_partial` are met by a session of three pages in which the pre-latest block is stored
after the first page. -/
example : ∃ s2 s3, let w : Moment := ⟨Example.ops2, s2, pre⟩; let w' : Moment := ⟨ops3, s3, pre'⟩
    Reached tiny w.ops w.sys ∧ Reached tiny w'.ops w'.sys ∧ Follows w.chain w.pending ∧ Follows w'.chain w'.pending ∧
    PlainRange w.chain w.pending req ∧ PlainRange w'.chain w'.pending req ∧ w.Extends w' ∧ w'.Extends w' ∧
    Session tiny 10 req none [w, w', w'] (page1 ++ (page2 ++ page3)) := by
  obtain ⟨s2, h2⟩ := Example.reached2
  obtain ⟨s3, h3⟩ := reached3
  have hplain : ∀ chain p, 1 ≤ p.preConfirmed.number → p.preConfirmed.number = 4 → PlainRange chain p req := by
    intro chain p hp hp4
    exact ⟨fun n h => by simp [req] at h, fun _ n h => by simp only [req, Option.some.injEq, BlockId.number.injEq] at h; omega,
      fun b _ h => by simp [req] at h, fun _ h => by simp only [req, Option.some.injEq, BlockId.number.injEq] at h; omega,
      fun n h => by simp [req] at h, fun n h => by simp [req] at h⟩
  have f2 : Follows (Track.run Example.ops2).chain pre := by decide
  have f3 : Follows (Track.run ops3).chain pre' := by decide
  have l : (Track.run Example.ops2).chain.length ≤ (Track.run ops3).chain.length := by decide
  have c0 : ∀ n, n < 4 → content (Track.run ops3).chain pre' n = content (Track.run Example.ops2).chain pre n := by decide
  have c4 : content (Track.run Example.ops2).chain pre 4 <+: content (Track.run ops3).chain pre' 4 := by decide
  refine ⟨s2, s3, h2, h3, f2, f3, hplain _ pre (by decide) rfl, hplain _ pre' (by decide) rfl, ⟨l, Nat.le_refl 4, c0, c4⟩, ?_, ?_⟩
  · exact ⟨Nat.le_refl _, Nat.le_refl _, fun _ _ => rfl, List.prefix_refl _⟩
  · have e2 : run tiny Example.ops2 = some s2 := h2.run
    have e3 : run tiny ops3 = some s3 := h3.run
    have p1 : (run tiny Example.ops2).map (fun s => getEvents tiny s 10 pre req none) = some (.ok (page1, some ⟨3, 1⟩)) := by decide +kernel
    have p2 : (run tiny ops3).map (fun s => getEvents tiny s 10 pre' req (some ⟨3, 1⟩)) = some (.ok (page2, some ⟨4, 1⟩)) := by decide +kernel
    have p3 : (run tiny ops3).map (fun s => getEvents tiny s 10 pre' req (some ⟨4, 1⟩)) = some (.ok (page3, none)) := by decide +kernel
    rw [e2, Option.map_some, Option.some.injEq] at p1
    rw [e3, Option.map_some, Option.some.injEq] at p2 p3
    exact .more p1 (.more p2 (.last p3))

/-- The request of `C26_pending_pages` in pages of one event. -/
example : (run tiny Example.ops2).map (fun s => getEvents tiny s 10 pre { req with fromBlock := some .preConfirmed, chunk := 1 } (some ⟨3, 1⟩)) =
    some (.ok ([⟨ev 2 [5], none, 3, 400, 0, 1⟩], some ⟨4, 0⟩)) := by decide +kernel

end RpcExample

/-- One stored block, a pre-latest block with an event of contract 1, a pre-confirmed block with one of contract 2. -/
def bothPending : Pending where
  preLatest := some { number := 1, receipts := [(10, 0, [ev 1 []])] }
  preConfirmed := { number := 2, receipts := [(20, 0, [ev 2 []])] }

def ask (p : Pending) (from_ to : Option BlockId) (chunk : Nat) : Option (Except RpcError (List Nat × Option Token)) :=
  (run tiny [.block (blk 1 [])]).map fun s =>
    match getEvents tiny s 10 p ⟨from_, to, [], [], chunk⟩ none with
    | .ok r => .ok (r.1.map (·.blockNumber), r.2)
    | .error e => .error e

/-- A request for block 2 only, given by number, also returns the event of block 1. -/
theorem C49_start_violated : ask bothPending (some (.number 2)) (some (.number 2)) 10 = some (.ok ([1, 2], none)) := by decide

/-- A request for blocks up to 1 also returns the event of block 2. -/
theorem C49_end_violated : ask bothPending (some (.number 0)) (some (.number 1)) 10 = some (.ok ([1, 2], none)) := by decide

/-- A request for the blocks from 100 on returns events of the blocks 1 and 2. -/
theorem C49_beyond_violated : ask bothPending (some (.number 100)) none 10 = some (.ok ([1, 2], none)) := by decide

/-- A request for the blocks 0 to 2 returns two events, one for the larger range of the blocks 0 to 3 none. -/
theorem C49_wide_violated : ask bothPending (some (.number 0)) (some (.number 2)) 10 = some (.ok ([1, 2], none)) ∧
    ask bothPending (some (.number 0)) (some (.number 3)) 10 = some (.ok ([], none)) := by decide

/-- With a page size of zero a request for pending events returns a token for the same position, so that following the
tokens never ends; a request that reads the database is refused. -/
theorem C26_zero_page : ask bothPending (some .preConfirmed) none 0 = some (.ok ([], some ⟨1, 0⟩)) ∧
    ask bothPending none none 0 = some (.error .pageSizeTooSmall) := by decide

end Verif.Events
