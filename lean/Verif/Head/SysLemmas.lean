import Verif.Head.SysSpec
import Verif.Head.Inv
namespace Verif.Head

/-! ## The cache -/

theorem get_mem {c : Cache} {n : Nat} {h : Hash} (e : c.get n = some h) : (n, h) ∈ c.map := by
  unfold Cache.get at e
  cases hf : c.map.find? fun p => p.1 == n with
  | none => rw [hf] at e; cases e
  | some r =>
    rw [hf] at e
    have h1 := List.find?_some hf
    have h2 := List.mem_of_find?_eq_some hf
    simp at e h1
    rw [← e, ← h1]; exact h2

/-- The entries of the cache are hashes of blocks, and not above its head. -/
structure CacheOk (c : Cache) (l : List Blk) : Prop where
  mem : ∀ r ∈ c.map, ∃ b ∈ l, b.number = r.1 ∧ b.hash = r.2
  le : ∀ r ∈ c.map, r.1 ≤ c.head

theorem cacheOk_reset (l : List Blk) : CacheOk Cache.reset l := ⟨fun r hr => (by cases hr), fun r hr => (by cases hr)⟩

theorem push_mem {c : Cache} {n : Nat} {h : Hash} {full : Bool} (hle : ∀ r ∈ c.map, r.1 ≤ c.head) {r : Nat × Hash} (hr : r ∈ (c.push n h full).map) :
    r = (n, h) ∨ (r ∈ c.map ∧ r.1 < n) := by
  unfold Cache.push at hr
  simp only at hr
  rcases List.mem_cons.mp hr with h1 | h1
  · exact .inl h1
  · refine .inr ?_
    have h2 := (List.mem_filter.mp h1).1
    have h3 : r ∈ c.map.filter fun p => !(n ≤ p.1 && p.1 ≤ c.head) := by
      cases full with
      | false => exact h2
      | true => exact (List.mem_filter.mp h2).1
    obtain ⟨h4, h5⟩ := List.mem_filter.mp h3
    have := hle r h4
    simp at h5
    exact ⟨h4, by omega⟩

/-- After blocks from `n` on were taken away and block `n` was added. -/
theorem cacheOk_push {c : Cache} {l l' : List Blk} (h : CacheOk c l) {b : Blk} (hb : b ∈ l') (hl : ∀ x ∈ l, x.number < b.number → x ∈ l') (full : Bool) :
    CacheOk (c.push b.number b.hash full) l' := by
  constructor
  · intro r hr
    rcases push_mem h.le hr with rfl | ⟨h1, h2⟩
    · exact ⟨b, hb, rfl, rfl⟩
    · obtain ⟨x, hx, e1, e2⟩ := h.mem r h1
      exact ⟨x, hl x hx (by omega), e1, e2⟩
  · intro r hr
    show r.1 ≤ b.number
    rcases push_mem h.le hr with rfl | ⟨h1, h2⟩
    · exact Nat.le_refl _
    · omega

theorem latestN_mem {db : DB} : ∀ (size n : Nat) (r : Nat × Hash), r ∈ db.latestN size n → r.1 ≤ n ∧ ∃ b ∈ db.blocks, b.number = r.1 ∧ b.hash = r.2 := by
  intro size
  induction size with
  | zero => intro n r hr; cases hr
  | succ size ih =>
    intro n r hr
    unfold DB.latestN at hr
    cases hb : db.block n with
    | none => rw [hb] at hr; cases hr
    | some b =>
      rw [hb] at hr
      rcases List.mem_cons.mp hr with rfl | hr
      · exact ⟨Nat.le_refl _, b, (block_mem hb).1, (block_mem hb).2, rfl⟩
      · split at hr
        · cases hr
        · obtain ⟨h1, h2⟩ := ih (n - 1) r hr
          exact ⟨by omega, h2⟩

theorem cacheOk_start {db : DB} (h : Linked db.blocks) (size : Nat) : CacheOk (Producer.start db size).cache db.blocks := by
  unfold Producer.start
  rw [latest_eq h]
  cases hx : db.blocks.getLast? with
  | none => exact ⟨fun r hr => (by cases hr), fun r hr => (by cases hr)⟩
  | some x =>
    constructor
    · intro r hr
      have hr' : r ∈ db.latestN size x.number := by simpa [Cache.ofBlocks] using hr
      exact (latestN_mem size x.number r hr').2
    · intro r hr
      have hr' : r ∈ db.latestN size x.number := by simpa [Cache.ofBlocks] using hr
      show r.1 ≤ (db.latestN size x.number).reverse.getLast?.elim 0 (·.1)
      rw [List.getLast?_reverse]
      cases size with
      | zero => cases hr'
      | succ size =>
        have h1 := (latestN_mem _ _ r hr').1
        have hb : db.block x.number = some x := block_of_mem h (List.mem_of_getLast? hx)
        unfold DB.latestN
        rw [hb]
        exact h1

/-! ## What the queue leads to -/

/-- Every event in the queue follows, none is refused, and `f` is what comes out. The chains on the way are linked and begin at block 0. -/
inductive Drains : Consumer → List Event → Consumer → Prop
  | nil {c : Consumer} : Linked c.db.blocks → FromGenesis c.db.blocks → Drains c [] c
  | cons {c c' f : Consumer} {e : Event} {q : List Event} : Linked c.db.blocks → FromGenesis c.db.blocks → Follows c e → c.step none e = some c' →
      Drains c' q f → Drains c (e :: q) f

theorem Drains.append {c f f' : Consumer} {q q' : List Event} (h : Drains c q f) (h' : Drains f q' f') : Drains c (q ++ q') f' := by
  induction h with
  | nil _ _ => exact h'
  | cons hl hg hf hs _ ih => exact .cons hl hg hf hs (ih h')

theorem Drains.first {c f : Consumer} {q : List Event} (h : Drains c q f) : Linked c.db.blocks ∧ FromGenesis c.db.blocks := by
  cases h with
  | nil hl hg => exact ⟨hl, hg⟩
  | cons hl hg _ _ _ => exact ⟨hl, hg⟩

/-- What holds of the producer and of what the queue leads to. -/
structure Match (p : Producer) (f : Consumer) : Prop where
  linked : Linked f.db.blocks
  genesis : FromGenesis f.db.blocks
  head : p.head = f.db.blocks.getLast?.map fun b => (b.number, b.hash)
  next : f.next ≤ p.next
  cache : CacheOk p.cache f.db.blocks

def SInv (s : Sys) : Prop := ∃ f, Drains s.consumer s.queue f ∧ Match s.producer f

theorem match_next {p : Producer} {f : Consumer} (h : Match p f) : p.next = f.db.blocks.getLast?.elim 0 (·.number + 1) := by
  unfold Producer.next
  rw [h.head]
  cases f.db.blocks.getLast? <;> rfl

/-- A block that continues the chain is taken. -/
theorem take_block {p : Producer} {f : Consumer} (h : Match p f) {b : Blk} (hn : b.number = p.next) (hc : Continues f.db.blocks b) (full : Bool) {e : Event}
    (he : e = .downloaded b true ∨ e = .finalized b.number b.hash true) :
    ∃ f', Drains f [e] f' ∧ Match ⟨some (b.number, b.hash), p.cache.push b.number b.hash full⟩ f' := by
  have hl := continues_linked h.linked hc
  have hg := continues_genesis h.genesis hc
  have hpre : ¬ b.number < f.next := by have := h.next; omega
  have hm : ∀ f' : Consumer, f'.db.blocks = f.db.blocks ++ [b] → f'.next ≤ b.number + 1 →
      Match ⟨some (b.number, b.hash), p.cache.push b.number b.hash full⟩ f' := by
    intro f' e1 e2
    refine ⟨by rw [e1]; exact hl, by rw [e1]; exact hg, by rw [e1]; simp, e2, ?_⟩
    rw [e1]
    exact cacheOk_push h.cache (by simp) (fun x hx _ => by simp [hx]) full
  rcases he with rfl | rfl
  · refine ⟨⟨DB.track { f.db with blocks := f.db.blocks ++ [b] } b, f.next + 1⟩, .cons h.linked h.genesis (.inr hc) ?_ (.nil ?_ ?_), hm _ ?_ ?_⟩
    · unfold Consumer.step Consumer.handle DB.l2Update
      simp only [if_true]
      rw [if_neg hpre, continues_insert h.linked hc]
      rfl
    · rw [track_blocks]; exact hl
    · rw [track_blocks]; exact hg
    · rw [track_blocks]
    · show f.next + 1 ≤ b.number + 1
      have := h.next; omega
  · have hnum : b.number = f.db.blocks.getLast?.elim 0 (·.number + 1) := by rw [hn, match_next h]
    have hph : ∃ p, f.db.parentHash b.number = some p := by
      unfold DB.parentHash
      by_cases h0 : b.number = 0
      · exact ⟨0, by rw [if_pos h0]⟩
      · rw [if_neg h0]
        cases hx : f.db.blocks.getLast? with
        | none => rw [hx] at hnum; exact absurd hnum h0
        | some x =>
          rw [hx] at hnum
          have : b.number - 1 = x.number := by simp at hnum; omega
          rw [this, block_of_mem h.linked (List.mem_of_getLast? hx)]
          exact ⟨_, rfl⟩
    obtain ⟨ph, hph⟩ := hph
    have hc' := finalized_continues (x := b.hash) rfl h.linked hnum hph
    have hbl : (DB.track { f.db with blocks := f.db.blocks ++ [⟨b.number, b.hash, ph⟩] } ⟨b.number, b.hash, ph⟩).blocks
        = f.db.blocks ++ [⟨b.number, b.hash, ph⟩] := track_blocks _ _
    have hl' := continues_linked h.linked hc'
    have hg' := continues_genesis h.genesis hc'
    refine ⟨⟨DB.track { f.db with blocks := f.db.blocks ++ [⟨b.number, b.hash, ph⟩] } ⟨b.number, b.hash, ph⟩, f.next⟩,
      .cons h.linked h.genesis (.inr hnum) ?_ (.nil (by rw [hbl]; exact hl') (by rw [hbl]; exact hg')), ?_⟩
    · unfold Consumer.step Consumer.handle DB.l2Update
      simp only [if_true]
      rw [if_neg hpre, hph]
      simp only [Option.bind_some]
      rw [continues_insert h.linked hc']
      rfl
    · refine ⟨by rw [hbl]; exact hl', by rw [hbl]; exact hg', by rw [hbl]; simp, ?_, ?_⟩
      · show f.next ≤ b.number + 1
        have := h.next; omega
      · rw [hbl]
        exact cacheOk_push (b := ⟨b.number, b.hash, ph⟩) h.cache (by simp) (fun x hx _ => by simp [hx]) full

/-- What the search gives: nothing, or a block of the cache below the start. -/
theorem walk_some {c : Cache} {ans : Nat → Ans} : ∀ {n : Nat} {r : Option (Nat × Hash)}, walk c ans n = some r → ∀ k h, r = some (k, h) → k < n ∧ c.get k = some h := by
  intro n
  induction n with
  | zero => intro r hw k h hr; rw [hr] at hw; cases hw
  | succ n ih =>
    intro r hw k h hr
    unfold walk at hw
    cases hg : c.get n with
    | none => rw [hg] at hw; cases hw
    | some prev =>
      rw [hg] at hw
      simp only [Option.bind_some] at hw
      cases hd : download n (some prev) c (ans n) with
      | none => rw [hd] at hw; cases hw
      | some d =>
        rw [hd] at hw
        simp only [Option.bind_some] at hw
        have hrec : walk c ans n = some r → k < n + 1 ∧ c.get k = some h := fun hw =>
          let ⟨h1, h2⟩ := ih hw k h hr; ⟨by omega, h2⟩
        cases d with
        | block b =>
          simp only at hw
          split at hw
          · rw [hr] at hw
            have := Option.some.inj (Option.some.inj hw)
            cases this
            exact ⟨by omega, hg⟩
          · exact hrec hw
        | wait => exact hrec hw
        | retry => exact hrec hw
        | reorg => exact hrec hw

/-- A reorg that the producer sends is carried out. -/
theorem take_reorg {p p' : Producer} {f : Consumer} (h : Match p f) {ans : Nat → Ans} {full : Bool} {es : List Event} (hr : p.reorg ans full = some (p', es)) :
    ∃ f', Drains f es f' ∧ Match p' f' := by
  unfold Producer.reorg at hr
  have hhead := h.head
  cases hx : f.db.blocks.getLast? with
  | none =>
    rw [hx] at hhead
    rw [hhead] at hr
    simp only [Option.map_none] at hr
    have hr := Option.some.inj hr
    have e1 : p' = ⟨none, Cache.reset⟩ := (congrArg Prod.fst hr).symm
    have e2 : es = [] := (congrArg Prod.snd hr).symm
    subst e1; subst e2
    refine ⟨f, .nil h.linked h.genesis, h.linked, h.genesis, by rw [hx]; rfl, ?_, cacheOk_reset _⟩
    have := h.next
    rw [match_next h, hx] at this
    exact this
  | some x =>
    rw [hx] at hhead
    rw [hhead] at hr
    simp only [Option.map_some] at hr
    have hxm := List.mem_of_getLast? hx
    cases hw : walk p.cache ans x.number with
    | none => rw [hw] at hr; cases hr
    | some r =>
      rw [hw] at hr
      simp only [Option.map_some] at hr
      have hr := Option.some.inj hr
      cases r with
      | none =>
        have e1 : p' = ⟨none, Cache.reset⟩ := (congrArg Prod.fst hr).symm
        have e2 : es = [.reorg 0] := (congrArg Prod.snd hr).symm
        subst e1; subst e2
        obtain ⟨b0, hb0, hn0⟩ := mem_genesis h.linked h.genesis hxm (Nat.zero_le _)
        have hb : f.db.block 0 = some b0 := (block_iff h.linked 0 b0).mpr ⟨hb0, hn0⟩
        have hf : f.db.blocks.filter (fun b => decide (b.number < 0)) = [] := by
          rw [List.filter_eq_nil_iff]; intro b _; simp
        have hstep : f.step none (.reorg 0) = some ⟨⟨[], f.db.l1, reorgPointer 0 f.db.pointer⟩, 0⟩ := by
          unfold Consumer.step Consumer.handle DB.l2Reorg
          simp only
          rw [latest_eq h.linked, hx, hb]
          simp only [ne_eq, not_true_eq_false, false_and, if_false, Option.map_some, reorg_filter h.linked hx, hf]
        exact ⟨_, .cons h.linked h.genesis trivial hstep (.nil trivial (fun b hb => (by cases hb))),
          trivial, fun b hb => (by cases hb), rfl, Nat.le_refl _, cacheOk_reset _⟩
      | some kh =>
        obtain ⟨k, hh⟩ := kh
        have e1 : p' = ⟨some (k, hh), p.cache.push k hh full⟩ := (congrArg Prod.fst hr).symm
        have e2 : es = [.reorg (k + 1)] := (congrArg Prod.snd hr).symm
        subst e1; subst e2
        obtain ⟨hk, hget⟩ := walk_some hw k hh rfl
        obtain ⟨d, hdm, hdn, hdh⟩ := h.cache.mem _ (get_mem hget)
        simp only at hdn hdh
        obtain ⟨t, htm, htn⟩ := mem_genesis h.linked h.genesis hxm (show k + 1 ≤ x.number by omega)
        have hb : f.db.block (k + 1) = some t := (block_iff h.linked _ t).mpr ⟨htm, htn⟩
        have hd : f.db.block (k + 1 - 1) = some d := (block_iff h.linked _ d).mpr ⟨hdm, by omega⟩
        have hstep : f.step none (.reorg (k + 1)) =
            some ⟨⟨f.db.blocks.filter (fun b => decide (b.number < k + 1)), f.db.l1, reorgPointer (k + 1) f.db.pointer⟩, k + 1⟩ := by
          unfold Consumer.step Consumer.handle DB.l2Reorg
          simp only
          rw [latest_eq h.linked, hx, hb, hd]
          simp only [Option.isNone_some, Bool.false_eq_true, and_false, if_false, Option.map_some, reorg_filter h.linked hx]
        have hl := filter_below h.linked (k + 1)
        have hg := genesis_below h.linked h.genesis (k + 1)
        have hlast : (f.db.blocks.filter fun b => b.number < k + 1).getLast? = some d := by
          have := last_below h.linked hdm
          rw [hdn] at this; exact this
        refine ⟨_, .cons h.linked h.genesis trivial hstep (.nil hl hg), hl, hg, ?_, ?_, ?_⟩
        · show some (k, hh) = Option.map _ (List.getLast? (List.filter _ _))
          rw [hlast, Option.map_some, hdn, hdh]
        · exact Nat.le_refl _
        · show CacheOk (p.cache.push k hh full) (List.filter _ _)
          rw [← hdn, ← hdh]
          exact cacheOk_push h.cache (List.mem_filter.mpr ⟨hdm, by simp⟩) (fun y hy hlt => List.mem_filter.mpr ⟨hy, by simp; omega⟩) full

/-- An announcement of L1 changes no blocks. -/
theorem take_l1 {p : Producer} {f : Consumer} (h : Match p f) (n : Nat) (x : Hash) : ∃ f', Drains f [.l1 n x] f' ∧ Match p f' := by
  have hb : (f.db.l1Update n x).blocks = f.db.blocks := l1Update_blocks _ _ _
  refine ⟨⟨f.db.l1Update n x, f.next⟩, .cons (c' := ⟨f.db.l1Update n x, f.next⟩) h.linked h.genesis trivial rfl
    (.nil (by rw [hb]; exact h.linked) (by rw [hb]; exact h.genesis)), ?_⟩
  exact ⟨by rw [hb]; exact h.linked, by rw [hb]; exact h.genesis, by rw [hb]; exact h.head, h.next, by rw [hb]; exact h.cache⟩

theorem match_start {db : DB} (hl : Linked db.blocks) (hg : FromGenesis db.blocks) (size : Nat) {c : Consumer} (hc : c.db = db)
    (hn : c.next ≤ db.blocks.getLast?.elim 0 (·.number + 1)) : Match (Producer.start db size) c := by
  have hh : (Producer.start db size).head = db.blocks.getLast?.map fun b => (b.number, b.hash) := by
    unfold Producer.start
    rw [latest_eq hl]
    cases db.blocks.getLast? <;> rfl
  refine ⟨hc ▸ hl, hc ▸ hg, hc ▸ hh, ?_, hc ▸ cacheOk_start hl size⟩
  have : (Producer.start db size).next = db.blocks.getLast?.elim 0 (·.number + 1) := by
    unfold Producer.next
    rw [hh]
    cases db.blocks.getLast? <;> rfl
  rw [this]; exact hn

theorem download_block {n : Nat} {prev : Option Hash} {c : Cache} {a : Ans} {b : Blk} (h : download n prev c a = some (.block b)) : ∃ v, a = .block b v := by
  cases a with
  | block b' v =>
    simp only [download] at h
    split at h
    · have := Option.some.inj h; cases this; exact ⟨v, rfl⟩
    · cases h
  | fail => cases h
  | notFound hd =>
    cases hd with
    | none => cases (Option.some.inj h)
    | some nh =>
      obtain ⟨hn, hh⟩ := nh
      simp only [download] at h
      split at h
      · cases (Option.some.inj h)
      · split at h
        · cases h
        · generalize (if hn + 1 = n then prev else c.get hn) = o at h
          by_cases ho : o = some hh
          · rw [if_pos ho] at h; cases (Option.some.inj h)
          · rw [if_neg ho] at h; cases (Option.some.inj h)

theorem take_round {p p' : Producer} {f : Consumer} (h : Match p f) {a : Ans} {ans : Nat → Ans} {full : Bool} {es : List Event}
    (ha : ∀ b v, a = .block b v → b.number = p.next) (hr : p.round a ans true full = some (p', es)) : ∃ f', Drains f es f' ∧ Match p' f' := by
  unfold Producer.round at hr
  simp only at hr
  have same : some (p, ([] : List Event)) = some (p', es) → ∃ f', Drains f es f' ∧ Match p' f' := by
    intro e
    have e := Option.some.inj e
    have e1 : p = p' := congrArg Prod.fst e
    have e2 : [] = es := congrArg Prod.snd e
    subst e1; subst e2
    exact ⟨f, .nil h.linked h.genesis, h⟩
  cases hd : download (p.head.elim 0 (·.1 + 1)) (p.head.map (·.2)) p.cache a with
  | none => rw [hd] at hr; cases hr
  | some d =>
    rw [hd] at hr
    simp only [Option.bind_some] at hr
    cases d with
    | wait => exact same hr
    | retry => exact same hr
    | reorg => exact take_reorg h hr
    | block b =>
      simp only at hr
      obtain ⟨v, hav⟩ := download_block hd
      have hn := ha b v hav
      split at hr
      · exact take_reorg h hr
      · rename_i hpar
        have hr := Option.some.inj hr
        have e1 : p' = ⟨some (p.next, b.hash), p.cache.push p.next b.hash full⟩ := (congrArg Prod.fst hr).symm
        have e2 : es = [.downloaded b true] := (congrArg Prod.snd hr).symm
        subst e1; subst e2
        rw [← hn]
        refine take_block h hn ?_ full (.inl rfl)
        unfold Continues
        rw [match_next h] at hn
        have hh := h.head
        cases hx : f.db.blocks.getLast? with
        | none => rw [hx] at hn; exact hn
        | some x =>
          rw [hx] at hn hh
          refine ⟨hn, ?_⟩
          rw [hh] at hpar
          simp at hpar
          exact hpar.symm

theorem sinv_step {s s' : Sys} (h : SInv s) (hs : Sys.Step false s s') : SInv s' := by
  obtain ⟨f, hd, hm⟩ := h
  cases hs with
  | round a ans full ha hr =>
    obtain ⟨f', hd', hm'⟩ := take_round hm ha hr
    exact ⟨f', hd.append hd', hm'⟩
  | @finalize p q c x full =>
    have hn := match_next hm
    have hc : ∃ ph, Continues f.db.blocks ⟨p.next, x, ph⟩ := by
      unfold Continues
      simp only at hn
      cases hx : f.db.blocks.getLast? with
      | none => rw [hx] at hn; exact ⟨0, hn⟩
      | some y => rw [hx] at hn; exact ⟨y.hash, hn, rfl⟩
    obtain ⟨ph, hc⟩ := hc
    obtain ⟨f', hd', hm'⟩ := take_block hm (b := ⟨p.next, x, ph⟩) rfl hc full (.inr rfl)
    exact ⟨f', hd.append hd', hm'⟩
  | l1 n x =>
    obtain ⟨f', hd', hm'⟩ := take_l1 hm n x
    exact ⟨f', hd.append hd', hm'⟩
  | consume hs =>
    cases hd with
    | cons _ _ _ hs' hd' =>
      rw [hs] at hs'
      have := Option.some.inj hs'
      subst this
      exact ⟨f, hd', hm⟩
  | @restart p q c size hq =>
    have hq := hq.resolve_left (by decide)
    subst hq
    cases hd with
    | nil hl hg =>
      refine ⟨c, .nil hl hg, match_start hl hg size rfl ?_⟩
      have h1 := hm.next
      rw [match_next hm] at h1
      exact h1
  | @reboot p q c size =>
    obtain ⟨hl, hg⟩ := hd.first
    refine ⟨Consumer.start c.db, .nil hl hg, match_start hl hg size rfl ?_⟩
    show c.db.latest.elim 0 (·.number + 1) ≤ _
    rw [latest_eq hl]
    exact Nat.le_refl _

theorem sinv_reach {s : Sys} (h : Sys.Reach false s) : SInv s := by
  induction h with
  | init size =>
    have hg : FromGenesis DB.empty.blocks := fun b hb => (by cases hb)
    exact ⟨_, .nil trivial hg, match_start (db := DB.empty) trivial hg size rfl (Nat.le_refl _)⟩
  | step _ hs ih => exact sinv_step ih hs

end Verif.Head
