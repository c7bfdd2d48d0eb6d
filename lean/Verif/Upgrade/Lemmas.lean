import Verif.Upgrade.Spec
/-
Lemmas for the migrations of the event index.
-/
namespace Verif.Upgrade
open Verif.Events

variable {c : Cfg}

/-! ### the index works in every state with the invariant -/

theorem paged_view {s : Sys} {chain : List Body} (v : View c s.db s.mem chain 0) {limit : Nat} (hl : 1 ≤ limit)
    {q : Constraints} (hp : 1 ≤ q.pageSize) (hk : q.keys.length ≤ keyLimit) {tok : Option Token} {ss : List Sys}
    {evs : List Emitted} (hpg : Paged c limit q tok ss evs) (hss : ∀ x ∈ ss, x = s)
    (hv : Valid chain limit q (startOf q tok)) :
    evs = (answer chain q.addrs q.keys (startOf q tok).block (headOf chain q.toBlock)).drop (startOf q tok).offset := by
  induction hpg with
  | last h =>
    have := hss _ (List.mem_singleton.2 rfl)
    subst this
    obtain ⟨page, h1, h2, h3, h4⟩ := page_step v limit hl q hp hk _ hv
    rw [h, Except.ok.injEq] at h1
    subst h1
    exact (h3 rfl).symm
  | more h hr ih =>
    have := hss _ (List.Mem.head _)
    subst this
    obtain ⟨page, h1, h2, h3, h4⟩ := page_step v limit hl q hp hk _ hv
    rw [h, Except.ok.injEq] at h1
    subst h1
    obtain ⟨g1, g2, g3, g4⟩ := h4 _ rfl
    rw [ih (fun x hx => hss x (List.Mem.tail _ hx)) (by simpa [startOf] using g3)]
    simp only [startOf]
    exact g2.symm

theorem works_of_inv {s : Sys} {t : Track} (i : Inv c s t) : Works c s t := by
  refine ⟨?_, ?_, ?_⟩
  · intro start stop n b addrs keys e g1 g2 g3 g4 g5 g6 g7 g8
    obtain ⟨hcov, hall, -, -⟩ := i.view.filters start stop g1 g4
    obtain ⟨f, hf, hf1, hf2⟩ := hall n g2 g3
    have hto := (hcov f hf).ok.to
    have hp := len_pos c
    refine List.mem_flatMap.2 ⟨f, hf, ?_⟩
    have := check_of_bits (hcov f hf).ok addrs keys g6 (b := n - f.fromBlock) (by omega) (e := e) (by
      intro x hx r hr
      exact (hcov f hf).bits n b (by omega) hf1 hf2 (by omega) g5 r (((blockBloom_bit c _).2 r).2 ⟨e, g7, x, hx, hr⟩)) g8
    rw [show f.fromBlock + (n - f.fromBlock) = n by omega] at this
    exact this
  · intro hlo limit q k evs hl hp hk hpg
    have v := i.view
    rw [hlo] at v
    rw [paged_view v hl hp hk hpg (fun x hx => (List.mem_replicate.1 hx).2) (by simp [Valid, startOf]), headOf_answer]
    simp [startOf]
  · intro hlo limit q hl hp hk
    have v := i.view
    rw [hlo] at v
    obtain ⟨page, h1, -⟩ := page_step v limit hl q hp hk none (by simp [Valid, startOf])
    exact ⟨page, h1⟩

theorem run_from {ops : List Op} {s : Sys} {t : Track} (i : Inv c s t) (h : SafeFrom t ops) :
    ∃ s', ops.foldlM (step c) s = some s' ∧ Inv c s' (ops.foldl Track.step t) := by
  induction ops generalizing s t with
  | nil => exact ⟨s, rfl, i⟩
  | cons op ops ih =>
    obtain ⟨s1, h1, h2⟩ := step_inv i op (by
      intro e
      subst e
      exact h [] ops rfl)
    obtain ⟨s2, h3, h4⟩ := ih h2 (fun pre post e => by
      have := h (op :: pre) post (by rw [e]; rfl)
      simpa using this)
    refine ⟨s2, ?_, h4⟩
    rw [List.foldlM_cons, h1]
    exact h3

theorem worksFrom_of_inv {db : Db} {chain : List Body} (i : DbInv c db chain 0)
    (hs : db.stored.2 = chain.length ∧ Covers c db.stored.1 chain 0 chain.length ∧
      db.stored.1.fromBlock = chain.length / c.len * c.len) : WorksFrom c db chain := by
  obtain ⟨s, h1, h2⟩ := open_spec (t := upgraded chain) i ⟨hs.1, fun _ => ⟨hs.2.1, hs.2.2, Nat.le_refl _⟩⟩ (by simp [upgraded])
  refine ⟨s, h1, fun ops ho => ?_⟩
  obtain ⟨s', h3, h4⟩ := run_from h2 ho
  exact ⟨s', h3, works_of_inv h4⟩

/-! ### the tables of a chain -/

theorem kept_zero (chain : List Body) : kept chain 0 = chain.zipIdx := by simp [kept]

theorem knows_iff {f : Agg} {chain : List Body} (ok : f.Ok c) : Knows c f chain ↔ Covers c f chain 0 chain.length := by
  constructor
  · intro h
    refine ⟨ok, ?_⟩
    intro n b _ g2 g3 _ g5 r hr
    obtain ⟨e, he, x, hx, hxr⟩ := ((blockBloom_bit c _).2 r).1 hr
    refine h n b e g2 g3 g5 he x ?_ r hxr
    simp only [Event.items, List.mem_cons, List.mem_map] at hx
    rcases hx with hx | ⟨ki, hki, rfl⟩
    · exact .inl hx
    · right
      have h2 := List.mem_zipIdx_iff_getElem?.1 hki
      rw [List.getElem?_take] at h2
      split at h2
      next hlt => exact ⟨ki.2, ki.1, hlt, h2, rfl⟩
      next => simp at h2
  · intro h n b e g2 g3 g5 he x hx r hr
    refine h.bits n b (Nat.zero_le _) g2 g3 (List.getElem?_eq_some_iff.1 g5).1 g5 r (((blockBloom_bit c _).2 r).2 ⟨e, he, x, ?_, hr⟩)
    simp only [Event.items, List.mem_cons, List.mem_map]
    rcases hx with hx | ⟨i, k, hi, hk, rfl⟩
    · exact .inl hx
    · right
      refine ⟨(k, i), List.mem_zipIdx_iff_getElem?.2 ?_, rfl⟩
      simp only [List.getElem?_take]
      rw [if_pos (by exact hi)]
      exact hk

/-! ### revisions 66 and 68 -/

theorem putFilter_new {fs : List Agg} {a : Agg} (h : ∀ f ∈ fs, ¬ (f.fromBlock = a.fromBlock ∧ f.toBlock = a.toBlock)) :
    putFilter fs a = fs ++ [a] := by
  unfold putFilter
  rw [if_neg]
  simp only [List.any_eq_true, Bool.and_eq_true, beq_iff_eq]
  rintro ⟨f, hf, h1⟩
  exact h f hf h1

theorem aggregate_prefix {old : Old} {chain : List Body} (h : OldOf c old chain) (k : Nat) (hk : k ≤ chain.length) :
    ∃ s t, Inv c s t ∧ t.chain = chain.take k ∧ t.lo = 0 ∧
      (List.range k).foldlM (aggregateStep c old) (aggNew c 0, []) = some (s.mem.running, s.db.filters) := by
  induction k with
  | zero => exact ⟨initial c, {}, initial_inv c, by simp, rfl, rfl⟩
  | succ k ih =>
    obtain ⟨s, t, i, ht, hlo, hf⟩ := ih (by omega)
    have hlt : k < chain.length := by omega
    have hget : chain[k]? = some chain[k] := List.getElem?_eq_getElem hlt
    have hlen : t.chain.length = k := by rw [ht]; simp; omega
    have htake : chain.take (k + 1) = chain.take k ++ [chain[k]] := by
      rw [List.take_add_one, hget]; rfl
    have hnew : ¬ (t.chain.drop t.lo).any (fun x => x.hash == chain[k].hash) = true := by
      rw [ht, hlo, List.drop_zero, List.any_eq_true]
      rintro ⟨x, hx, he⟩
      have hn := h.hashes
      have hsub : chain.take (k + 1) <+: chain := List.take_prefix _ _
      have hn2 := (hsub.sublist.map (·.hash)).nodup hn
      rw [htake, List.map_append, List.nodup_append] at hn2
      exact hn2.2.2 x.hash (List.mem_map.2 ⟨x, hx, rfl⟩) chain[k].hash (by simp) (by simpa using he)
    obtain ⟨s', hs', i'⟩ := step_block i chain[k]
    have hknown : (s.db.headers.any fun x => x.2 == chain[k].hash) = false := by
      rw [known_eq i.db]
      exact Bool.eq_false_iff.2 hnew
    simp only [Track.step, hnew] at i'
    refine ⟨s', _, i', by rw [htake, ← ht]; rfl, hlo, ?_⟩
    rw [List.range_succ, List.foldlM_append, hf]
    have hbloom : oldBloom c old k = blockBloom c (chain[k].txs.flatMap (·.2)) := by
      unfold oldBloom
      rcases h.blooms k _ hget with h1 | ⟨h1, h2⟩
      · rw [h1]; rfl
      · rw [h1]
        unfold Body.events at h2
        rw [h2]
        rfl
    unfold storeBlock at hs'
    simp only [nextNumber_eq i.db, hlen, hknown] at hs'
    simp only [Bool.false_eq_true, if_false, Option.map_eq_some_iff] at hs'
    obtain ⟨r, hr, rfl⟩ := hs'
    unfold upsertFilters at hr
    rw [Option.map_eq_some_iff] at hr
    obtain ⟨a, ha, har⟩ := hr
    have hgoal : aggregateStep c old (s.mem.running, s.db.filters) k = some (r.2.running, r.1) := by
      unfold aggregateStep
      simp only [hbloom, ha, Option.map_some, Option.some.injEq]
      obtain ⟨-, g2, g3, g4, -, -⟩ := aggInsert_some i.run.1.ok (blockBloom_bit c _).1 ha
      by_cases hto : k = a.toBlock
      · rw [if_pos hto] at har ⊢
        subst har
        simp only
        rw [putFilter_new]
        intro f hf' he
        have := (i.db.fOk f hf').2.2.1
        omega
      · rw [if_neg hto] at har ⊢
        subst har
        rfl
    simp only [List.foldlM_cons, List.foldlM_nil, Option.bind_eq_bind, Option.bind_some, hgoal, Option.pure_def]

theorem max_headers (chain : List Body) :
    ((headersOf chain).map (·.1)).max? = if chain = [] then none else some (chain.length - 1) := by
  unfold headersOf
  rw [List.map_map]
  have hn : chain.zipIdx.map ((fun x : Nat × Nat => x.1) ∘ fun bn => (bn.2, bn.1.hash)) = List.range' 0 chain.length := by
    have := List.zipIdx_map_snd 0 chain
    exact this
  rw [hn]
  by_cases hc : chain = []
  · subst hc; simp
  · rw [if_neg hc]
    have := List.length_pos_iff.2 hc
    rw [List.max?_eq_some_iff]
    simp only [List.mem_range'_1]
    refine ⟨by omega, fun b hb => by omega⟩

theorem old_latest {old : Old} {chain : List Body} (h : OldOf c old chain) :
    old.latest = if chain = [] then none else some (chain.length - 1) := by
  unfold Old.latest
  rw [h.headers, max_headers]

theorem revision66_inv {old : Old} {chain : List Body} (h : OldOf c old chain) :
    ∃ db, revision66 c old = some db ∧ DbInv c db chain 0 := by
  obtain ⟨s, t, i, ht, hlo, hf⟩ := aggregate_prefix h chain.length (Nat.le_refl _)
  rw [List.take_length] at ht
  have hi := i.db
  rw [ht, hlo] at hi
  have hagg : aggregate c old = some s.db.filters := by
    unfold aggregate
    rw [old_latest h]
    by_cases hc : chain = []
    · rw [if_pos hc]
      subst hc
      simp only [List.length_nil, List.range_zero, List.foldlM_nil, Option.pure_def, Option.some.injEq, Prod.mk.injEq] at hf
      rw [← hf.2]
    · rw [if_neg hc]
      have := List.length_pos_iff.2 hc
      simp only
      rw [show chain.length - 1 + 1 = chain.length by omega, hf]
      rfl
  refine ⟨_, by unfold revision66; rw [hagg]; rfl, ?_⟩
  obtain ⟨h1, h2, h3, h4, h5, h6⟩ := hi
  refine ⟨h1, ?_, ?_, h4, h5, h6⟩
  · simp only [h.headers, kept_zero]; rfl
  · simp only [h.txs, kept_zero]; rfl

theorem revision68_inv {db : Db} {chain : List Body} (i : DbInv c db chain 0) :
    ∃ db', revision68 c db = some db' ∧ DbInv c db' chain 0 ∧ db'.stored.2 = chain.length ∧
      Covers c db'.stored.1 chain 0 chain.length ∧ db'.stored.1.fromBlock = chain.length / c.len * c.len ∧
      db'.filters = db.filters := by
  unfold revision68
  rw [i.latest]
  obtain ⟨h1, h2, h3, h4, h5, h6⟩ := i
  by_cases hc : chain = []
  · rw [if_pos hc]
    subst hc
    exact ⟨_, rfl, ⟨h1, h2, h3, h4, h5, h6⟩, rfl, ⟨aggNew_ok c 0, fun n b _ _ _ hn => absurd hn (by simp)⟩, by simp [aggNew], rfl⟩
  · rw [if_neg hc]
    have hpos := List.length_pos_iff.2 hc
    obtain ⟨a, ha, hr⟩ := rebuild_spec (c := c) (db := db) (chain := chain) (lo := 0) ⟨h1, h2, h3, h4, h5, h6⟩ (latest := chain.length - 1) rfl
    simp only [ha, Option.map_some]
    exact ⟨_, rfl, ⟨h1, h2, h3, h4, h5, h6⟩, by simp only; omega, hr.1, hr.2, rfl⟩

/-! ### revision 74 -/

theorem damaged_latest {first : Nat} {db : Db} {chain : List Body} (d : Damaged c first db chain) :
    latestBlock db = if chain = [] then none else some (chain.length - 1) := by
  unfold latestBlock
  rw [d.headers, max_headers]

theorem rebuildRange_spec {db : Db} {chain : List Body} (ht : db.txs = txsOf chain) (from_ : Nat) :
    ∃ a, rebuildRange c db from_ = some a ∧ Covers c a chain 0 chain.length ∧ a.fromBlock = from_ ∧
      a.toBlock = from_ + c.len - 1 := by
  have hp := len_pos c
  obtain ⟨a', h1, h2, h3, -, h5⟩ := rebuild_fold (c := c)
    (db.txs.filter fun r => decide (from_ ≤ r.1) && decide (r.1 ≤ from_ + c.len - 1)) (aggNew c from_) (aggNew_ok c _) (by
      intro r hr
      rw [List.mem_filter] at hr
      simpa [aggNew] using hr.2)
  have h3' : a'.fromBlock = from_ := h3
  have h4 := h2.to
  rw [h3'] at h4
  refine ⟨a', h1, ⟨h2, ?_⟩, h3', h4⟩
  intro n b _ g2 g3 g4 g5 r hr
  have hne : b.txs ≠ [] := by
    intro h
    rw [h] at hr
    obtain ⟨e, he, -⟩ := ((blockBloom_bit c _).2 r).1 hr
    simp at he
  have := h5 (n, b.txs) (by
    rw [List.mem_filter, ht]
    unfold txsOf
    rw [List.mem_map]
    refine ⟨⟨(b, n), ?_, rfl⟩, ?_⟩
    · rw [List.mem_filter]
      refine ⟨List.mem_zipIdx_iff_getElem?.2 g5, by simpa using hne⟩
    · rw [h3'] at g2
      rw [h4] at g3
      simp [g2, g3]) r hr
  rw [h3]
  exact this

/-- What is known of the filters while they are repaired: those that start below `first` or have been rebuilt. -/
structure Mid (c : Cfg) (chain : List Body) (names : List Nat) (done : Nat → Prop) (fs : List Agg) : Prop where
  names : fs.map (·.fromBlock) = names
  shape : ∀ f ∈ fs, f.Ok c ∧ f.fromBlock % c.len = 0 ∧ f.toBlock < chain.length
  good : ∀ f ∈ fs, done f.fromBlock → Covers c f chain 0 chain.length

theorem Mid.set {chain : List Body} {names : List Nat} {done : Nat → Prop} {fs : List Agg} (m : Mid c chain names done fs)
    {a : Agg} (ha : Covers c a chain 0 chain.length) :
    Mid c chain names (fun n => done n ∨ n = a.fromBlock) (setBitmap fs a) := by
  have hmem : ∀ f' ∈ setBitmap fs a, ∃ f ∈ fs, f'.fromBlock = f.fromBlock ∧ f'.toBlock = f.toBlock ∧
      ((f.fromBlock = a.fromBlock ∧ f' = a) ∨ (f.fromBlock ≠ a.fromBlock ∧ f' = f)) := by
    intro f' hf'
    unfold setBitmap at hf'
    obtain ⟨f, hf, rfl⟩ := List.mem_map.1 hf'
    refine ⟨f, hf, ?_⟩
    have h1 := (m.shape f hf).1.to
    have h2 := ha.ok.to
    by_cases he : f.fromBlock = a.fromBlock
    · have ht : f.toBlock = a.toBlock := by omega
      rw [if_pos ⟨he, ht⟩]
      refine ⟨rfl, rfl, .inl ⟨he, ?_⟩⟩
      cases f; cases a
      simp_all
    · rw [if_neg (fun h => he h.1)]
      exact ⟨rfl, rfl, .inr ⟨he, rfl⟩⟩
  refine ⟨?_, ?_, ?_⟩
  · rw [← m.names]
    unfold setBitmap
    rw [List.map_map]
    apply List.map_congr_left
    intro f _
    simp only [Function.comp]
    split <;> rfl
  · intro f' hf'
    obtain ⟨f, hf, h1, h2, h3⟩ := hmem f' hf'
    obtain ⟨g1, g2, g3⟩ := m.shape f hf
    refine ⟨?_, by rw [h1]; exact g2, by rw [h2]; exact g3⟩
    rcases h3 with ⟨-, rfl⟩ | ⟨-, rfl⟩
    · exact ha.ok
    · exact g1
  · intro f' hf' hd
    obtain ⟨f, hf, h1, h2, h3⟩ := hmem f' hf'
    rcases h3 with ⟨-, rfl⟩ | ⟨hne, rfl⟩
    · exact ha
    · rcases hd with hd | hd
      · exact m.good _ hf hd
      · exact absurd hd hne

theorem repair_fold {db : Db} {chain : List Body} (ht : db.txs = txsOf chain) {names : List Nat} (froms : List Nat)
    {done : Nat → Prop} {fs : List Agg} (m : Mid c chain names done fs) :
    ∃ fs', froms.foldlM (repairStep c db) fs = some fs' ∧ Mid c chain names (fun n => done n ∨ n ∈ froms) fs' := by
  induction froms generalizing done fs with
  | nil => exact ⟨fs, rfl, m.names, m.shape, fun f hf hd => m.good f hf (by simpa using hd)⟩
  | cons x froms ih =>
    obtain ⟨a, h1, h2, h3, h4⟩ := rebuildRange_spec (c := c) ht x
    obtain ⟨fs', g1, g2⟩ := ih (m.set h2)
    refine ⟨fs', ?_, g2.names, g2.shape, ?_⟩
    · rw [List.foldlM_cons]
      simp only [repairStep, h1, Option.map_some]
      exact g1
    · intro f hf hd
      apply g2.good f hf
      rw [h3]
      rcases hd with hd | hd
      · exact .inl (.inl hd)
      · rcases List.mem_cons.1 hd with hd | hd
        · exact .inl (.inr hd)
        · exact .inr hd

theorem mem_stepBy {start stop len n : Nat} (hl : 0 < len) :
    n ∈ stepBy start stop len ↔ start ≤ n ∧ n ≤ stop ∧ (n - start) % len = 0 := by
  unfold stepBy
  rw [List.mem_map]
  constructor
  · rintro ⟨i, hi, rfl⟩
    rw [List.mem_range] at hi
    have h1 : (i + 1) * len ≤ stop + len - start := (Nat.le_div_iff_mul_le hl).1 hi
    rw [Nat.add_mul, Nat.one_mul] at h1
    refine ⟨by omega, by omega, ?_⟩
    rw [show start + i * len - start = i * len by omega, Nat.mul_mod_left]
  · rintro ⟨h1, h2, h3⟩
    have h4 := Nat.div_add_mod (n - start) len
    rw [h3, Nat.mul_comm] at h4
    refine ⟨(n - start) / len, ?_, by omega⟩
    rw [List.mem_range]
    apply (Nat.le_div_iff_mul_le hl).2
    show ((n - start) / len + 1) * len ≤ _
    rw [Nat.add_mul, Nat.one_mul]
    omega

theorem damaged_header {first : Nat} {db : Db} {b : Body} {chain : List Body} (d : Damaged c first db (b :: chain)) :
    headerHash db 0 = some b.hash := by
  unfold headerHash
  rw [d.headers]
  simp [headersOf, List.zipIdx_cons]

/-- What revision 74 leaves behind on Sepolia. -/
theorem revision74_result {sepolia first : Nat} {db : Db} {chain : List Body} (d : Damaged c first db chain)
    (hg : ∀ b, chain[0]? = some b → b.hash = sepolia) (hf : first < chain.length) (hlen : c.len ≤ first)
    (hfl : first % c.len = 0) :
    ∃ fs a, revision74 c sepolia first db = some { db with filters := fs, stored := (a, chain.length) } ∧
      Mid c chain (db.filters.map (·.fromBlock)) (fun n => n < first ∨ (first ≤ n ∧ n + c.len ≤ chain.length - 1 - (chain.length - 1) % c.len ∧ n % c.len = 0)) fs ∧
      Covers c a chain 0 chain.length ∧ a.fromBlock = chain.length - 1 - (chain.length - 1) % c.len := by
  have hp := len_pos c
  cases chain with
  | nil => simp at hf
  | cons b chain' =>
    unfold revision74
    rw [damaged_header d, damaged_latest d]
    generalize hch : b :: chain' = chain at *
    have hne : chain ≠ [] := by rw [← hch]; simp
    have hb : b.hash = sepolia := hg b (by rw [← hch]; rfl)
    rw [if_neg hne]
    simp only
    rw [if_neg (by rw [hb]; simp), if_neg (by omega)]
    have hm := Nat.mod_lt (chain.length - 1) hp
    have hd := Nat.div_add_mod (chain.length - 1) c.len
    have hdf := Nat.div_add_mod first c.len
    rw [hfl] at hdf
    have hge : first ≤ chain.length - 1 - (chain.length - 1) % c.len := by
      have h1 : first / c.len ≤ (chain.length - 1) / c.len := Nat.div_le_div_right (by omega)
      have h2 := Nat.mul_le_mul_left c.len h1
      omega
    rw [if_neg (by omega)]
    obtain ⟨fs, h1, h2⟩ := repair_fold (c := c) (db := db) d.txs (stepBy first (chain.length - 1 - c.len - (chain.length - 1) % c.len) c.len)
      (names := db.filters.map (·.fromBlock)) (done := fun n => n < first) (fs := db.filters)
      ⟨rfl, fun f hf => ⟨⟨(d.shape f hf).1, (d.shape f hf).2.2.1⟩, (d.shape f hf).2.1, (d.shape f hf).2.2.2⟩,
        fun f hf hlt => (knows_iff ⟨(d.shape f hf).1, (d.shape f hf).2.2.1⟩).1 (d.good f hf hlt)⟩
    obtain ⟨a, g1, g2, g3, -⟩ := rebuildRange_spec (c := c) d.txs (chain.length - 1 - (chain.length - 1) % c.len)
    refine ⟨fs, a, ?_, ⟨h2.names, h2.shape, ?_⟩, g2, g3⟩
    · rw [h1, g1]
      simp only [Option.bind_some, Option.map_some]
      rw [show chain.length - 1 + 1 = chain.length by omega]
    · intro f hfm hdone
      apply h2.good f hfm
      rcases hdone with h | ⟨e1, e2, e3⟩
      · exact .inl h
      · right
        rw [mem_stepBy hp]
        refine ⟨e1, by omega, ?_⟩
        have e4 := Nat.div_add_mod f.fromBlock c.len
        rw [e3] at e4
        have : f.fromBlock - first = c.len * (f.fromBlock / c.len - first / c.len) := by
          rw [Nat.mul_sub]; omega
        rw [this, Nat.mul_mod_right]

theorem head_of_range {L len : Nat} (hp : 0 < len) (h : L % len ≠ 0) : L - 1 - (L - 1) % len = L / len * len := by
  have hm := Nat.mod_lt L hp
  have hd := Nat.div_add_mod L len
  have h1 := Nat.mod_lt (L - 1) hp
  have h2 := Nat.div_add_mod (L - 1) len
  have h3 : (L - 1) / len = L / len := by
    rcases Nat.lt_or_ge ((L - 1) % len + 1) len with hlt | hge
    · have := div_next_same hp hlt
      rw [show L - 1 + 1 = L by
        have : L ≠ 0 := by intro e; subst e; simp at h
        omega] at this
      exact this.symm
    · exfalso
      have hw := div_next_wrap hp (show (L - 1) % len + 1 = len by omega)
      have hL : L - 1 + 1 = L := by
        have : L ≠ 0 := by intro e; subst e; simp at h
        omega
      rw [hL] at hw
      apply h
      rw [← hw, Nat.mul_mod_left]
  rw [h3] at h2
  rw [Nat.mul_comm]
  omega

theorem revision74_inv {sepolia first : Nat} {db : Db} {chain : List Body} (d : Damaged c first db chain)
    (hg : ∀ b, chain[0]? = some b → b.hash = sepolia) (hf : first < chain.length) (hlen : c.len ≤ first)
    (hfl : first % c.len = 0) (hend : chain.length % c.len ≠ 0) :
    ∃ db', revision74 c sepolia first db = some db' ∧ DbInv c db' chain 0 ∧ db'.stored.2 = chain.length ∧
      Covers c db'.stored.1 chain 0 chain.length ∧ db'.stored.1.fromBlock = chain.length / c.len * c.len := by
  have hp := len_pos c
  obtain ⟨fs, a, h1, m, h3, h4⟩ := revision74_result d hg hf hlen hfl
  have hh := head_of_range hp hend
  rw [hh] at h4 m
  refine ⟨_, h1, ⟨?_, ?_, ?_, ?_, ?_, ?_⟩, rfl, h3, h4⟩
  · exact .inl (by omega)
  · simp only [d.headers, kept_zero]; rfl
  · simp only [d.txs, kept_zero]; rfl
  · intro f hfm
    obtain ⟨g1, g2, g3⟩ := m.shape f hfm
    refine ⟨m.good f hfm ?_, g2, g3, Nat.zero_le _⟩
    by_cases hlt : f.fromBlock < first
    · exact .inl hlt
    · refine .inr ⟨by omega, ?_, g2⟩
      have e := Nat.div_add_mod f.fromBlock c.len
      rw [g2, Nat.mul_comm] at e
      have e2 := Nat.div_add_mod chain.length c.len
      rw [Nat.mul_comm] at e2
      have e3 := Nat.mod_lt chain.length hp
      have e4 := g1.to
      have hlt : f.fromBlock / c.len < chain.length / c.len := by
        apply Nat.lt_of_not_le
        intro hle
        have := Nat.mul_le_mul_right c.len hle
        omega
      have := Nat.mul_le_mul_right c.len (Nat.succ_le_of_lt hlt)
      rw [Nat.succ_eq_add_one, Nat.add_mul, Nat.one_mul] at this
      omega
  · intro k hk _
    obtain ⟨f, hfm, hff⟩ := d.all k hk
    have : f.fromBlock ∈ fs.map (·.fromBlock) := by rw [m.names]; exact List.mem_map.2 ⟨f, hfm, rfl⟩
    obtain ⟨f', hf', he⟩ := List.mem_map.1 this
    exact ⟨f', hf', by rw [he, hff]⟩
  · simp only
    rw [m.names]
    exact d.one

theorem damaged_of_inv {db : Db} {chain : List Body} (first : Nat) (i : DbInv c db chain 0) : Damaged c first db chain := by
  refine ⟨?_, ?_, ?_, ?_, i.fNodup, ?_⟩
  · rw [i.headers, kept_zero]; rfl
  · rw [i.txs, kept_zero]; rfl
  · intro f hf
    obtain ⟨h1, h2, h3, -⟩ := i.fOk f hf
    exact ⟨h1.ok.len, h2, h1.ok.to, h3⟩
  · intro k hk
    exact i.fAll k hk (by have := len_pos c; omega)
  · intro f hf _
    exact (knows_iff (i.fOk f hf).1.ok).2 (i.fOk f hf).1

end Verif.Upgrade
