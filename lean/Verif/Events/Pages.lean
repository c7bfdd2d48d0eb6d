import Verif.Events.Steps
/-
Sessions: following the tokens.
-/
namespace Verif.Events

/-! ### trimmed keys -/

theorem trimKeys_split (keys : List (List Felt)) : ∃ es, keys = trimKeys keys ++ es ∧ (∀ g ∈ es, g = []) ∧
    ((∀ g ∈ trimKeys keys, g = []) ∨ ∃ ks g, trimKeys keys = ks ++ [g] ∧ g ≠ []) := by
  unfold trimKeys
  have hsplit := List.takeWhile_append_dropWhile (p := List.isEmpty) (l := keys.reverse)
  cases h : keys.reverse.dropWhile List.isEmpty with
  | nil =>
    rw [h, List.append_nil] at hsplit
    refine ⟨[], by simp, by simp, .inl ?_⟩
    intro g hg
    have : g ∈ keys.reverse.takeWhile List.isEmpty := by rw [hsplit]; simpa using hg
    have := List.all_takeWhile (p := List.isEmpty) (l := keys.reverse)
    rw [List.all_eq_true] at this
    exact List.isEmpty_iff.1 (this g ‹_›)
  | cons r rs =>
    rw [h] at hsplit
    refine ⟨(keys.reverse.takeWhile List.isEmpty).reverse, ?_, ?_, .inr ⟨rs.reverse, r, by simp, ?_⟩⟩
    · have := congrArg List.reverse hsplit
      rw [List.reverse_append, List.reverse_reverse] at this
      exact this.symm
    · intro g hg
      rw [List.mem_reverse] at hg
      have := List.all_takeWhile (p := List.isEmpty) (l := keys.reverse)
      rw [List.all_eq_true] at this
      exact List.isEmpty_iff.1 (this g hg)
    · intro e
      have := List.head_dropWhile_not List.isEmpty (l := keys.reverse) (by rw [h]; simp)
      simp only [h, List.head_cons] at this
      rw [e] at this
      simp at this

theorem wanted_trim (addrs : List Felt) (keys : List (List Felt)) (e : Event) : wanted addrs (trimKeys keys) e = wanted addrs keys e := by
  obtain ⟨es, he, hnil, -⟩ := trimKeys_split keys
  unfold wanted
  congr 1
  rw [Bool.eq_iff_iff, List.all_eq_true, List.all_eq_true]
  constructor
  · intro h gi hgi
    rw [List.mem_zipIdx_iff_getElem?] at hgi
    rw [he] at hgi
    by_cases hlt : gi.2 < (trimKeys keys).length
    · rw [List.getElem?_append_left hlt] at hgi
      exact h gi (by rw [List.mem_zipIdx_iff_getElem?]; exact hgi)
    · rw [List.getElem?_append_right (by omega)] at hgi
      rw [hnil gi.1 (List.mem_of_getElem? hgi)]
      simp
  · intro h gi hgi
    rw [List.mem_zipIdx_iff_getElem?] at hgi
    refine h gi ?_
    rw [List.mem_zipIdx_iff_getElem?, he, List.getElem?_append_left (List.getElem?_eq_some_iff.1 hgi).1]
    exact hgi

theorem trimKeys_length (keys : List (List Felt)) : (trimKeys keys).length ≤ keys.length := by
  obtain ⟨es, he, -, -⟩ := trimKeys_split keys
  have := congrArg List.length he
  rw [List.length_append] at this
  omega

theorem hitsIn_trim (chain : List Body) (addrs : List Felt) (keys : List (List Felt)) (n : Nat) :
    hitsIn chain addrs (trimKeys keys) n = wantedIn chain addrs keys n := by
  obtain ⟨es, he, -, ht⟩ := trimKeys_split keys
  unfold hitsIn wantedIn
  cases chain[n]? with
  | none => rfl
  | some b =>
    simp only
    congr 1
    funext e
    rw [matches_eq addrs (trimKeys keys) e.event ht, wanted_trim]

theorem hitsBetween_trim (chain : List Body) (addrs : List Felt) (keys : List (List Felt)) (a b : Nat) :
    hitsBetween chain addrs (trimKeys keys) a b = answer chain addrs keys a b := by
  unfold hitsBetween answer
  congr 1
  funext n
  exact hitsIn_trim chain addrs keys n

/-! ### answers -/

theorem answer_split (chain : List Body) (addrs : List Felt) (keys : List (List Felt)) {a m b : Nat} (h1 : a ≤ m + 1) (h2 : m ≤ b) :
    answer chain addrs keys a b = answer chain addrs keys a m ++ answer chain addrs keys (m + 1) b := by
  unfold answer
  rw [← List.flatMap_append]
  congr 1
  rw [show b + 1 - a = (m + 1 - a) + (b + 1 - (m + 1)) by omega, ← List.range'_append_1]
  congr 2
  omega

theorem answer_empty (chain : List Body) (addrs : List Felt) (keys : List (List Felt)) {a b : Nat} (h : b < a) :
    answer chain addrs keys a b = [] := by
  unfold answer
  rw [show b + 1 - a = 0 by omega]
  rfl

theorem answer_congr {chain chain' : List Body} (addrs : List Felt) (keys : List (List Felt)) {a b : Nat}
    (h : ∀ n, a ≤ n → n ≤ b → chain'[n]? = chain[n]?) : answer chain' addrs keys a b = answer chain addrs keys a b := by
  unfold answer
  rw [List.flatMap_def, List.flatMap_def]
  congr 1
  apply List.map_congr_left
  intro n hn
  rw [List.mem_range'_1] at hn
  unfold wantedIn
  rw [h n (by omega) (by omega)]

theorem answer_beyond (chain : List Body) (addrs : List Felt) (keys : List (List Felt)) {a b : Nat} (h : chain.length ≤ a) :
    answer chain addrs keys a b = [] := by
  unfold answer
  rw [List.flatMap_eq_nil_iff]
  intro n hn
  rw [List.mem_range'_1] at hn
  unfold wantedIn
  rw [List.getElem?_eq_none (by omega)]

theorem answer_clip (chain : List Body) (addrs : List Felt) (keys : List (List Felt)) (a b : Nat) :
    answer chain addrs keys a (min b (chain.length - 1)) = answer chain addrs keys a b := by
  by_cases hc : chain = []
  · subst hc
    rw [answer_beyond _ _ _ (by simp), answer_beyond _ _ _ (by simp)]
  have hpos := List.length_pos_iff.2 hc
  by_cases h : b ≤ chain.length - 1
  · rw [Nat.min_eq_left h]
  · rw [Nat.min_eq_right (by omega)]
    by_cases ha : a ≤ chain.length - 1 + 1
    · rw [answer_split chain addrs keys ha (show chain.length - 1 ≤ b by omega), answer_beyond chain addrs keys (a := chain.length - 1 + 1) (by omega)]
      simp
    · rw [answer_empty _ _ _ (by omega), answer_beyond _ _ _ (by omega)]

/-! ### one page -/

def startOf (q : Constraints) : Option Token → Token
  | none => ⟨q.fromBlock.getD 0, 0⟩
  | some t => t

/-- The last block, at most the head. -/
def headOf (chain : List Body) (to : Option Nat) : Nat := queryTo (chain.length - 1) to

theorem answer_head (chain : List Body) (addrs : List Felt) (keys : List (List Felt)) (a : Nat) (to : Option Nat) :
    answer chain addrs keys a (headOf chain to) = answer chain addrs keys a (lastOf chain to) := by
  unfold headOf lastOf queryTo
  cases to with
  | none => rfl
  | some t => exact answer_clip ..

/-- The offset of a token is inside the window that is scanned. -/
def Valid (chain : List Body) (limit : Nat) (q : Constraints) (t : Token) : Prop :=
  t.offset ≤ (answer chain q.addrs q.keys t.block (min (headOf chain q.toBlock) (t.block + limit - 1))).length

theorem pageAt_eq (c : Cfg) (limit : Nat) (q : Constraints) (s : Sys) (tok : Option Token) : ∃ f, f.getD 0 = (startOf q tok).block ∧
    pageAt c limit q s tok = (events c s.db s.mem false limit
      { q with keys := trimKeys q.keys, fromBlock := f, offset := (startOf q tok).offset }).1 := by
  cases tok with
  | none => exact ⟨q.fromBlock, rfl, rfl⟩
  | some t => exact ⟨some t.block, rfl, rfl⟩

/-- One page: its events and what the token stands for are what was asked for. -/
theorem page_step {c : Cfg} {s : Sys} {chain : List Body} (v : View c s.db s.mem chain 0) (limit : Nat) (hl : 1 ≤ limit)
    (q : Constraints) (hp : 1 ≤ q.pageSize) (hk : q.keys.length ≤ keyLimit) (tok : Option Token) (hv : Valid chain limit q (startOf q tok)) :
    ∃ page, pageAt c limit q s tok = .ok page ∧ page.events.length ≤ q.pageSize ∧
      let p := startOf q tok
      let rest (t : Token) := (answer chain q.addrs q.keys t.block (headOf chain q.toBlock)).drop t.offset
      (page.token = none → rest p = page.events) ∧
      ∀ t, page.token = some t → chain ≠ [] ∧ rest p = page.events ++ rest t ∧ Valid chain limit q t ∧
        p.block ≤ t.block ∧ t.block ≤ headOf chain q.toBlock ∧ (p.block = t.block → p.offset < t.offset) := by
  obtain ⟨f, hf, hpage⟩ := pageAt_eq c limit q s tok
  rw [hpage]
  generalize startOf q tok = p at *
  by_cases hne : chain = []
  · refine ⟨⟨[], none⟩, ?_, by simp, ?_, by simp⟩
    · unfold events
      rw [if_neg (by simp only; omega), v.latest, if_pos hne]
    · intro _
      simp only
      rw [answer_beyond _ _ _ (by rw [hne]; simp)]
      simp
  have hcpos : 0 < chain.length := List.length_pos_iff.2 hne
  have hev := events_spec v limit hl { q with keys := trimKeys q.keys, fromBlock := f, offset := p.offset } hp
    (Nat.le_trans (trimKeys_length _) hk) hne p.block (headOf chain q.toBlock) rfl hf.symm (Nat.zero_le _)
  simp only [hitsBetween_trim, hitsIn_trim] at hev
  obtain ⟨page, h1, h2, h3, h4⟩ := hev
  unfold Valid at hv
  generalize hhead : headOf chain q.toBlock = to at *
  generalize hlim : min to (p.block + limit - 1) = lim at *
  refine ⟨page, h1, by rw [h2, List.length_take]; omega, ?_⟩
  by_cases hfull : q.pageSize < ((answer chain q.addrs q.keys p.block lim).drop p.offset).length
  · obtain ⟨t, g1, g2, g3, g4, g5, g6⟩ := h4 hfull
    clear h4
    refine ⟨fun h => by rw [g1] at h; simp at h, ?_⟩
    intro t' ht'
    rw [g1, Option.some.injEq] at ht'
    subst ht'
    have hple : p.block ≤ lim := by omega
    have hs1 := answer_split chain q.addrs q.keys (a := p.block) (m := lim) (b := to) (by omega) (by omega)
    have hs2 := answer_split chain q.addrs q.keys (a := t.block) (m := lim) (b := to) (by omega) (by omega)
    refine ⟨hne, ?_, ?_, g2, by omega, ?_⟩
    · simp only
      rw [hs1, hs2, List.drop_append_of_le_length hv, List.drop_append_of_le_length (by omega), g4, h2, ← List.append_assoc,
        List.take_append_drop]
    · unfold Valid
      rw [hhead]
      have hs3 := answer_split chain q.addrs q.keys (a := t.block) (m := lim) (b := min to (t.block + limit - 1)) (by omega) (by omega)
      rw [hs3, List.length_append]
      omega
    · intro e
      rcases g6 with ⟨-, h⟩ | ⟨h, -⟩
      · omega
      · omega
  · clear h4
    have htok := h3 (by omega)
    have hevs : page.events = (answer chain q.addrs q.keys p.block lim).drop p.offset := by
      rw [h2, List.take_of_length_le (by omega)]
    by_cases hlt : lim < to
    · rw [if_pos hlt] at htok
      refine ⟨fun h => by rw [htok] at h; simp at h, ?_⟩
      intro t' ht'
      rw [htok, Option.some.injEq] at ht'
      subst ht'
      have hs1 := answer_split chain q.addrs q.keys (a := p.block) (m := lim) (b := to) (by omega) (by omega)
      refine ⟨hne, ?_, ?_, by simp only; omega, by simp only; omega, by simp only; omega⟩
      · simp only
        rw [hs1, List.drop_append_of_le_length hv, hevs, List.drop_zero]
      · unfold Valid; simp
    · rw [if_neg hlt] at htok
      refine ⟨fun _ => ?_, fun t ht => by rw [htok] at ht; simp at ht⟩
      simp only
      have : lim = to := by omega
      rw [hevs, this]

/-! ### growing chains -/

theorem prefix_get {α : Type} {l l' : List α} (h : l <+: l') {n : Nat} (hn : n < l.length) : l'[n]? = l[n]? := by
  obtain ⟨r, rfl⟩ := h
  exact List.getElem?_append_left hn

theorem headOf_lt {chain : List Body} (h : chain ≠ []) (to : Option Nat) : headOf chain to < chain.length := by
  have := List.length_pos_iff.2 h
  unfold headOf queryTo
  split <;> omega

theorem headOf_mono {chain chain' : List Body} (h : chain <+: chain') (to : Option Nat) : headOf chain to ≤ headOf chain' to := by
  have := h.length_le
  unfold headOf queryTo
  split <;> omega

theorem Valid.grow {chain chain' : List Body} {limit : Nat} {q : Constraints} {t : Token} (h : chain <+: chain') (hne : chain ≠ [])
    (hb : t.block ≤ headOf chain q.toBlock) (hl : 1 ≤ limit) (hv : Valid chain limit q t) : Valid chain' limit q t := by
  unfold Valid at *
  have h1 := headOf_mono h q.toBlock
  have h2 := headOf_lt hne q.toBlock
  rw [answer_split chain' q.addrs q.keys (a := t.block) (m := min (headOf chain q.toBlock) (t.block + limit - 1)) (by omega) (by omega)]
  rw [answer_congr (chain := chain) q.addrs q.keys (fun n _ hn => prefix_get h (by omega)), List.length_append]
  omega

theorem rest_grow {chain chain' : List Body} {q : Constraints} {p t : Token} {evs : List Emitted} (h : chain <+: chain') (hne : chain ≠ [])
    (hpb : p.block ≤ headOf chain q.toBlock) (htb : t.block ≤ headOf chain q.toBlock)
    (hpo : p.offset ≤ (answer chain q.addrs q.keys p.block (headOf chain q.toBlock)).length)
    (hto : t.offset ≤ (answer chain q.addrs q.keys t.block (headOf chain q.toBlock)).length)
    (he : (answer chain q.addrs q.keys p.block (headOf chain q.toBlock)).drop p.offset =
      evs ++ (answer chain q.addrs q.keys t.block (headOf chain q.toBlock)).drop t.offset) :
    (answer chain' q.addrs q.keys p.block (headOf chain' q.toBlock)).drop p.offset =
      evs ++ (answer chain' q.addrs q.keys t.block (headOf chain' q.toBlock)).drop t.offset := by
  have h1 := headOf_mono h q.toBlock
  have h2 := headOf_lt hne q.toBlock
  have hc : ∀ a, answer chain' q.addrs q.keys a (headOf chain q.toBlock) = answer chain q.addrs q.keys a (headOf chain q.toBlock) :=
    fun a => answer_congr q.addrs q.keys fun n _ hn => prefix_get h (by omega)
  rw [answer_split chain' q.addrs q.keys (a := p.block) (m := headOf chain q.toBlock) (by omega) h1,
    answer_split chain' q.addrs q.keys (a := t.block) (m := headOf chain q.toBlock) (by omega) h1, hc, hc,
    List.drop_append_of_le_length hpo, List.drop_append_of_le_length hto, he, List.append_assoc]

theorem Valid.le_all {chain : List Body} {limit : Nat} {q : Constraints} {t : Token} (hb : t.block ≤ headOf chain q.toBlock) (hl : 1 ≤ limit)
    (hv : Valid chain limit q t) : t.offset ≤ (answer chain q.addrs q.keys t.block (headOf chain q.toBlock)).length := by
  unfold Valid at hv
  rw [answer_split chain q.addrs q.keys (a := t.block) (m := min (headOf chain q.toBlock) (t.block + limit - 1)) (by omega) (by omega),
    List.length_append]
  omega

theorem Reached.view {c : Cfg} {ops : List Op} {s : Sys} (h : Reached c ops s) : View c s.db s.mem (Track.run ops).chain 0 := by
  obtain ⟨s', h1, h2⟩ := run_inv (c := c) h.crashOk
  rw [h.run, Option.some.injEq] at h1
  subst h1
  have := h2.view
  rw [h.archive] at this
  exact this

/-- A whole session over growing chains. -/
theorem paged_spec {c : Cfg} {limit : Nat} (hl : 1 ≤ limit) {q : Constraints} (hp : 1 ≤ q.pageSize) (hk : q.keys.length ≤ keyLimit)
    {tok : Option Token} {evs : List Emitted} (ws : List (List Op × Sys)) (hpg : Paged c limit q tok (ws.map (·.2)) evs)
    (hw : ∀ w ∈ ws, Reached c w.1 w.2)
    (hg : ws.Pairwise fun w w' => (Track.run w.1).chain <+: (Track.run w'.1).chain)
    (hv : ∀ w, ws.head? = some w → Valid (Track.run w.1).chain limit q (startOf q tok)) :
    ∃ w, ws.getLast? = some w ∧ evs = (answer (Track.run w.1).chain q.addrs q.keys (startOf q tok).block
      (headOf (Track.run w.1).chain q.toBlock)).drop (startOf q tok).offset := by
  generalize hss : ws.map (·.2) = ss at hpg
  induction hpg generalizing ws with
  | last h =>
    match ws, hss with
    | [w], hss =>
      simp only [List.map_cons, List.map_nil, List.cons.injEq, and_true] at hss
      subst hss
      obtain ⟨page, h1, h2, h3, h4⟩ := page_step (hw w (by simp)).view limit hl q hp hk _ (hv w rfl)
      rw [h] at h1
      simp only [Except.ok.injEq] at h1
      subst h1
      exact ⟨w, rfl, (h3 rfl).symm⟩
  | @more tok' s' evs' rest t ss' h hr ih =>
    cases ws with
    | nil => simp at hss
    | cons w ws =>
      simp only [List.map_cons, List.cons.injEq] at hss
      obtain ⟨rfl, hss'⟩ := hss
      obtain ⟨page, h1, h2, h3, h4⟩ := page_step (hw w (by simp)).view limit hl q hp hk _ (hv w rfl)
      rw [h] at h1
      simp only [Except.ok.injEq] at h1
      subst h1
      obtain ⟨g1, g2, g3, g4, g5, g6⟩ := h4 t rfl
      rw [List.pairwise_cons] at hg
      obtain ⟨w', hw', hrest⟩ := ih ws (fun x hx => hw x (by simp [hx])) hg.2 (by
        intro x hx
        exact g3.grow (hg.1 x (List.mem_of_mem_head? hx)) g1 g5 hl) hss'
      have hwm : w' ∈ ws := List.mem_of_getLast? hw'
      have hwne : ws ≠ [] := List.ne_nil_of_mem hwm
      refine ⟨w', ?_, ?_⟩
      · rw [List.getLast?_cons, hw']; rfl
      · rw [hrest]
        have hpb : (startOf q tok').block ≤ headOf (Track.run w.1).chain q.toBlock := by omega
        exact (rest_grow (hg.1 w' hwm) g1 hpb g5 ((hv w rfl).le_all hpb hl) (g3.le_all g5 hl) g2).symm

/-! ### termination -/

/-- A bounded sequence of numbers has a maximum. -/
theorem exists_max (f : Nat → Nat) (B : Nat) (h : ∀ i, f i ≤ B) : ∃ N, ∀ i, f i ≤ f N := by
  induction B with
  | zero => exact ⟨0, fun i => by have := h i; have := h 0; omega⟩
  | succ B ih =>
    by_cases hB : ∃ N, f N = B + 1
    · obtain ⟨N, hN⟩ := hB
      exact ⟨N, fun i => by have := h i; omega⟩
    · exact ih fun i => by
        have := h i
        have : f i ≠ B + 1 := fun e => hB ⟨i, e⟩
        omega

theorem terminates_aux {c : Cfg} {limit : Nat} (hl : 1 ≤ limit) {q : Constraints} (hp : 1 ≤ q.pageSize) (hk : q.keys.length ≤ keyLimit)
    (w : Nat → List Op × Sys) (hw : ∀ i, Reached c (w i).1 (w i).2)
    (hg : ∀ i, (Track.run (w i).1).chain <+: (Track.run (w (i + 1)).1).chain) (F : List Body)
    (hF : ∀ i n, n ≤ headOf (Track.run (w i).1).chain q.toBlock → (Track.run (w i).1).chain ≠ [] →
      (Track.run (w i).1).chain[n]? = F[n]? ∧ n < F.length)
    (x y i : Nat) (tok : Option Token) (hv : Valid (Track.run (w i).1).chain limit q (startOf q tok))
    (hx : F.length - (startOf q tok).block ≤ x)
    (hy : (answer F q.addrs q.keys (startOf q tok).block F.length).length - (startOf q tok).offset ≤ y) :
    ∃ k evs, Paged c limit q tok ((List.range' i k).map fun j => (w j).2) evs := by
  induction x using Nat.strongRecOn generalizing y i tok with
  | _ x ihx =>
  induction y using Nat.strongRecOn generalizing i tok with
  | _ y ihy =>
  obtain ⟨page, h1, h2, h3, h4⟩ := page_step (hw i).view limit hl q hp hk tok hv
  obtain ⟨evs, ptok⟩ := page
  cases ptok with
  | none => exact ⟨1, evs, .last h1⟩
  | some t =>
    obtain ⟨g1, g2, g3, g4, g5, g6⟩ := h4 t rfl
    have hv' := g3.grow (hg i) g1 g5 hl
    have htF := (hF i t.block g5 g1).2
    have hcomp : ∃ k evs, Paged c limit q (some t) ((List.range' (i + 1) k).map fun j => (w j).2) evs := by
      by_cases hb : (startOf q tok).block = t.block
      · have ho := g6 hb
        -- the offset stays inside what there is
        have hoF : t.offset ≤ (answer F q.addrs q.keys t.block F.length).length := by
          have := g3.le_all g5 hl
          rw [answer_congr (chain := F) q.addrs q.keys (fun n _ hn => (hF i n hn g1).1)] at this
          have hh := (hF i _ (Nat.le_refl _) g1).2
          rw [answer_split F q.addrs q.keys (a := t.block) (m := headOf (Track.run (w i).1).chain q.toBlock) (by omega) (by omega),
            List.length_append]
          omega
        rw [hb] at hx hy
        exact ihy ((answer F q.addrs q.keys t.block F.length).length - t.offset) (by omega) (i + 1) (some t) hv' hx (Nat.le_refl _)
      · exact ihx (F.length - t.block) (by omega) _ (i + 1) (some t) hv' (Nat.le_refl _) (Nat.le_refl _)
    obtain ⟨k, rest, hk'⟩ := hcomp
    exact ⟨k + 1, evs ++ rest, by rw [List.range'_succ, List.map_cons]; exact .more h1 hk'⟩

end Verif.Events
