import Verif.Agree.Spec

/-! # The tables refine the list of blocks (C108) -/

namespace Verif.Agree

theorem insertHashes_some : ∀ (rs tbl out : List HashRow), insertHashes tbl rs = some out →
    (tbl.map HashRow.hash).Nodup → out = tbl ++ rs ∧ (out.map HashRow.hash).Nodup := by
  intro rs
  induction rs with
  | nil => intro tbl out h hn; simp only [insertHashes, Option.some.injEq] at h; subst h; simp [hn]
  | cons r rs ih =>
    intro tbl out h hn
    simp only [insertHashes] at h
    split at h
    · exact absurd h (by simp)
    · rename_i hany
      have hnew : ∀ x ∈ tbl, x.hash ≠ r.hash := by
        intro x hx he
        exact hany (by rw [List.any_eq_true]; exact ⟨x, hx, by simp [he]⟩)
      have hn' : ((tbl ++ [r]).map HashRow.hash).Nodup := by
        rw [List.map_append, List.nodup_append]
        refine ⟨hn, by simp, ?_⟩
        intro a ha b hb
        rw [List.mem_map] at ha
        obtain ⟨x, hx, rfl⟩ := ha
        simp at hb
        subst hb
        exact hnew x hx
      obtain ⟨e, hd⟩ := ih _ _ h hn'
      exact ⟨by rw [e]; simp, hd⟩

theorem hashRows_num (n : Nat) : ∀ (data : List (Tx × Nat)) (i : Nat),
    ∀ r ∈ hashRows n i data, r.num = n := by
  intro data
  induction data with
  | nil => intro i r hr; simp [hashRows] at hr
  | cons p rest ih =>
    intro i r hr
    simp only [hashRows, List.mem_cons] at hr
    rcases hr with rfl | hr
    · rfl
    · exact ih _ _ hr

theorem hashRows_filter_same (n i : Nat) (data : List (Tx × Nat)) :
    (hashRows n i data).filter (fun r => r.num == n) = hashRows n i data := by
  rw [List.filter_eq_self]
  intro r hr
  simp [hashRows_num n data i r hr]

theorem hashRows_filter_other (n m i : Nat) (hne : n ≠ m) (data : List (Tx × Nat)) :
    (hashRows n i data).filter (fun r => r.num == m) = [] := by
  rw [List.filter_eq_nil_iff]
  intro r hr
  simp [hashRows_num n data i r hr, hne]

theorem hashRows_hash (n : Nat) : ∀ (data : List (Tx × Nat)) (i : Nat),
    (hashRows n i data).map HashRow.hash = data.map fun p => p.1.hash := by
  intro data
  induction data with
  | nil => intro i; rfl
  | cons p rest ih => intro i; simp [hashRows, ih]

theorem hashRows_idx_ge (n : Nat) : ∀ (data : List (Tx × Nat)) (i : Nat),
    ∀ r ∈ hashRows n i data, i ≤ r.idx := by
  intro data
  induction data with
  | nil => intro i r hr; simp [hashRows] at hr
  | cons p rest ih =>
    intro i r hr
    simp only [hashRows, List.mem_cons] at hr
    rcases hr with rfl | hr
    · exact Nat.le_refl _
    · have := ih _ _ hr; omega

theorem putByIdx_first (r : HashRow) (rs : List HashRow) (h : ∀ x ∈ rs, r.idx ≤ x.idx) :
    putByIdx r rs = r :: rs := by
  cases rs with
  | nil => rfl
  | cons x xs => simp [putByIdx, h x (by simp)]

theorem orderByIdx_hashRows (n : Nat) : ∀ (data : List (Tx × Nat)) (i : Nat),
    orderByIdx (hashRows n i data) = hashRows n i data := by
  intro data
  induction data with
  | nil => intro i; rfl
  | cons p rest ih =>
    intro i
    simp only [hashRows, orderByIdx]
    rw [ih]
    apply putByIdx_first
    intro x hx
    have := hashRows_idx_ge n rest (i + 1) x hx
    simp only
    omega

theorem hashRows_mem (n : Nat) : ∀ (data : List (Tx × Nat)) (i : Nat) (r : HashRow),
    r ∈ hashRows n i data → ∃ p, data[r.idx - i]? = some p ∧ p.1.hash = r.hash ∧ i ≤ r.idx := by
  intro data
  induction data with
  | nil => intro i r hr; simp [hashRows] at hr
  | cons p rest ih =>
    intro i r hr
    simp only [hashRows, List.mem_cons] at hr
    rcases hr with rfl | hr
    · exact ⟨p, by simp, rfl, Nat.le_refl _⟩
    · obtain ⟨q, hq, he, hle⟩ := ih _ _ hr
      refine ⟨q, ?_, he, by omega⟩
      have : r.idx - i = (r.idx - (i + 1)) + 1 := by omega
      rw [this]
      simpa using hq

theorem hashRows_get (n : Nat) : ∀ (data : List (Tx × Nat)) (i k : Nat) (p : Tx × Nat),
    data[k]? = some p → (⟨p.1.hash, n, i + k⟩ : HashRow) ∈ hashRows n i data := by
  intro data
  induction data with
  | nil => intro i k p h; simp at h
  | cons q rest ih =>
    intro i k p h
    cases k with
    | zero => simp at h; subst h; simp [hashRows]
    | succ k =>
      simp only [List.getElem?_cons_succ] at h
      have := ih (i + 1) k p h
      simp only [hashRows, List.mem_cons]
      right
      have e : i + 1 + k = i + (k + 1) := by omega
      rw [e] at this
      exact this

/-- The tables hold exactly the blocks. -/
structure Rel (db : DB) (bs : List Blk) (p : Option Nat) : Prop where
  headers : db.headers = bs.map Blk.hdr
  l1 : db.l1 = p
  nums : (bs.map fun b => b.hdr.num).Nodup
  bhash : (bs.map fun b => b.hdr.hash).Nodup
  rows : ∀ b ∈ bs, (db.rows.find? fun r => r.num == b.hdr.num) =
    b.body.map fun q => ⟨b.hdr.num, q.1, q.2⟩
  rowOf : ∀ r ∈ db.rows, ∃ b ∈ bs, b.hdr.num = r.num
  hashes : ∀ b ∈ bs, (db.hashes.filter fun r => r.num == b.hdr.num) = hashRows b.hdr.num 0 b.txs
  hashOf : ∀ r ∈ db.hashes, ∃ b ∈ bs, b.hdr.num = r.num
  thash : (db.hashes.map HashRow.hash).Nodup

theorem rel_empty : Rel DB.empty [] none := by
  constructor <;> simp [DB.empty]

theorem nodup_num_eq {bs : List Blk} (h : (bs.map fun b => b.hdr.num).Nodup) {a b : Blk}
    (ha : a ∈ bs) (hb : b ∈ bs) (e : a.hdr.num = b.hdr.num) : a = b := by
  induction bs with
  | nil => simp at ha
  | cons c cs ih =>
    simp only [List.map_cons, List.nodup_cons, List.mem_map, not_exists, not_and] at h
    rcases List.mem_cons.1 ha with ea | ha'
    · rcases List.mem_cons.1 hb with eb | hb'
      · rw [ea, eb]
      · rw [ea] at e; exact absurd e.symm (h.1 b hb')
    · rcases List.mem_cons.1 hb with eb | hb'
      · rw [eb] at e; exact absurd e (h.1 a ha')
      · exact ih h.2 ha' hb'

theorem nodup_hash_eq {bs : List Blk} (h : (bs.map fun b => b.hdr.hash).Nodup) {a b : Blk}
    (ha : a ∈ bs) (hb : b ∈ bs) (e : a.hdr.hash = b.hdr.hash) : a = b := by
  induction bs with
  | nil => simp at ha
  | cons c cs ih =>
    simp only [List.map_cons, List.nodup_cons, List.mem_map, not_exists, not_and] at h
    rcases List.mem_cons.1 ha with ea | ha'
    · rcases List.mem_cons.1 hb with eb | hb'
      · rw [ea, eb]
      · rw [ea] at e; exact absurd e.symm (h.1 b hb')
    · rcases List.mem_cons.1 hb with eb | hb'
      · rw [eb] at e; exact absurd e (h.1 a ha')
      · exact ih h.2 ha' hb'

theorem rel_header {db db' : DB} {bs : List Blk} {p : Option Nat} {h : Hdr}
    (R : Rel db bs p) (e : insertHeader db h = some db') : Rel db' (bs ++ [⟨h, none⟩]) p := by
  simp only [insertHeader] at e
  split at e
  · exact absurd e (by simp)
  · rename_i hany
    simp only [Option.some.injEq] at e
    subst e
    have hno : ∀ b ∈ bs, b.hdr.num ≠ h.num ∧ b.hdr.hash ≠ h.hash := by
      intro b hb
      constructor
      · intro he
        exact hany (by
          rw [List.any_eq_true, R.headers]
          exact ⟨b.hdr, List.mem_map_of_mem hb, by simp [he]⟩)
      · intro he
        exact hany (by
          rw [List.any_eq_true, R.headers]
          exact ⟨b.hdr, List.mem_map_of_mem hb, by simp [he]⟩)
    refine ⟨?_, R.l1, ?_, ?_, ?_, ?_, ?_, ?_, R.thash⟩
    · simp [R.headers]
    · rw [List.map_append, List.nodup_append]
      refine ⟨R.nums, by simp, ?_⟩
      intro a ha b hb
      rw [List.mem_map] at ha
      obtain ⟨x, hx, rfl⟩ := ha
      simp at hb
      subst hb
      exact (hno x hx).1
    · rw [List.map_append, List.nodup_append]
      refine ⟨R.bhash, by simp, ?_⟩
      intro a ha b hb
      rw [List.mem_map] at ha
      obtain ⟨x, hx, rfl⟩ := ha
      simp at hb
      subst hb
      exact (hno x hx).2
    · intro b hb
      rcases List.mem_append.1 hb with hb | hb
      · exact R.rows b hb
      · simp at hb
        subst hb
        simp only [Option.map_none, List.find?_eq_none]
        intro r hr
        obtain ⟨b, hb, e⟩ := R.rowOf r hr
        have := (hno b hb).1
        simp
        omega
    · intro r hr
      obtain ⟨b, hb, e⟩ := R.rowOf r hr
      exact ⟨b, by simp [hb], e⟩
    · intro b hb
      rcases List.mem_append.1 hb with hb | hb
      · exact R.hashes b hb
      · simp at hb
        subst hb
        simp only [Blk.txs, Option.map_none, Option.getD_none, hashRows, List.filter_eq_nil_iff]
        intro r hr
        obtain ⟨b, hb, e⟩ := R.hashOf r hr
        have := (hno b hb).1
        simp
        omega
    · intro r hr
      obtain ⟨b, hb, e⟩ := R.hashOf r hr
      exact ⟨b, by simp [hb], e⟩

theorem rel_body {db db' : DB} {bs : List Blk} {p : Option Nat} {n : Nat} {data : List (Tx × Nat)}
    {events : Option (List (List Nat))} (R : Rel db bs p)
    (e : insertBody db n data events = some db') : Rel db' (write bs (.body n data events)) p := by
  have hcond : (data = [] ∧ events.getD [] = []) ↔
      (data = [] ∧ (events = none ∨ events = some [])) := by
    cases events <;> simp
  simp only [insertBody] at e
  simp only [write]
  by_cases hc : data = [] ∧ events.getD [] = []
  · rw [if_pos hc] at e
    rw [if_pos (hcond.1 hc)]
    simp only [Option.some.injEq] at e
    subst e
    exact R
  · rw [if_neg hc] at e
    rw [if_neg (fun x => hc (hcond.2 x))]
    split at e
    · exact absurd e (by simp)
    · rename_i hhd
      split at e
      · exact absurd e (by simp)
      · rename_i hrow
        rw [Option.map_eq_some_iff] at e
        obtain ⟨hs, hins, e⟩ := e
        subst e
        obtain ⟨ehs, hnd⟩ := insertHashes_some _ _ _ hins R.thash
        have hrow' : ∀ r ∈ db.rows, r.num ≠ n := by
          intro r hr he
          exact hrow (by rw [List.any_eq_true]; exact ⟨r, hr, by simp [he]⟩)
        have hb0 : ∃ b ∈ bs, b.hdr.num = n := by
          have : db.headers.any (fun x => x.num == n) = true := by
            cases hx : db.headers.any (fun x => x.num == n) with
            | true => rfl
            | false => exact absurd (by rw [hx]; rfl) hhd
          rw [List.any_eq_true, R.headers] at this
          obtain ⟨x, hx, hxe⟩ := this
          obtain ⟨b, hb, rfl⟩ := List.mem_map.1 hx
          exact ⟨b, hb, by simpa using hxe⟩
        have hhdr : ∀ b : Blk, (if b.hdr.num = n then ({ b with body := some (data, events) } : Blk)
            else b).hdr = b.hdr := by
          intro b; split <;> rfl
        refine ⟨?_, R.l1, ?_, ?_, ?_, ?_, ?_, ?_, hnd⟩
        · simp only [R.headers, List.map_map]
          apply List.map_congr_left
          intro b _
          simp [Function.comp, hhdr]
        · rw [List.map_map]
          have : ((fun b : Blk => b.hdr.num) ∘ fun b : Blk =>
              if b.hdr.num = n then ({ b with body := some (data, events) } : Blk) else b)
              = fun b => b.hdr.num := by
            funext b; simp [Function.comp, hhdr]
          rw [this]
          exact R.nums
        · rw [List.map_map]
          have : ((fun b : Blk => b.hdr.hash) ∘ fun b : Blk =>
              if b.hdr.num = n then ({ b with body := some (data, events) } : Blk) else b)
              = fun b => b.hdr.hash := by
            funext b; simp [Function.comp, hhdr]
          rw [this]
          exact R.bhash
        · intro b hb
          obtain ⟨b1, hb1, rfl⟩ := List.mem_map.1 hb
          rw [hhdr]
          simp only [List.find?_append]
          by_cases hn : b1.hdr.num = n
          · have : (db.rows.find? fun r => r.num == b1.hdr.num) = none := by
              rw [List.find?_eq_none]
              intro r hr
              have := hrow' r hr
              simp
              omega
            rw [this, if_pos hn]
            simp [hn]
          · rw [R.rows b1 hb1, if_neg hn]
            have : (fun r : Row => r.num == b1.hdr.num) ⟨n, data, events⟩ = false := by
              simp; omega
            simp only [List.find?_cons, this, List.find?_nil, Option.or_none]
        · intro r hr
          rcases List.mem_append.1 hr with hr | hr
          · obtain ⟨b, hb, e⟩ := R.rowOf r hr
            exact ⟨_, List.mem_map_of_mem hb, by rw [hhdr]; exact e⟩
          · simp at hr
            subst hr
            obtain ⟨b, hb, e⟩ := hb0
            exact ⟨_, List.mem_map_of_mem hb, by rw [hhdr]; exact e⟩
        · intro b hb
          obtain ⟨b1, hb1, rfl⟩ := List.mem_map.1 hb
          rw [hhdr]
          simp only [ehs, List.filter_append, R.hashes b1 hb1]
          by_cases hn : b1.hdr.num = n
          · have hnone : b1.body = none := by
              have h1 := R.rows b1 hb1
              have h2 : (db.rows.find? fun r => r.num == b1.hdr.num) = none := by
                rw [List.find?_eq_none]
                intro r hr
                have := hrow' r hr
                simp
                omega
              rw [h2] at h1
              cases hbb : b1.body with
              | none => rfl
              | some q => rw [hbb] at h1; exact absurd h1 (by simp)
            have : b1.txs = [] := by simp [Blk.txs, hnone]
            rw [this, if_pos hn, hn, hashRows_filter_same]
            simp [hashRows, Blk.txs]
          · rw [if_neg hn, hashRows_filter_other n b1.hdr.num 0 (fun h => hn h.symm)]
            simp
        · intro r hr
          simp only [ehs] at hr
          rcases List.mem_append.1 hr with hr | hr
          · obtain ⟨b, hb, e⟩ := R.hashOf r hr
            exact ⟨_, List.mem_map_of_mem hb, by rw [hhdr]; exact e⟩
          · obtain ⟨b, hb, e⟩ := hb0
            exact ⟨_, List.mem_map_of_mem hb, by rw [hhdr, hashRows_num _ _ _ r hr]; exact e⟩

theorem find_updateEvents (rows : List Row) (n m : Nat) (evs : List (List Nat)) :
    ((rows.map fun r => if r.num = n then { r with events := some evs } else r).find?
      fun r => r.num == m) =
    (rows.find? fun r => r.num == m).map fun r =>
      if r.num = n then { r with events := some evs } else r := by
  induction rows with
  | nil => rfl
  | cons r rs ih =>
    simp only [List.map_cons, List.find?_cons]
    have : (if r.num = n then ({ r with events := some evs } : Row) else r).num = r.num := by
      split <;> rfl
    rw [this]
    cases hr : r.num == m with
    | true => simp
    | false => simpa using ih

theorem rel_events {db : DB} {bs : List Blk} {p : Option Nat} (n : Nat) (evs : List (List Nat))
    (R : Rel db bs p) : Rel (updateEvents db n evs) (write bs (.events n evs)) p := by
  simp only [write]
  have hhdr : ∀ b : Blk, (if b.hdr.num = n then
      ({ b with body := b.body.map fun p => (p.1, some evs) } : Blk) else b).hdr = b.hdr := by
    intro b; split <;> rfl
  have htxs : ∀ b : Blk, (if b.hdr.num = n then
      ({ b with body := b.body.map fun p => (p.1, some evs) } : Blk) else b).txs = b.txs := by
    intro b
    split
    · simp [Blk.txs, Function.comp_def]
    · rfl
  refine ⟨?_, R.l1, ?_, ?_, ?_, ?_, ?_, ?_, R.thash⟩
  · simp only [updateEvents, R.headers, List.map_map]
    apply List.map_congr_left
    intro b _
    simp [Function.comp, hhdr]
  · rw [List.map_map]
    have : ((fun b : Blk => b.hdr.num) ∘ fun b : Blk => if b.hdr.num = n then
        ({ b with body := b.body.map fun p => (p.1, some evs) } : Blk) else b)
        = fun b => b.hdr.num := by
      funext b; simp [Function.comp, hhdr]
    rw [this]
    exact R.nums
  · rw [List.map_map]
    have : ((fun b : Blk => b.hdr.hash) ∘ fun b : Blk => if b.hdr.num = n then
        ({ b with body := b.body.map fun p => (p.1, some evs) } : Blk) else b)
        = fun b => b.hdr.hash := by
      funext b; simp [Function.comp, hhdr]
    rw [this]
    exact R.bhash
  · intro b hb
    obtain ⟨b1, hb1, rfl⟩ := List.mem_map.1 hb
    rw [hhdr]
    simp only [updateEvents]
    rw [find_updateEvents, R.rows b1 hb1]
    by_cases hn : b1.hdr.num = n
    · rw [if_pos hn]
      cases b1.body <;> simp [hn]
    · rw [if_neg hn]
      cases b1.body <;> simp [hn]
  · intro r hr
    simp only [updateEvents] at hr
    obtain ⟨r1, hr1, rfl⟩ := List.mem_map.1 hr
    obtain ⟨b, hb, e⟩ := R.rowOf r1 hr1
    refine ⟨_, List.mem_map_of_mem hb, ?_⟩
    rw [hhdr]
    split <;> exact e
  · intro b hb
    obtain ⟨b1, hb1, rfl⟩ := List.mem_map.1 hb
    rw [hhdr, htxs]
    exact R.hashes b1 hb1
  · intro r hr
    obtain ⟨b, hb, e⟩ := R.hashOf r hr
    exact ⟨_, List.mem_map_of_mem hb, by rw [hhdr]; exact e⟩

theorem find_filter_other {α : Type} (q s : α → Bool) (l : List α)
    (h : ∀ x, q x = true → s x = true) : (l.filter s).find? q = l.find? q := by
  induction l with
  | nil => rfl
  | cons x xs ih =>
    cases hs : s x with
    | true => simp only [List.filter_cons, hs, if_true, List.find?_cons, ih]
    | false =>
      have hq : q x = false := by
        cases hq : q x with
        | false => rfl
        | true => rw [h x hq] at hs; exact absurd hs (by simp)
      simp [hs, hq, ih]

theorem rel_remove {db : DB} {bs : List Blk} {p : Option Nat} (n : Nat) (R : Rel db bs p) :
    Rel (removeBlock db n) (write bs (.remove n)) p := by
  simp only [write]
  have hsub : ∀ {f : Blk → Nat}, ((bs.filter fun b => decide (b.hdr.num ≠ n)).map f).Sublist
      (bs.map f) := fun {f} => List.Sublist.map f List.filter_sublist
  refine ⟨?_, R.l1, hsub.nodup R.nums, hsub.nodup R.bhash, ?_, ?_, ?_, ?_, ?_⟩
  · simp only [removeBlock, R.headers, List.filter_map]
    congr 1
    apply List.filter_congr
    intro b _
    by_cases hb : b.hdr.num = n <;> simp [Function.comp, hb]
  · intro b hb
    obtain ⟨hb, hne⟩ := List.mem_filter.1 hb
    simp only [decide_eq_true_eq] at hne
    simp only [removeBlock]
    rw [find_filter_other, R.rows b hb]
    intro r hr
    simp only [beq_iff_eq] at hr
    simp only [bne_iff_ne]
    omega
  · intro r hr
    simp only [removeBlock] at hr
    obtain ⟨hr, hne⟩ := List.mem_filter.1 hr
    simp only [bne_iff_ne] at hne
    obtain ⟨b, hb, e⟩ := R.rowOf r hr
    exact ⟨b, List.mem_filter.2 ⟨hb, by simp only [decide_eq_true_eq]; omega⟩, e⟩
  · intro b hb
    obtain ⟨hb, hne⟩ := List.mem_filter.1 hb
    simp only [decide_eq_true_eq] at hne
    simp only [removeBlock]
    rw [List.filter_filter, ← R.hashes b hb]
    apply List.filter_congr
    intro r _
    by_cases hr : r.num = b.hdr.num
    · simp [hr, hne]
    · simp [hr]
  · intro r hr
    simp only [removeBlock] at hr
    obtain ⟨hr, hne⟩ := List.mem_filter.1 hr
    simp only [bne_iff_ne] at hne
    obtain ⟨b, hb, e⟩ := R.hashOf r hr
    exact ⟨b, List.mem_filter.2 ⟨hb, by simp only [decide_eq_true_eq]; omega⟩, e⟩
  · simp only [removeBlock]
    exact (List.Sublist.map _ List.filter_sublist).nodup R.thash

theorem rel_run : ∀ (ops : List Op) (db db' : DB) (bs : List Blk) (p : Option Nat),
    Rel db bs p → run db ops = some db' →
    Rel db' (ops.foldl write bs)
      (ops.foldl (fun p op => match op with | .pointer q => q | _ => p) p) := by
  intro ops
  induction ops with
  | nil => intro db db' bs p R h; simp only [run, Option.some.injEq] at h; subst h; exact R
  | cons op ops ih =>
    intro db db' bs p R h
    simp only [run, Option.bind_eq_some_iff] at h
    obtain ⟨d, hd, h⟩ := h
    simp only [List.foldl_cons]
    refine ih d db' _ _ ?_ h
    cases op with
    | header hh => exact rel_header R hd
    | body n data events => exact rel_body R hd
    | events n evs =>
      simp only [step, Option.some.injEq] at hd; subst hd; exact rel_events n evs R
    | remove n => simp only [step, Option.some.injEq] at hd; subst hd; exact rel_remove n R
    | pointer q =>
      simp only [step, Option.some.injEq] at hd
      subst hd
      exact ⟨R.headers, rfl, R.nums, R.bhash, R.rows, R.rowOf, R.hashes, R.hashOf, R.thash⟩

theorem rel_of_run {ops : List Op} {db : DB} (h : run DB.empty ops = some db) :
    Rel db (blocks ops) (accepted ops) := rel_run ops _ _ _ _ rel_empty h

/-! ## Queries -/

theorem newest_spec : ∀ (l : List Hdr),
    (newest l = none ↔ l = []) ∧ ∀ m, newest l = some m → m ∈ l ∧ ∀ x ∈ l, x.num ≤ m.num := by
  intro l
  induction l with
  | nil => simp [newest]
  | cons h hs ih =>
    constructor
    · constructor
      · intro e
        simp only [newest] at e
        split at e
        · exact absurd e (by simp)
        · split at e <;> exact absurd e (by simp)
      · intro e; exact absurd e (by simp)
    · intro m e
      simp only [newest] at e
      split at e
      · rename_i hn
        simp only [Option.some.injEq] at e
        subst e
        have := ih.1.1 hn
        subst this
        simp
      · rename_i m' hm
        obtain ⟨hm1, hm2⟩ := ih.2 m' hm
        split at e
        · rename_i hle
          simp only [Option.some.injEq] at e
          subst e
          refine ⟨by simp, ?_⟩
          intro x hx
          rcases List.mem_cons.1 hx with rfl | hx
          · exact Nat.le_refl _
          · have := hm2 x hx; omega
        · rename_i hle
          simp only [Option.some.injEq] at e
          subst e
          refine ⟨by simp [hm1], ?_⟩
          intro x hx
          rcases List.mem_cons.1 hx with rfl | hx
          · omega
          · exact hm2 x hx

theorem find_hdr_num {bs : List Blk} (hn : (bs.map fun b => b.hdr.num).Nodup) {b : Blk}
    (hb : b ∈ bs) : ((bs.map Blk.hdr).find? fun h => h.num == b.hdr.num) = some b.hdr := by
  cases hf : ((bs.map Blk.hdr).find? fun h => h.num == b.hdr.num) with
  | none =>
    rw [List.find?_eq_none] at hf
    exact absurd (hf b.hdr (List.mem_map_of_mem hb)) (by simp)
  | some x =>
    have h1 := List.mem_of_find?_eq_some hf
    have h2 := List.find?_some hf
    obtain ⟨c, hc, rfl⟩ := List.mem_map.1 h1
    simp only [beq_iff_eq] at h2
    rw [nodup_num_eq hn hc hb h2]

theorem find_hdr_hash {bs : List Blk} (hn : (bs.map fun b => b.hdr.hash).Nodup) {b : Blk}
    (hb : b ∈ bs) : ((bs.map Blk.hdr).find? fun h => h.hash == b.hdr.hash) = some b.hdr := by
  cases hf : ((bs.map Blk.hdr).find? fun h => h.hash == b.hdr.hash) with
  | none =>
    rw [List.find?_eq_none] at hf
    exact absurd (hf b.hdr (List.mem_map_of_mem hb)) (by simp)
  | some x =>
    have h1 := List.mem_of_find?_eq_some hf
    have h2 := List.find?_some hf
    obtain ⟨c, hc, rfl⟩ := List.mem_map.1 h1
    simp only [beq_iff_eq] at h2
    rw [nodup_hash_eq hn hc hb h2]

theorem newest_blk {bs : List Blk} (hn : (bs.map fun b => b.hdr.num).Nodup) {b : Blk}
    (hb : b ∈ bs) (hmax : ∀ b' ∈ bs, b'.hdr.num ≤ b.hdr.num) :
    newest (bs.map Blk.hdr) = some b.hdr := by
  cases hf : newest (bs.map Blk.hdr) with
  | none =>
    have := (newest_spec _).1.1 hf
    rw [List.map_eq_nil_iff] at this
    subst this
    simp at hb
  | some m =>
    obtain ⟨h1, h2⟩ := (newest_spec _).2 m hf
    obtain ⟨c, hc, rfl⟩ := List.mem_map.1 h1
    have h3 := h2 b.hdr (List.mem_map_of_mem hb)
    have h4 := hmax c hc
    rw [nodup_num_eq hn hc hb (by omega)]

/-- The identifiers that storage understands, read against the blocks. -/
def IdNames (bs : List Blk) (b : Blk) : Id → Prop
  | .number n => b ∈ bs ∧ b.hdr.num = n
  | .hash h => b ∈ bs ∧ b.hdr.hash = h
  | .latest => b ∈ bs ∧ ∀ b' ∈ bs, b'.hdr.num ≤ b.hdr.num

/-- What the queries say about a block that is there. -/
theorem query_some {db : DB} {bs : List Blk} {p : Option Nat} (R : Rel db bs p) {id : Id} {b : Blk}
    (h : IdNames bs b id) :
    blockHeader db id = some b.hdr ∧ blockId db id = some (b.hdr.num, b.hdr.hash) ∧
    blockNumber db id = some b.hdr.num ∧ blockExists db id = true := by
  cases id with
  | number n =>
    obtain ⟨hb, rfl⟩ := h
    have hf := find_hdr_num R.nums hb
    rw [← R.headers] at hf
    have ha : db.headers.any (fun h => h.num == b.hdr.num) = true := by
      rw [List.any_eq_true]
      exact ⟨b.hdr, by rw [R.headers]; exact List.mem_map_of_mem hb, by simp⟩
    simp only [blockHeader, blockId, blockNumber, blockExists, hf, ha]
    simp
  | hash x =>
    obtain ⟨hb, rfl⟩ := h
    have hf := find_hdr_hash R.bhash hb
    rw [← R.headers] at hf
    have ha : db.headers.any (fun h => h.hash == b.hdr.hash) = true := by
      rw [List.any_eq_true]
      exact ⟨b.hdr, by rw [R.headers]; exact List.mem_map_of_mem hb, by simp⟩
    simp only [blockHeader, blockId, blockNumber, blockExists, hf, ha]
    simp
  | latest =>
    obtain ⟨hb, hmax⟩ := h
    have hf := newest_blk R.nums hb hmax
    rw [← R.headers] at hf
    have ha : (! db.headers.isEmpty) = true := by
      rw [R.headers]
      cases bs with
      | nil => simp at hb
      | cons c cs => rfl
    simp only [blockHeader, blockId, blockNumber, blockExists, hf, ha]
    simp

/-- What the queries say when there is no such block. -/
theorem query_none {db : DB} {bs : List Blk} {p : Option Nat} (R : Rel db bs p) {id : Id}
    (h : ∀ b, ¬ IdNames bs b id) :
    blockHeader db id = none ∧ blockId db id = none ∧ blockNumber db id = none ∧
    blockExists db id = false := by
  cases id with
  | number n =>
    have hno : ∀ x ∈ db.headers, x.num ≠ n := by
      intro x hx
      rw [R.headers] at hx
      obtain ⟨b, hb, rfl⟩ := List.mem_map.1 hx
      exact fun e => h b ⟨hb, e⟩
    have hf : (db.headers.find? fun h => h.num == n) = none := by
      rw [List.find?_eq_none]
      intro x hx
      simpa using hno x hx
    have ha : db.headers.any (fun h => h.num == n) = false := by
      rw [List.any_eq_false]
      intro x hx
      simpa using hno x hx
    simp [blockHeader, blockId, blockNumber, blockExists, hf, ha]
  | hash y =>
    have hno : ∀ x ∈ db.headers, x.hash ≠ y := by
      intro x hx
      rw [R.headers] at hx
      obtain ⟨b, hb, rfl⟩ := List.mem_map.1 hx
      exact fun e => h b ⟨hb, e⟩
    have hf : (db.headers.find? fun h => h.hash == y) = none := by
      rw [List.find?_eq_none]
      intro x hx
      simpa using hno x hx
    have ha : db.headers.any (fun h => h.hash == y) = false := by
      rw [List.any_eq_false]
      intro x hx
      simpa using hno x hx
    simp [blockHeader, blockId, blockNumber, blockExists, hf, ha]
  | latest =>
    have hf : newest db.headers = none := by
      cases hm : newest db.headers with
      | none => rfl
      | some m =>
        obtain ⟨h1, h2⟩ := (newest_spec _).2 m hm
        rw [R.headers] at h1 h2
        obtain ⟨b, hb, rfl⟩ := List.mem_map.1 h1
        exact absurd ⟨hb, fun b' hb' => h2 _ (List.mem_map_of_mem hb')⟩ (h b)
    have he := (newest_spec _).1.1 hf
    simp [blockHeader, blockId, blockNumber, blockExists, he, newest]

theorem queryTransactions_blk {db : DB} {bs : List Blk} {p : Option Nat} (R : Rel db bs p) {b : Blk}
    (hb : b ∈ bs) : queryTransactions db b.hdr.num = b.txs ∧ queryEvents db b.hdr.num = b.events := by
  simp only [queryTransactions, queryEvents, R.rows b hb, Blk.txs, Blk.events]
  cases b.body with
  | none => simp
  | some q => simp

theorem idNames_mem {bs : List Blk} {b : Blk} {id : Id} (h : IdNames bs b id) : b ∈ bs := by
  cases id <;> exact h.1

theorem idNames_number {bs : List Blk} {b : Blk} (hb : b ∈ bs) :
    IdNames bs b (.number b.hdr.num) := ⟨hb, rfl⟩

theorem l1_blk {db : DB} {bs : List Blk} {p : Option Nat} (R : Rel db bs p) {id : Id} {b : Blk}
    (h : IdNames bs b id) :
    blockIsL1Accepted db id = true ↔ ∃ q, p = some q ∧ b.hdr.num ≤ q := by
  simp only [blockIsL1Accepted, R.l1, (query_some R h).2.1]
  cases p with
  | none => simp
  | some q => simp

/-- The identifier of a request that names a block is turned into one that names it. -/
theorem toCommon_some {ops : List Op} {db : DB} (R : Rel db (blocks ops) (accepted ops))
    {rid : RpcId} {b : Blk} (h : Names ops b rid) :
    ∃ id, toCommon db rid = some id ∧ IdNames (blocks ops) b id := by
  cases rid with
  | number n => exact ⟨_, rfl, h⟩
  | hash x => exact ⟨_, rfl, h⟩
  | latest => exact ⟨_, rfl, h⟩
  | l1Accepted => exact ⟨.number b.hdr.num, by simp [toCommon, R.l1, h.2], h.1, rfl⟩

theorem toCommon_none {ops : List Op} {db : DB} (R : Rel db (blocks ops) (accepted ops))
    {rid : RpcId} (h : ∀ b, ¬ Names ops b rid) {id : Id} (e : toCommon db rid = some id) :
    ∀ b, ¬ IdNames (blocks ops) b id := by
  cases rid with
  | number n => simp only [toCommon, Option.some.injEq] at e; subst e; exact h
  | hash n => simp only [toCommon, Option.some.injEq] at e; subst e; exact h
  | latest => simp only [toCommon, Option.some.injEq] at e; subst e; exact h
  | l1Accepted =>
    simp only [toCommon, R.l1, Option.map_eq_some_iff] at e
    obtain ⟨q, hq, rfl⟩ := e
    intro b hb
    exact h b ⟨hb.1, by rw [hq, hb.2]⟩

theorem find_hashRow {db : DB} {bs : List Blk} {p : Option Nat} (R : Rel db bs p) {b : Blk}
    (hb : b ∈ bs) {i : Nat} {q : Tx × Nat} (hi : b.txs[i]? = some q) :
    (db.hashes.find? fun r => r.hash == q.1.hash) = some ⟨q.1.hash, b.hdr.num, i⟩ := by
  have hmem : (⟨q.1.hash, b.hdr.num, i⟩ : HashRow) ∈ db.hashes := by
    have := hashRows_get b.hdr.num b.txs 0 i q hi
    rw [← R.hashes b hb, Nat.zero_add] at this
    exact (List.mem_filter.1 this).1
  have key : ∀ (l : List HashRow) (x : HashRow), (l.map HashRow.hash).Nodup → x ∈ l →
      (l.find? fun r => r.hash == x.hash) = some x := by
    intro l
    induction l with
    | nil => intro x _ hx; simp at hx
    | cons y ys ih =>
      intro x hn hx
      simp only [List.map_cons, List.nodup_cons, List.mem_map, not_exists, not_and] at hn
      rcases List.mem_cons.1 hx with rfl | hx
      · simp
      · have : (y.hash == x.hash) = false := by
          simp only [beq_eq_false_iff_ne]
          exact fun e => hn.1 x hx e.symm
        rw [List.find?_cons, this]
        exact ih x hn.2 hx
  exact key _ _ R.thash hmem

end Verif.Agree
