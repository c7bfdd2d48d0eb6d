import Verif.State.ReadViews
/-
C20: a stored state update is read back unchanged. C47: not so after pruning.
-/
namespace Verif.State
open Verif.Db

theorem any_names_iff {l : List (Class × Casm)} {h : Class} : h ∈ l.map (·.1) ↔ l.lookup h ≠ none := by
  rw [Ne, lookup_none_iff, Classical.not_not]

/-- Every history, every block that is still stored: what is read back leads to the same state as what was inserted, and
says exactly the same unless the block is the first one kept by pruning. -/
theorem read_back_retained (ops : List Op) (hw : OpsOk ops) (hc : CleanReorgs ops)
    (hok : ChainOk (Track.run ops).updates) (n : Nat) (hlo : (Track.run ops).lo ≤ n) (u : Update)
    (hu : (Track.run ops).updates[n]? = some u) :
    ∃ w, readUpdate (run ops) n = some w ∧ w.SameValues u ∧
      ((Track.run ops).lo < n ∨ (Track.run ops).lo = 0 → w.Same u) := by
  have g := good_run ops hw
  have tN := g.nonce; have tS := g.storage; have tC := g.cls
  have tK := casm_run ops hw hc
  have hred := redeclared_run ops hw
  have hwfs : ∀ (j : Nat) (w : Update), (Track.run ops).updates[j]? = some w → w.WF := by
    intro j w hj
    have := List.mem_of_getElem? hj
    unfold Track.updates at this
    obtain ⟨p, hp, rfl⟩ := List.mem_map.1 this
    exact chain_wf ops hw p hp
  have huw : u.WF := hwfs n u hu
  have hhdr : ((run ops).headers.any fun r => r.1 == n) = true := by
    have hn := (List.getElem?_eq_some_iff.1 hu).1
    have hul : (Track.run ops).updates.length = (Track.run ops).chain.length := by simp [Track.updates]
    have hl : n < (Track.run ops).chain.length := by omega
    rw [List.any_eq_true]
    exact ⟨(n, (Track.run ops).chain[n].1), (g.hdr _ _).2 ⟨hlo, _, List.getElem?_eq_getElem hl⟩, by simp⟩
  have hdefs := g.defs
  have hdk := g.defKeys
  unfold Track.declaredAt at hdefs
  unfold readUpdate
  rw [if_pos hhdr]
  generalize (Track.run ops).updates = us at *
  generalize (Track.run ops).lo = lo at *
  generalize run ops = db at *
  refine ⟨_, rfl, ?_⟩
  -- facts about the tables at block n
  have hcasm : ∀ h, ((db.casm.find? fun r => r.cls == h && r.block == n).map (·.casm)) = u.casmOf h := by
    intro h
    have hiff : ∀ v, (n, v) ∈ casmRows db h ↔ u.casmOf h = some v := by
      intro v
      rw [(tK h).mem_iff _ (by omega), hu]; rfl
    cases hf : db.casm.find? fun r => r.cls == h && r.block == n with
    | none =>
      rw [List.find?_eq_none] at hf
      cases hv : u.casmOf h with
      | none => rfl
      | some v =>
        obtain ⟨r, hr, e1, e2⟩ := mem_casmRows.1 ((hiff v).2 hv)
        simp only [Prod.mk.injEq] at e2
        have := hf r hr
        simp [e1, ← e2.1] at this
    | some r =>
      have h1 := List.find?_some hf
      simp at h1
      have := (hiff r.casm).1 (mem_casmRows.2 ⟨r, List.mem_of_find?_eq_some hf, h1.1, by rw [h1.2]⟩)
      rw [this]; rfl
  have hcasmNone : ∀ h, (db.casm.find? fun r => r.cls == h && r.block == n) = none ↔ u.casmOf h = none := by
    intro h
    rw [← hcasm h, Option.map_eq_none_iff]
  have hdeclared : ∀ h, (h, some n) ∈ db.classDefs ↔ u.declares h = true ∧ ∀ j w, j < n → us[j]? = some w → w.declares h = false := by
    intro h
    have : (h, some n) ∈ db.classDefs ↔ db.classDefs.lookup h = some (some n) :=
      ⟨fun hm => lookup_of_mem hdk hm, fun hl => lookup_mem hl⟩
    rw [this, hdefs, findIdx?_iff, hu]
    simp only [Option.some.injEq, exists_eq_left']
  have hnames : ∀ (j : Nat) (w : Update) (h : Class), us[j]? = some w → w.declares h = true → ∃ (i : Nat) (v : Update), i ≤ j ∧ us[i]? = some v ∧ v.names h := by
    intro j w h hw hd
    unfold Update.declares at hd
    simp only [Bool.or_eq_true] at hd
    rcases hd with (hd | hd) | hd
    · exact ⟨j, w, Nat.le_refl _, hw, .inr (by simpa using hd)⟩
    · obtain ⟨p, hp, e⟩ := List.any_eq_true.1 hd
      exact ⟨j, w, Nat.le_refl _, hw, .inl (List.mem_map.2 ⟨p, hp, by simpa using e⟩)⟩
    · obtain ⟨p, hp, e⟩ := List.any_eq_true.1 hd
      have hwf : (w.contracts.map (·.1)).Nodup := (hwfs j w hw).contracts
      refine hok.deployDeclared j w p.1 h hw ?_
      unfold Update.classUpdOf
      rw [lookup_of_mem hwf (a := p.1) (c := p.2) hp]
      simpa using e
  -- a migrated class was declared before, and is not declared again
  have hmig : ∀ h, h ∈ u.migrated.map (·.1) → (∃ j w, j < n ∧ us[j]? = some w ∧ w.declares h = true) ∧ h ∉ u.sierra.map (·.1) := by
    intro h hm
    obtain ⟨j, w, h1, h2, h3⟩ := hok.migrateDeclared n u h hu hm
    refine ⟨⟨j, w, h1, h2, declares_of_names (.inl h3)⟩, ?_⟩
    intro hs
    exact (hok.sierraOnce n u h hu hs).2 j w h1 h2 (.inl h3)
  have hsier : ∀ h, h ∈ u.sierra.map (·.1) → (h, some n) ∈ db.classDefs := by
    intro h hs
    rw [hdeclared]
    refine ⟨declares_of_names (.inl hs), ?_⟩
    intro j w hj hw
    rw [← Bool.not_eq_true]
    intro hd
    obtain ⟨i, v, h1, h2, h3⟩ := hnames j w h hw hd
    exact (hok.sierraOnce n u h hu hs).2 i v (by omega) h2 h3
  obtain ⟨cN, cS, cY, cA, cR, cM⟩ := readClasses_other db n (readMigrated db n (readRedeclared db n (readDeclared db n (readStorage db n (readNonces db n {})))))
  obtain ⟨mC, mY, mA, mR⟩ := readMigrated_other db n (readRedeclared db n (readDeclared db n (readStorage db n (readNonces db n {}))))
  obtain ⟨rC, rY, rM, rR⟩ := readRedeclared_other db n (readDeclared db n (readStorage db n (readNonces db n {})))
  obtain ⟨dC, dY, dM⟩ := readDeclared_other db n (readStorage db n (readNonces db n {}))
  obtain ⟨sC, sN, sA, sR, sM⟩ := readStorage_other db n (readNonces db n {})
  obtain ⟨nC, nS, nY, nA, nR, nM⟩ := readNonces_other db n {}
  have hcls0 : ∀ a, (readMigrated db n (readRedeclared db n (readDeclared db n (readStorage db n (readNonces db n {}))))).classUpdOf a = none := by
    intro a
    have : ∀ (x y : Update), x.contracts = y.contracts → x.classUpdOf a = y.classUpdOf a := by
      intro x y h; unfold Update.classUpdOf; rw [h]
    rw [this _ _ mC, this _ _ rC, this _ _ dC, sC, nC]; rfl
  have hrow : ∀ a c, (∃ r ∈ db.contracts, r.block = n ∧ r.key = a ∧ r.val = c) ↔ u.classOf a = some c := by
    intro a c
    have h1 := (tC a).mem_iff n hlo c
    rw [hu] at h1
    rw [show u.classOf a = some c ↔ _ from h1.symm]
    show _ ↔ (n, c) ∈ sel (fun key => key = a) db.contracts
    rw [mem_sel]
    constructor
    · rintro ⟨r, hr, e1, e2, e3⟩; exact ⟨r, hr, e2, by rw [e1, e3]⟩
    · rintro ⟨r, hr, e1, e2⟩
      simp only [Prod.mk.injEq] at e2
      exact ⟨r, hr, e2.1.symm, e1, e2.2.symm⟩
  have hvals : (readClasses db n (readMigrated db n (readRedeclared db n (readDeclared db n
      (readStorage db n (readNonces db n {})))))).SameValues u := by
    refine ⟨?_, ?_, ?_, ?_, ?_, ?_, ?_⟩
    · -- class hashes
      intro a
      unfold Update.classOf
      rw [readClasses_cls, hcls0, Option.or_none]
      have hmap : ∀ (rs : List (Row Addr Class)) (x : Bool),
          (rs.findSome? fun r => if r.block = n ∧ r.key = a then
            some (if x = true then ClassUpd.replace r.val else .deploy r.val) else none).map (·.hash) =
          rs.findSome? fun r => if r.block = n ∧ r.key = a then some r.val else none := by
        intro rs x
        induction rs with
        | nil => rfl
        | cons r rs ih =>
          rw [List.findSome?_cons, List.findSome?_cons]
          by_cases hx : r.block = n ∧ r.key = a
          · simp only [hx, and_self, ite_true]
            cases x <;> rfl
          · simp only [hx, ite_false]
            exact ih
      rw [hmap]
      apply findSome?_unique
      intro c
      rw [show (Option.map (·.hash) (u.classUpdOf a) = some c) ↔ _ from (hrow a c).symm]
      constructor
      · rintro ⟨r, hr, e⟩
        by_cases hx : r.block = n ∧ r.key = a
        · rw [if_pos hx] at e
          exact ⟨r, hr, hx.1, hx.2, Option.some.inj e⟩
        · rw [if_neg hx] at e; simp at e
      · rintro ⟨r, hr, e1, e2, e3⟩
        exact ⟨r, hr, by rw [if_pos ⟨e1, e2⟩, e3]⟩
    · -- nonces
      intro a
      rw [cN]
      have : ∀ (x y : Update), x.contracts = y.contracts → x.nonceOf a = y.nonceOf a := by
        intro x y h; unfold Update.nonceOf; rw [h]
      rw [this _ _ mC, this _ _ rC, this _ _ dC, sN, readNonces_nonce]
      rw [show ({} : Update).nonceOf a = none from rfl, Option.or_none]
      apply findSome?_unique
      intro v
      have h1 := (tN a).mem_iff n hlo v
      rw [hu] at h1
      rw [show u.nonceOf a = some v ↔ _ from h1.symm]
      show _ ↔ (n, v) ∈ sel (fun key : Nat => db.addrs[key]? = some a) db.nonces
      rw [mem_sel]
      constructor
      · rintro ⟨r, hr, e⟩
        by_cases hx : r.block = n ∧ db.addrs[r.key]? = some a
        · rw [if_pos hx] at e
          simp only [Option.some.injEq] at e
          exact ⟨r, hr, hx.2, by rw [hx.1, e]⟩
        · rw [if_neg hx] at e; simp at e
      · rintro ⟨r, hr, e1, e2⟩
        simp only [Prod.mk.injEq] at e2
        exact ⟨r, hr, by rw [if_pos ⟨e2.1.symm, e1⟩, e2.2]⟩
    · -- storage of ordinary contracts
      intro a k
      rw [cS]
      have : ∀ (x y : Update), x.contracts = y.contracts → x.contractStorage a k = y.contractStorage a k := by
        intro x y h; unfold Update.contractStorage; rw [h]
      rw [this _ _ mC, this _ _ rC, this _ _ dC, readStorage_sto, nS]
      rw [show ({} : Update).contractStorage a k = none from rfl, Option.or_none, (storageOf_split huw a k).1]
      apply findSome?_unique
      intro v
      have h1 := (tS a k).mem_iff n hlo v
      rw [hu] at h1
      have h2 : (n, v) ∈ sel (fun key : Nat × Nat => db.addrs[key.1]? = some a ∧ db.keys[key.2]? = some k) db.storage ↔ u.storageOf a k = some v := h1
      rw [mem_sel] at h2
      cases hs : isSystem a with
      | true => simp
      | false =>
        simp only [and_true, ite_true]
        rw [← h2]
        constructor
        · rintro ⟨r, hr, e⟩
          by_cases hx : r.block = n ∧ db.addrs[r.key.1]? = some a ∧ db.keys[r.key.2]? = some k
          · rw [if_pos hx] at e
            simp only [Option.some.injEq] at e
            exact ⟨r, hr, hx.2, by rw [hx.1, e]⟩
          · rw [if_neg hx] at e; simp at e
        · rintro ⟨r, hr, e1, e2⟩
          simp only [Prod.mk.injEq] at e2
          exact ⟨r, hr, by rw [if_pos ⟨e2.1.symm, e1⟩, e2.2]⟩
    · -- storage of system contracts
      intro a k
      have : ∀ (x y : Update), x.system = y.system → x.systemStorage a k = y.systemStorage a k := by
        intro x y h; unfold Update.systemStorage; rw [h]
      rw [this _ _ cY, this _ _ mY, this _ _ rY, this _ _ dY, readStorage_sys, this _ _ nY]
      rw [show ({} : Update).systemStorage a k = none from rfl, Option.or_none, (storageOf_split huw a k).2]
      apply findSome?_unique
      intro v
      have h1 := (tS a k).mem_iff n hlo v
      rw [hu] at h1
      have h2 : (n, v) ∈ sel (fun key : Nat × Nat => db.addrs[key.1]? = some a ∧ db.keys[key.2]? = some k) db.storage ↔ u.storageOf a k = some v := h1
      rw [mem_sel] at h2
      cases hs : isSystem a with
      | false => simp
      | true =>
        simp only [and_true, ite_true]
        rw [← h2]
        constructor
        · rintro ⟨r, hr, e⟩
          by_cases hx : r.block = n ∧ db.addrs[r.key.1]? = some a ∧ db.keys[r.key.2]? = some k
          · rw [if_pos hx] at e
            simp only [Option.some.injEq] at e
            exact ⟨r, hr, hx.2, by rw [hx.1, e]⟩
          · rw [if_neg hx] at e; simp at e
        · rintro ⟨r, hr, e1, e2⟩
          simp only [Prod.mk.injEq] at e2
          exact ⟨r, hr, by rw [if_pos ⟨e2.1.symm, e1⟩, e2.2]⟩
    · -- Cairo classes
      intro h
      rw [cA, mA, readRedeclared_cairo, readDeclared_cairo, sA, nA]
      have hr : (∃ d ∈ db.redeclared, d.2 = n ∧ d.1 = h) ↔ (h, n) ∈ db.redeclared := by
        constructor
        · rintro ⟨⟨x, m⟩, hd, rfl, rfl⟩; exact hd
        · intro hd; exact ⟨_, hd, rfl, rfl⟩
      have hd : (∃ d ∈ db.classDefs, d.2 = some n ∧ d.1 = h ∧ (db.casm.find? fun r => r.cls == h && r.block == n) = none) ↔
          (h, some n) ∈ db.classDefs ∧ u.casmOf h = none := by
        rw [hcasmNone]
        constructor
        · rintro ⟨⟨x, m⟩, hd, e1, e2, e3⟩
          simp only at e1 e2
          subst e1; subst e2
          exact ⟨hd, e3⟩
        · rintro ⟨h1, h2⟩; exact ⟨_, h1, rfl, rfl, h2⟩
      rw [hr, hd, hred, hu]
      simp only [Option.some.injEq, exists_eq_left', List.not_mem_nil, or_false]
      constructor
      · rintro (⟨_, h1, j, w, h2, h3, h4⟩ | ⟨h1, h2⟩)
        · rcases h1 with h1 | h1
          · exfalso
            obtain ⟨i, v, h5, h6, h7⟩ := hnames j w h h3 h4
            exact (hok.sierraOnce n u h hu h1).2 i v (by omega) h6 h7
          · exact h1
        · rw [hdeclared] at h1
          obtain ⟨i, v, h5, h6, h7⟩ := hnames n u h hu h1.1
          by_cases hin : i = n
          · subst hin
            rw [hu] at h6
            simp only [Option.some.injEq] at h6
            subst h6
            rcases h7 with h7 | h7
            · exfalso
              rw [any_names_iff] at h7
              unfold Update.casmOf at h2
              cases hl : u.sierra.lookup h with
              | none => exact h7 hl
              | some v => rw [hl] at h2; simp at h2
            · exact h7
          · have := h1.2 i v (by omega) h6
            rw [declares_of_names h7] at this
            simp at this
      · intro hcairo
        by_cases hx : ∃ j w, j < n ∧ us[j]? = some w ∧ w.declares h = true
        · exact .inl ⟨hlo, .inr hcairo, hx⟩
        · right
          refine ⟨(hdeclared h).2 ⟨declares_of_names (.inr hcairo), ?_⟩, ?_⟩
          · intro j w hj hw
            rw [← Bool.not_eq_true]
            intro hd
            exact hx ⟨j, w, hj, hw, hd⟩
          · unfold Update.casmOf
            have h1 : u.sierra.lookup h = none := by
              apply Classical.byContradiction
              intro hne
              exact (hok.sierraOnce n u h hu (any_names_iff.2 hne)).1 hcairo
            have h2 : u.migrated.lookup h = none := by
              apply Classical.byContradiction
              intro hne
              exact hx (hmig h (any_names_iff.2 hne)).1
            rw [h1, h2]; rfl
    · -- Sierra classes
      intro h
      rw [cR, mR, rR, readDeclared_sierra, sR, nR]
      rw [show ({} : Update).sierra.lookup h = none from rfl, Option.or_none]
      apply findSome?_unique
      intro v
      rw [hcasm h]
      constructor
      · rintro ⟨⟨x, o⟩, hd, e⟩
        by_cases hx : o = some n ∧ x = h
        · rw [if_pos hx] at e
          obtain ⟨rfl, rfl⟩ := hx
          unfold Update.casmOf at e
          cases hl : u.sierra.lookup x with
          | some y => rw [hl] at e; simpa using e
          | none =>
            exfalso
            rw [hl] at e
            simp only [Option.none_or] at e
            obtain ⟨⟨j, w, h1, h2, h3⟩, _⟩ := hmig x (any_names_iff.2 (by rw [e]; simp))
            have := ((hdeclared x).1 hd).2 j w h1 h2
            rw [h3] at this; simp at this
        · rw [if_neg hx] at e; simp at e
      · intro hl
        refine ⟨(h, some n), hsier h (any_names_iff.2 (by rw [hl]; simp)), ?_⟩
        simp [Update.casmOf, hl]
    · -- migrated classes
      intro h
      rw [cM, readMigrated_migrated, rM, dM, sM, nM]
      rw [show ({} : Update).migrated.lookup h = none from rfl, Option.or_none]
      apply findSome?_unique
      intro v
      have hearlier : (db.casm.any fun s => s.cls == h && decide (s.block < n)) = true ↔
          ∃ j w, j < n ∧ us[j]? = some w ∧ w.casmOf h ≠ none := by
        rw [List.any_eq_true]
        constructor
        · rintro ⟨r, hr, e⟩
          simp at e
          have hs := (tK h).sound (r.block, r.casm) (mem_casmRows.2 ⟨r, hr, e.1, rfl⟩)
          simp only at hs
          cases hw : us[r.block]? with
          | none => rw [hw] at hs; simp at hs
          | some w => rw [hw] at hs; exact ⟨r.block, w, e.2, hw, by simp at hs; rw [hs]; simp⟩
        · rintro ⟨j, w, hj, hw, hne⟩
          cases hv : w.casmOf h with
          | none => exact absurd hv hne
          | some c =>
            obtain ⟨r, hr, e1, e2⟩ := mem_casmRows.1 (((tK h).mem_iff j (by omega) c).2 (by rw [hw]; exact hv))
            simp only [Prod.mk.injEq] at e2
            exact ⟨r, hr, by simp [e1, ← e2.1, hj]⟩
      have hrow : ∀ v, (∃ r ∈ db.casm, r.block = n ∧ r.cls = h ∧ r.casm = v) ↔ u.casmOf h = some v := by
        intro v
        have h1 := (tK h).mem_iff n (by omega) v
        rw [hu] at h1
        rw [show u.casmOf h = some v ↔ _ from h1.symm, mem_casmRows]
        constructor
        · rintro ⟨r, hr, e1, e2, e3⟩; exact ⟨r, hr, e2, by rw [e1, e3]⟩
        · rintro ⟨r, hr, e1, e2⟩
          simp only [Prod.mk.injEq] at e2
          exact ⟨r, hr, e2.1.symm, e1, e2.2.symm⟩
      constructor
      · rintro ⟨r, hr, e⟩
        by_cases hx : r.block = n ∧ r.cls = h ∧ (db.casm.any fun s => s.cls == h && decide (s.block < n)) = true
        · rw [if_pos hx] at e
          simp only [Option.some.injEq] at e
          have h1 := (hrow v).1 ⟨r, hr, hx.1, hx.2.1, e⟩
          obtain ⟨j, w, h2, h3, h4⟩ := hearlier.1 hx.2.2
          unfold Update.casmOf at h1
          cases hl : u.sierra.lookup h with
          | none => rw [hl] at h1; simpa using h1
          | some y =>
            exfalso
            have hs := (hok.sierraOnce n u h hu (any_names_iff.2 (by rw [hl]; simp))).2
            unfold Update.casmOf at h4
            cases hl2 : w.sierra.lookup h with
            | some z => exact hs j w h2 h3 (.inl (any_names_iff.2 (by rw [hl2]; simp)))
            | none =>
              rw [hl2] at h4
              simp only [Option.none_or] at h4
              obtain ⟨i, x, h5, h6, h7⟩ := hok.migrateDeclared j w h h3 (any_names_iff.2 h4)
              exact hs i x (by omega) h6 (.inl h7)
        · rw [if_neg hx] at e; simp at e
      · intro hl
        have hm := any_names_iff.2 (show u.migrated.lookup h ≠ none by rw [hl]; simp)
        have hns : u.sierra.lookup h = none := by
          apply Classical.byContradiction
          intro hne
          exact (hmig h hm).2 (any_names_iff.2 hne)
        obtain ⟨r, hr, h1, h2, h3⟩ := (hrow v).2 (by unfold Update.casmOf; rw [hns, hl]; rfl)
        obtain ⟨j, w, h4, h5, h6⟩ := hok.migrateDeclared n u h hu hm
        have hex : (db.casm.any fun s => s.cls == h && decide (s.block < n)) = true := by
          rw [hearlier]
          refine ⟨j, w, h4, h5, ?_⟩
          rw [any_names_iff] at h6
          unfold Update.casmOf
          cases hl2 : w.sierra.lookup h with
          | none => exact absurd hl2 h6
          | some z => simp
        exact ⟨r, hr, by rw [if_pos ⟨h1, h2, hex⟩, h3]⟩

  refine ⟨hvals, fun hn => ⟨hvals, ?_⟩⟩
  -- the kind of a class change
  intro a
  rw [readClasses_cls, hcls0, Option.or_none]
  apply findSome?_unique
  intro v
  have hearlier : (db.contracts.any fun s => s.key == a && decide (s.block < n)) = true ↔
      ∃ j w, j < n ∧ us[j]? = some w ∧ w.classOf a ≠ none := by
    rw [List.any_eq_true]
    constructor
    · rintro ⟨r, hr, e⟩
      simp at e
      have hs := (tC a).sound (r.block, r.val) (mem_sel (p := fun key => key = a) |>.2 ⟨r, hr, e.1, rfl⟩)
      simp only at hs
      cases hw : us[r.block]? with
      | none => rw [hw] at hs; simp at hs
      | some w => rw [hw] at hs; exact ⟨r.block, w, e.2, hw, by simp at hs; rw [hs]; simp⟩
    · rintro ⟨j, w, hj, hw, hne⟩
      -- the row of `j`, or of the last write up to the first kept block
      have hex : ∃ i c, i < n ∧ (i, c) ∈ classRows db a := by
        have hne2 : asOf (·.classOf a) us (max j lo) ≠ none :=
          asOf_ne_none_of.2 ⟨j, by omega, by rw [hw]; exact hne⟩
        cases hv : asOf (·.classOf a) us (max j lo) with
        | none => exact absurd hv hne2
        | some c =>
          rw [← (tC a).latest (by omega), Option.map_eq_some_iff] at hv
          obtain ⟨r, h1, _⟩ := hv
          obtain ⟨h2, h3, _⟩ := latest_some h1
          exact ⟨r.1, r.2, by omega, h2⟩
      obtain ⟨i, c, hi, hm⟩ := hex
      obtain ⟨r, hr, e1, e2⟩ := (mem_sel (p := fun key => key = a)).1 hm
      simp only [Prod.mk.injEq] at e2
      exact ⟨r, hr, by simp [e1, ← e2.1, hi]⟩
  constructor
  · rintro ⟨r, hr, e⟩
    by_cases hx : r.block = n ∧ r.key = a
    · rw [if_pos hx] at e
      have hcl := (hrow a r.val).1 ⟨r, hr, hx.1, hx.2, rfl⟩
      unfold Update.classOf at hcl
      rw [Option.map_eq_some_iff] at hcl
      obtain ⟨cu, h1, h2⟩ := hcl
      rw [h1]
      rw [← e]
      congr 1
      cases cu with
      | deploy c =>
        have hno : ¬ (db.contracts.any fun s => s.key == a && decide (s.block < n)) = true := by
          rw [hearlier]
          rintro ⟨j, w, h3, h4, h5⟩
          exact h5 (hok.deployOnce n u a c hu h1 j w h3 h4)
        rw [if_neg hno, ← h2]; rfl
      | replace c =>
        rw [if_pos (hearlier.2 (hok.replaceLater n u a c hu h1)), ← h2]; rfl
    · rw [if_neg hx] at e; simp at e
  · intro hv
    have hcl : u.classOf a = some v.hash := by unfold Update.classOf; rw [hv]; rfl
    obtain ⟨r, hr, h1, h2, h3⟩ := (hrow a _).2 hcl
    refine ⟨r, hr, ?_⟩
    rw [if_pos ⟨h1, h2⟩]
    congr 1
    cases v with
    | deploy c =>
      have hno : ¬ (db.contracts.any fun s => s.key == a && decide (s.block < n)) = true := by
        rw [hearlier]
        rintro ⟨j, w, h3, h4, h5⟩
        exact h5 (hok.deployOnce n u a c hu hv j w h3 h4)
      rw [if_neg hno, h3]; rfl
    | replace c =>
      rw [if_pos (hearlier.2 (hok.replaceLater n u a c hu hv)), h3]; rfl

/-- **C20.** In every history of blocks and reorgs (that removes no class declaration, see C18) whose chain obeys the
protocol rules, the state update read back for a stored block says exactly what was inserted. -/
theorem C20_read_back (ops : List Op) (hw : OpsOk ops) (hp : NoPrune ops) (hc : CleanReorgs ops)
    (hok : ChainOk (Track.run ops).updates) (n : Nat) (u : Update) (hu : (Track.run ops).updates[n]? = some u) :
    ∃ w, readUpdate (run ops) n = some w ∧ w.Same u := by
  have hlo : (Track.run ops).lo = 0 := lo_noPrune ops hp {}
  obtain ⟨w, h1, _, h2⟩ := read_back_retained ops hw hc hok n (by omega) u hu
  exact ⟨w, h1, h2 (.inr hlo)⟩

/-- **C47, partial.** With pruning, the state update of a block that is kept is read back as inserted, except that in the
first kept block a replaced class may be reported as a deployment (`C47_violated`). -/
theorem C47_pruned_read_back_partial (ops : List Op) (hw : OpsOk ops) (hc : CleanReorgs ops)
    (hok : ChainOk (Track.run ops).updates) (n : Nat) (hk : hasBlock (run ops) n = true) :
    ∃ u w, (Track.run ops).updates[n]? = some u ∧ readUpdate (run ops) n = some w ∧ w.SameValues u ∧
      ((Track.run ops).lo < n → w.Same u) := by
  have g := good_run ops hw
  rw [g.hasBlock] at hk
  simp at hk
  have hul : (Track.run ops).updates.length = (Track.run ops).chain.length := by simp [Track.updates]
  have hl : n < (Track.run ops).updates.length := by omega
  obtain ⟨w, h1, h2, h3⟩ := read_back_retained ops hw hc hok n hk.1 _ (List.getElem?_eq_getElem hl)
  exact ⟨_, w, List.getElem?_eq_getElem hl, h1, h2, fun h => h3 (.inl h)⟩

/-- There is nothing to read back for a block that is not stored. -/
theorem C20_no_block (ops : List Op) (hw : OpsOk ops) (n : Nat) (hn : (Track.run ops).chain.length ≤ n) :
    readUpdate (run ops) n = none := by
  have g := good_run ops hw
  unfold readUpdate
  rw [if_neg]
  intro h
  obtain ⟨⟨i, x⟩, hr, e⟩ := List.any_eq_true.1 h
  obtain ⟨_, u, hu⟩ := (g.hdr i x).1 hr
  have := (List.getElem?_eq_some_iff.1 hu).1
  simp at e
  omega

/-! ### a concrete chain -/

/-- `ChainOk` as a computation. -/
def chainOkB (us : List Update) : Bool :=
  (List.range us.length).all fun n =>
    let u := us[n]?.getD {}
    let nm := fun (j : Nat) (h : Class) => let w := us[j]?.getD {}; (w.sierra.map (·.1)).contains h || w.cairo.contains h
    (u.contracts.all fun p => match p.2.cls with
      | some (.deploy c) => ((List.range n).all fun j => ((us[j]?.getD {}).classOf p.1).isNone) && (List.range (n + 1)).any fun j => nm j c
      | some (.replace _) => (List.range n).any fun j => ((us[j]?.getD {}).classOf p.1).isSome
      | none => true) &&
    ((u.sierra.map (·.1)).all fun h => !u.cairo.contains h && (List.range n).all fun j => !nm j h) &&
    ((u.migrated.map (·.1)).all fun h => (List.range n).any fun j => ((us[j]?.getD {}).sierra.map (·.1)).contains h)

theorem chainOk_of {us : List Update} (h : chainOkB us = true) : ChainOk us := by
  unfold chainOkB at h
  simp only [List.all_eq_true, List.mem_range, Bool.and_eq_true, List.any_eq_true, Bool.not_eq_true',
    List.contains_iff_mem] at h
  have hlt : ∀ {n : Nat} {u : Update}, us[n]? = some u → n < us.length := fun h => (List.getElem?_eq_some_iff.1 h).1
  refine ⟨?_, ?_, ?_, ?_, ?_⟩
  · intro n u a c hu hd j w hj hw
    have h1 := (h n (hlt hu)).1.1
    rw [hu] at h1
    unfold Update.classUpdOf at hd
    cases hl : u.contracts.lookup a with
    | none => rw [hl] at hd; simp at hd
    | some p =>
      rw [hl] at hd
      have h2 := h1 (a, p) (lookup_mem hl)
      simp only [Option.bind_some] at hd
      simp only [hd, Bool.and_eq_true, List.all_eq_true, List.mem_range] at h2
      have h3 := h2.1 j hj
      rw [hw] at h3
      simpa using h3
  · intro n u a c hu hd
    have h1 := (h n (hlt hu)).1.1
    rw [hu] at h1
    unfold Update.classUpdOf at hd
    cases hl : u.contracts.lookup a with
    | none => rw [hl] at hd; simp at hd
    | some p =>
      rw [hl] at hd
      have h2 := h1 (a, p) (lookup_mem hl)
      simp only [Option.bind_some] at hd
      simp only [hd, List.any_eq_true, List.mem_range] at h2
      obtain ⟨j, hj, h3⟩ := h2
      have hjl : j < us.length := by have := hlt hu; omega
      rw [List.getElem?_eq_getElem hjl] at h3
      exact ⟨j, us[j], hj, List.getElem?_eq_getElem hjl, Option.isSome_iff_ne_none.1 h3⟩
  · intro n u a c hu hd
    have h1 := (h n (hlt hu)).1.1
    rw [hu] at h1
    unfold Update.classUpdOf at hd
    cases hl : u.contracts.lookup a with
    | none => rw [hl] at hd; simp at hd
    | some p =>
      rw [hl] at hd
      have h2 := h1 (a, p) (lookup_mem hl)
      simp only [Option.bind_some] at hd
      simp only [hd, Bool.and_eq_true, List.any_eq_true, List.mem_range, Bool.or_eq_true, List.contains_iff_mem] at h2
      obtain ⟨j, hj, h3⟩ := h2.2
      have hjl : j < us.length := by have := hlt hu; omega
      rw [List.getElem?_eq_getElem hjl] at h3
      exact ⟨j, us[j], by omega, List.getElem?_eq_getElem hjl, h3⟩
  · intro n u x hu hs
    have h1 := (h n (hlt hu)).1.2
    rw [hu] at h1
    have h2 := h1 x hs
    refine ⟨by simpa using h2.1, ?_⟩
    intro j w hj hw hn
    have h3 := h2.2 j hj
    rw [hw] at h3
    simp only [Option.getD_some, Bool.or_eq_false_iff] at h3
    rcases hn with hn | hn
    · have : (w.sierra.map (·.1)).contains x = true := List.contains_iff_mem.2 hn
      rw [this] at h3; simp at h3
    · have : w.cairo.contains x = true := List.contains_iff_mem.2 hn
      rw [this] at h3; simp at h3
  · intro n u x hu hs
    have h1 := (h n (hlt hu)).2
    rw [hu] at h1
    obtain ⟨j, hj, h3⟩ := h1 x hs
    have hjl : j < us.length := by have := hlt hu; omega
    rw [List.getElem?_eq_getElem hjl] at h3
    exact ⟨j, us[j], hj, List.getElem?_eq_getElem hjl, h3⟩

/-- A chain with a deployment, a replaced class, declarations, a migration, a re-declaration and a reorg. -/
def chainOps : List Op := [
  .block 100 { contracts := [(7, { storage := [(1, 11), (2, 12)], cls := some (.deploy 50), nonce := some 0 })],
               system := [(1, [(3, 33)])], cairo := [50] },
  .block 101 { sierra := [(51, 900)], cairo := [50] },
  .block 102 { contracts := [(7, { cls := some (.replace 51), storage := [(1, 0)] })], migrated := [(51, 901)] },
  .block 103 {},
  .reorg 3,
  .block 203 { contracts := [(8, { cls := some (.deploy 51), nonce := some 1 })] } ]

/-- `CleanReorgs` as a computation. -/
def cleanB (ops : List Op) : Bool :=
  (List.range ops.length).all fun i => match ops[i]? with
    | some (.reorg t) => ((Track.run (ops.take i)).updates.drop t).all fun u => u.sierra == [] && u.migrated == []
    | _ => true

theorem clean_of {ops : List Op} (h : cleanB ops = true) : CleanReorgs ops := by
  intro pre tail post e u hu
  obtain ⟨h1, h2⟩ := reorg_at e
  have hl : pre.length < ops.length := (List.getElem?_eq_some_iff.1 h1).1
  have h3 := List.all_eq_true.1 h pre.length (List.mem_range.2 hl)
  rw [h1] at h3
  simp only at h3
  rw [← h2, List.all_eq_true] at h3
  have := h3 u hu
  simpa using this

/-- The hypotheses of C20 hold of that history. -/
example : OpsOk chainOps ∧ NoPrune chainOps ∧ CleanReorgs chainOps ∧ ChainOk (Track.run chainOps).updates ∧
    (Track.run chainOps).updates.length = 4 ∧
    (readUpdate (run chainOps) 1).map (fun w => (w.cairo, w.sierra, w.migrated)) = some ([50], [(51, 900)], []) ∧
    (readUpdate (run chainOps) 2).map (fun w => (w.contracts, w.migrated)) =
      some ([(7, { cls := some (.replace 51), storage := [(1, 0)] })], [(51, 901)]) := by
  refine ⟨opsOk_of _ (by decide), by unfold NoPrune; decide, clean_of (by decide), chainOk_of (by decide), by decide, by decide, by decide⟩

/-- The same chain, pruned: its second block is the first one kept, and the blocks after it satisfy C47. -/
example : OpsOk (chainOps ++ [.prune 3 2]) ∧ CleanReorgs (chainOps ++ [.prune 3 2]) ∧
    ChainOk (Track.run (chainOps ++ [.prune 3 2])).updates ∧ (Track.run (chainOps ++ [.prune 3 2])).lo = 1 ∧
    hasBlock (run (chainOps ++ [.prune 3 2])) 2 = true ∧ hasBlock (run (chainOps ++ [.prune 3 2])) 0 = false := by
  exact ⟨opsOk_of _ (by decide), clean_of (by decide), chainOk_of (by decide), by decide, by decide, by decide⟩

/-! ### where the property fails -/

/-- **C47 fails.** Pruning the block before a class replacement deletes the older class row of the contract, and the
replacement, in a block that is kept, is read back as a deployment. -/
theorem C47_violated : ∃ (ops : List Op) (p k : Nat), OpsOk ops ∧ BlocksOnly ops ∧ ChainOk (Track.run ops).updates ∧
    hasBlock (prune (run ops) p k) 1 = true ∧
    (readUpdate (run ops) 1).map (·.classUpdOf 7) = some (some (.replace 51)) ∧
    (readUpdate (prune (run ops) p k) 1).map (·.classUpdOf 7) = some (some (.deploy 51)) := by
  refine ⟨[.block 100 { contracts := [(7, { cls := some (.deploy 50) })], cairo := [50, 51] },
      .block 101 { contracts := [(7, { cls := some (.replace 51) })] }, .block 102 {}], 2, 1,
    opsOk_of _ (by decide), by unfold BlocksOnly; decide, chainOk_of (by decide), by decide, by decide, by decide⟩

/-- The rule `deployDeclared` of C20 is needed: a class that is deployed without having been declared is read back as
declared by the same block. -/
theorem C20_undeclared_deploy : ∃ ops, OpsOk ops ∧ BlocksOnly ops ∧ (Track.run ops).updates[0]?.map (·.cairo) = some [] ∧
    (readUpdate (run ops) 0).map (·.cairo) = some [50] := by
  refine ⟨[.block 100 { contracts := [(7, { cls := some (.deploy 50) })] }], opsOk_of _ (by decide), by unfold BlocksOnly; decide,
    by decide, by decide⟩

/-- The rule `sierraOnce` is needed: a Sierra class declared again is read back as a Cairo class and as migrated. -/
theorem C20_redeclared_sierra : ∃ ops, OpsOk ops ∧ BlocksOnly ops ∧
    (Track.run ops).updates[1]?.map (fun w => (w.cairo, w.sierra, w.migrated)) = some ([], [(51, 900)], []) ∧
    (readUpdate (run ops) 1).map (fun w => (w.cairo, w.sierra, w.migrated)) = some ([51], [], [(51, 900)]) := by
  refine ⟨[.block 100 { sierra := [(51, 900)] }, .block 101 { sierra := [(51, 900)] }], opsOk_of _ (by decide),
    by unfold BlocksOnly; decide, by decide, by decide⟩

end Verif.State
