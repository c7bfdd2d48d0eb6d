import Verif.State.CasmProps
/-
Reading a stored state update back.
-/
namespace Verif.State
open Verif.Db

/-! ### folds seen through one component -/

/-- A fold of which one component is overwritten by some of the rows. -/
theorem view_fold {σ ρ α : Type} (stp : σ → ρ → σ) (view : σ → Option α) (pick : ρ → Option α)
    (h : ∀ s r, view (stp s r) = (pick r).or (view s)) (rs : List ρ) (s : σ) :
    view (rs.foldl stp s) = (rs.reverse.findSome? pick).or (view s) := by
  induction rs generalizing s with
  | nil => rfl
  | cons r rs ih =>
    rw [List.foldl_cons, ih, h, List.reverse_cons, List.findSome?_append]
    cases rs.reverse.findSome? pick with
    | some v => rfl
    | none => cases hp : pick r <;> simp [hp]

theorem view_fold_same {σ ρ β : Type} (stp : σ → ρ → σ) (view : σ → β)
    (h : ∀ s r, view (stp s r) = view s) (rs : List ρ) (s : σ) : view (rs.foldl stp s) = view s := by
  induction rs generalizing s with
  | nil => rfl
  | cons r rs ih => rw [List.foldl_cons, ih, h]

theorem findSome?_unique {ρ α : Type} {rs : List ρ} {pick : ρ → Option α} {o : Option α}
    (h : ∀ v, (∃ r ∈ rs, pick r = some v) ↔ o = some v) : rs.reverse.findSome? pick = o := by
  cases hf : rs.reverse.findSome? pick with
  | some v =>
    obtain ⟨r, hr, e⟩ := List.exists_of_findSome?_eq_some hf
    exact ((h v).1 ⟨r, by simpa using hr, e⟩).symm
  | none =>
    cases ho : o with
    | none => rfl
    | some v =>
      obtain ⟨r, hr, e⟩ := (h v).2 ho
      rw [List.findSome?_eq_none_iff] at hf
      rw [hf r (by simpa using hr)] at e
      simp at e

/-- For a block that is not pruned, a row exists exactly for what the block writes. -/
theorem Tab.mem_iff {β α : Type} {f : β → Option α} {us : List β} {lo : Nat} {rows : List (Nat × α)} (t : Tab f us lo rows)
    (n : Nat) (hn : lo ≤ n) (v : α) :
    (n, v) ∈ rows ↔ us[n]?.bind f = some v := by
  constructor
  · intro h; exact t.sound _ h
  · intro h
    rcases t.complete n v h with h | ⟨j, w, h1, h2, _⟩
    · exact h
    · omega

/-! ### components of the updated update -/

theorem alter_bind {α β : Type} (m : List (Nat × α)) (k x : Nat) (d : α) (f : α → α) (g : α → Option β) :
    ((alter m k d f).lookup x).bind g = if x = k then g (f ((m.lookup k).getD d)) else (m.lookup x).bind g := by
  rw [alter_lookup]
  split <;> rfl

theorem getD_bind {α β : Type} (o : Option α) (d : α) (g : α → Option β) (hd : g d = none) : g (o.getD d) = o.bind g := by
  cases o <;> simp [hd]

section
variable (u : Update) (a b : Addr)

theorem withNonce_nonce (x : Nonce) : (withNonce u a x).nonceOf b = if b = a then some x else u.nonceOf b := by
  unfold withNonce Update.nonceOf
  simp only
  rw [alter_bind]

theorem withNonce_cls (x : Nonce) : (withNonce u a x).classUpdOf b = u.classUpdOf b := by
  unfold withNonce Update.classUpdOf
  simp only
  rw [alter_bind]
  split
  · rename_i e; rw [e]; exact getD_bind _ _ (fun c : ContractUpd => c.cls) rfl
  · rfl

theorem withNonce_sto (x : Nonce) (k : Key) : (withNonce u a x).contractStorage b k = u.contractStorage b k := by
  unfold withNonce Update.contractStorage
  simp only
  rw [alter_bind]
  split
  · rename_i e; rw [e]; exact getD_bind _ _ (fun c : ContractUpd => c.storage.lookup k) rfl
  · rfl

theorem withClass_cls (c : ClassUpd) : (withClass u a c).classUpdOf b = if b = a then some c else u.classUpdOf b := by
  unfold withClass Update.classUpdOf
  simp only
  rw [alter_bind]

theorem withClass_nonce (c : ClassUpd) : (withClass u a c).nonceOf b = u.nonceOf b := by
  unfold withClass Update.nonceOf
  simp only
  rw [alter_bind]
  split
  · rename_i e; rw [e]; exact getD_bind _ _ (fun c : ContractUpd => c.nonce) rfl
  · rfl

theorem withClass_sto (c : ClassUpd) (k : Key) : (withClass u a c).contractStorage b k = u.contractStorage b k := by
  unfold withClass Update.contractStorage
  simp only
  rw [alter_bind]
  split
  · rename_i e; rw [e]; exact getD_bind _ _ (fun c : ContractUpd => c.storage.lookup k) rfl
  · rfl

theorem withStorage_nonce (k : Key) (v : Val) : (withStorage u a k v).nonceOf b = u.nonceOf b := by
  unfold withStorage
  split
  · rfl
  · unfold Update.nonceOf
    simp only
    rw [alter_bind]
    split
    · rename_i e; rw [e]; exact getD_bind _ _ (fun c : ContractUpd => c.nonce) rfl
    · rfl

theorem withStorage_cls (k : Key) (v : Val) : (withStorage u a k v).classUpdOf b = u.classUpdOf b := by
  unfold withStorage
  split
  · rfl
  · unfold Update.classUpdOf
    simp only
    rw [alter_bind]
    split
    · rename_i e; rw [e]; exact getD_bind _ _ (fun c : ContractUpd => c.cls) rfl
    · rfl

theorem withStorage_sto (k j : Key) (v : Val) : (withStorage u a k v).contractStorage b j =
    if b = a ∧ j = k ∧ isSystem a = false then some v else u.contractStorage b j := by
  unfold withStorage
  cases hs : isSystem a with
  | true => simp only [ite_true, Bool.true_eq_false, and_false, ite_false]; rfl
  | false =>
    unfold Update.contractStorage
    simp only [Bool.false_eq_true, ite_false, and_true]
    rw [alter_bind]
    by_cases e : b = a
    · subst e
      simp only [ite_true, true_and, put_lookup]
      split
      · rfl
      · exact getD_bind _ _ (fun c : ContractUpd => c.storage.lookup j) rfl
    · simp [e]

theorem withStorage_sys (k j : Key) (v : Val) : (withStorage u a k v).systemStorage b j =
    if b = a ∧ j = k ∧ isSystem a = true then some v else u.systemStorage b j := by
  unfold withStorage
  cases hs : isSystem a with
  | false => simp only [Bool.false_eq_true, and_false, ite_false]; rfl
  | true =>
    unfold Update.systemStorage
    simp only [ite_true, and_true]
    rw [alter_bind]
    by_cases e : b = a
    · subst e
      simp only [ite_true, true_and, put_lookup]
      split
      · rfl
      · exact getD_bind _ _ (fun c : List (Key × Val) => c.lookup j) rfl
    · simp [e]

end

theorem storageOf_split {u : Update} (hw : u.WF) (a : Addr) (k : Key) :
    u.contractStorage a k = (if isSystem a = false then u.storageOf a k else none) ∧
    u.systemStorage a k = (if isSystem a = true then u.storageOf a k else none) := by
  unfold Update.contractStorage Update.systemStorage Update.storageOf
  cases hs : isSystem a with
  | true =>
    have : u.contracts.lookup a = none := by
      apply lookup_eq_none
      intro p hp e
      have := hw.notSystem p hp
      rw [e, hs] at this
      exact absurd this (by decide)
    simp [this]
  | false =>
    have : u.system.lookup a = none := by
      apply lookup_eq_none
      intro p hp e
      have := hw.isSystem p hp
      rw [e, hs] at this
      exact absurd this (by decide)
    rw [this]
    simp only [Option.bind_none, ite_true, Bool.false_eq_true, ite_false, and_true]
    cases u.contracts.lookup a <;> rfl

/-! ### re-declared classes -/

theorem declares_redeclared (n : Nat) (hs : List Class) (db : Db) (h : Class) (m : Nat) :
    (h, m) ∈ (hs.foldl (declare n) db).redeclared ↔
      (h, m) ∈ db.redeclared ∨ (m = n ∧ h ∈ hs ∧ ∃ b, b ≠ n ∧ db.classDefs.lookup h = some (some b)) := by
  induction hs generalizing db with
  | nil => simp
  | cons x hs ih =>
    rw [List.foldl_cons, ih]
    have hdef : (declare n db x).classDefs = (upsertDeclaredAt db.classDefs n x).1 := by
      unfold declare; simp only; split <;> rfl
    have hret : (upsertDeclaredAt db.classDefs n x).2 = ((db.classDefs.lookup x).bind id).getD n := by
      unfold upsertDeclaredAt
      cases db.classDefs.lookup x with
      | none => rfl
      | some o => cases o <;> rfl
    have hred : (h, m) ∈ (declare n db x).redeclared ↔
        (h, m) ∈ db.redeclared ∨ (m = n ∧ h = x ∧ ∃ b, b ≠ n ∧ db.classDefs.lookup h = some (some b)) := by
      unfold declare
      simp only [hret]
      split
      · rename_i hne
        simp only [List.mem_append, List.mem_singleton, Prod.mk.injEq]
        constructor
        · rintro (hm | ⟨rfl, rfl⟩)
          · exact .inl hm
          · refine .inr ⟨rfl, rfl, ?_⟩
            cases hl : db.classDefs.lookup h with
            | none => rw [hl] at hne; simp at hne
            | some o =>
              cases o with
              | none => rw [hl] at hne; simp at hne
              | some b => rw [hl] at hne; exact ⟨b, by simpa using hne, rfl⟩
        · rintro (hm | ⟨h1, h2, _⟩)
          · exact .inl hm
          · exact .inr ⟨h2, h1⟩
      · rename_i hne
        constructor
        · exact .inl
        · rintro (hm | ⟨_, rfl, b, hb, hl⟩)
          · exact hm
          · rw [hl] at hne; simp at hne; exact absurd hne hb
    rw [hred, hdef, upsert_lookup]
    simp only [List.mem_cons]
    constructor
    · rintro ((hm | ⟨h1, h2, h3⟩) | ⟨h1, h2, b, hb, h3⟩)
      · exact .inl hm
      · exact .inr ⟨h1, .inl h2, h3⟩
      · refine .inr ⟨h1, .inr h2, ?_⟩
        split at h3
        · rename_i e
          subst e
          simp only [Option.some.injEq] at h3
          cases hl : db.classDefs.lookup h with
          | none => rw [hl] at h3; simp at h3; exact absurd h3.symm hb
          | some o =>
            cases o with
            | none => rw [hl] at h3; simp at h3; exact absurd h3.symm hb
            | some b' => rw [hl] at h3; simp at h3; exact ⟨b', by rw [h3]; exact hb, rfl⟩
        · exact ⟨b, hb, h3⟩
    · rintro (hm | ⟨h1, h2 | h2, b, hb, h3⟩)
      · exact .inl (.inl hm)
      · exact .inl (.inr ⟨h1, h2, b, hb, h3⟩)
      · refine .inr ⟨h1, h2, b, hb, ?_⟩
        split
        · rename_i e
          subst e
          rw [h3]; rfl
        · exact h3

theorem foldl_redeclared {γ : Type} (f : Db → γ → Db) (hf : ∀ db x, (f db x).redeclared = db.redeclared ∧ (f db x).classDefs = db.classDefs)
    (l : List γ) (db : Db) : (l.foldl f db).redeclared = db.redeclared ∧ (l.foldl f db).classDefs = db.classDefs := by
  induction l generalizing db with
  | nil => exact ⟨rfl, rfl⟩
  | cons x xs ih => rw [List.foldl_cons, (ih _).1, (ih _).2]; exact hf db x

theorem insertUpdate_redeclared (db : Db) (n : Nat) (u : Update) (h : Class) (m : Nat) :
    (h, m) ∈ (insertUpdate db n u).redeclared ↔
      (h, m) ∈ db.redeclared ∨ (m = n ∧ u.names h ∧ ∃ b, b ≠ n ∧ db.classDefs.lookup h = some (some b)) := by
  unfold insertUpdate
  simp only
  obtain ⟨c2, e2⟩ := casm_frame n u.migrated (u.sierra.foldl (insCasm n) (u.contracts.foldl (declareImplicit n)
    ((u.sierra.map (·.1) ++ u.cairo).foldl (declare n) (u.system.foldl (insSystem n) (u.contracts.foldl (insContract n) db)))))
  rw [e2]
  obtain ⟨c1, e1⟩ := casm_frame n u.sierra (u.contracts.foldl (declareImplicit n)
    ((u.sierra.map (·.1) ++ u.cairo).foldl (declare n) (u.system.foldl (insSystem n) (u.contracts.foldl (insContract n) db))))
  rw [e1]
  obtain ⟨c0, e0⟩ := implicit_frame n u.contracts
    ((u.sierra.map (·.1) ++ u.cairo).foldl (declare n) (u.system.foldl (insSystem n) (u.contracts.foldl (insContract n) db)))
  rw [e0]
  simp only
  rw [declares_redeclared]
  have hsto : ∀ (kvs : List (Key × Val)) (cid : Nat) (db : Db),
      (kvs.foldl (insStorage n cid) db).redeclared = db.redeclared ∧ (kvs.foldl (insStorage n cid) db).classDefs = db.classDefs :=
    fun kvs cid db => foldl_redeclared (insStorage n cid) (fun _ _ => ⟨rfl, rfl⟩) kvs db
  have h1 := foldl_redeclared (insSystem n) (by
    intro db x
    unfold insSystem
    exact hsto x.2 _ _) u.system (u.contracts.foldl (insContract n) db)
  have h2 := foldl_redeclared (insContract n) (by
    intro db x
    unfold insContract
    exact hsto x.2.storage _ _) u.contracts db
  rw [h1.1, h1.2, h2.1, h2.2]
  unfold Update.names
  rw [List.mem_append]

theorem declares_of_names {u : Update} {h : Class} (hn : u.names h) : u.declares h = true := by
  unfold Update.declares
  rcases hn with hn | hn
  · obtain ⟨p, hp, e⟩ := List.mem_map.1 hn
    have : u.sierra.any (fun p => p.1 == h) = true := List.any_eq_true.2 ⟨p, hp, by simpa using e⟩
    simp [this]
  · simp [hn]

theorem Good.pruneLoop_redeclared {db : Db} {tr : Track} (g : Good db tr) (d : Nat) (hl : tr.lo + d < tr.chain.length)
    (x : Class × Nat) : x ∈ (State.pruneLoop db tr.lo d).redeclared ↔ x ∈ db.redeclared ∧ ¬ (tr.lo ≤ x.2 ∧ x.2 < tr.lo + d) := by
  induction d generalizing db tr with
  | zero => simp [State.pruneLoop]
  | succ d ih =>
    unfold State.pruneLoop
    have hb : State.hasBlock db tr.lo = true := by
      rw [g.hasBlock]; simp; omega
    simp only [hb, ite_true]
    have := ih (g.pruneBlock (by omega)) (by simp only; omega)
    simp only at this
    rw [this]
    unfold State.pruneBlock
    simp only [List.mem_filter, bne_iff_ne, ne_eq]
    constructor
    · rintro ⟨⟨h1, h2⟩, h3⟩; exact ⟨h1, by omega⟩
    · rintro ⟨h1, h2⟩; exact ⟨⟨h1, by omega⟩, by omega⟩

theorem Good.prune_redeclared {db : Db} {tr : Track} (g : Good db tr) (point kept : Nat) (x : Class × Nat)
    (hx0 : x ∈ db.redeclared → tr.lo ≤ x.2) :
    x ∈ (step db (.prune point kept)).redeclared ↔ x ∈ db.redeclared ∧ (tr.step (.prune point kept)).lo ≤ x.2 := by
  unfold step State.prune Track.step
  rw [g.head]
  by_cases hc : tr.chain = []
  · simp only [hc, ite_true, List.length_nil, Nat.not_lt_zero, false_and, ite_false]
    exact ⟨fun h => ⟨h, hx0 h⟩, fun h => h.1⟩
  have hl : tr.lo < tr.chain.length := by rcases g.lo with h | h; exact h; exact absurd h.2 hc
  rw [g.earliest hc]
  simp only [hc, ite_false]
  by_cases hx : point < tr.chain.length ∧ kept ≤ point
  · rw [if_pos hx, if_pos (by omega), g.pruneLoop_redeclared _ (by omega)]
    simp only
    constructor
    · rintro ⟨h1, h2⟩
      have := hx0 h1
      exact ⟨h1, by omega⟩
    · rintro ⟨h1, h2⟩
      exact ⟨h1, by omega⟩
  · rw [if_neg hx, if_neg (by omega)]
    exact ⟨fun h => ⟨h, hx0 h⟩, fun h => h.1⟩

theorem redeclared_run (ops : List Op) (hw : OpsOk ops) (h : Class) (n : Nat) :
    (h, n) ∈ (run ops).redeclared ↔ (Track.run ops).lo ≤ n ∧ ∃ u, (Track.run ops).updates[n]? = some u ∧ u.names h ∧
      ∃ j w, j < n ∧ (Track.run ops).updates[j]? = some w ∧ w.declares h = true := by
  induction ops using snoc_induction with
  | h0 => simp [run, Track.run, Track.updates]
  | h1 ops op ih =>
    have hw0 : OpsOk ops := fun h u hm => hw h u (by simp [hm])
    have g := good_run ops hw0
    have t := ih hw0
    have hr : run (ops ++ [op]) = step (run ops) op := by unfold run; rw [List.foldl_append]; rfl
    have ht : Track.run (ops ++ [op]) = (Track.run ops).step op := by unfold Track.run; rw [List.foldl_append]; rfl
    have hul : (Track.run ops).updates.length = (Track.run ops).chain.length := by simp [Track.updates]
    have hlo : (Track.run ops).lo ≤ (Track.run ops).chain.length := by rcases g.lo with h | h; omega; simp [h.1]
    rw [hr, ht]
    cases op with
    | define x =>
      have : (step (run ops) (.define x)).redeclared = (run ops).redeclared := by
        simp only [step, insertDefinition]; split <;> rfl
      rw [this]; exact t
    | block hash u =>
      rcases g.block_cases hash u with ⟨e1, e2⟩ | ⟨e1, e2⟩
      · rw [e1, e2]; exact t
      · rw [e1, e2, insertUpdate_redeclared]
        have hups : ({ Track.run ops with chain := (Track.run ops).chain ++ [(hash, u)] } : Track).updates =
            (Track.run ops).updates ++ [u] := by simp [Track.updates]
        rw [hups]
        simp only
        rw [t, ← hul]
        generalize hus : (Track.run ops).updates = us at *
        constructor
        · rintro (⟨h0, v, h1, h2, j, w, h3, h4, h5⟩ | ⟨rfl, h2, b, hb, h3⟩)
          · have hn := (List.getElem?_eq_some_iff.1 h1).1
            exact ⟨h0, v, by rw [List.getElem?_append_left hn]; exact h1, h2, j, w, h3,
              by rw [List.getElem?_append_left (by omega)]; exact h4, h5⟩
          · rw [g.defs] at h3
            unfold Track.declaredAt at h3
            rw [hus, findIdx?_iff] at h3
            obtain ⟨⟨w, h4, h5⟩, _⟩ := h3
            have hb2 := (List.getElem?_eq_some_iff.1 h4).1
            exact ⟨by omega, u, by simp, h2, b, w, hb2, by rw [List.getElem?_append_left hb2]; exact h4, h5⟩
        · rintro ⟨h0, v, h1, h2, j, w, h3, h4, h5⟩
          by_cases hn : n < us.length
          · rw [List.getElem?_append_left hn] at h1
            rw [List.getElem?_append_left (by omega)] at h4
            exact .inl ⟨h0, v, h1, h2, j, w, h3, h4, h5⟩
          · have hn2 := (List.getElem?_eq_some_iff.1 h1).1
            simp at hn2
            have : n = us.length := by omega
            subst this
            simp at h1
            subst h1
            rw [List.getElem?_append_left h3] at h4
            refine .inr ⟨rfl, h2, ?_⟩
            cases hd : (Track.run ops).declaredAt h with
            | none =>
              unfold Track.declaredAt at hd
              rw [hus, List.findIdx?_eq_none_iff] at hd
              have := hd w (List.mem_of_getElem? h4)
              rw [h5] at this; simp at this
            | some b =>
              refine ⟨b, ?_, (g.defs h b).2 hd⟩
              unfold Track.declaredAt at hd
              rw [hus, findIdx?_iff] at hd
              obtain ⟨⟨w, h6, _⟩, _⟩ := hd
              have := (List.getElem?_eq_some_iff.1 h6).1
              omega
    | reorg tail =>
      rcases g.reorg_cases tail with ⟨e1, e2⟩ | ⟨hlt, e1, e2⟩
      · rw [e1, e2]; exact t
      · rw [e1, e2, purgeDown_eq]
        have hups : ({ Track.run ops with chain := (Track.run ops).chain.take tail } : Track).updates = (Track.run ops).updates.take tail := by
          simp [Track.updates, List.map_take]
        rw [hups]
        simp only [List.mem_filter]
        rw [t]
        constructor
        · rintro ⟨⟨h0, v, h1, h2, j, w, h3, h4, h5⟩, h6⟩
          have hn := (List.getElem?_eq_some_iff.1 h1).1
          simp at h6
          have hn2 : n < tail := by omega
          exact ⟨h0, v, by rw [List.getElem?_take_of_lt hn2]; exact h1, h2, j, w, h3,
            by rw [List.getElem?_take_of_lt (by omega)]; exact h4, h5⟩
        · rintro ⟨h0, v, h1, h2, j, w, h3, h4, h5⟩
          have hn := (List.getElem?_eq_some_iff.1 h1).1
          rw [List.length_take] at hn
          rw [List.getElem?_take_of_lt (by omega)] at h1 h4
          refine ⟨⟨h0, v, h1, h2, j, w, h3, h4, h5⟩, ?_⟩
          simp
          omega
    | prune p k =>
      rw [g.prune_redeclared p k (h, n) fun hm => (t.1 hm).1, t]
      have hch : ((Track.run ops).step (.prune p k)).updates = (Track.run ops).updates := by
        unfold Track.step Track.updates; simp only; split <;> rfl
      have hle : (Track.run ops).lo ≤ ((Track.run ops).step (.prune p k)).lo := by
        unfold Track.step; simp only; split
        · simp only; omega
        · exact Nat.le_refl _
      rw [hch]
      simp only
      constructor
      · rintro ⟨⟨_, h1⟩, h2⟩; exact ⟨h2, h1⟩
      · rintro ⟨h2, h1⟩; exact ⟨⟨by omega, h1⟩, h2⟩

end Verif.State
