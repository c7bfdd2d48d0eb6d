import Verif.Migrate.Spec
import Verif.State.CasmProps
import Verif.State.ReadBack
/-
Lemmas on the migrations of the tables.
-/
namespace Verif.Migrate
open Verif.State Verif.Db

/-! ### the tables of addresses -/

/-- The normalised tables as a database. -/
def Norm.db (t : Norm) : Db := { addrs := t.addrs, keys := t.keys, storage := t.storage, nonces := t.nonces }

theorem storageStep_eff {t : Norm} (hv : Valid t.db) (r : OldStorage) :
    Valid (storageStep t r).db ∧ (∀ a, nonceRows (storageStep t r).db a = nonceRows t.db a) ∧
      ∀ a k, storageRows (storageStep t r).db a k = storageRows t.db a k ++
        if r.addr = a ∧ r.key = k then [(r.block, r.val)] else [] := by
  obtain ⟨a1, a2, a3, a4, a5⟩ := intern_spec t.addrs r.addr hv.addrs
  obtain ⟨k1, k2, k3, k4, k5⟩ := intern_spec t.keys r.key hv.keys
  refine ⟨⟨a2, k2, ?_, ?_⟩, ?_, ?_⟩
  · intro x hx
    have := hv.nonceIds x hx
    exact Nat.lt_of_lt_of_le this a5
  · intro x hx
    simp only [Norm.db, storageStep, List.mem_append, List.mem_singleton] at hx
    rcases hx with hx | hx
    · have := hv.storageIds x hx
      exact ⟨Nat.lt_of_lt_of_le this.1 a5, Nat.lt_of_lt_of_le this.2 k5⟩
    · rw [hx]; exact ⟨a4, k4⟩
  · intro a
    show sel (fun key : Nat => (intern t.addrs r.addr).1[key]? = some a) t.nonces = sel (fun key : Nat => t.addrs[key]? = some a) t.nonces
    apply sel_congr
    intro x hx
    rw [getElem?_ext_iff a3 (hv.nonceIds x hx)]
  · intro a k
    show sel (fun key : Nat × Nat => (intern t.addrs r.addr).1[key.1]? = some a ∧ (intern t.keys r.key).1[key.2]? = some k) _ =
      sel (fun key : Nat × Nat => t.addrs[key.1]? = some a ∧ t.keys[key.2]? = some k) t.storage ++ _
    rw [show (storageStep t r).db.storage = t.storage ++ [⟨r.block, ((intern t.addrs r.addr).2, (intern t.keys r.key).2), r.val⟩] from rfl,
      sel_append]
    congr 1
    · apply sel_congr
      intro x hx
      rw [getElem?_ext_iff a3 (hv.storageIds x hx).1, getElem?_ext_iff k3 (hv.storageIds x hx).2]
    · rw [sel_single]
      simp only [a1, k1, Option.some.injEq]

theorem revision56_eff (rows : List OldStorage) {t : Norm} (hv : Valid t.db) :
    Valid (revision56 rows t).db ∧ (∀ a, nonceRows (revision56 rows t).db a = nonceRows t.db a) ∧
      ∀ a k, storageRows (revision56 rows t).db a k = storageRows t.db a k ++
        rows.filterMap fun r => if r.addr = a ∧ r.key = k then some (r.block, r.val) else none := by
  induction rows generalizing t with
  | nil => exact ⟨hv, fun _ => rfl, fun _ _ => by simp [revision56]⟩
  | cons r rs ih =>
    obtain ⟨h1, h2, h3⟩ := storageStep_eff hv r
    obtain ⟨g1, g2, g3⟩ := ih h1
    refine ⟨g1, fun a => (g2 a).trans (h2 a), fun a k => ?_⟩
    refine (g3 a k).trans ?_
    rw [h3 a k, List.filterMap_cons]
    split <;> simp_all

theorem nonceStep_eff {t : Norm} (hv : Valid t.db) (r : Row Addr Nonce) :
    Valid (nonceStep t r).db ∧ (∀ a k, storageRows (nonceStep t r).db a k = storageRows t.db a k) ∧
      ∀ a, nonceRows (nonceStep t r).db a = nonceRows t.db a ++ if r.key = a then [(r.block, r.val)] else [] := by
  obtain ⟨a1, a2, a3, a4, a5⟩ := intern_spec t.addrs r.key hv.addrs
  refine ⟨⟨a2, hv.keys, ?_, ?_⟩, ?_, ?_⟩
  · intro x hx
    simp only [Norm.db, nonceStep, List.mem_append, List.mem_singleton] at hx
    rcases hx with hx | hx
    · exact Nat.lt_of_lt_of_le (hv.nonceIds x hx) a5
    · rw [hx]; exact a4
  · intro x hx
    have := hv.storageIds x hx
    exact ⟨Nat.lt_of_lt_of_le this.1 a5, this.2⟩
  · intro a k
    show sel (fun key : Nat × Nat => (intern t.addrs r.key).1[key.1]? = some a ∧ t.keys[key.2]? = some k) t.storage =
      sel (fun key : Nat × Nat => t.addrs[key.1]? = some a ∧ t.keys[key.2]? = some k) t.storage
    apply sel_congr
    intro x hx
    rw [getElem?_ext_iff a3 (hv.storageIds x hx).1]
  · intro a
    show sel (fun key : Nat => (intern t.addrs r.key).1[key]? = some a) _ = sel (fun key : Nat => t.addrs[key]? = some a) t.nonces ++ _
    rw [show (nonceStep t r).db.nonces = t.nonces ++ [⟨r.block, (intern t.addrs r.key).2, r.val⟩] from rfl, sel_append]
    congr 1
    · apply sel_congr
      intro x hx
      rw [getElem?_ext_iff a3 (hv.nonceIds x hx)]
    · rw [sel_single]
      simp only [a1, Option.some.injEq]

theorem revision59_eff (rows : List (Row Addr Nonce)) {t : Norm} (hv : Valid t.db) :
    Valid (revision59 rows t).db ∧ (∀ a k, storageRows (revision59 rows t).db a k = storageRows t.db a k) ∧
      ∀ a, nonceRows (revision59 rows t).db a = nonceRows t.db a ++
        rows.filterMap fun r => if r.key = a then some (r.block, r.val) else none := by
  induction rows generalizing t with
  | nil => exact ⟨hv, fun _ _ => rfl, fun _ => by simp [revision59]⟩
  | cons r rs ih =>
    obtain ⟨h1, h2, h3⟩ := nonceStep_eff hv r
    obtain ⟨g1, g2, g3⟩ := ih h1
    refine ⟨g1, fun a k => (g2 a k).trans (h2 a k), fun a => ?_⟩
    refine (g3 a).trans ?_
    rw [h3 a, List.filterMap_cons]
    split <;> simp_all

theorem valid_empty : Valid ({} : Norm).db := ⟨List.nodup_nil, List.nodup_nil, by simp [Norm.db], by simp [Norm.db]⟩

theorem upgrade_valid (o : Old) : Valid (upgrade o) := by
  have h := (revision59_eff o.nonces (revision56_eff o.storage valid_empty).1).1
  exact ⟨h.addrs, h.keys, h.nonceIds, h.storageIds⟩

theorem upgrade_storage (o : Old) (a : Addr) (k : Key) : storageRows (upgrade o) a k = o.storageRows a k := by
  have h1 := revision56_eff o.storage valid_empty
  have h2 := revision59_eff o.nonces h1.1
  have e := (h2.2.1 a k).trans (h1.2.2 a k)
  have e0 : storageRows ({} : Norm).db a k = [] := rfl
  rw [e0, List.nil_append] at e
  exact e

theorem upgrade_nonce (o : Old) (a : Addr) : nonceRows (upgrade o) a = o.nonceRows a := by
  have h1 := revision56_eff o.storage valid_empty
  have h2 := revision59_eff o.nonces h1.1
  have e := (h2.2.2 a)
  rw [h1.2.1 a] at e
  have e0 : nonceRows ({} : Norm).db a = [] := rfl
  rw [e0, List.nil_append] at e
  exact e

theorem upgrade_class (o : Old) (a : Addr) : classRows (upgrade o) a = o.classRows a := rfl

/-! ### tables of a chain -/

theorem tab_of {ρ α : Type} {rows : List ρ} {pick : ρ → Option (Nat × α)} {us : List Update} {f : Update → Option α}
    (hn : rows.Nodup) (hinj : ∀ r ∈ rows, ∀ s ∈ rows, ∀ x, pick r = some x → pick s = some x → r = s)
    (hm : ∀ n v, (n, v) ∈ rows.filterMap pick ↔ us[n]?.bind f = some v) : Tab f us 0 (rows.filterMap pick) := by
  refine ⟨?_, fun r hr => (hm r.1 r.2).1 hr, fun i v h => .inl ((hm i v).2 h)⟩
  have hsound : ∀ x ∈ rows.filterMap pick, us[x.1]?.bind f = some x.2 := fun x hx => (hm x.1 x.2).1 hx
  clear hm
  induction rows with
  | nil => exact List.Pairwise.nil
  | cons r rs ih =>
    have hn' := List.nodup_cons.1 hn
    have hi := ih hn'.2 (fun r' hr' s hs => hinj r' (List.mem_cons_of_mem _ hr') s (List.mem_cons_of_mem _ hs))
      (fun x hx => hsound x (by
        rw [List.mem_filterMap] at hx ⊢
        obtain ⟨y, h1, h2⟩ := hx
        exact ⟨y, List.mem_cons_of_mem _ h1, h2⟩))
    rw [List.filterMap_cons]
    cases hp : pick r with
    | none => exact hi
    | some x =>
      refine List.Pairwise.cons ?_ hi
      intro y hy e
      have hx : us[x.1]?.bind f = some x.2 := hsound x (by rw [List.filterMap_cons, hp]; exact List.mem_cons_self)
      have hy' : us[y.1]?.bind f = some y.2 := hsound y (by
        rw [List.filterMap_cons, hp]; exact List.mem_cons_of_mem _ hy)
      rw [← e, hx] at hy'
      have exy : x = y := Prod.ext e (by simpa using hy')
      rw [List.mem_filterMap] at hy
      obtain ⟨s, hs, hps⟩ := hy
      have := hinj r List.mem_cons_self s (List.mem_cons_of_mem _ hs) x hp (by rw [hps, exy])
      exact hn'.1 (this ▸ hs)

theorem upd_iff {chain : List (Hash × Update)} {α : Type} {f : Update → Option α} {n : Nat} {v : α} :
    (chain.map (·.2))[n]?.bind f = some v ↔ ∃ h u, chain[n]? = some (h, u) ∧ f u = some v := by
  rw [List.getElem?_map]
  cases chain[n]? with
  | none => simp
  | some p =>
    rcases p with ⟨h, u⟩
    simp only [Option.map_some, Option.bind_some, Option.some.injEq, Prod.mk.injEq]
    exact ⟨fun e => ⟨h, u, ⟨rfl, rfl⟩, e⟩, fun ⟨_, _, ⟨_, e1⟩, e2⟩ => e1 ▸ e2⟩

theorem storage_tab {o : Old} {chain : List (Hash × Update)} (h : Holds o chain) (a : Addr) (k : Key) :
    Tab (·.storageOf a k) (chain.map (·.2)) 0 (o.storageRows a k) := by
  refine tab_of h.storageOnce ?_ ?_
  · rintro ⟨n, a1, k1, v⟩ _ ⟨m, a2, k2, w⟩ _ x h1 h2
    simp only [Option.ite_none_right_eq_some] at h1 h2
    obtain ⟨⟨rfl, rfl⟩, e1⟩ := h1
    obtain ⟨⟨rfl, rfl⟩, e2⟩ := h2
    rw [← e1] at e2
    simp only [Option.some.injEq, Prod.mk.injEq] at e2
    simp [e2.1, e2.2]
  · intro n v
    rw [upd_iff, ← h.storage, List.mem_filterMap]
    constructor
    · rintro ⟨⟨m, a1, k1, w⟩, hm, e⟩
      simp only [Option.ite_none_right_eq_some, Option.some.injEq, Prod.mk.injEq] at e
      obtain ⟨⟨rfl, rfl⟩, rfl, rfl⟩ := e
      exact hm
    · intro hm
      exact ⟨_, hm, by simp⟩

theorem row_tab {rows : List (Row Addr Nat)} {chain : List (Hash × Update)} {f : Addr → Update → Option Nat}
    (hn : rows.Nodup) (hm : ∀ n a v, (⟨n, a, v⟩ : Row Addr Nat) ∈ rows ↔ ∃ h u, chain[n]? = some (h, u) ∧ f a u = some v)
    (a : Addr) : Tab (f a) (chain.map (·.2)) 0 (rows.filterMap fun r => if r.key = a then some (r.block, r.val) else none) := by
  refine tab_of hn ?_ ?_
  · rintro ⟨n, a1, v⟩ _ ⟨m, a2, w⟩ _ x h1 h2
    simp only [Option.ite_none_right_eq_some] at h1 h2
    obtain ⟨rfl, e1⟩ := h1
    obtain ⟨rfl, e2⟩ := h2
    rw [← e1] at e2
    simp only [Option.some.injEq, Prod.mk.injEq] at e2
    simp [e2.1, e2.2]
  · intro n v
    rw [upd_iff, ← hm, List.mem_filterMap]
    constructor
    · rintro ⟨⟨m, a1, w⟩, hr, e⟩
      simp only [Option.ite_none_right_eq_some, Option.some.injEq, Prod.mk.injEq] at e
      obtain ⟨rfl, rfl, rfl⟩ := e
      exact hr
    · intro hr
      exact ⟨_, hr, by simp⟩

/-! ### classes -/

theorem forget_keys (rd : List (Class × Nat)) (defs : List (Class × Option Nat)) (c : Class) :
    (forget rd defs c).map (·.1) = defs.map (·.1) := by
  unfold forget
  split
  · rfl
  · rw [List.map_map]
    apply List.map_congr_left
    intro d _
    simp only [Function.comp_apply]
    split <;> rfl

theorem forget_mem (defs : List (Class × Option Nat)) (c x : Class) (o : Option Nat) (hx : x ≠ c) :
    (x, o) ∈ forget [] defs c ↔ (x, o) ∈ defs := by
  simp only [forget, List.any_nil, Bool.false_eq_true, if_false, List.mem_map]
  constructor
  · rintro ⟨d, hd, e⟩
    split at e
    · rename_i hc
      simp only [Prod.mk.injEq] at e
      exact absurd (e.1.symm.trans hc) hx
    · exact e ▸ hd
  · intro hd
    exact ⟨_, hd, by simp [hx]⟩

theorem forget_self (defs : List (Class × Option Nat)) (c : Class) (n : Nat) : (c, some n) ∉ forget [] defs c := by
  simp only [forget, List.any_nil, Bool.false_eq_true, if_false, List.mem_map]
  rintro ⟨d, hd, e⟩
  split at e
  · simp at e
  · rename_i hc
    exact hc (by rw [e])

theorem revision73_keys (rd : List (Class × Nat)) (defs : List (Class × Option Nat)) :
    (revision73 rd defs).map (·.1) = defs.map (·.1) := by
  simp only [revision73, knownClasses, List.foldl_cons, List.foldl_nil, forget_keys]

theorem revision73_mem (defs : List (Class × Option Nat)) (c : Class) (n : Nat) :
    (c, some n) ∈ revision73 [] defs ↔ (c, some n) ∈ defs ∧ c ∉ knownClasses := by
  simp only [revision73, knownClasses, List.foldl_cons, List.foldl_nil, List.mem_cons, List.not_mem_nil, or_false, not_or]
  constructor
  · intro h
    by_cases h2 : c = 0x07E4359644723B854E30F650297EDA37FACF490C93AC119FBFF079CA2667C461
    · subst h2; exact absurd h (forget_self _ _ _)
    · rw [forget_mem _ _ _ _ h2] at h
      by_cases h1 : c = 0x045407B5C7D5823F2DB10470C48F1B18C40F6A9543399E650C9A38A0F6251FFC
      · subst h1; exact absurd h (forget_self _ _ _)
      · rw [forget_mem _ _ _ _ h1] at h
        exact ⟨h, h1, h2⟩
  · rintro ⟨h, h1, h2⟩
    rw [forget_mem _ _ _ _ h2, forget_mem _ _ _ _ h1]
    exact h

theorem lookup_iff_mem {γ : Type} {l : List (Nat × γ)} (hn : (l.map (·.1)).Nodup) {a : Nat} {c : γ} :
    l.lookup a = some c ↔ (a, c) ∈ l := ⟨lookup_mem, lookup_of_mem hn⟩

/-! ### the upgraded database holds the chain -/

theorem keyed_headers {hs : List (Nat × Hash)} {chain : List (Hash × Update)} (hn : hs.Nodup)
    (h : ∀ n x, (n, x) ∈ hs ↔ ∃ u, chain[n]? = some (x, u)) : Keyed hs := by
  unfold Keyed
  refine List.Pairwise.imp_of_mem ?_ hn
  rintro ⟨n, x⟩ ⟨m, y⟩ h1 h2 hne e
  simp only at e
  subst e
  obtain ⟨u, hu⟩ := (h _ _).1 h1
  obtain ⟨w, hw⟩ := (h _ _).1 h2
  rw [hu] at hw
  simp only [Option.some.injEq, Prod.mk.injEq] at hw
  exact hne (by rw [hw.1])

theorem unique_hashes {hs : List (Nat × Hash)} {chain : List (Hash × Update)} (hn : (chain.map (·.1)).Nodup)
    (h : ∀ n x, (n, x) ∈ hs ↔ ∃ u, chain[n]? = some (x, u)) : ∀ r ∈ hs, ∀ s ∈ hs, r.2 = s.2 → r = s := by
  rintro ⟨n, x⟩ h1 ⟨m, y⟩ h2 e
  simp only at e
  subst e
  obtain ⟨u, hu⟩ := (h _ _).1 h1
  obtain ⟨w, hw⟩ := (h _ _).1 h2
  have e1 : (chain.map (·.1))[n]? = some x := by rw [List.getElem?_map, hu]; rfl
  have e2 : (chain.map (·.1))[m]? = some x := by rw [List.getElem?_map, hw]; rfl
  rw [nodup_getElem?_inj hn e1 e2]

theorem declaredAt_none {chain : List (Hash × Update)} (hk : NoneKnown chain) {c : Class} (hc : c ∈ knownClasses) {n : Nat} :
    (chain.map (·.2)).findIdx? (fun u => u.declares c) ≠ some n := by
  intro h
  rw [findIdx?_iff] at h
  obtain ⟨⟨u, hu, hd⟩, _⟩ := h
  rw [List.getElem?_map, Option.map_eq_some_iff] at hu
  obtain ⟨p, hp, rfl⟩ := hu
  have := hk p (List.mem_of_getElem? hp) c hc
  rw [this] at hd
  exact absurd hd (by simp)

theorem upgrade_good {o : Old} {chain : List (Hash × Update)} (h : Holds o chain) (hk : NoneKnown chain) :
    Good (upgrade o) ⟨chain, 0⟩ := by
  refine ⟨upgrade_valid o, ?_, ?_, keyed_headers h.headersOnce h.headers, unique_hashes h.hashes h.headers, ?_, ?_, ?_, ?_, ?_⟩
  · cases chain with
    | nil => exact .inr ⟨rfl, rfl⟩
    | cons p ps => exact .inl (by simp)
  · intro i x
    simp only [Nat.zero_le, true_and]
    exact h.headers i x
  · intro a k
    rw [upgrade_storage]
    exact storage_tab h a k
  · intro a
    rw [upgrade_nonce]
    exact row_tab (f := fun a u => u.nonceOf a) h.noncesOnce h.nonces a
  · intro a
    rw [upgrade_class]
    exact row_tab (f := fun a u => u.classOf a) h.contractsOnce h.contracts a
  · show ((revision73 [] o.classDefs).map (·.1)).Nodup
    rw [revision73_keys]
    exact h.classesOnce
  · intro c b
    show (revision73 [] o.classDefs).lookup c = some (some b) ↔ (chain.map (·.2)).findIdx? (fun u => u.declares c) = some b
    rw [lookup_iff_mem (by rw [revision73_keys]; exact h.classesOnce), revision73_mem, h.classes]
    exact ⟨fun x => x.1, fun x => ⟨x, fun hc => declaredAt_none hk hc x⟩⟩

theorem good_declared {db : Db} {tr : Track} (g : Good db tr) (id : BlockId) (c : Class) :
    classDeclaredAt db id c = declaredBy tr id c := by
  have hcases : (∃ b, db.classDefs.lookup c = some (some b) ∧ tr.declaredAt c = some b) ∨
      ((∀ b, db.classDefs.lookup c ≠ some (some b)) ∧ tr.declaredAt c = none) := by
    cases hd : tr.declaredAt c with
    | none => exact .inr ⟨fun b hb => (by rw [(g.defs c b).1 hb] at hd; exact absurd hd (by simp)), rfl⟩
    | some b => exact .inl ⟨b, (g.defs c b).2 hd, rfl⟩
  unfold declaredBy classDeclaredAt
  rcases hcases with ⟨b, h1, h2⟩ | ⟨h1, h2⟩
  · rw [h1, h2]
    have hb : b < tr.chain.length := by
      have := (findIdx?_iff _ _ _).1 h2
      obtain ⟨⟨u, hu, _⟩, _⟩ := this
      have := (List.getElem?_eq_some_iff.1 hu).1
      simpa [Track.updates] using this
    cases id with
    | latest => simp [Track.resolve, Option.filter, Nat.le_of_lt hb]
    | number n => simp [Track.resolve, Option.filter]
    | hash x =>
      simp only [g.numberOf]
      cases tr.resolve (.hash x) with
      | none => rfl
      | some n => simp [Option.filter]
  · rw [h2]
    have : ∀ (α : Type) (x : Option Nat) , (x.bind fun n => (none : Option Nat).filter fun b => decide (b ≤ n)) = none := by
      intro _ x; cases x <;> rfl
    rw [this Nat]
    split
    · rename_i b hb; exact absurd hb (h1 b)
    · rfl

/-! ### compiled class hashes -/

theorem revision75_mem {defs : List (Class × Option Nat)} {casm : List (Class × Casm)} {r : CasmRow} :
    r ∈ revision75 defs casm ↔ (r.cls, some r.block) ∈ defs ∧ (r.cls, r.casm) ∈ casm := by
  unfold revision75
  simp only [List.mem_flatMap, List.mem_filterMap, List.mem_filter, Option.map_eq_some_iff, beq_iff_eq]
  constructor
  · rintro ⟨⟨c, b⟩, hd, ⟨c', x⟩, ⟨hc, e⟩, n, hn, rfl⟩
    simp only at e hn
    subst e; subst hn
    exact ⟨hd, hc⟩
  · rintro ⟨h1, h2⟩
    exact ⟨_, h1, _, ⟨h2, rfl⟩, r.block, rfl, rfl⟩

theorem revision75_nodup {defs : List (Class × Option Nat)} {casm : List (Class × Casm)} (hd : (defs.map (·.1)).Nodup)
    (hc : (casm.map (·.1)).Nodup) : (revision75 defs casm).Pairwise fun r s => r.cls ≠ s.cls := by
  induction defs with
  | nil => exact List.Pairwise.nil
  | cons d ds ih =>
    rw [List.map_cons, List.nodup_cons] at hd
    have e : revision75 (d :: ds) casm = ((casm.filter fun c => c.1 == d.1).filterMap fun c => d.2.map fun b => ⟨d.1, b, c.2⟩) ++
        revision75 ds casm := rfl
    rw [e, List.pairwise_append]
    refine ⟨?_, ih hd.2, ?_⟩
    · have hlen : (casm.filter fun c => c.1 == d.1).length ≤ 1 := by
        clear e ih hd
        induction casm with
        | nil => simp
        | cons c cs ihc =>
          rw [List.map_cons, List.nodup_cons] at hc
          rw [List.filter_cons]
          split
          · rename_i h1
            have : (cs.filter fun c => c.1 == d.1) = [] := by
              rw [List.filter_eq_nil_iff]
              intro x hx e
              simp only [beq_iff_eq] at e h1
              exact hc.1 (List.mem_map.2 ⟨x, hx, e.trans h1.symm⟩)
            rw [this]; simp
          · exact ihc hc.2
      generalize casm.filter (fun c => c.1 == d.1) = l at hlen
      match l, hlen with
      | [], _ => exact List.Pairwise.nil
      | [x], _ =>
        rw [List.filterMap_cons]
        split
        · exact List.Pairwise.nil
        · exact List.pairwise_singleton _ _
    · intro r hr s hs e'
      rw [List.mem_filterMap] at hr
      obtain ⟨c, _, hm⟩ := hr
      rw [Option.map_eq_some_iff] at hm
      obtain ⟨b, _, rfl⟩ := hm
      have := (revision75_mem.1 hs).1
      exact hd.1 (List.mem_map.2 ⟨_, this, e'.symm⟩)

theorem sierra_first {us : List Update} (hc : ChainOk us) (hwf : ∀ u ∈ us, u.WF) {c : Class} {n m : Nat} {u : Update}
    (hn : us.findIdx? (fun u => u.declares c) = some n) (hm : us[m]? = some u) (hs : c ∈ u.sierra.map (·.1)) : m = n := by
  obtain ⟨⟨w, hw, hd⟩, hfirst⟩ := (findIdx?_iff _ _ _).1 hn
  have hdecl : u.declares c = true := declares_of_names (.inl hs)
  have hle : n ≤ m := by
    apply Classical.byContradiction
    intro hlt
    have := hfirst m u (by omega) hm
    rw [hdecl] at this
    exact absurd this (by simp)
  apply Classical.byContradiction
  intro hne
  have hlt : n < m := by omega
  have hnot : ∀ (j : Nat) (w : Update), j < m → us[j]? = some w → ¬ w.names c := (hc.sierraOnce m u c hm hs).2
  have : w.names c ∨ ∃ p ∈ w.contracts, p.2.cls = some (.deploy c) := by
    simp only [Update.declares, Bool.or_eq_true, List.contains_iff_mem, List.any_eq_true, beq_iff_eq] at hd
    rcases hd with (h1 | ⟨p, h1, h2⟩) | ⟨p, h1, h2⟩
    · exact .inl (.inr h1)
    · exact .inl (.inl (List.mem_map.2 ⟨p, h1, h2⟩))
    · exact .inr ⟨p, h1, h2⟩
  rcases this with h1 | ⟨p, h1, h2⟩
  · exact hnot n w hlt hw h1
  · have hcl : w.classUpdOf p.1 = some (.deploy c) := by
      unfold Update.classUpdOf
      rw [lookup_of_mem (hwf w (List.mem_of_getElem? hw)).contracts (c := p.2) h1]
      exact h2
    obtain ⟨j, w', hj, hj', hnm⟩ := hc.deployDeclared n w p.1 c hw hcl
    exact hnot j w' (by omega) hj' hnm

theorem upgrade_casm_tab {o : Old} {chain : List (Hash × Update)} (h : Holds o chain) (hk : NoneKnown chain)
    (hc : ChainOk (chain.map (·.2))) (hwf : ∀ u ∈ chain.map (·.2), u.WF) (hmig : ∀ u ∈ chain.map (·.2), u.migrated = [])
    (c : Class) : Tab (·.casmOf c) (chain.map (·.2)) 0 (casmRows (upgrade o) c) := by
  have hcas : ∀ (n : Nat) (u : Update) (x : Casm), (chain.map (·.2))[n]? = some u → (u.casmOf c = some x ↔ u.sierra.lookup c = some x) := by
    intro n u x hu
    unfold Update.casmOf
    rw [hmig u (List.mem_of_getElem? hu)]
    simp
  have hdefs : ∀ n, (c, some n) ∈ (revision73 [] o.classDefs) ↔ (chain.map (·.2)).findIdx? (fun u => u.declares c) = some n := by
    intro n
    rw [revision73_mem, h.classes]
    exact ⟨fun x => x.1, fun x => ⟨x, fun hc => declaredAt_none hk hc x⟩⟩
  have hrow : ∀ n x, (n, x) ∈ casmRows (upgrade o) c ↔ (chain.map (·.2))[n]?.bind (·.casmOf c) = some x := by
    intro n x
    have e0 : (n, x) ∈ casmRows (upgrade o) c ↔ (⟨c, n, x⟩ : CasmRow) ∈ revision75 (revision73 [] o.classDefs) o.casmDefs := by
      rw [mem_casmRows]
      constructor
      · rintro ⟨⟨c', n', x'⟩, h1, h2, h3⟩
        simp only [Prod.mk.injEq] at h2 h3
        obtain ⟨rfl, rfl⟩ := h3
        subst h2
        exact h1
      · intro h1
        exact ⟨_, h1, rfl, rfl⟩
    rw [e0, revision75_mem]
    simp only
    rw [hdefs]
    constructor
    · rintro ⟨h1, h2⟩
      have hm : (c, some n) ∈ o.classDefs := (h.classes c n).2 h1
      obtain ⟨p, hp, hs⟩ := (h.casm c x n hm).1 h2
      obtain ⟨m, hm'⟩ := List.mem_iff_getElem?.1 hp
      have hu : (chain.map (·.2))[m]? = some p.2 := by rw [List.getElem?_map, hm']; rfl
      have e := sierra_first hc hwf h1 hu (List.mem_map.2 ⟨_, lookup_mem hs, rfl⟩)
      subst e
      rw [hu]
      exact (hcas m p.2 x hu).2 hs
    · intro hb
      cases hu : (chain.map (·.2))[n]? with
      | none => rw [hu] at hb; exact absurd hb (by simp)
      | some u =>
        rw [hu] at hb
        have hs := (hcas n u x hu).1 hb
        have hin : c ∈ u.sierra.map (·.1) := List.mem_map.2 ⟨_, lookup_mem hs, rfl⟩
        have hd : u.declares c = true := declares_of_names (.inl hin)
        obtain ⟨m, hm⟩ : ∃ m, (chain.map (·.2)).findIdx? (fun u => u.declares c) = some m := by
          cases hf : (chain.map (·.2)).findIdx? (fun u => u.declares c) with
          | some m => exact ⟨m, rfl⟩
          | none =>
            rw [List.findIdx?_eq_none_iff] at hf
            have := hf u (List.mem_of_getElem? hu)
            rw [hd] at this
            exact absurd this (by simp)
        have e := sierra_first hc hwf hm hu hin
        subst e
        refine ⟨hm, (h.casm c x n ((h.classes c n).2 hm)).2 ?_⟩
        rw [List.getElem?_map, Option.map_eq_some_iff] at hu
        obtain ⟨p, hp, rfl⟩ := hu
        exact ⟨p, List.mem_of_getElem? hp, hs⟩
  refine ⟨?_, fun r hr => (hrow r.1 r.2).1 hr, fun i v hi => .inl ((hrow i v).2 hi)⟩
  have hp : (upgrade o).casm.Pairwise fun r s => r.cls ≠ s.cls :=
    revision75_nodup (by rw [revision73_keys]; exact h.classesOnce) h.casmOnce
  unfold Keyed casmRows
  rw [List.pairwise_filterMap]
  refine List.Pairwise.imp ?_ hp
  intro r s hne x hx y hy e
  simp only [Option.ite_none_right_eq_some] at hx hy
  exact hne (hx.1.trans hy.1.symm)

theorem casm_step {db : Db} {tr : Track} (g : Good db tr) {c : Class} (t : Tab (·.casmOf c) tr.updates 0 (casmRows db c)) (op : Op)
    (hw : ∀ h u, op = .block h u → u.WF)
    (hcl : ∀ tail, op = .reorg tail → ∀ u ∈ tr.updates.drop tail, u.sierra = [] ∧ u.migrated = []) :
    Tab (·.casmOf c) (tr.step op).updates 0 (casmRows (step db op) c) := by
  have hul : tr.updates.length = tr.chain.length := by simp [Track.updates]
  cases op with
  | define h =>
    rw [casmRows_congr (db := db) (by simp only [step, insertDefinition]; split <;> rfl)]
    exact t
  | block h u =>
    rcases g.block_cases h u with ⟨e1, e2⟩ | ⟨e1, e2⟩
    · rw [e1, e2]; exact t
    · rw [e1, e2, insertUpdate_casmRows _ _ _ (hw h u rfl)]
      · rw [casmRows_congr (db := db) (by rfl), ← hul]
        have := t.append u
        unfold Track.updates at this ⊢
        simpa using this
      · rintro ⟨x, hx, e⟩
        have := t.lt hx
        omega
  | reorg tail =>
    rw [casmRows_congr (reorg_casm _ _)]
    have hcl := hcl tail rfl
    unfold Track.step
    simp only
    split
    · have hups : ({ tr with chain := tr.chain.take tail } : Track).updates = tr.updates.take tail := by
        simp [Track.updates, List.map_take]
      rw [hups]
      have hnone : ∀ i, tail ≤ i → tr.updates[i]?.bind (·.casmOf c) = none := by
        intro i hi
        cases hu : tr.updates[i]? with
        | none => rfl
        | some u =>
          obtain ⟨h1, h2⟩ := hcl u (by
            rw [List.mem_iff_getElem?]
            exact ⟨i - tail, by rw [List.getElem?_drop, show tail + (i - tail) = i by omega]; exact hu⟩)
          simp [Update.casmOf, h1, h2]
      have key : ∀ i : Nat, (tr.updates.take tail)[i]?.bind (fun u => u.casmOf c) = tr.updates[i]?.bind (fun u => u.casmOf c) := by
        intro i
        by_cases hi : i < tail
        · rw [List.getElem?_take_of_lt hi]
        · rw [hnone i (by omega), List.getElem?_eq_none (by rw [List.length_take]; omega)]; rfl
      refine ⟨t.keyed, ?_, ?_⟩
      · intro r hr; rw [key]; exact t.sound r hr
      · intro i v hi
        rw [key] at hi
        rcases t.complete i v hi with h | ⟨j, w, h1, h2, _⟩
        · exact .inl h
        · omega
    · exact t
  | prune p k =>
    rw [casmRows_congr (db' := step db (.prune p k)) (db := db) (prune_casm _ _ _)]
    unfold Track.step
    simp only
    split <;> exact t

theorem casm_fold {db : Db} {tr : Track} (g : Good db tr) {c : Class} (t : Tab (·.casmOf c) tr.updates 0 (casmRows db c))
    (ops : List Op) (hw : OpsOk ops) (hcl : CleanFrom tr ops) :
    Tab (·.casmOf c) (ops.foldl Track.step tr).updates 0 (casmRows (ops.foldl step db) c) := by
  induction ops generalizing db tr with
  | nil => exact t
  | cons op ops ih =>
    have hw1 : ∀ h u, op = .block h u → u.WF := fun h u e => hw h u (by simp [e])
    have hcl1 : ∀ tail, op = .reorg tail → ∀ u ∈ tr.updates.drop tail, u.sierra = [] ∧ u.migrated = [] :=
      fun tail e => hcl [] tail ops (by rw [e]; rfl)
    refine ih (good_step g op hw1) (casm_step g t op hw1 hcl1) (fun h u hm => hw h u (by simp [hm])) ?_
    intro pre tail post e
    exact hcl (op :: pre) tail post (by rw [e]; rfl)

/-! ### headers -/

theorem mapM_eq {α β : Type} (f : α → Option β) : ∀ (l : List α) (r : List β), l.length = r.length →
    (∀ (i : Nat) (x : α) (y : β), l[i]? = some x → r[i]? = some y → f x = some y) → l.mapM f = some r
  | [], [], _, _ => rfl
  | [], _ :: _, h, _ => by simp at h
  | _ :: _, [], h, _ => by simp at h
  | x :: l, y :: r, h, hf => by
    have h1 : f x = some y := hf 0 x y rfl rfl
    have h2 := mapM_eq f l r (by simpa using h) (fun i x' y' hx hy => hf (i + 1) x' y' (by simpa using hx) (by simpa using hy))
    rw [List.mapM_cons, h1, h2]
    rfl

/-- The headers after revision 61. -/
def linked (bs : List Reply) : List Header := bs.mapIdx fun n b => { addColumns (n, b.hash) with parent := b.parent }

theorem find_number (bs : List Reply) (f : Nat → Reply → Header) (hf : ∀ n b, (f n b).number = n) (n : Nat) :
    (bs.mapIdx f).find? (fun h => h.number == n) = (bs[n]?).map (f n) := by
  cases hb : bs[n]? with
  | none =>
    rw [Option.map_none, List.find?_eq_none]
    intro h hh e
    rw [List.mem_mapIdx] at hh
    obtain ⟨i, hi, rfl⟩ := hh
    simp only [hf, beq_iff_eq] at e
    subst e
    rw [List.getElem?_eq_getElem hi] at hb
    exact absurd hb (by simp)
  | some b =>
    rw [Option.map_some, List.find?_eq_some_iff_getElem]
    obtain ⟨hl, e⟩ := List.getElem?_eq_some_iff.1 hb
    refine ⟨by simp [hf], n, by simpa using hl, by simp [e], ?_⟩
    intro j hj
    simp only [List.getElem_mapIdx, hf, Bool.not_eq_true', beq_eq_false_iff_ne]
    omega

theorem revision61_linked {bs : List Reply} (hl : Linked bs) : revision61 ((numbered bs).map addColumns) = some (linked bs) := by
  have e0 : (numbered bs).map addColumns = bs.mapIdx fun n b => addColumns (n, b.hash) := by
    apply List.ext_getElem?
    intro i
    simp only [numbered, List.getElem?_map, List.getElem?_mapIdx, Option.map_map]
    rfl
  unfold revision61
  rw [e0]
  refine mapM_eq _ _ _ (by simp [linked]) ?_
  intro i x y hx hy
  rw [List.getElem?_mapIdx, Option.map_eq_some_iff] at hx
  obtain ⟨b, hb, rfl⟩ := hx
  unfold linked at hy
  rw [List.getElem?_mapIdx, hb, Option.map_some, Option.some.injEq] at hy
  subst hy
  have hp := hl i b hb
  unfold setParent
  cases i with
  | zero =>
    simp only at hp
    simp [addColumns, hp]
  | succ m =>
    simp only at hp
    rw [if_pos (by simp [addColumns])]
    rw [show (addColumns (m + 1, b.hash)).number - 1 = m from rfl, find_number bs _ (fun _ _ => rfl)]
    have : m < bs.length := by have := (List.getElem?_eq_some_iff.1 hb).1; omega
    rw [List.getElem?_eq_getElem this] at hp ⊢
    simp only [Option.map_some, Option.getD_some] at hp ⊢
    rw [hp]
    rfl

theorem headers_read {bs : List Reply} (hl : Linked bs) {n : Nat} {b : Reply} (hb : bs[n]? = some b) :
    ∃ hs, upgradeHeaders (numbered bs) = some hs ∧
      blockHeader hs n = some { parent := b.parent, ethL2 := 0, strkL2 := 0, receiptCommitment := 0, diffCommitment := 0, diffLength := 0 } ∧
      blockHeader (synced bs) n = some (storeHeader n b).read := by
  refine ⟨revision72 (linked bs), by unfold upgradeHeaders; rw [revision61_linked hl]; rfl, ?_, ?_⟩
  · have e : revision72 (linked bs) = bs.mapIdx fun n b => { addColumns (n, b.hash) with parent := b.parent } := by
      apply List.ext_getElem?
      intro i
      simp only [revision72, linked, List.getElem?_map, List.getElem?_mapIdx, Option.map_map]
      rfl
    unfold blockHeader
    rw [e, find_number bs _ (fun _ _ => rfl), hb]
    rfl
  · unfold blockHeader synced
    rw [find_number bs _ (fun _ _ => rfl), hb]
    rfl

end Verif.Migrate
