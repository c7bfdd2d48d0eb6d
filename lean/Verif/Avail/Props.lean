import Verif.Avail.Lemmas

/-!
C78: classes are available from the block that introduces them on, and are the right ones.
-/

namespace Verif.Avail
open Spec

/-- With an honest gateway a class is served exactly from the first block that declares it or deploys
a contract with it, whatever restarts, failures, reorganisations and bulk downloads happened, and the
class served has the hash that was asked for; there are no internal errors.
Missing: Cairo 0 classes for which the computed hash differs, see `C78_mismatch_violated`. -/
theorem C78_get_class_partial {hashOf : Def → Nat} {sierra : Nat → Bool} {s : St}
    (r : HonestReach hashOf sierra s) (n h : Nat) (hn : n < s.db.chain.length) :
    (KnownAt s.db.chain n h → ∃ d, getClass s.db n h = .found d ∧ hashOf d = h) ∧
    (¬ KnownAt s.db.chain n h → getClass s.db n h = .classHashNotFound) := by
  obtain ⟨ok, _⟩ := hashOk_reach (honest_reach r)
  have good := allGood_now (good_reach r).1
  rw [getClass_eq _ _ _ hn]
  constructor
  · intro hk
    obtain ⟨m, hb, hm⟩ := (knownAt_iff ok.rows n h).mp hk
    obtain ⟨_, u, _, hu, hi⟩ := hk
    obtain ⟨d, hd⟩ := good h ⟨u, List.mem_of_getElem? hu, hi⟩
    refine ⟨d, ?_, ok.hash h d hd⟩
    rw [hb, hd]
    simp only
    rw [if_pos hm]
  · intro hk
    rw [knownAt_iff ok.rows] at hk
    cases hb : s.db.blockOf h with
    | none => rfl
    | some m =>
      simp only
      rw [if_neg fun hm => hk ⟨m, hb, hm⟩]

/-- Whatever the gateway sends: a class that is served has the hash that was asked for. -/
theorem C78_hash {hashOf : Def → Nat} {s : St} (r : Reach hashOf s) (n h a : Nat) (d : Def) :
    (getClass s.db n h = .found d → hashOf d = h) ∧
    (getClassAt s.db n a = .found d → s.db.classHash n a = some (hashOf d)) := by
  obtain ⟨ok, _⟩ := hashOk_reach r
  constructor
  · intro hf
    by_cases hn : n < s.db.chain.length
    · rw [getClass_eq _ _ _ hn] at hf
      cases hb : s.db.blockOf h with
      | none => rw [hb] at hf; cases hf
      | some m =>
        rw [hb] at hf
        simp only at hf
        split at hf
        · cases hd : s.db.defnOf h with
          | none => rw [hd] at hf; cases hf
          | some x => rw [hd] at hf; cases hf; exact ok.hash h _ hd
        · cases hf
    · unfold getClass at hf
      rw [if_neg hn] at hf; cases hf
  · intro hf
    unfold getClassAt at hf
    split at hf
    · cases hc : s.db.classHash n a with
      | none => rw [hc] at hf; cases hf
      | some k =>
        rw [hc] at hf
        simp only at hf
        cases hd : (s.db.rows k).bind (·.defn) with
        | none => rw [hd] at hf; cases hf
        | some x => rw [hd] at hf; cases hf; rw [ok.hash k _ hd]
    · cases hf

/-- Whatever the gateway sends, a class that was stored stays as it is. -/
theorem C78_stable {hashOf : Def → Nat} {s t : St} (h : Step hashOf s t) {k : Nat} {row : Row} {d : Def}
    (hr : s.db.rows k = some row) (hd : row.defn = some d) :
    ∃ row', t.db.rows k = some row' ∧ row'.defn = some d := by
  have h1 : s.db.defnOf k = some d := by unfold Db.defnOf; rw [hr]; exact hd
  have h2 : t.db.defnOf k = some d := by
    cases h with
    | consume e rest hq => exact defnOf_apply e h1
    | check => exact h1
    | emit => exact h1
    | giveUp => exact h1
    | reorg => exact h1
    | restart => exact h1
  unfold Db.defnOf at h2
  exact Option.bind_eq_some_iff.mp h2

/-- A Sierra class that is served has a compiled class, and compiled classes are those of stored
classes. -/
theorem C78_casm {hashOf : Def → Nat} {s : St} (r : Reach hashOf s) (n h : Nat) :
    (∀ d, getClass s.db n h = .found d → d.sierra = true → ∃ c, getCompiledCasm s.db h = some c) ∧
    (∀ c, getCompiledCasm s.db h = some c → ∃ row d, s.db.rows h = some row ∧ row.defn = some d) := by
  obtain ⟨ok, _⟩ := hashOk_reach r
  constructor
  · intro d hf hs
    by_cases hn : n < s.db.chain.length
    · rw [getClass_eq _ _ _ hn] at hf
      cases hb : s.db.blockOf h with
      | none => rw [hb] at hf; cases hf
      | some m =>
        rw [hb] at hf
        simp only at hf
        split at hf
        · cases hd : s.db.defnOf h with
          | none => rw [hd] at hf; cases hf
          | some x => rw [hd] at hf; cases hf; exact ok.casm h _ hd hs
        · cases hf
    · unfold getClass at hf
      rw [if_neg hn] at hf; cases hf
  · intro c hc
    obtain ⟨d, hd⟩ := ok.stored h c hc
    unfold Db.defnOf at hd
    obtain ⟨row, h1, h2⟩ := Option.bind_eq_some_iff.mp hd
    exact ⟨row, d, h1, h2⟩

/-- What the class of a contract is, in terms of the blocks. -/
theorem classHash_iff {db : Db} (n a : Nat)
    (hu : ∀ u ∈ db.chain, ((u.deployed ++ u.replaced).map (·.1)).Nodup) (h : Nat) :
    db.classHash n a = some h ↔ ClassAt db.chain n a h := by
  have look : ∀ u ∈ db.chain, ∀ h, u.classOf a = some h ↔ (a, h) ∈ u.deployed ∨ (a, h) ∈ u.replaced := by
    intro u hmem h
    have hn := hu u hmem
    unfold Upd.classOf
    rw [← List.mem_append]
    generalize u.deployed ++ u.replaced = l at hn
    induction l with
    | nil => simp
    | cons p l ih =>
      obtain ⟨x, y⟩ := p
      simp only [List.map_cons, List.nodup_cons] at hn
      rw [List.lookup_cons]
      by_cases e : a = x
      · subst e
        simp only [beq_self_eq_true, List.mem_cons, Prod.mk.injEq, true_and, Option.some.injEq]
        constructor
        · intro e; exact .inl e.symm
        · rintro (e | hm)
          · exact e.symm
          · exact absurd (List.mem_map.mpr ⟨_, hm, rfl⟩) hn.1
      · have : (a == x) = false := by simpa using e
        rw [this]
        simp only [List.mem_cons, Prod.mk.injEq, e, false_and, false_or]
        exact ih hn.2
  have none : ∀ u ∈ db.chain, u.classOf a = none ↔ ∀ h', (a, h') ∉ u.deployed ∧ (a, h') ∉ u.replaced := by
    intro u hmem
    constructor
    · intro e h'
      have := look u hmem h'
      rw [e] at this
      simp only [reduceCtorEq, false_iff, not_or] at this
      exact this
    · intro hx
      cases e : u.classOf a with
      | none => rfl
      | some h' =>
        rcases (look u hmem h').mp e with h1 | h1
        · exact absurd h1 (hx h').1
        · exact absurd h1 (hx h').2
  unfold Db.classHash ClassAt
  have gen : ∀ l : List Upd, (∀ u ∈ l, u ∈ db.chain) →
      (l.reverse.findSome? (fun u => u.classOf a) = some h ↔
        ∃ (m : Nat) (u : Upd), l[m]? = some u ∧ ((a, h) ∈ u.deployed ∨ (a, h) ∈ u.replaced) ∧
          ∀ (k : Nat) (v : Upd), m < k → l[k]? = some v → ∀ h', (a, h') ∉ v.deployed ∧ (a, h') ∉ v.replaced) := by
    intro l
    have : ∀ r : List Upd, (∀ u ∈ r, u ∈ db.chain) →
      (r.findSome? (fun u => u.classOf a) = some h ↔
        ∃ (m : Nat) (u : Upd), r.reverse[m]? = some u ∧ ((a, h) ∈ u.deployed ∨ (a, h) ∈ u.replaced) ∧
          ∀ (k : Nat) (v : Upd), m < k → r.reverse[k]? = some v → ∀ h', (a, h') ∉ v.deployed ∧ (a, h') ∉ v.replaced) := by
      intro r
      induction r with
      | nil => simp
      | cons u r ih =>
        intro hr
        rw [List.findSome?_cons, List.reverse_cons]
        cases e : u.classOf a with
        | some h' =>
          simp only [Option.some.injEq]
          constructor
          · rintro rfl
            refine ⟨r.reverse.length, u, by simp, (look u (hr u List.mem_cons_self) _).mp e, ?_⟩
            intro k v hk hv
            rw [List.getElem?_eq_none (by simp at hk ⊢; omega)] at hv
            cases hv
          · rintro ⟨m, w, hw, hin, hlast⟩
            have hlen : m < (r.reverse ++ [u]).length := by
              rcases Nat.lt_or_ge m (r.reverse ++ [u]).length with h1 | h1
              · exact h1
              · rw [List.getElem?_eq_none h1] at hw; cases hw
            by_cases hm : m < r.reverse.length
            · have := hlast r.reverse.length u hm (by simp) h'
              rcases (look u (hr u List.mem_cons_self) _).mp e with h1 | h1
              · exact absurd h1 this.1
              · exact absurd h1 this.2
            · have : m = r.reverse.length := by simp at hlen hm ⊢; omega
              subst this
              simp at hw
              subst hw
              have := (look u (hr u List.mem_cons_self) h).mpr hin
              rw [e] at this
              exact Option.some.inj this
        | none =>
          simp only
          rw [ih fun v hv => hr v (List.mem_cons_of_mem _ hv)]
          have hu' := (none u (hr u List.mem_cons_self)).mp e
          constructor
          · rintro ⟨m, w, hw, hin, hlast⟩
            have hm : m < r.reverse.length := by
              rcases Nat.lt_or_ge m r.reverse.length with h1 | h1
              · exact h1
              · rw [List.getElem?_eq_none h1] at hw; cases hw
            refine ⟨m, w, by rw [List.getElem?_append_left hm]; exact hw, hin, ?_⟩
            intro k v hk hv
            by_cases hkl : k < r.reverse.length
            · rw [List.getElem?_append_left hkl] at hv
              exact hlast k v hk hv
            · have : v = u := by
                have : v ∈ r.reverse ++ [u] := List.mem_of_getElem? hv
                rw [List.getElem?_append_right (by omega)] at hv
                have := List.mem_of_getElem? hv
                simpa using this
              subst this
              exact hu'
          · rintro ⟨m, w, hw, hin, hlast⟩
            by_cases hm : m < r.reverse.length
            · rw [List.getElem?_append_left hm] at hw
              refine ⟨m, w, hw, hin, ?_⟩
              intro k v hk hv
              have hkl : k < r.reverse.length := by
                rcases Nat.lt_or_ge k r.reverse.length with h1 | h1
                · exact h1
                · rw [List.getElem?_eq_none h1] at hv; cases hv
              exact hlast k v hk (by rw [List.getElem?_append_left hkl]; exact hv)
            · rw [List.getElem?_append_right (by omega)] at hw
              have := List.mem_of_getElem? hw
              have hwu : w = u := by simpa using this
              subst hwu
              rcases hin with h1 | h1
              · exact absurd h1 (hu' h).1
              · exact absurd h1 (hu' h).2
    intro hl
    have := this l.reverse fun u hu => hl u (List.mem_reverse.mp hu)
    rw [List.reverse_reverse] at this
    exact this
  rw [gen _ fun u hu => List.mem_of_mem_take hu]
  have take : ∀ m : Nat, (db.chain.take (n + 1))[m]? = if m ≤ n then db.chain[m]? else Option.none := by
    intro m
    rw [List.getElem?_take]
    by_cases h : m ≤ n
    · rw [if_pos h, if_pos (by omega)]
    · rw [if_neg h, if_neg (by omega)]
  constructor
  · rintro ⟨m, u, h1, h2, h3⟩
    rw [take] at h1
    by_cases hm : m ≤ n
    · rw [if_pos hm] at h1
      refine ⟨m, u, hm, h1, h2, ?_⟩
      intro k v hk hkn hv
      exact h3 k v hk (by rw [take, if_pos hkn]; exact hv)
    · rw [if_neg hm] at h1; cases h1
  · rintro ⟨m, u, hm, h1, h2, h3⟩
    refine ⟨m, u, by rw [take, if_pos hm]; exact h1, h2, ?_⟩
    intro k v hk hv
    rw [take] at hv
    by_cases hkn : k ≤ n
    · rw [if_pos hkn] at hv
      exact h3 k v hk hkn hv
    · rw [if_neg hkn] at hv; cases hv

/-- The class of a contract is served, if the class is declared or some contract was deployed with
it. Missing: replacements by classes that no block declares, see `C78_replaced_violated`. -/
theorem C78_get_class_at_partial {hashOf : Def → Nat} {sierra : Nat → Bool} {s : St}
    (r : HonestReach hashOf sierra s)
    (hu : ∀ u ∈ s.db.chain, ((u.deployed ++ u.replaced).map (·.1)).Nodup)
    (n a : Nat) (hn : n < s.db.chain.length) :
    (∀ h, ClassAt s.db.chain n a h → (∃ u ∈ s.db.chain, Introduces u h) →
      ∃ d, getClassAt s.db n a = .found d ∧ hashOf d = h) ∧
    ((¬ ∃ h, ClassAt s.db.chain n a h) → getClassAt s.db n a = .contractNotFound) := by
  obtain ⟨ok, _⟩ := hashOk_reach (honest_reach r)
  have good := allGood_now (good_reach r).1
  unfold getClassAt
  rw [if_pos hn]
  constructor
  · intro h hc hi
    obtain ⟨d, hd⟩ := good h hi
    rw [(classHash_iff n a hu h).mpr hc]
    refine ⟨d, ?_, ok.hash h d hd⟩
    unfold Db.defnOf at hd
    simp only [hd]
  · intro hc
    cases e : s.db.classHash n a with
    | none => rfl
    | some h => exact absurd ⟨h, (classHash_iff n a hu h).mp e⟩ hc

/-! ### Samples and gaps -/

/-- Definitions of the samples: the hash is the body. -/
def sampleHash (d : Def) : Nat := d.body

/-- Class `50` is Sierra, others are Cairo 0. -/
def sampleGateway : Gateway := fun h => some ({ body := h, sierra := h == 50 }, 5)

def declares50 : Upd := { deployed := [], replaced := [], cairo := [], sierra := [(50, 5)] }

def deploys50 : Upd := { deployed := [(7, 50), (8, 60)], replaced := [], cairo := [], sierra := [] }

/-- Two blocks in flight at once: both see class `50` missing; the first sends it. -/
theorem sample_reach : ∃ s, HonestReach sampleHash (fun h => h == 50) s ∧
    s.db.chain = [declares50, deploys50] ∧ s.queue = [] ∧
    getClass s.db 1 50 = .found { body := 50, sierra := true } ∧
    getClass s.db 0 60 = .classHashNotFound ∧
    getClassAt s.db 1 8 = .found { body := 60, sierra := false } := by
  have honest : Honest sampleHash sampleGateway := by
    intro h d c e; simp [sampleGateway] at e; rw [← e.1]; rfl
  have kind : ∀ h d c, sampleGateway h = some (d, c) → d.sierra = (h == 50) := by
    intro h d c e; simp [sampleGateway] at e; rw [← e.1]
  have h1 := HonestReach.quiet (hashOf := sampleHash) (sierra := fun h => h == 50) .init
    (.inl ⟨declares50, rfl⟩)
  have h2 := HonestReach.quiet h1 (.inl ⟨deploys50, rfl⟩)
  have h3 := HonestReach.emit h2 sampleGateway declares50 [50] [(deploys50, [50, 60])]
    [.sierra ⟨50, true⟩ 50 5] rfl rfl honest kind
    (by intro h hm; cases hm) (by intro a h hm; cases hm)
  have h4 := HonestReach.emit h3 sampleGateway deploys50 [50, 60] []
    [.sierra ⟨50, true⟩ 50 5, .cairo ⟨60, false⟩ 60] rfl rfl honest kind
    (by intro h hm; cases hm) (by
      intro a h hm hs
      have : h = 50 := by simpa using hs
      subst this
      exact .inr ⟨declares50, by decide +kernel, .inr (.inl ⟨5, List.mem_cons_self⟩)⟩)
  have h5 := HonestReach.quiet h4 (.inr (.inr (.inl ⟨_, _, rfl, rfl⟩)))
  have h6 := HonestReach.quiet h5 (.inr (.inr (.inl ⟨_, _, rfl, rfl⟩)))
  have h7 := HonestReach.quiet h6 (.inr (.inr (.inl ⟨_, _, rfl, rfl⟩)))
  have h8 := HonestReach.quiet h7 (.inr (.inr (.inl ⟨_, _, rfl, rfl⟩)))
  exact ⟨_, h8, by decide +kernel, rfl, by decide +kernel, by decide +kernel, by decide +kernel⟩

example : ∃ s, HonestReach sampleHash (fun h => h == 50) s ∧ 1 < s.db.chain.length ∧
    KnownAt s.db.chain 1 60 ∧ ¬ KnownAt s.db.chain 0 60 ∧ ClassAt s.db.chain 1 8 60 ∧
    (∃ u ∈ s.db.chain, Introduces u 60) ∧
    (∀ u ∈ s.db.chain, ((u.deployed ++ u.replaced).map (·.1)).Nodup) := by
  obtain ⟨s, hr, hc, _⟩ := sample_reach
  refine ⟨s, hr, ?_⟩
  rw [hc]
  refine ⟨by decide, ⟨1, deploys50, Nat.le_refl 1, rfl, .inr (.inr ⟨8, by simp [deploys50]⟩)⟩, ?_,
    ⟨1, deploys50, Nat.le_refl 1, rfl, .inl (by simp [deploys50]), ?_⟩,
    ⟨deploys50, by simp, .inr (.inr ⟨8, by simp [deploys50]⟩)⟩, ?_⟩
  · rintro ⟨m, u, hm, hu, hi⟩
    have : m = 0 := by omega
    subst this
    simp at hu
    subst hu
    rcases hi with hi | ⟨c, hi⟩ | ⟨a, hi⟩ <;> simp [declares50] at hi
  · intro k v h1 h2; omega
  · intro u hu
    simp at hu
    rcases hu with rfl | rfl <;> simp [declares50, deploys50]

/-- A gateway whose class `70` is a Cairo 0 class with another computed hash, as with text outside
ASCII (F37). -/
def oddGateway : Gateway := fun h => if h = 70 then some ({ body := 71, sierra := false }, 0) else none

def declares70 : Upd := { deployed := [(7, 70)], replaced := [], cairo := [70], sierra := [] }

/-- The state after such a block. -/
def oddState : St where
  db := (({ chain := [], rows := fun _ => none, casm := fun _ => none } : Db).insertDef 71
    { body := 71, sierra := false }).insertDef 71 { body := 71, sierra := false } |>.storeBlock declares70
  queue := []
  loading := []

theorem odd_reach : Reach sampleHash oddState := by
  have h1 := (Reach.init (hashOf := sampleHash)).step (.check _ declares70)
  have h2 := h1.step (.emit _ oddGateway declares70 [70, 70] [] [.cairo ⟨71, false⟩ 71, .cairo ⟨71, false⟩ 71]
    rfl rfl)
  have h3 := h2.step (.consume _ (.cairo ⟨71, false⟩ 71) _ rfl)
  have h4 := h3.step (.consume _ (.cairo ⟨71, false⟩ 71) _ rfl)
  exact h4.step (.consume _ (.block declares70) _ rfl)

/-- A declared Cairo 0 class whose computed hash is another one is stored under the computed hash; asking
for the class, or for the class of a contract that has it, is an internal error. -/
theorem C78_mismatch_violated : Reach sampleHash oddState ∧ KnownAt oddState.db.chain 0 70 ∧
    ClassAt oddState.db.chain 0 7 70 ∧
    getClass oddState.db 0 70 = .internal ∧ getClassAt oddState.db 0 7 = .internal := by
  have hc : oddState.db.chain = [declares70] := by decide +kernel
  refine ⟨odd_reach, ?_, ?_, by decide +kernel, by decide +kernel⟩
  · rw [hc]; exact ⟨0, declares70, Nat.le_refl 0, rfl, .inl List.mem_cons_self⟩
  · rw [hc]
    refine ⟨0, declares70, Nat.le_refl 0, rfl, .inl List.mem_cons_self, ?_⟩
    intro k v h1 h2; omega

/-- The repair at the next start stores what the gateway sends under the hash that is missing, without
comparing: a class is served that does not have the hash asked for. -/
theorem C78_repair_violated : ∃ s, ReachRepair sampleHash s ∧
    getClass s.db 0 70 = .found { body := 71, sierra := false } ∧
    sampleHash { body := 71, sierra := false } ≠ 70 := by
  have lift : ∀ {s}, Reach sampleHash s → ReachRepair sampleHash s := by
    intro s r
    induction r with
    | init => exact .init
    | step r h ih => exact ih.step h
  exact ⟨_, (lift odd_reach).repair oddGateway 70 (by decide +kernel) (by decide +kernel),
    by decide +kernel, by decide⟩

/-- The repair gives every class that is known a definition, if the gateway answers. -/
theorem C78_repaired (hashOf : Def → Nat) (g : Gateway) (db : Db) (h : Nat) {row : Row} {x : Downloaded}
    (hr : db.rows h = some row) (hg : download hashOf g h = some x) :
    ∃ d c, g h = some (d, c) ∧
      (db.repair hashOf g h).rows h = some { row with defn := some d } ∧
      ∀ k, k ≠ h → (db.repair hashOf g h).rows k = db.rows k := by
  obtain ⟨d, c, e, h1 | h1⟩ := download_some hg
  · obtain ⟨_, rfl⟩ := h1
    refine ⟨d, c, e, ?_, ?_⟩
    · unfold Db.repair; rw [hg]; simp [hr]
    · intro k hk; unfold Db.repair; rw [hg]; simp [hk]
  · obtain ⟨_, _, rfl⟩ := h1
    refine ⟨d, c, e, ?_, ?_⟩
    · unfold Db.repair; rw [hg]; simp [hr]
    · intro k hk; unfold Db.repair; rw [hg]; simp [hk]

example : ∃ row x, oddState.db.rows 70 = some row ∧ row.defn = none ∧
    download sampleHash oddGateway 70 = some x :=
  ⟨{ defn := none, block := some 0 }, .cairo ⟨71, false⟩ 71, by decide +kernel, rfl, by decide +kernel⟩

def replaces80 : Upd := { deployed := [], replaced := [(8, 80)], cairo := [], sierra := [] }

/-- The comment above the download says that classes that were never declared can show up in
replacements. Such a class is not downloaded, and asking for the class of the contract is an internal
error, with an honest gateway that has the class. -/
theorem C78_replaced_violated : ∃ s, HonestReach sampleHash (fun h => h == 50) s ∧
    Honest sampleHash sampleGateway ∧ sampleGateway 80 = some ({ body := 80, sierra := false }, 5) ∧
    ClassAt s.db.chain 0 8 80 ∧ getClassAt s.db 0 8 = .internal := by
  have honest : Honest sampleHash sampleGateway := by
    intro h d c e; simp [sampleGateway] at e; rw [← e.1]; rfl
  have kind : ∀ h d c, sampleGateway h = some (d, c) → d.sierra = (h == 50) := by
    intro h d c e; simp [sampleGateway] at e; rw [← e.1]
  have h1 := HonestReach.quiet (hashOf := sampleHash) (sierra := fun h => h == 50) .init
    (.inl ⟨replaces80, rfl⟩)
  have h2 := HonestReach.emit h1 sampleGateway replaces80 [] [] [] rfl rfl honest kind
    (by intro h hm; cases hm) (by intro a h hm; cases hm)
  have h3 := HonestReach.quiet h2 (.inr (.inr (.inl ⟨_, _, rfl, rfl⟩)))
  refine ⟨_, h3, honest, rfl, ⟨0, replaces80, Nat.le_refl 0, rfl, .inr List.mem_cons_self, ?_⟩,
    by decide +kernel⟩
  intro k v h1 h2; omega

/-- The compiled class is not compared with the compiled class hash of the declaration: whatever
compiled class comes with a Sierra class is stored and served. -/
theorem C78_casm_violated (c : Nat) : ∃ s, Reach sampleHash s ∧ s.db.chain = [declares50] ∧
    getClass s.db 0 50 = .found { body := 50, sierra := true } ∧
    getCompiledCasm s.db 50 = some c := by
  have h1 := (Reach.init (hashOf := sampleHash)).step (.check _ declares50)
  have h2 := h1.step (.emit _ (fun h => some ({ body := h, sierra := true }, c)) declares50 [50] []
    [.sierra ⟨50, true⟩ 50 c] rfl rfl)
  have h3 := h2.step (.consume _ (.sierra ⟨50, true⟩ 50 c) _ rfl)
  have h4 := h3.step (.consume _ (.block declares50) _ rfl)
  exact ⟨_, h4, rfl, rfl, rfl⟩

end Verif.Avail
