import Verif.Cls.EqvLemmas
/-!
# C106: classes are shown and declared as they are
-/
namespace Verif.Cls
open Verif.Block (F P)

/-! ## A concrete world for the examples -/

/-- Numbers are written as that many letters; base64 is a prefix; compressing yields one text, which decompresses to `p`. -/
def demo (p : J) : Ext String where
  felt s := if h : s.length < P then some ⟨s.length, h⟩ else none
  feltText x := String.ofList (List.replicate x.val 'a')
  u64 s := if s.length < 2 ^ 64 then some s.length else none
  u64Text n := String.ofList (List.replicate n 'a')
  key _ := true
  encode b := "b" ++ b
  decode s := match s.toList with | 'b' :: r => some (String.ofList r) | _ => none
  zip _ := "zip"
  unzip _ := some p

theorem demo_ok (p : J) : (demo p).Ok where
  felt x := by simp [demo, String.length_ofList]
  u64 n hn := by simp only [demo, String.length_ofList, List.length_replicate]; rw [if_pos hn]
  u64_lt s n h := by
    simp only [demo] at h
    split at h
    · cases h; assumption
    · cases h
  base64 b := by simp [demo, String.toList_append]

def demoEps : J := .obj [("CONSTRUCTOR", .arr []), ("EXTERNAL", .arr [.obj [("selector", .str "aaa"), ("function_idx", .num 7)]]), ("L1_HANDLER", .arr [])]

def demoSierra : J := .obj [("sierra_program", .arr [.str "aa"]), ("contract_class_version", .str "0.1.0"), ("entry_points_by_type", demoEps), ("abi", .str "[]")]

theorem demoSierra_doc : SierraDoc (demo .null) demoSierra ⟨[⟨2, by decide⟩], "0.1.0", ⟨[], [⟨7, ⟨3, by decide⟩⟩], []⟩, "[]"⟩ :=
  ⟨only_names rfl, ⟨_, gives_obj rfl, _, rfl, .cons ⟨_, rfl, rfl⟩ .nil⟩, gives_obj rfl,
    ⟨_, gives_obj rfl, only_names rfl, ⟨_, gives_obj rfl, _, rfl, .nil⟩,
      ⟨_, gives_obj rfl, _, rfl, .cons ⟨only_names rfl, ⟨_, gives_obj rfl, rfl, by decide⟩, _, gives_obj rfl, _, rfl, rfl⟩ .nil⟩,
      _, gives_obj rfl, _, rfl, .nil⟩,
    .inl (gives_obj rfl)⟩

/-- A program with a reference and an attribute without scopes. -/
def demoProgram : J := .obj [("attributes", .arr [.obj [("end_pc", .num 3), ("name", .str "x"), ("start_pc", .num 1), ("value", .str "v")]]),
  ("builtins", .arr [.str "pedersen"]), ("data", .arr [.str "aaaa"]), ("debug_info", .null), ("hints", .obj []), ("identifiers", .obj []),
  ("main_scope", .str "__main__"), ("prime", .str "0x1"), ("reference_manager", .obj [("references", .arr [])])]

def demoCairoEps : J := .obj [("CONSTRUCTOR", .arr []), ("EXTERNAL", .arr [.obj [("selector", .str "aaa"), ("offset", .num 7)]]), ("L1_HANDLER", .arr [])]

def demoParam : J := .obj [("name", .str "x"), ("type", .str "felt")]

def demoFn : J := .obj [("name", .str "f"), ("inputs", .arr [demoParam]), ("outputs", .arr []), ("type", .str "function"), ("stateMutability", .str "view")]

/-- A Cairo 0 class as it is stored. -/
def demoCairo : J := .obj [("program", demoProgram), ("entry_points_by_type", demoCairoEps), ("abi", .arr [demoFn])]

def demoEntry : Entry := .fn ⟨.function, "f", some [⟨"x", "felt"⟩], some [], some "view"⟩

theorem demoFn_doc : EntryDoc demoFn demoEntry :=
  ⟨only_names rfl, gives_obj rfl, gives_obj rfl,
    ⟨_, gives_obj rfl, by simp, _, rfl, .cons ⟨only_names rfl, gives_obj rfl, gives_obj rfl⟩ .nil⟩,
    ⟨_, gives_obj rfl, by simp, _, rfl, .nil⟩, ⟨_, gives_obj rfl, by simp, rfl⟩⟩

theorem demoCairo_doc : StoredCairo (demo demoProgram) demoCairo demoProgram ⟨[], [⟨7, ⟨3, by decide⟩⟩], []⟩ (some [demoEntry]) :=
  ⟨⟨_, rfl, by simp⟩, gives_obj rfl,
    ⟨_, gives_obj rfl, only_names rfl, ⟨_, gives_obj rfl, _, rfl, .nil⟩,
      ⟨_, gives_obj rfl, _, rfl, .cons ⟨only_names rfl, ⟨_, gives_obj rfl, .inr ⟨rfl, by decide⟩⟩, _, gives_obj rfl, _, rfl, rfl⟩ .nil⟩,
      _, gives_obj rfl, _, rfl, .nil⟩,
    _, gives_obj rfl, _, rfl, .cons demoFn_doc .nil⟩

section
variable {B : Type} {e : Ext B}

/-! ## Reading what users send -/

/-- The class of a declare transaction is accepted exactly if the document describes one, and it is that class. -/
theorem C106_read (j : J) : (∀ c, readSierra e j = some c ↔ SierraDoc e j c) ∧ ∀ c, readCairo e j = some c ↔ CairoDoc e j c :=
  ⟨readSierra_eq e j, readCairo_eq e j⟩

example : ∃ c, readSierra (demo .null) demoSierra = some c := ⟨_, ((C106_read demoSierra).1 _).2 demoSierra_doc⟩

/-! ## Showing stored classes -/

/-- A stored Sierra class is shown: its program, version and entry points, and its ABI, `null` in place of an empty one. -/
theorem C106_shown_sierra (ok : e.Ok) (j : J) (c : Sierra) (h : SierraDoc e j c) : ∃ d, getClass e j = some d
    ∧ Only d ["sierra_program", "contract_class_version", "entry_points_by_type", "abi"]
    ∧ (∃ v, Gives d "sierra_program" v ∧ ListOf (FeltDoc e) v c.program) ∧ Gives d "contract_class_version" (.str c.version)
    ∧ (∃ v, Gives d "entry_points_by_type" v ∧ EpsDoc (SEpDoc e) v c.entryPoints)
    ∧ (c.abi ≠ "" → Gives d "abi" (.str c.abi)) ∧ (c.abi = "" → Gives d "abi" .null) := by
  have hg : getClass e j = some (showSierra e c) := by rw [getClass, (fromStored_sierra e j c).2 h]
  obtain ⟨-, -, -, ⟨v, -, hv⟩, -⟩ := h
  refine ⟨_, hg, only_names rfl, ⟨_, gives_obj rfl, felts_doc ok _⟩, gives_obj rfl, ⟨_, gives_obj rfl, showEps_doc (showSEp_doc ok) hv⟩, ?_, ?_⟩
  · intro ha; exact gives_obj (by simp [get, ha])
  · intro ha; exact gives_obj (by simp [get, ha])

example : ∃ d, getClass (demo .null) demoSierra = some d ∧ Gives d "abi" (.str "[]") :=
  (C106_shown_sierra (demo_ok _) _ _ demoSierra_doc).imp fun _ h => ⟨h.1, h.2.2.2.2.2.1 (by decide)⟩

/-- A class with a Sierra program is shown only if it is well formed, and every other class only if its program and entry points are there. -/
theorem C106_shown_only (j d : J) (h : getClass e j = some d) : (∃ c, SierraDoc e j c) ∨ ∃ p x a, StoredCairo e j p x a := by
  unfold getClass at h
  cases hc : fromStored e j with
  | none => rw [hc] at h; cases h
  | some c =>
    cases c with
    | cairo c => obtain ⟨p, x, a, hs, -⟩ := (fromStored_cairo e j c).1 hc; exact .inr ⟨p, x, a, hs⟩
    | sierra c => exact .inl ⟨c, (fromStored_sierra e j c).1 hc⟩

example : ∃ d, getClass (demo .null) demoSierra = some d := (C106_shown_sierra (demo_ok _) _ _ demoSierra_doc).imp fun _ h => h.1

theorem shown_cairo (ok : e.Ok) {j p : J} {x : Eps Ep} {a : Option (List Entry)} (h : StoredCairo e j p x a) :
    ∃ d, getClass e j = some d ∧ CairoDoc e d ⟨e.encode (e.zip p), x, a.map (·.map tidy)⟩ := by
  refine ⟨_, by rw [getClass, (fromStored_cairo e j _).2 ⟨p, x, a, h, rfl⟩], ?_⟩
  obtain ⟨-, -, ⟨v, -, hv⟩, ha⟩ := h
  refine ⟨only_names rfl, gives_obj rfl, ⟨_, gives_obj rfl, showEps_doc (showEp_doc ok) hv⟩, ?_⟩
  cases a with
  | none => exact .inr (gives_obj rfl)
  | some xs =>
    obtain ⟨w, -, hw⟩ := ha
    exact ⟨_, gives_obj rfl, by simp, entries_shown hw⟩

/-- A stored Cairo 0 class is shown as a document that describes it: the program is the packed stored one, the entry points are the stored ones, and the
ABI is the stored one if its entries are as compilers write them; it is missing exactly if the stored one is none. -/
theorem C106_shown_cairo_partial (ok : e.Ok) (j p : J) (x : Eps Ep) (a : Option (List Entry)) (h : StoredCairo e j p x a)
    (hs : ∀ xs, a = some xs → ∀ en ∈ xs, Standard en) : ∃ d s, getClass e j = some d ∧ Packed e s p ∧ CairoDoc e d ⟨s, x, a⟩ := by
  obtain ⟨d, hd, hc⟩ := shown_cairo ok h
  refine ⟨d, _, hd, ok.base64 _, ?_⟩
  have : a.map (·.map tidy) = a := by
    cases a with
    | none => rfl
    | some xs =>
      simp only [Option.map_some, Option.some.injEq]
      conv => rhs; rw [← List.map_id xs]
      exact List.map_congr_left fun en hen => (tidy_standard en).2 (hs xs rfl en hen)
  rwa [this] at hc

theorem demo_standard : ∀ xs, some [demoEntry] = some xs → ∀ en ∈ xs, Standard en := by
  rintro xs h en hen
  cases h
  simp only [List.mem_singleton] at hen
  subst hen
  simp [Standard, demoEntry]

example : ∃ d s, getClass (demo demoProgram) demoCairo = some d ∧ Packed (demo demoProgram) s demoProgram
    ∧ CairoDoc (demo demoProgram) d ⟨s, ⟨[], [⟨7, ⟨3, by decide⟩⟩], []⟩, some [demoEntry]⟩ :=
  C106_shown_cairo_partial (demo_ok _) _ _ _ _ demoCairo_doc demo_standard

/-- In every case the program and the entry points are shown as stored, and the ABI has the same entries in the same order, each shown as `tidy` says. -/
theorem C106_shown_cairo (ok : e.Ok) (j p : J) (x : Eps Ep) (a : Option (List Entry)) (h : StoredCairo e j p x a) :
    ∃ d s, getClass e j = some d ∧ Packed e s p ∧ CairoDoc e d ⟨s, x, a.map (·.map tidy)⟩ := by
  obtain ⟨d, hd, hc⟩ := shown_cairo ok h
  exact ⟨d, _, hd, ok.base64 _, hc⟩

example : ∃ d s, getClass (demo demoProgram) demoCairo = some d ∧ Packed (demo demoProgram) s demoProgram
    ∧ CairoDoc (demo demoProgram) d ⟨s, ⟨[], [⟨7, ⟨3, by decide⟩⟩], []⟩, some [tidy demoEntry]⟩ :=
  C106_shown_cairo (demo_ok _) _ _ _ _ demoCairo_doc

/-- The answer misstates every ABI with another entry: a state mutability that is not `view`, inputs or outputs of an event, or a list that is left out. -/
theorem C106_abi_shown_violated (ok : e.Ok) (j p : J) (x : Eps Ep) (xs : List Entry) (h : StoredCairo e j p x (some xs)) (en : Entry)
    (hen : en ∈ xs) (hs : ¬ Standard en) : ∃ d, getClass e j = some d ∧ ¬ ∃ s, CairoDoc e d ⟨s, x, some xs⟩ := by
  obtain ⟨d, hd, hc⟩ := shown_cairo ok h
  refine ⟨d, hd, ?_⟩
  rintro ⟨s, hx⟩
  have := cairoDoc_unique hc hx
  simp only [Cairo.mk.injEq, Option.map_some, Option.some.injEq, true_and] at this
  have ht : ∀ y ∈ xs, tidy y = y := by
    have h2 := this.2
    clear hc hx this h hen
    intro y hy
    obtain ⟨i, hi, rfl⟩ := List.mem_iff_getElem.1 hy
    have := congrArg (·[i]?) h2
    simpa [hi] using this
  exact hs ((tidy_standard en).1 (ht en hen))

/-- An event with inputs, as the compiler wrote them at first. -/
def demoEv : J := .obj [("name", .str "E"), ("inputs", .arr [demoParam]), ("type", .str "event")]

example : EntryDoc demoEv (.ev ⟨"E", none, none, some [⟨"x", "felt"⟩], none⟩) ∧ ¬ Standard (.ev ⟨"E", none, none, some [⟨"x", "felt"⟩], none⟩) :=
  ⟨⟨only_names rfl, gives_obj rfl, gives_obj rfl, .inl ⟨_, rfl, by simp⟩, .inl ⟨_, rfl, by simp⟩,
    ⟨_, gives_obj rfl, by simp, _, rfl, .cons ⟨only_names rfl, gives_obj rfl, gives_obj rfl⟩ .nil⟩, .inl ⟨_, rfl, by simp⟩⟩, by simp [Standard]⟩

/-! ## Declaring what was shown -/

/-- The answer for a Sierra class is accepted as the class of a declare transaction, and is the stored class, if the ABI is not empty. -/
theorem C106_again_sierra_partial (ok : e.Ok) (j : J) (c : Sierra) (h : SierraDoc e j c) (ha : c.abi ≠ "") :
    ∃ d, getClass e j = some d ∧ readSierra e d = some c := by
  obtain ⟨d, hd, h0, h1, h2, h3, h4, -⟩ := C106_shown_sierra ok j c h
  exact ⟨d, hd, (readSierra_eq e d c).2 ⟨h0, h1, h2, h3, .inl (h4 ha)⟩⟩

example : ∃ d, getClass (demo .null) demoSierra = some d ∧ readSierra (demo .null) d = some ⟨[⟨2, by decide⟩], "0.1.0", ⟨[], [⟨7, ⟨3, by decide⟩⟩], []⟩, "[]"⟩ :=
  C106_again_sierra_partial (demo_ok _) _ _ demoSierra_doc (by decide)

/-- The answer for a Sierra class with an empty ABI is refused as the class of a declare transaction. -/
theorem C106_empty_abi_violated (ok : e.Ok) (j : J) (c : Sierra) (h : SierraDoc e j c) (ha : c.abi = "") :
    ∃ d, getClass e j = some d ∧ readSierra e d = none := by
  obtain ⟨d, hd, h0, h1, h2, h3, -, h4⟩ := C106_shown_sierra ok j c h
  refine ⟨d, hd, ?_⟩
  cases hr : readSierra e d with
  | none => rfl
  | some c' =>
    obtain ⟨-, -, -, -, h5⟩ := (readSierra_eq e d c').1 hr
    rcases h5 with h5 | ⟨h5, -⟩
    · cases gives_unique (h4 ha) h5
    · exact (gives_lacks (h4 ha) h5).elim

example : SierraDoc (demo .null) (.obj [("sierra_program", .arr []), ("contract_class_version", .str "0.1.0"),
    ("entry_points_by_type", .obj [("CONSTRUCTOR", .arr []), ("EXTERNAL", .arr []), ("L1_HANDLER", .arr [])]), ("abi", .str "")])
    ⟨[], "0.1.0", ⟨[], [], []⟩, ""⟩ :=
  ⟨only_names rfl, ⟨_, gives_obj rfl, _, rfl, .nil⟩, gives_obj rfl,
    ⟨_, gives_obj rfl, only_names rfl, ⟨_, gives_obj rfl, _, rfl, .nil⟩, ⟨_, gives_obj rfl, _, rfl, .nil⟩, _, gives_obj rfl, _, rfl, .nil⟩,
    .inl (gives_obj rfl)⟩

/-- The definition that is hashed for a Sierra class of a declare transaction describes that class. -/
theorem C106_hashed_sierra (ok : e.Ok) (j : J) (c : Sierra) (h : readSierra e j = some c) : SierraDoc e (sierraDefinition e c) c := by
  obtain ⟨-, -, -, ⟨v, -, hv⟩, -⟩ := (readSierra_eq e j c).1 h
  exact ⟨only_names rfl, ⟨_, gives_obj rfl, felts_doc ok _⟩, gives_obj rfl, ⟨_, gives_obj rfl, showEps_doc (writeSEp_doc ok) hv⟩, .inl (gives_obj rfl)⟩

example : ∃ c, readSierra (demo .null) demoSierra = some c := ⟨_, (readSierra_eq _ _ _).2 demoSierra_doc⟩

/-- The definition that is hashed and executed for a Cairo 0 class of a declare transaction: nothing of the program is lost, the entry points are the
same, and so is the ABI; if no field of the ABI is `null`, it is the document that was sent, up to the order of fields. -/
theorem C106_hashed_cairo (ok : e.Ok) (j : J) (c : Cairo) (h : readCairo e j = some c) (d : J) (hd : cairoDefinition e c = .ok d) :
    (∃ b p p', e.decode c.program = some b ∧ e.unzip b = some p ∧ Gives d "program" p' ∧ Kept e p p')
    ∧ (∃ v, Gives d "entry_points_by_type" v ∧ EpsDoc (EpDoc e) v c.entryPoints)
    ∧ OptDoc (ListOf EntryDoc) d "abi" c.abi
    ∧ ∀ l, Gives j "abi" (.arr l) → (∀ en ∈ l, ∀ k, ¬ Gives en k .null) → ∃ w, Gives d "abi" w ∧ Eqv (.arr l) w := by
  obtain ⟨-, -, ⟨v, -, hv⟩, ha⟩ := (readCairo_eq e j c).1 h
  unfold cairoDefinition at hd
  split at hd
  · cases hd
  · rename_i b hb
    split at hd
    · cases hd
    · rename_i p hp
      split at hd
      · cases hd
      · rename_i p' hn
        cases hd
        refine ⟨⟨b, p, p', hb, hp, gives_obj rfl, program_kept ok hn⟩, ⟨_, gives_obj rfl, showEps_doc (showEp_doc ok) hv⟩, ?_, ?_⟩
        · cases hc : c.abi with
          | none => exact .inr (gives_obj (by simp [get]))
          | some xs =>
            rw [hc] at ha
            obtain ⟨w, -, -, hw⟩ := ha
            exact ⟨.arr (xs.map writeEntry), gives_obj (by simp [get]), by simp, entries_written hw⟩
        · intro l hl hnn
          cases hc : c.abi with
          | none =>
            rw [hc] at ha
            rcases ha with ha | ha
            · exact (gives_lacks hl ha).elim
            · cases gives_unique hl ha
          | some xs =>
            rw [hc] at ha
            obtain ⟨w, hw, -, hx⟩ := ha
            cases gives_unique hl hw
            refine ⟨.arr (xs.map writeEntry), gives_obj (by simp [get]), eqv_entries hx fun l' hl' => ?_⟩
            cases hl'; exact hnn

/-- A class whose program cannot be decoded makes the task panic. -/
theorem C106_base64_violated (c : Cairo) (h : e.decode c.program = none) : cairoDefinition e c = .error .panic := by
  unfold cairoDefinition; rw [h]

example : (demo .null).decode "?" = none := rfl

/-- Nothing else panics. -/
theorem C106_panic_partial (c : Cairo) (h : e.decode c.program ≠ none) : cairoDefinition e c ≠ .error .panic := by
  unfold cairoDefinition
  split
  · exact (h (by assumption)).elim
  · split
    · simp
    · split <;> simp

example : (demo .null).decode "bzip" ≠ none := by simp [demo]

/-- The answer for a Cairo 0 class is accepted as the class of a declare transaction, without a panic, and what is hashed then keeps the stored program,
has the stored entry points and the stored ABI, if that ABI is as compilers write it and the program is not too long. -/
theorem C106_again_cairo_partial (ok : e.Ok) (j p : J) (x : Eps Ep) (a : Option (List Entry)) (h : StoredCairo e j p x a)
    (hs : ∀ xs, a = some xs → ∀ en ∈ xs, Standard en) (hf : Fits e p) : ∃ d c, getClass e j = some d ∧ readCairo e d = some c
    ∧ cairoDefinition e c ≠ .error .panic
    ∧ ∀ d', cairoDefinition e c = .ok d' → (∃ p', Gives d' "program" p' ∧ Kept e p p')
      ∧ (∃ v, Gives d' "entry_points_by_type" v ∧ EpsDoc (EpDoc e) v x) ∧ OptDoc (ListOf EntryDoc) d' "abi" a := by
  obtain ⟨d, s, hd, hp, hc⟩ := C106_shown_cairo_partial ok j p x a h hs
  have hr := (readCairo_eq e d _).2 hc
  refine ⟨d, _, hd, hr, C106_panic_partial _ (by rw [hp]; simp), fun d' hd' => ?_⟩
  obtain ⟨⟨b, q, q', h1, h2, h3, h4⟩, h5, h6, -⟩ := C106_hashed_cairo ok d _ hr d' hd'
  rw [hp] at h1
  cases h1
  rw [hf] at h2
  cases h2
  exact ⟨⟨q', h3, h4⟩, h5, h6⟩

example : Fits (demo demoProgram) demoProgram := rfl

/-- The hypotheses of `C106_hashed_cairo` and the conclusion of `C106_again_cairo_partial` are met: the example is hashed. -/
example : ∃ d c d', getClass (demo demoProgram) demoCairo = some d ∧ readCairo (demo demoProgram) d = some c
    ∧ cairoDefinition (demo demoProgram) c = .ok d' := by
  obtain ⟨d, s, hd, hp, hc⟩ := C106_shown_cairo_partial (demo_ok _) _ _ _ _ demoCairo_doc demo_standard
  refine ⟨d, _, ?_, hd, (readCairo_eq _ d _).2 hc, ?_⟩
  rotate_left
  · unfold cairoDefinition
    rw [hp]
    simp [demo, norm, normFields, normField, program, demoProgram, attr, Tys.names, get, List.lookup, all, allSnd, Cls.skip]
    rfl

/-- A field of an ABI that is `null` is left out of what is hashed. -/
theorem C106_null_violated : ∃ (j : J) (en : Entry), EntryDoc j en ∧ Gives j "inputs" .null ∧ Lacks (writeEntry en) "inputs" :=
  ⟨.obj [("type", .str "function"), ("name", .str "f"), ("inputs", .null)], .fn ⟨.function, "f", none, none, none⟩,
    ⟨only_names rfl, gives_obj rfl, gives_obj rfl, .inr (gives_obj rfl), .inl ⟨_, rfl, by simp⟩, .inl ⟨_, rfl, by simp⟩⟩,
    gives_obj rfl, ⟨_, rfl, by simp [Cls.skip]⟩⟩

/-! ## Sending to the gateway -/

/-- The class of a declare transaction goes to the gateway with the same program, the same entry points and the same ABI. -/
theorem C106_gateway (ok : e.Ok) (j : J) :
    (∀ c, readCairo e j = some c → (cairoToGateway c).program = c.program
      ∧ (cairoToGateway c).entryPoints.map (fun x => (x.1, x.2.val)) = c.entryPoints.map (fun x => (x.selector, x.offset))
      ∧ ((cairoToGateway c).abi = none ↔ c.abi = none)
      ∧ ∀ v xs, (cairoToGateway c).abi = some v → c.abi = some xs → ListOf EntryDoc v xs)
    ∧ ∀ c, readSierra e j = some c → (∃ v, Packed e (sierraToGateway e c).program v ∧ ListOf (FeltDoc e) v c.program)
      ∧ (sierraToGateway e c).version = c.version ∧ (sierraToGateway e c).entryPoints = c.entryPoints.map (fun x => (x.idx, x.selector))
      ∧ (sierraToGateway e c).abi = c.abi := by
  constructor
  · intro c h
    obtain ⟨-, -, ⟨v, -, -, ⟨v1, -, l1, -, e1⟩, ⟨v2, -, l2, -, e2⟩, v3, -, l3, -, e3⟩, ha⟩ := (readCairo_eq e j c).1 h
    refine ⟨rfl, ?_, ?_, ?_⟩
    · have hlt : ∀ (l : List J) (xs : List Ep), Each (EpDoc e) l xs →
          (xs.map fun x => (x.selector, Block.felt x.offset)).map (fun x => (x.1, x.2.val)) = xs.map fun x => (x.selector, x.offset) := by
        intro l xs he
        rw [List.map_map]
        refine List.map_congr_left fun x hx => ?_
        obtain ⟨q, -, ⟨w, -, hw⟩, -⟩ := each_mem he x hx
        have h1 := offsetDoc_lt ok hw
        have h2 : (2 : Nat) ^ 64 ≤ P := by decide
        simp only [Function.comp, Prod.mk.injEq, true_and]
        exact Nat.mod_eq_of_lt (Nat.lt_of_lt_of_le h1 h2)
      simp only [cairoToGateway, Eps.map, Eps.mk.injEq]
      exact ⟨hlt _ _ e1, hlt _ _ e2, hlt _ _ e3⟩
    · simp [cairoToGateway]
    · intro w xs hw hx
      simp only [cairoToGateway, hx, Option.map_some, Option.some.injEq] at hw
      subst hw
      rw [hx] at ha
      obtain ⟨u, -, -, hu⟩ := ha
      exact entries_written hu
  · intro c h
    exact ⟨⟨_, ok.base64 _, felts_doc ok _⟩, rfl, rfl, rfl⟩

example : (∃ c, readSierra (demo .null) demoSierra = some c) ∧ ∃ d c, getClass (demo demoProgram) demoCairo = some d ∧ readCairo (demo demoProgram) d = some c := by
  refine ⟨⟨_, (readSierra_eq _ _ _).2 demoSierra_doc⟩, ?_⟩
  obtain ⟨d, c, h, h', -⟩ := C106_again_cairo_partial (demo_ok _) _ _ _ _ demoCairo_doc demo_standard rfl
  exact ⟨d, c, h, h'⟩
end
end Verif.Cls
