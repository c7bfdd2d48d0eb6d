import Verif.Block.TxSpec
import Verif.Block.Lemmas
/-!
# Transaction hashes: lemmas for C68
-/
namespace Verif.Block

/-- The hash is that of the values. -/
theorem top_eval (h : Hashes) (id : F) (q : Bool) (t : Txn) : (t.top h id q).eval h = t.hash h id q := by
  cases t <;> rfl

def Pre.short : Pre → Prop
  | .ped l => l.length < 2 ^ 64
  | .pos _ => True

theorem pre_inj (h : Hashes) {a b : Pre} (ha : a.short) (hb : b.short) (e : a.eval h = b.eval h) :
    a = b ∨ Collide h (a.queries h) (b.queries h) := by
  cases a <;> cases b
  · rcases chain_inj h ha hb e with g | g
    · exact .inl (congrArg _ g)
    · exact .inr g
  · exact .inr ⟨_, List.mem_append_right _ (List.mem_singleton.2 rfl), _, List.mem_singleton.2 rfl, by simp, e⟩
  · exact .inr ⟨_, List.mem_singleton.2 rfl, _, List.mem_append_right _ (List.mem_singleton.2 rfl), by simp, e⟩
  · rename_i l l'
    rcases query_eq (h := h) (a := .many l) (b := .many l') (List.mem_singleton.2 rfl) (List.mem_singleton.2 rfl) e with g | g
    · exact .inl (congrArg _ (Query.many.inj g))
    · exact .inr g

/-- The kind of a transaction: its prefix, version and hash function. -/
def Txn.kind : Txn → Fin 12
  | .declareV0 _ => 0
  | .declareV1 _ => 1
  | .declareV2 _ => 2
  | .declareV3 _ => 3
  | .deployV0 _ => 4
  | .deployV1 _ => 5
  | .deployAccountV1 _ => 6
  | .deployAccountV3 _ => 7
  | .invokeV0 _ => 8
  | .invokeV1 _ => 9
  | .invokeV3 _ => 10
  | .l1Handler _ => 11

def kindPrefix : Fin 12 → String
  | 0 | 1 | 2 | 3 => "declare"
  | 4 | 5 => "deploy"
  | 6 | 7 => "deploy_account"
  | 8 | 9 | 10 => "invoke"
  | 11 => "l1_handler"

def kindVersion : Fin 12 → Nat
  | 0 | 4 | 8 | 11 => 0
  | 1 | 5 | 6 | 9 => 1
  | 2 => 2
  | 3 | 7 | 10 => 3

/-- The version with the query mark. -/
def kindQuery (k : Fin 12) (q : Bool) : Bool := if k = 11 then false else q

def Pre.values : Pre → List F
  | .ped l | .pos l => l

theorem top_head (h : Hashes) (id : F) (q : Bool) (t : Txn) :
    ∃ l, (t.top h id q).values = feltText (kindPrefix t.kind).toList :: txVersion (kindVersion t.kind) (kindQuery t.kind q) :: l := by
  cases t <;> exact ⟨_, rfl⟩

theorem kind_inj : ∀ k k' : Fin 12, feltText (kindPrefix k).toList = feltText (kindPrefix k').toList → kindVersion k = kindVersion k' → k = k' := by
  decide +kernel

theorem kindVersion_lt : ∀ k : Fin 12, kindVersion k < 4 := by decide

theorem txVersion_inj {m n : Nat} (hm : m < 4) (hn : n < 4) {q r : Bool} (e : txVersion m q = txVersion n r) : m = n ∧ q = r := by
  unfold txVersion at e
  have hP : 2 ^ 128 + 4 < P := by decide
  have := felt_inj (by split <;> omega) (by split <;> omega) e
  cases q <;> cases r <;> simp at this ⊢ <;> omega

theorem top_kind {h : Hashes} {id id' : F} {q q' : Bool} {t t' : Txn} (e : t.top h id q = t'.top h id' q') :
    t.kind = t'.kind ∧ kindQuery t.kind q = kindQuery t'.kind q' := by
  obtain ⟨l, hl⟩ := top_head h id q t
  obtain ⟨l', hl'⟩ := top_head h id' q' t'
  rw [e, hl'] at hl
  simp only [List.cons.injEq] at hl
  have h1 := txVersion_inj (kindVersion_lt _) (kindVersion_lt _) hl.2.1
  have hk := kind_inj _ _ hl.1 h1.1
  exact ⟨hk.symm, h1.2.symm⟩

theorem pack_arith {n a p a' p' : Nat} (hn : n < 2 ^ 56) (ha : a < 2 ^ 64) (hp : p < 2 ^ 128) (ha' : a' < 2 ^ 64) (hp' : p' < 2 ^ 128)
    (e : felt (n * 2 ^ 192 + a * 2 ^ 128 + p) = felt (n * 2 ^ 192 + a' * 2 ^ 128 + p')) : a = a' ∧ p = p' := by
  have := felt_inj (by unfold P; omega) (by unfold P; omega) e
  omega

theorem packBound_inj {name : String} (hn : (name.toList.foldl (fun n c => n * 256 + c.toNat) 0) < 2 ^ 56) {b b' : Bound} (hb : b.Ok) (hb' : b'.Ok)
    (e : packBound name b = packBound name b') : b = b' := by
  obtain ⟨a, p⟩ := b
  obtain ⟨a', p'⟩ := b'
  obtain ⟨h1, h2⟩ := pack_arith hn hb.1 hb.2 hb'.1 hb'.2 e
  simp only at h1 h2
  rw [h1, h2]

theorem packModes_inj {v v' : V3} (e : packModes v = packModes v') : v.nonceL2 = v'.nonceL2 ∧ v.feeL2 = v'.feeL2 := by
  unfold packModes at e
  cases h1 : v.nonceL2 <;> cases h2 : v'.nonceL2 <;> cases h3 : v.feeL2 <;> cases h4 : v'.feeL2 <;> rw [h1, h2, h3, h4] at e <;>
    first | exact ⟨rfl, rfl⟩ | exact absurd e (by decide +kernel)

theorem fee_inj {v v' : V3} (hv : v.Ok) (hv' : v'.Ok) (e : feePre v = feePre v') :
    v.tip = v'.tip ∧ v.l1Gas = v'.l1Gas ∧ v.l2Gas = v'.l2Gas ∧ v.l1DataGas = v'.l1DataGas := by
  unfold feePre at e
  simp only [Pre.pos.injEq, List.cons_append, List.cons.injEq, List.nil_append] at e
  obtain ⟨e1, e2, e3, e4⟩ := e
  refine ⟨felt_inj64 hv.tip hv'.tip e1, packBound_inj (by decide) hv.l1Gas hv'.l1Gas e2, packBound_inj (by decide) hv.l2Gas hv'.l2Gas e3, ?_⟩
  have k1 := hv.l1DataGas
  have k2 := hv'.l1DataGas
  rcases h1 : v.l1DataGas with _ | b <;> rcases h2 : v'.l1DataGas with _ | b' <;> rw [h1, h2] at e4 <;> simp at e4
  · rw [packBound_inj (by decide) (k1 b h1) (k2 b' h2) e4]

/-- The parts of version 3. -/
theorem v3_inj (h : Hashes) {pre : String} {q q' : Bool} {s n id s' n' id' : F} {v v' : V3} {d d' f f' : List F} (hv : v.Ok) (hv' : v'.Ok)
    (hd : d.length = d'.length) (e : v3Pre h pre q s n id v d f = v3Pre h pre q' s' n' id' v' d' f') {l l' : List Query}
    (hl : ∀ a, a = feePre v ∨ a = .pos v.paymaster ∨ (f ≠ [] ∧ a = .pos f) → ∀ x ∈ a.queries h, x ∈ l)
    (hl' : ∀ a, a = feePre v' ∨ a = .pos v'.paymaster ∨ (f' ≠ [] ∧ a = .pos f') → ∀ x ∈ a.queries h, x ∈ l') :
    (s = s' ∧ n = n' ∧ id = id' ∧ d = d' ∧ v = v' ∧ f = f') ∨ Collide h l l' := by
  unfold v3Pre at e
  simp only [Pre.pos.injEq, List.cons_append, List.cons.injEq, List.nil_append, true_and] at e
  obtain ⟨-, e2, e3, e4, e5, e6, e7, e8⟩ := e
  obtain ⟨e9, e10⟩ := List.append_inj e8 hd
  rcases pre_inj h (a := feePre v) (b := feePre v') trivial trivial e3 with g3 | g3
  · rcases pre_inj h (a := .pos v.paymaster) (b := .pos v'.paymaster) trivial trivial e4 with g4 | g4
    · have hf : f = f' ∨ Collide h l l' := by
        rcases f with _ | ⟨x, f⟩ <;> rcases f' with _ | ⟨x', f'⟩ <;> simp at e10
        · exact .inl rfl
        · rcases pre_inj h (a := .pos (x :: f)) (b := .pos (x' :: f')) trivial trivial e10 with g | g
          · exact .inl (Pre.pos.inj g)
          · exact .inr (g.mono (hl _ (.inr (.inr ⟨by simp, rfl⟩))) (hl' _ (.inr (.inr ⟨by simp, rfl⟩))))
      rcases hf with hf | hf
      · left
        obtain ⟨f1, f2, f3, f4⟩ := fee_inj hv hv' g3
        obtain ⟨m1, m2⟩ := packModes_inj e7
        refine ⟨e2, e6, e5, e9, ?_, hf⟩
        obtain ⟨a1, a2, a3, a4, a5, a6, a7⟩ := v
        obtain ⟨b1, b2, b3, b4, b5, b6, b7⟩ := v'
        have g5 := Pre.pos.inj g4
        simp only at f1 f2 f3 f4 m1 m2 g5
        rw [f1, f2, f3, f4, m1, m2, g5]
      · exact .inr hf
    · exact .inr (g4.mono (hl _ (.inr (.inl rfl))) (hl' _ (.inr (.inl rfl))))
  · exact .inr (g3.mono (hl _ (.inl rfl)) (hl' _ (.inl rfl)))

theorem part_inj (h : Hashes) {id id' : F} {q q' : Bool} {t t' : Txn} {a b : Pre} (ha : a ∈ t.parts) (hb : b ∈ t'.parts) (sa : a.short) (sb : b.short)
    (e : a.eval h = b.eval h) : a = b ∨ Collide h (t.queries h id q) (t'.queries h id' q') := by
  rcases pre_inj h sa sb e with g | g
  · exact .inl g
  · right
    refine g.mono (fun x hx => List.mem_flatMap.2 ⟨a, ?_, hx⟩) (fun x hx => List.mem_flatMap.2 ⟨b, ?_, hx⟩)
    · simp [ha]
    · simp [hb]

theorem declareV0_inj (h : Hashes) {id id' : F} {q q' : Bool} {t t' : DeclareOld} (ht : (Txn.declareV0 t).Ok) (ht' : (Txn.declareV0 t').Ok)
    (e : Txn.top h id q (.declareV0 t) = Txn.top h id' q' (.declareV0 t')) :
    (Txn.bound (.declareV0 t) = Txn.bound (.declareV0 t') ∧ id = id') ∨ Collide h (Txn.queries h id q (.declareV0 t)) (Txn.queries h id' q' (.declareV0 t')) := by
  simp [Txn.top, preV3Pre] at e
  left
  simp [Txn.bound, e]

theorem declareV1_inj (h : Hashes) {id id' : F} {q q' : Bool} {t t' : DeclareOld} (ht : (Txn.declareV1 t).Ok) (ht' : (Txn.declareV1 t').Ok)
    (e : Txn.top h id q (.declareV1 t) = Txn.top h id' q' (.declareV1 t')) :
    (Txn.bound (.declareV1 t) = Txn.bound (.declareV1 t') ∧ id = id') ∨ Collide h (Txn.queries h id q (.declareV1 t)) (Txn.queries h id' q' (.declareV1 t')) := by
  simp [Txn.top, preV3Pre] at e
  rcases part_inj h (id := id) (id' := id') (q := q) (q' := q') (t := .declareV1 t) (t' := .declareV1 t') (a := .ped [t.classHash]) (b := .ped [t'.classHash])
    (by simp [Txn.parts]) (by simp [Txn.parts]) (by simp [Pre.short]) (by simp [Pre.short]) e.2.2.1 with g | g
  · left
    simp only [Pre.ped.injEq, List.cons.injEq, and_true] at g
    simp [Txn.bound, e, g]
  · exact .inr g

theorem declareV2_inj (h : Hashes) {id id' : F} {q q' : Bool} {t t' : DeclareV2} (ht : (Txn.declareV2 t).Ok) (ht' : (Txn.declareV2 t').Ok)
    (e : Txn.top h id q (.declareV2 t) = Txn.top h id' q' (.declareV2 t')) :
    (Txn.bound (.declareV2 t) = Txn.bound (.declareV2 t') ∧ id = id') ∨ Collide h (Txn.queries h id q (.declareV2 t)) (Txn.queries h id' q' (.declareV2 t')) := by
  simp [Txn.top, preV3Pre] at e
  rcases part_inj h (id := id) (id' := id') (q := q) (q' := q') (t := .declareV2 t) (t' := .declareV2 t') (a := .ped [t.classHash]) (b := .ped [t'.classHash])
    (by simp [Txn.parts]) (by simp [Txn.parts]) (by simp [Pre.short]) (by simp [Pre.short]) e.2.2.1 with g | g
  · left
    simp only [Pre.ped.injEq, List.cons.injEq, and_true] at g
    simp [Txn.bound, e, g]
  · exact .inr g

theorem deployV0_inj (h : Hashes) {id id' : F} {q q' : Bool} {t t' : Deploy} (ht : (Txn.deployV0 t).Ok) (ht' : (Txn.deployV0 t').Ok)
    (e : Txn.top h id q (.deployV0 t) = Txn.top h id' q' (.deployV0 t')) :
    (Txn.bound (.deployV0 t) = Txn.bound (.deployV0 t') ∧ id = id') ∨ Collide h (Txn.queries h id q (.deployV0 t)) (Txn.queries h id' q' (.deployV0 t')) := by
  simp [Txn.top, preV3Pre] at e
  rcases part_inj h (id := id) (id' := id') (q := q) (q' := q') (t := .deployV0 t) (t' := .deployV0 t') (a := .ped t.calldata) (b := .ped t'.calldata)
    (by simp [Txn.parts]) (by simp [Txn.parts]) (by simp only [Txn.Ok] at ht; simp only [Pre.short]; omega) (by simp only [Txn.Ok] at ht'; simp only [Pre.short]; omega) e.2.2.1 with g | g
  · left
    simp only [Pre.ped.injEq, List.cons.injEq, and_true] at g
    simp [Txn.bound, e, g]
  · exact .inr g

theorem deployV1_inj (h : Hashes) {id id' : F} {q q' : Bool} {t t' : Deploy} (ht : (Txn.deployV1 t).Ok) (ht' : (Txn.deployV1 t').Ok)
    (e : Txn.top h id q (.deployV1 t) = Txn.top h id' q' (.deployV1 t')) :
    (Txn.bound (.deployV1 t) = Txn.bound (.deployV1 t') ∧ id = id') ∨ Collide h (Txn.queries h id q (.deployV1 t)) (Txn.queries h id' q' (.deployV1 t')) := by
  simp [Txn.top, preV3Pre] at e
  rcases part_inj h (id := id) (id' := id') (q := q) (q' := q') (t := .deployV1 t) (t' := .deployV1 t') (a := .ped t.calldata) (b := .ped t'.calldata)
    (by simp [Txn.parts]) (by simp [Txn.parts]) (by simp only [Txn.Ok] at ht; simp only [Pre.short]; omega) (by simp only [Txn.Ok] at ht'; simp only [Pre.short]; omega) e.2.2.1 with g | g
  · left
    simp only [Pre.ped.injEq, List.cons.injEq, and_true] at g
    simp [Txn.bound, e, g]
  · exact .inr g

theorem invokeV0_inj (h : Hashes) {id id' : F} {q q' : Bool} {t t' : InvokeV0} (ht : (Txn.invokeV0 t).Ok) (ht' : (Txn.invokeV0 t').Ok)
    (e : Txn.top h id q (.invokeV0 t) = Txn.top h id' q' (.invokeV0 t')) :
    (Txn.bound (.invokeV0 t) = Txn.bound (.invokeV0 t') ∧ id = id') ∨ Collide h (Txn.queries h id q (.invokeV0 t)) (Txn.queries h id' q' (.invokeV0 t')) := by
  simp [Txn.top, preV3Pre] at e
  rcases part_inj h (id := id) (id' := id') (q := q) (q' := q') (t := .invokeV0 t) (t' := .invokeV0 t') (a := .ped t.calldata) (b := .ped t'.calldata)
    (by simp [Txn.parts]) (by simp [Txn.parts]) (by simp only [Txn.Ok] at ht; simp only [Pre.short]; omega) (by simp only [Txn.Ok] at ht'; simp only [Pre.short]; omega) e.2.2.2.1 with g | g
  · left
    simp only [Pre.ped.injEq, List.cons.injEq, and_true] at g
    simp [Txn.bound, e, g]
  · exact .inr g

theorem invokeV1_inj (h : Hashes) {id id' : F} {q q' : Bool} {t t' : InvokeV1} (ht : (Txn.invokeV1 t).Ok) (ht' : (Txn.invokeV1 t').Ok)
    (e : Txn.top h id q (.invokeV1 t) = Txn.top h id' q' (.invokeV1 t')) :
    (Txn.bound (.invokeV1 t) = Txn.bound (.invokeV1 t') ∧ id = id') ∨ Collide h (Txn.queries h id q (.invokeV1 t)) (Txn.queries h id' q' (.invokeV1 t')) := by
  simp [Txn.top, preV3Pre] at e
  rcases part_inj h (id := id) (id' := id') (q := q) (q' := q') (t := .invokeV1 t) (t' := .invokeV1 t') (a := .ped t.calldata) (b := .ped t'.calldata)
    (by simp [Txn.parts]) (by simp [Txn.parts]) (by simp only [Txn.Ok] at ht; simp only [Pre.short]; omega) (by simp only [Txn.Ok] at ht'; simp only [Pre.short]; omega) e.2.2.1 with g | g
  · left
    simp only [Pre.ped.injEq, List.cons.injEq, and_true] at g
    simp [Txn.bound, e, g]
  · exact .inr g

theorem l1Handler_inj (h : Hashes) {id id' : F} {q q' : Bool} {t t' : L1Handler} (ht : (Txn.l1Handler t).Ok) (ht' : (Txn.l1Handler t').Ok)
    (e : Txn.top h id q (.l1Handler t) = Txn.top h id' q' (.l1Handler t')) :
    (Txn.bound (.l1Handler t) = Txn.bound (.l1Handler t') ∧ id = id') ∨ Collide h (Txn.queries h id q (.l1Handler t)) (Txn.queries h id' q' (.l1Handler t')) := by
  simp [Txn.top, preV3Pre] at e
  rcases part_inj h (id := id) (id' := id') (q := q) (q' := q') (t := .l1Handler t) (t' := .l1Handler t') (a := .ped t.calldata) (b := .ped t'.calldata)
    (by simp [Txn.parts]) (by simp [Txn.parts]) (by simp only [Txn.Ok] at ht; simp only [Pre.short]; omega) (by simp only [Txn.Ok] at ht'; simp only [Pre.short]; omega) e.2.2.1 with g | g
  · left
    simp only [Pre.ped.injEq, List.cons.injEq, and_true] at g
    obtain ⟨a1, a2, a3, a4⟩ := t
    obtain ⟨b1, b2, b3, b4⟩ := t'
    simp_all [Txn.bound]
  · exact .inr g

theorem deployAccountV1_inj (h : Hashes) {id id' : F} {q q' : Bool} {t t' : DeployAccountV1} (ht : (Txn.deployAccountV1 t).Ok) (ht' : (Txn.deployAccountV1 t').Ok)
    (e : Txn.top h id q (.deployAccountV1 t) = Txn.top h id' q' (.deployAccountV1 t')) :
    (Txn.bound (.deployAccountV1 t) = Txn.bound (.deployAccountV1 t') ∧ id = id') ∨ Collide h (Txn.queries h id q (.deployAccountV1 t)) (Txn.queries h id' q' (.deployAccountV1 t')) := by
  simp [Txn.top, preV3Pre] at e
  rcases part_inj h (id := id) (id' := id') (q := q) (q' := q') (t := .deployAccountV1 t) (t' := .deployAccountV1 t') (a := .ped (t.classHash :: t.salt :: t.calldata)) (b := .ped (t'.classHash :: t'.salt :: t'.calldata))
    (by simp [Txn.parts]) (by simp [Txn.parts]) (by simp only [Txn.Ok] at ht; simp only [Pre.short, List.length_cons]; omega) (by simp only [Txn.Ok] at ht'; simp only [Pre.short, List.length_cons]; omega) e.2.2.1 with g | g
  · left
    simp only [Pre.ped.injEq, List.cons.injEq, and_true] at g
    simp [Txn.bound, e, g]
  · exact .inr g

theorem declareV3_inj (h : Hashes) {id id' : F} {q q' : Bool} {t t' : DeclareV3} (ht : (Txn.declareV3 t).Ok) (ht' : (Txn.declareV3 t').Ok)
    (e : Txn.top h id q (.declareV3 t) = Txn.top h id' q' (.declareV3 t')) :
    (Txn.bound (.declareV3 t) = Txn.bound (.declareV3 t') ∧ id = id') ∨ Collide h (Txn.queries h id q (.declareV3 t)) (Txn.queries h id' q' (.declareV3 t')) := by
  simp only [Txn.top] at e
  rcases v3_inj h (l := Txn.queries h id q (.declareV3 t)) (l' := Txn.queries h id' q' (.declareV3 t')) ht ht' (by rfl) e
    (fun a ha x hx => List.mem_flatMap.2 ⟨a, by rcases ha with rfl | rfl | ⟨hf, rfl⟩ <;> simp_all [Txn.parts], hx⟩)
    (fun a ha x hx => List.mem_flatMap.2 ⟨a, by rcases ha with rfl | rfl | ⟨hf, rfl⟩ <;> simp_all [Txn.parts], hx⟩) with g | g
  · simp only [List.cons.injEq, and_true] at g
    rcases part_inj h (id := id) (id' := id') (q := q) (q' := q') (t := .declareV3 t) (t' := .declareV3 t') (a := .pos t.accountDeployment) (b := .pos t'.accountDeployment)
      (by simp [Txn.parts]) (by simp [Txn.parts]) trivial trivial g.2.2.2.1.1 with g0 | g0
    rotate_left
    · exact .inr g0
    left
    simp only [Pre.pos.injEq] at g0
    simp [Txn.bound, g, g0]
  · exact .inr g

theorem deployAccountV3_inj (h : Hashes) {id id' : F} {q q' : Bool} {t t' : DeployAccountV3} (ht : (Txn.deployAccountV3 t).Ok) (ht' : (Txn.deployAccountV3 t').Ok)
    (e : Txn.top h id q (.deployAccountV3 t) = Txn.top h id' q' (.deployAccountV3 t')) :
    (Txn.bound (.deployAccountV3 t) = Txn.bound (.deployAccountV3 t') ∧ id = id') ∨ Collide h (Txn.queries h id q (.deployAccountV3 t)) (Txn.queries h id' q' (.deployAccountV3 t')) := by
  simp only [Txn.top] at e
  rcases v3_inj h (l := Txn.queries h id q (.deployAccountV3 t)) (l' := Txn.queries h id' q' (.deployAccountV3 t')) ht ht' (by rfl) e
    (fun a ha x hx => List.mem_flatMap.2 ⟨a, by rcases ha with rfl | rfl | ⟨hf, rfl⟩ <;> simp_all [Txn.parts], hx⟩)
    (fun a ha x hx => List.mem_flatMap.2 ⟨a, by rcases ha with rfl | rfl | ⟨hf, rfl⟩ <;> simp_all [Txn.parts], hx⟩) with g | g
  · simp only [List.cons.injEq, and_true] at g
    rcases part_inj h (id := id) (id' := id') (q := q) (q' := q') (t := .deployAccountV3 t) (t' := .deployAccountV3 t') (a := .pos t.calldata) (b := .pos t'.calldata)
      (by simp [Txn.parts]) (by simp [Txn.parts]) trivial trivial g.2.2.2.1.1 with g0 | g0
    rotate_left
    · exact .inr g0
    left
    simp only [Pre.pos.injEq] at g0
    simp [Txn.bound, g, g0]
  · exact .inr g

theorem invokeV3_inj (h : Hashes) {id id' : F} {q q' : Bool} {t t' : InvokeV3} (ht : (Txn.invokeV3 t).Ok) (ht' : (Txn.invokeV3 t').Ok)
    (e : Txn.top h id q (.invokeV3 t) = Txn.top h id' q' (.invokeV3 t')) :
    (Txn.bound (.invokeV3 t) = Txn.bound (.invokeV3 t') ∧ id = id') ∨ Collide h (Txn.queries h id q (.invokeV3 t)) (Txn.queries h id' q' (.invokeV3 t')) := by
  simp only [Txn.top] at e
  rcases v3_inj h (l := Txn.queries h id q (.invokeV3 t)) (l' := Txn.queries h id' q' (.invokeV3 t')) ht ht' (by rfl) e
    (fun a ha x hx => List.mem_flatMap.2 ⟨a, by rcases ha with rfl | rfl | ⟨hf, rfl⟩ <;> simp_all [Txn.parts], hx⟩)
    (fun a ha x hx => List.mem_flatMap.2 ⟨a, by rcases ha with rfl | rfl | ⟨hf, rfl⟩ <;> simp_all [Txn.parts], hx⟩) with g | g
  · simp only [List.cons.injEq, and_true] at g
    rcases part_inj h (id := id) (id' := id') (q := q) (q' := q') (t := .invokeV3 t) (t' := .invokeV3 t') (a := .pos t.accountDeployment) (b := .pos t'.accountDeployment)
      (by simp [Txn.parts]) (by simp [Txn.parts]) trivial trivial g.2.2.2.1.1 with g0 | g0
    rotate_left
    · exact .inr g0
    rcases part_inj h (id := id) (id' := id') (q := q) (q' := q') (t := .invokeV3 t) (t' := .invokeV3 t') (a := .pos t.calldata) (b := .pos t'.calldata)
      (by simp [Txn.parts]) (by simp [Txn.parts]) trivial trivial g.2.2.2.1.2 with g1 | g1
    rotate_left
    · exact .inr g1
    left
    simp only [Pre.pos.injEq] at g0 g1
    simp [Txn.bound, g, g0, g1]
  · exact .inr g

/-- Equal values: the same transaction. -/
theorem top_inj (h : Hashes) {id id' : F} {q q' : Bool} {t t' : Txn} (ht : t.Ok) (ht' : t'.Ok) (e : t.top h id q = t'.top h id' q') :
    (t.bound = t'.bound ∧ id = id') ∨ Collide h (t.queries h id q) (t'.queries h id' q') := by
  obtain ⟨hk, -⟩ := top_kind e
  cases t with
  | declareV0 t =>
    cases t' with
    | declareV0 t' => exact declareV0_inj h ht ht' e
    | _ => simp [Txn.kind] at hk
  | declareV1 t =>
    cases t' with
    | declareV1 t' => exact declareV1_inj h ht ht' e
    | _ => simp [Txn.kind] at hk
  | declareV2 t =>
    cases t' with
    | declareV2 t' => exact declareV2_inj h ht ht' e
    | _ => simp [Txn.kind] at hk
  | declareV3 t =>
    cases t' with
    | declareV3 t' => exact declareV3_inj h ht ht' e
    | _ => simp [Txn.kind] at hk
  | deployV0 t =>
    cases t' with
    | deployV0 t' => exact deployV0_inj h ht ht' e
    | _ => simp [Txn.kind] at hk
  | deployV1 t =>
    cases t' with
    | deployV1 t' => exact deployV1_inj h ht ht' e
    | _ => simp [Txn.kind] at hk
  | deployAccountV1 t =>
    cases t' with
    | deployAccountV1 t' => exact deployAccountV1_inj h ht ht' e
    | _ => simp [Txn.kind] at hk
  | deployAccountV3 t =>
    cases t' with
    | deployAccountV3 t' => exact deployAccountV3_inj h ht ht' e
    | _ => simp [Txn.kind] at hk
  | invokeV0 t =>
    cases t' with
    | invokeV0 t' => exact invokeV0_inj h ht ht' e
    | _ => simp [Txn.kind] at hk
  | invokeV1 t =>
    cases t' with
    | invokeV1 t' => exact invokeV1_inj h ht ht' e
    | _ => simp [Txn.kind] at hk
  | invokeV3 t =>
    cases t' with
    | invokeV3 t' => exact invokeV3_inj h ht ht' e
    | _ => simp [Txn.kind] at hk
  | l1Handler t =>
    cases t' with
    | l1Handler t' => exact l1Handler_inj h ht ht' e
    | _ => simp [Txn.kind] at hk

/-- Old hashes are taken of fewer values. -/
theorem old_top (h : Hashes) {id id' : F} {q : Bool} {t t' : Txn} {p : Pre} (hp : p ∈ t.oldTops h id) : t'.top h id' q ≠ p := by
  have h1 : (∃ l, p = .ped l ∧ l.length < 7) := by
    cases t <;> simp [Txn.oldTops] at hp
    · exact ⟨_, hp, by simp⟩
    · exact ⟨_, hp, by simp⟩
    · exact ⟨_, hp, by simp⟩
    · rcases hp with hp | hp
      · exact ⟨_, hp, by simp⟩
      · exact ⟨_, hp, by simp⟩
  have h2 : ∀ l, t'.top h id' q = .ped l → 7 ≤ l.length := by
    intro l
    cases t' <;> simp only [Txn.top, preV3Pre, v3Pre, Pre.ped.injEq, reduceCtorEq, false_implies] <;> rintro rfl <;> simp
  obtain ⟨l, rfl, hl⟩ := h1
  intro e
  have := h2 l e
  omega

theorem short_top (h : Hashes) {id : F} {q : Bool} {t : Txn} : (t.top h id q).short := by
  cases t <;> simp [Txn.top, preV3Pre, v3Pre, Pre.short]

theorem short_old (h : Hashes) {id : F} {t : Txn} {p : Pre} (hp : p ∈ t.oldTops h id) : p.short := by
  cases t <;> simp [Txn.oldTops] at hp
  · subst hp; simp [Pre.short]
  · subst hp; simp [Pre.short]
  · subst hp; simp [Pre.short]
  · rcases hp with hp | hp <;> subst hp <;> simp [Pre.short]

theorem top_queries (h : Hashes) {id : F} {q : Bool} {t : Txn} : ∀ x ∈ (t.top h id q).queries h, x ∈ t.queries h id q :=
  fun _ hx => List.mem_flatMap.2 ⟨_, by simp, hx⟩

theorem old_queries (h : Hashes) {id : F} {q : Bool} {t : Txn} {p : Pre} (hp : p ∈ t.oldTops h id) : ∀ x ∈ p.queries h, x ∈ t.queries h id q :=
  fun _ hx => List.mem_flatMap.2 ⟨p, by simp [hp], hx⟩

theorem legacy_iff (h : Hashes) (id x : F) (t : Txn) :
    t.legacy h id = some x ↔ ∃ k a s l, t.legacyBound = some (k, a, s, l) ∧
      x = chain h [feltText (if k then "deploy" else "invoke").toList, a, s, chain h l, id] := by
  constructor
  · intro e
    cases t <;> simp only [Txn.legacy, Option.some.injEq, reduceCtorEq] at e
    · exact ⟨true, _, _, _, rfl, e.symm⟩
    · exact ⟨true, _, _, _, rfl, e.symm⟩
    · exact ⟨false, _, _, _, rfl, e.symm⟩
    · exact ⟨false, _, _, _, rfl, e.symm⟩
  · rintro ⟨k, a, s, l, e, rfl⟩
    cases t <;> simp only [Txn.legacyBound, Option.some.injEq, Prod.mk.injEq, reduceCtorEq] at e <;> obtain ⟨rfl, rfl, rfl, rfl⟩ := e <;> rfl

theorem legacyBound_parts {t : Txn} (ht : t.Ok) {k : Bool} {a s : F} {l : List F} (e : t.legacyBound = some (k, a, s, l)) :
    Pre.ped l ∈ t.parts ∧ l.length < 2 ^ 63 := by
  cases t <;> simp [Txn.legacyBound] at e <;> obtain ⟨-, -, -, rfl⟩ := e <;> exact ⟨by simp [Txn.parts], ht⟩

theorem legacyBound_old (h : Hashes) (id : F) {t : Txn} {k : Bool} {a s : F} {l : List F} (e : t.legacyBound = some (k, a, s, l)) :
    Pre.ped [feltText (if k then "deploy" else "invoke").toList, a, s, chain h l, id] ∈ t.oldTops h id := by
  cases t <;> simp [Txn.legacyBound] at e <;> obtain ⟨rfl, rfl, rfl, rfl⟩ := e <;> simp [Txn.oldTops]

theorem kindText_inj : ∀ k k' : Bool, feltText (if k then "deploy" else "invoke").toList = feltText (if k' then "deploy" else "invoke").toList → k = k' := by
  decide +kernel

/-- Equal legacy hashes. -/
theorem legacy_inj (h : Hashes) {id id' x : F} {q q' : Bool} {t t' : Txn} (ht : t.Ok) (ht' : t'.Ok) (e : t.legacy h id = some x)
    (e' : t'.legacy h id' = some x) :
    (id = id' ∧ t.legacyBound = t'.legacyBound) ∨ Collide h (t.queries h id q) (t'.queries h id' q') := by
  obtain ⟨k, a, s, l, hb, hx⟩ := (legacy_iff h id x t).1 e
  obtain ⟨k', a', s', l', hb', hx'⟩ := (legacy_iff h id' x t').1 e'
  have o := legacyBound_old h id hb
  have o' := legacyBound_old h id' hb'
  obtain ⟨m, n⟩ := legacyBound_parts ht hb
  obtain ⟨m', n'⟩ := legacyBound_parts ht' hb'
  rcases pre_inj h (short_old h o) (short_old h o') (hx.symm.trans hx') with g | g
  · simp only [Pre.ped.injEq, List.cons.injEq, and_true] at g
    obtain ⟨g1, g2, g3, g4, g5⟩ := g
    rcases part_inj h (id := id) (id' := id') (q := q) (q' := q') m m' (by simp only [Pre.short]; omega) (by simp only [Pre.short]; omega) g4 with g | g
    · left
      rw [hb, hb', kindText_inj _ _ g1, g2, g3, Pre.ped.inj g]
      exact ⟨g5, rfl⟩
    · exact .inr g
  · exact .inr (g.mono (old_queries h o) (old_queries h o'))

theorem v07_iff (h : Hashes) (id x : F) (t : Txn) :
    t.v07 h id = some x ↔ ∃ l, t = .l1Handler l ∧ x = chain h [feltText "l1_handler".toList, l.address, l.selector, chain h l.calldata, id, l.nonce] := by
  cases t <;> simp [Txn.v07, legacyHash, eq_comm]

theorem v07_inj (h : Hashes) {id id' x : F} {q q' : Bool} {t t' : Txn} (ht : t.Ok) (ht' : t'.Ok) (e : t.v07 h id = some x) (e' : t'.v07 h id' = some x) :
    (t.bound = t'.bound ∧ id = id') ∨ Collide h (t.queries h id q) (t'.queries h id' q') := by
  obtain ⟨l, rfl, hx⟩ := (v07_iff h id x t).1 e
  obtain ⟨l', rfl, hx'⟩ := (v07_iff h id' x t').1 e'
  have o : Pre.ped [feltText "l1_handler".toList, l.address, l.selector, chain h l.calldata, id, l.nonce] ∈ (Txn.l1Handler l).oldTops h id := by
    simp [Txn.oldTops]
  have o' : Pre.ped [feltText "l1_handler".toList, l'.address, l'.selector, chain h l'.calldata, id', l'.nonce] ∈ (Txn.l1Handler l').oldTops h id' := by
    simp [Txn.oldTops]
  rcases pre_inj h (short_old h o) (short_old h o') (hx.symm.trans hx') with g | g
  · simp only [Pre.ped.injEq, List.cons.injEq, and_true] at g
    obtain ⟨-, g2, g3, g4, g5, g6⟩ := g
    simp only [Txn.Ok] at ht ht'
    rcases part_inj h (id := id) (id' := id') (q := q) (q' := q') (t := .l1Handler l) (t' := .l1Handler l') (a := .ped l.calldata) (b := .ped l'.calldata)
      (by simp [Txn.parts]) (by simp [Txn.parts]) (by simp only [Pre.short]; omega) (by simp only [Pre.short]; omega) g4 with g | g
    · left
      have g7 := Pre.ped.inj g
      obtain ⟨a1, a2, a3, a4⟩ := l
      obtain ⟨b1, b2, b3, b4⟩ := l'
      simp_all [Txn.bound]
    · exact .inr g
  · exact .inr (g.mono (old_queries h o) (old_queries h o'))

theorem legacy_old (h : Hashes) {id x : F} {t : Txn} (e : t.legacy h id = some x) : ∃ l, Pre.ped l ∈ t.oldTops h id ∧ l.length = 5 ∧ x = chain h l := by
  obtain ⟨k, a, s, l, hb, hx⟩ := (legacy_iff h id x t).1 e
  exact ⟨_, legacyBound_old h id hb, rfl, hx⟩

theorem v07_old (h : Hashes) {id x : F} {t : Txn} (e : t.v07 h id = some x) : ∃ l, Pre.ped l ∈ t.oldTops h id ∧ l.length = 6 ∧ x = chain h l := by
  obtain ⟨l, rfl, hx⟩ := (v07_iff h id x t).1 e
  exact ⟨_, by simp [Txn.oldTops], rfl, hx⟩

theorem old_old (h : Hashes) {id id' x : F} {q q' : Bool} {t t' : Txn} (e : t.legacy h id = some x) (e' : t'.v07 h id' = some x) :
    Collide h (t.queries h id q) (t'.queries h id' q') := by
  obtain ⟨l, o, n, hx⟩ := legacy_old h e
  obtain ⟨l', o', n', hx'⟩ := v07_old h e'
  rcases pre_inj h (short_old h o) (short_old h o') (hx.symm.trans hx') with g | g
  · cases Pre.ped.inj g
    omega
  · exact g.mono (old_queries h o) (old_queries h o')

theorem Collide.symm' {h : Hashes} {a b : List Query} (hc : Collide h a b) : Collide h b a := by
  obtain ⟨x, hx, y, hy, hn, e⟩ := hc
  exact ⟨y, hy, x, hx, hn.symm, e.symm⟩

theorem top_old (h : Hashes) {id id' x : F} {q q' : Bool} {t t' : Txn} (e : t.hash h id q = x) (e' : t'.legacy h id' = some x ∨ t'.v07 h id' = some x) :
    Collide h (t.queries h id q) (t'.queries h id' q') := by
  have : ∃ l, Pre.ped l ∈ t'.oldTops h id' ∧ x = chain h l := by
    rcases e' with e' | e'
    · obtain ⟨l, o, -, hx⟩ := legacy_old h e'
      exact ⟨l, o, hx⟩
    · obtain ⟨l, o, -, hx⟩ := v07_old h e'
      exact ⟨l, o, hx⟩
  obtain ⟨l, o, hx⟩ := this
  rw [← top_eval] at e
  rcases pre_inj h (short_top h) (short_old h o) (e.trans hx) with g | g
  · exact absurd g (old_top h o)
  · exact g.mono (top_queries h) (old_queries h o)

theorem verify_iff_tx (h : Hashes) (id x : F) (t : Txn) :
    t.verify h id x = true ↔ t.hash h id false = x ∨ t.legacy h id = some x ∨ t.v07 h id = some x := by
  unfold Txn.verify
  rw [Bool.or_eq_true, Bool.or_eq_true, beq_iff_eq, beq_iff_eq, beq_iff_eq, or_assoc]
  constructor
  · rintro (e | e | e)
    · exact .inl e.symm
    · exact .inr (.inl e.symm)
    · exact .inr (.inr e.symm)
  · rintro (e | e | e)
    · exact .inl e.symm
    · exact .inr (.inl e.symm)
    · exact .inr (.inr e.symm)

end Verif.Block
