import Verif.Sim.Spec

/-!
# Calls, estimates and simulations: lemmas
-/
namespace Verif.Sim
open Verif.Submit (Bound Bounds Da)

variable {S O R : Type} {env : Env S O R}

theorem bind_ok {α β : Type} {r : Res α} {f : α → Res β} {b : β} (h : r.bind f = .ok b) : ∃ a, r = .ok a ∧ f a = .ok b := by
  cases r with
  | ok a => exact ⟨a, rfl, h⟩
  | err e => simp [Res.bind] at h
  | panic => simp [Res.bind] at h

theorem bind_err {α β : Type} {r : Res α} {f : α → Res β} {e : Err} (h : r.bind f = .err e) : r = .err e ∨ ∃ a, r = .ok a ∧ f a = .err e := by
  cases r with
  | ok a => exact .inr ⟨a, rfl, h⟩
  | err e' => exact .inl (by simpa [Res.bind] using h)
  | panic => simp [Res.bind] at h

theorem bind_panic {α β : Type} {r : Res α} {f : α → Res β} (h : r.bind f = .panic) : r = .panic ∨ ∃ a, r = .ok a ∧ f a = .panic := by
  cases r with
  | ok a => exact .inr ⟨a, rfl, h⟩
  | err e' => simp [Res.bind] at h
  | panic => exact .inl rfl

theorem joined_ok {α : Type} {r : Res α} {a : α} (h : r.joined = .ok a) : r = .ok a := by
  cases r <;> simp_all [Res.joined]

theorem orErr_ok {α : Type} {e : Err} {o : Option α} {a : α} (h : orErr e o = .ok a) : o = some a := by
  cases o <;> simp_all [orErr]

theorem key_ok {a b : Nat} (h : key a = .ok b) : b = a ∧ a < 2 ^ 251 := by
  unfold key at h; split at h
  · injection h with h; omega
  · exact absurd h (by simp)

theorem fee_ok {a b : Nat} (h : fee a = .ok b) : b = a := by
  unfold fee at h; split at h
  · injection h with h; omega
  · exact absurd h (by simp)

theorem latest_some {l : List Hdr} {h : Hdr} (e : latest l = some h) : h ∈ l ∧ ∀ h' ∈ l, h'.number ≤ h.number := by
  induction l generalizing h with
  | nil => simp [latest] at e
  | cons x l ih =>
    simp only [latest] at e
    cases hl : latest l with
    | none =>
      rw [hl] at e; simp only [Option.some.injEq] at e; subst e
      have hn : l = [] := by
        cases l with
        | nil => rfl
        | cons y l => simp only [latest] at hl; split at hl <;> (try split at hl) <;> simp at hl
      subst hn
      simp
    | some m =>
      rw [hl] at e; simp only at e
      have := ih hl
      split at e <;> simp only [Option.some.injEq] at e <;> subst e
      · refine ⟨by simp, ?_⟩
        intro h' hh
        rcases List.mem_cons.1 hh with rfl | hh
        · exact Nat.le_refl _
        · have := this.2 h' hh; omega
      · refine ⟨by simp [this.1], ?_⟩
        intro h' hh
        rcases List.mem_cons.1 hh with rfl | hh
        · omega
        · exact this.2 h' hh

theorem latest_none {l : List Hdr} (e : latest l = none) : l = [] := by
  cases l with
  | nil => rfl
  | cons y l => simp only [latest] at e; split at e <;> (try split at e) <;> simp at e

theorem byNumber_some {db : Db} {n : Nat} {h : Hdr} (e : db.byNumber n = some h) : h ∈ db.headers ∧ h.number = n := by
  unfold Db.byNumber at e
  exact ⟨List.mem_of_find?_eq_some e, by simpa using List.find?_some e⟩

theorem named_ok {db : Db} {pend : Option Pending} {id : Id} {h : Hdr} {u : Option Upd} (e : named db pend id = .ok (h, u)) : Names db pend id h u := by
  cases id with
  | preConfirmed =>
    obtain ⟨p, hp, e⟩ := bind_ok e
    injection e with e; injection e with e1 e2; subst e1; subst e2
    exact .preConfirmed p (orErr_ok hp)
  | number n =>
    obtain ⟨x, hx, e⟩ := bind_ok e
    injection e with e; injection e with e1 e2; subst e1; subst e2
    obtain ⟨hm, rfl⟩ := byNumber_some (orErr_ok hx)
    exact .number x hm
  | hash y =>
    obtain ⟨x, hx, e⟩ := bind_ok e
    injection e with e; injection e with e1 e2; subst e1; subst e2
    have hx := orErr_ok hx
    have h2 : x.hash = y := by simpa using List.find?_some hx
    subst h2
    exact .hash x (List.mem_of_find?_eq_some hx)
  | latest =>
    obtain ⟨x, hx, e⟩ := bind_ok e
    injection e with e; injection e with e1 e2; subst e1; subst e2
    have := latest_some (orErr_ok hx)
    exact .latest x this.1 this.2
  | l1Accepted =>
    obtain ⟨n, hn, e⟩ := bind_ok e
    obtain ⟨x, hx, e⟩ := bind_ok e
    injection e with e; injection e with e1 e2; subst e1; subst e2
    obtain ⟨hm, rfl⟩ := byNumber_some (orErr_ok hx)
    exact .l1Accepted x hm (orErr_ok hn)

/-! ## Constants -/

theorem lastUpTo_some {v : Nat} {m : List (Nat × Nat)} {e : Nat × Nat} (h : lastUpTo v m = some e) : e ∈ m ∧ e.1 ≤ v ∧ ∀ f ∈ m, f.1 ≤ v → f.1 ≤ e.1 := by
  induction m generalizing e with
  | nil => simp [lastUpTo] at h
  | cons x m ih =>
    simp only [lastUpTo] at h
    cases hm : lastUpTo v m with
    | none =>
      rw [hm] at h; simp only at h
      split at h
      · rename_i hx
        injection h with h; subst h
        refine ⟨by simp, hx, ?_⟩
        intro f hf hv
        rcases List.mem_cons.1 hf with rfl | hf
        · exact Nat.le_refl _
        · exfalso
          clear ih
          induction m with
          | nil => simp at hf
          | cons y m ih2 =>
            simp only [lastUpTo] at hm
            split at hm
            · split at hm <;> simp at hm
            · rename_i hn
              split at hm
              · simp at hm
              · rename_i hy
                rcases List.mem_cons.1 hf with rfl | hf'
                · exact hy hv
                · exact ih2 hn (by simp [hf']) hf'
      · simp at h
    | some y =>
      rw [hm] at h; simp only at h
      obtain ⟨h1, h2, h3⟩ := ih hm
      split at h <;> rename_i hc <;> injection h with h <;> subst h
      · refine ⟨by simp, hc.1, ?_⟩
        intro f hf hv
        rcases List.mem_cons.1 hf with rfl | hf
        · exact Nat.le_refl _
        · have := h3 f hf hv; omega
      · refine ⟨by simp [h1], h2, ?_⟩
        intro f hf hv
        rcases List.mem_cons.1 hf with rfl | hf
        · by_cases hlt : y.1 < f.1
          · exact absurd ⟨hv, hlt⟩ hc
          · omega
        · exact h3 f hf hv

theorem lastUpTo_none {v : Nat} {m : List (Nat × Nat)} (h : lastUpTo v m = none) : ∀ f ∈ m, v < f.1 := by
  induction m with
  | nil => simp
  | cons x m ih =>
    simp only [lastUpTo] at h
    split at h
    · split at h <;> simp at h
    · rename_i hn
      split at h
      · simp at h
      · rename_i hx
        intro f hf
        rcases List.mem_cons.1 hf with rfl | hf
        · omega
        · exact ih hn f hf

theorem foldl_mem (ks : List Nat) (m : List (Nat × Nat)) (hk : ks.Nodup) (k c : Nat) :
    (k, c) ∈ ks.foldl (insertDefault env) m ↔ (k, c) ∈ m ∨ (c = env.constants k ∧ k ∈ ks ∧ ∀ c', (k, c') ∉ m) := by
  induction ks generalizing m with
  | nil => simp
  | cons x ks ih =>
    obtain ⟨hx, hks⟩ := List.nodup_cons.1 hk
    rw [List.foldl_cons, ih _ hks]
    unfold insertDefault
    split
    · rename_i ha
      obtain ⟨e, he, hex⟩ := List.any_eq_true.1 ha
      have hex : e.1 = x := by simpa using hex
      constructor
      · rintro (h | ⟨h1, h2, h3⟩)
        · exact .inl h
        · exact .inr ⟨h1, by simp [h2], h3⟩
      · rintro (h | ⟨h1, h2, h3⟩)
        · exact .inl h
        · rcases List.mem_cons.1 h2 with rfl | h2
          · exact absurd he (by have := h3 e.2; rw [← hex] at this; exact this)
          · exact .inr ⟨h1, h2, h3⟩
    · rename_i ha
      have hno : ∀ c', (x, c') ∉ m := by
        intro c' hc
        exact ha (List.any_eq_true.2 ⟨_, hc, by simp⟩)
      constructor
      · rintro (h | ⟨h1, h2, h3⟩)
        · rcases List.mem_append.1 h with h | h
          · exact .inl h
          · simp only [List.mem_singleton, Prod.mk.injEq] at h
            obtain ⟨rfl, rfl⟩ := h
            exact .inr ⟨rfl, by simp, hno⟩
        · exact .inr ⟨h1, by simp [h2], fun c' hc => h3 c' (by simp [hc])⟩
      · rintro (h | ⟨h1, h2, h3⟩)
        · exact .inl (by simp [h])
        · rcases List.mem_cons.1 h2 with rfl | h2
          · exact .inl (by simp [h1])
          · refine .inr ⟨h1, h2, ?_⟩
            intro c' hc
            rcases List.mem_append.1 hc with hc | hc
            · exact h3 c' hc
            · simp only [List.mem_singleton, Prod.mk.injEq] at hc
              exact hx (hc.1 ▸ h2)

theorem governs (v : Nat) : Governs env v (forVersion env v) := by
  have hm := fun k c => foldl_mem (env := env) known env.custom (by decide) k c
  unfold Governs forVersion
  cases h : lastUpTo v (constantsMap env) with
  | some e =>
    obtain ⟨h1, h2, h3⟩ := lastUpTo_some h
    refine .inl ⟨e.1, h2, (hm e.1 e.2).1 h1, ?_⟩
    intro k' c' hh hv
    exact h3 (k', c') ((hm k' c').2 hh) hv
  | none =>
    have h3 := lastUpTo_none h
    exact .inr ⟨fun k' c' hh => h3 (k', c') ((hm k' c').2 hh), rfl⟩

theorem price_of (p : Nat) : PriceOf p (price p) := by
  unfold PriceOf price; split
  · right; omega
  · left; omega

theorem oldHash_ok {db : Db} {n : Nat} {o : Option (Nat × Nat)} (ho : oldHash db n = .ok o) :
    if 10 ≤ n then ∃ x ∈ db.headers, x.number + 10 = n ∧ o = some (x.number, x.hash) else o = none := by
  unfold oldHash at ho
  split at ho
  · rename_i hn
    obtain ⟨x, hx, ho⟩ := bind_ok ho
    obtain ⟨hm, hx⟩ := byNumber_some (orErr_ok hx)
    rw [if_pos hn]
    refine ⟨x, hm, by omega, ?_⟩
    rw [hx]
    exact (Res.ok.inj ho).symm
  · rename_i hn
    rw [if_neg hn]
    exact (Res.ok.inj ho).symm

theorem about_of {db : Db} {h : Hdr} {kzg : Bool} {s : Nat} {o : Option (Nat × Nat)} {k : Nat} (hk : Governs env h.version k) (hs : s = h.sequencer)
    (ho : if 10 ≤ h.number then ∃ x ∈ db.headers, x.number + 10 = h.number ∧ o = some (x.number, x.hash) else o = none) :
    About env db h kzg ⟨h.number, h.timestamp, s, price h.ethL1, price h.ethL1Data, price h.ethL2, price h.strkL1, price h.strkL1Data,
      price h.strkL2, kzg && h.blob, k, o⟩ :=
  ⟨rfl, rfl, hs, price_of _, price_of _, price_of _, price_of _, price_of _, price_of _, by simp only [Bool.and_eq_true], hk, ho⟩

theorem readUpTo_false (n : Nat) : readUpTo false n = some n := rfl

theorem context_ok {db : Db} {h : Hdr} {u : Option Upd} {kzg : Bool} {c : Ctx} {v : View} (e : context env db h u kzg = .ok (c, v)) :
    About env db h kzg c ∧ v = ⟨some h.number, u⟩ := by
  unfold context at e
  have hg := governs (env := env) h.version
  generalize forVersion env h.version = k at e hg
  obtain ⟨s, hs, e⟩ := bind_ok e
  obtain ⟨o, ho, e⟩ := bind_ok e
  rw [Res.ok.injEq, Prod.mk.injEq, readUpTo_false] at e
  obtain ⟨rfl, rfl⟩ := e
  exact ⟨about_of hg (key_ok hs).1 (oldHash_ok ho), rfl⟩

/-! ## Transactions -/

theorem deployed_mod (hp : Felts env) (cd : List Nat) (salt ch : Nat) :
    deployedAddress env cd salt ch = env.rawAddress cd salt ch % (2 ^ 251 - 256) ∧ deployedAddress env cd salt ch < 2 ^ 251 := by
  have h := hp cd salt ch
  unfold deployedAddress
  simp only
  generalize env.rawAddress cd salt ch = r at h ⊢
  split <;> omega

theorem bounds_says (b : Bounds) : (apiBounds b).says = boundsSaid b := by
  unfold apiBounds boundsSaid
  cases b.l1Data <;> rfl

theorem deprecatedInfo_ok {c : Nat} {i : Option ClassInfo} (h : deprecatedInfo env c = .ok i) : ∃ x, env.deprecated c = some x ∧ i = some ⟨x, 0, 0, 0⟩ := by
  obtain ⟨x, hx, h⟩ := bind_ok h
  simp only at h
  split at h
  · injection h with h; exact ⟨x, orErr_ok hx, h.symm⟩
  · exact absurd h (by simp)

theorem sierraInfo_ok {c : Nat} {i : Option ClassInfo} (h : sierraInfo env c = .ok i) : ∃ v casm x, env.sierraVersion c = some v ∧ env.compile c = some casm ∧
    env.parseCasm casm v = some x ∧ i = some ⟨x, env.sierraLength c, env.abiLength c, v⟩ := by
  obtain ⟨v, hv, h⟩ := bind_ok h
  obtain ⟨k, hk, h⟩ := bind_ok h
  obtain ⟨x, hx, h⟩ := bind_ok h
  simp only at h
  split at h
  · injection h with h; exact ⟨v, k, x, orErr_ok hv, orErr_ok hk, orErr_ok hx, h.symm⟩
  · exact absurd h (by simp)

theorem fields_ok {t : Tx} {c : Common} {api : Api} (hv : variant env t = .ok c) (ha : toApi c = .ok api) :
    ∃ h, api.says = t.said boundsSaid h ∧ ∀ k, t.cls = some k → env.classHash k = some h := by
  cases t <;> simp only [variant] at hv
  case declare0 t =>
    obtain ⟨h, hh, hv⟩ := bind_ok hv
    injection hv with hv; subst hv
    simp only [toApi] at ha
    obtain ⟨f, hf, ha⟩ := bind_ok ha
    obtain ⟨s, hs, ha⟩ := bind_ok ha
    injection ha with ha; subst ha
    rw [fee_ok hf, (key_ok hs).1]
    exact ⟨h, rfl, fun k hk => by simp only [Tx.cls, Option.some.injEq] at hk; rw [← hk]; exact orErr_ok hh⟩
  case declare1 t =>
    obtain ⟨h, hh, hv⟩ := bind_ok hv
    injection hv with hv; subst hv
    simp only [toApi] at ha
    obtain ⟨f, hf, ha⟩ := bind_ok ha
    obtain ⟨s, hs, ha⟩ := bind_ok ha
    injection ha with ha; subst ha
    rw [fee_ok hf, (key_ok hs).1]
    exact ⟨h, rfl, fun k hk => by simp only [Tx.cls, Option.some.injEq] at hk; rw [← hk]; exact orErr_ok hh⟩
  case declare2 t =>
    obtain ⟨h, hh, hv⟩ := bind_ok hv
    injection hv with hv; subst hv
    simp only [toApi] at ha
    obtain ⟨f, hf, ha⟩ := bind_ok ha
    obtain ⟨s, hs, ha⟩ := bind_ok ha
    injection ha with ha; subst ha
    rw [fee_ok hf, (key_ok hs).1]
    exact ⟨h, rfl, fun k hk => by simp only [Tx.cls, Option.some.injEq] at hk; rw [← hk]; exact orErr_ok hh⟩
  case declare3 t =>
    obtain ⟨h, hh, hv⟩ := bind_ok hv
    injection hv with hv; subst hv
    simp only [toApi] at ha
    obtain ⟨s, hs, ha⟩ := bind_ok ha
    injection ha with ha; subst ha
    rw [(key_ok hs).1]
    exact ⟨h, by simp only [Api.says, Tx.said, bounds_says], fun k hk => by simp only [Tx.cls, Option.some.injEq] at hk; rw [← hk]; exact orErr_ok hh⟩
  case invoke0 t =>
    injection hv with hv; subst hv
    simp only [toApi] at ha
    obtain ⟨f, hf, ha⟩ := bind_ok ha
    obtain ⟨s, hs, ha⟩ := bind_ok ha
    injection ha with ha; subst ha
    rw [fee_ok hf, (key_ok hs).1]
    exact ⟨0, rfl, fun k hk => by simp [Tx.cls] at hk⟩
  case invoke1 t =>
    injection hv with hv; subst hv
    simp only [toApi] at ha
    obtain ⟨f, hf, ha⟩ := bind_ok ha
    obtain ⟨s, hs, ha⟩ := bind_ok ha
    injection ha with ha; subst ha
    rw [fee_ok hf, (key_ok hs).1]
    exact ⟨0, rfl, fun k hk => by simp [Tx.cls] at hk⟩
  case invoke3 t =>
    injection hv with hv; subst hv
    simp only [toApi] at ha
    obtain ⟨s, hs, ha⟩ := bind_ok ha
    injection ha with ha; subst ha
    rw [(key_ok hs).1]
    exact ⟨0, by simp only [Api.says, Tx.said, bounds_says], fun k hk => by simp [Tx.cls] at hk⟩
  case deploy1 t =>
    injection hv with hv; subst hv
    simp only [toApi] at ha
    obtain ⟨f, hf, ha⟩ := bind_ok ha
    injection ha with ha; subst ha
    rw [fee_ok hf]
    exact ⟨0, rfl, fun k hk => by simp [Tx.cls] at hk⟩
  case deploy3 t =>
    injection hv with hv; subst hv
    simp only [toApi] at ha
    injection ha with ha; subst ha
    exact ⟨0, by simp only [Api.says, Tx.said, bounds_says], fun k hk => by simp [Tx.cls] at hk⟩

theorem variant_ok (hp : Felts env) {t : Tx} {c : Common} (hv : variant env t = .ok c) :
    ∃ h, c.says = t.said boundsFull h ∧ (∀ k, t.cls = some k → env.classHash k = some h) ∧ AddressOf env t c.deployed := by
  cases t <;> simp only [variant] at hv
  case declare0 t =>
    obtain ⟨h, hh, hv⟩ := bind_ok hv
    have hv := Res.ok.inj hv; subst hv
    exact ⟨h, rfl, fun k hk => by simp only [Tx.cls, Option.some.injEq] at hk; rw [← hk]; exact orErr_ok hh, rfl⟩
  case declare1 t =>
    obtain ⟨h, hh, hv⟩ := bind_ok hv
    have hv := Res.ok.inj hv; subst hv
    exact ⟨h, rfl, fun k hk => by simp only [Tx.cls, Option.some.injEq] at hk; rw [← hk]; exact orErr_ok hh, rfl⟩
  case declare2 t =>
    obtain ⟨h, hh, hv⟩ := bind_ok hv
    have hv := Res.ok.inj hv; subst hv
    exact ⟨h, rfl, fun k hk => by simp only [Tx.cls, Option.some.injEq] at hk; rw [← hk]; exact orErr_ok hh, rfl⟩
  case declare3 t =>
    obtain ⟨h, hh, hv⟩ := bind_ok hv
    have hv := Res.ok.inj hv; subst hv
    exact ⟨h, rfl, fun k hk => by simp only [Tx.cls, Option.some.injEq] at hk; rw [← hk]; exact orErr_ok hh, rfl⟩
  case deploy1 t =>
    have hv := Res.ok.inj hv; subst hv
    exact ⟨0, rfl, fun k hk => by simp [Tx.cls] at hk, by simp only [AddressOf, Common.deployed, (deployed_mod hp _ _ _).1]⟩
  case deploy3 t =>
    have hv := Res.ok.inj hv; subst hv
    exact ⟨0, rfl, fun k hk => by simp [Tx.cls] at hk, by simp only [AddressOf, Common.deployed, (deployed_mod hp _ _ _).1]⟩
  all_goals
    have hv := Res.ok.inj hv; subst hv
    exact ⟨0, rfl, fun k hk => by simp [Tx.cls] at hk, rfl⟩

theorem deployedKey_ok (hp : Felts env) {t : Tx} {d : Option Nat} (h : deployedKey env t = .ok d) : AddressOf env t d := by
  cases t <;> simp only [deployedKey] at h
  case deploy1 t =>
    obtain ⟨a, ha, h⟩ := bind_ok h
    have h := Res.ok.inj h; subst h
    simp only [AddressOf, (key_ok ha).1, (deployed_mod hp _ _ _).1]
  case deploy3 t =>
    obtain ⟨a, ha, h⟩ := bind_ok h
    have h := Res.ok.inj h; subst h
    simp only [AddressOf, (key_ok ha).1, (deployed_mod hp _ _ _).1]
  all_goals exact (Res.ok.inj h).symm

theorem info_none {t : Tx} {i : Option ClassInfo} (hi : classInfo env t = .ok i) (hn : t.cls = none) : i = none := by
  cases t <;> simp only [classInfo, Tx.cls] at hi hn <;> first | exact (Res.ok.inj hi).symm | exact absurd hn (by simp)

theorem info_cairo0 {t : Tx} {i : Option ClassInfo} {k : Nat} (hi : classInfo env t = .ok i) (hk : t.cls = some k) (hs : t.sierra = false) :
    ∃ x, env.deprecated k = some x ∧ i = some ⟨x, 0, 0, 0⟩ := by
  cases t <;> simp only [classInfo, Tx.cls, Tx.sierra, Option.some.injEq, reduceCtorEq] at hi hk hs
  all_goals (subst hk; exact deprecatedInfo_ok hi)

theorem info_sierra {t : Tx} {i : Option ClassInfo} {k : Nat} (hi : classInfo env t = .ok i) (hk : t.cls = some k) (hs : t.sierra = true) :
    ∃ v casm x, env.sierraVersion k = some v ∧ env.compile k = some casm ∧
    env.parseCasm casm v = some x ∧ i = some ⟨x, env.sierraLength k, env.abiLength k, v⟩ := by
  cases t <;> simp only [classInfo, Tx.cls, Tx.sierra, Option.some.injEq, reduceCtorEq] at hi hk hs
  all_goals (subst hk; exact sierraInfo_ok hi)

theorem query_said (t : Tx) (sv sf : Bool) : (flags t sv sf).onlyQuery = true ↔ t.saidVersion / 2 ^ 128 % 2 = 1 := by
  cases t <;> exact decide_eq_true_iff

theorem mapTx_ok (hp : Felts env) {sv sf : Bool} {t : Tx} {e : ExecTx} (h : mapTx env sv sf t = .ok e) : IsFor env sv sf t e := by
  unfold mapTx at h
  obtain ⟨i, hi, h⟩ := bind_ok h
  obtain ⟨d, hd, h⟩ := bind_ok h
  obtain ⟨c, hc, h⟩ := bind_ok h
  obtain ⟨a, ha, h⟩ := bind_ok h
  simp only at h
  split at h
  case isFalse => exact absurd h (by simp)
  have h := Res.ok.inj h; subst h
  obtain ⟨x, hx1, hx2, hx3⟩ := variant_ok hp hc
  exact { fields := fields_ok hc ha, query := query_said t sv sf, hash := ⟨c, x, hx1, hx2, hx3, rfl⟩, validate := rfl, nonce := rfl, fee := rfl,
          paid := rfl, noClass := info_none hi, cairo0 := fun k hk hs => info_cairo0 hi hk hs, sierra := fun k hk hs => info_sierra hi hk hs,
          deployed := deployedKey_ok hp hd }

theorem mapAll_ok {sv sf : Bool} {ts : List Tx} {es : List ExecTx} (h : mapAll env sv sf ts = .ok es) :
    es.length = ts.length ∧ ∀ (i : Nat) (t : Tx) (e : ExecTx), ts[i]? = some t → es[i]? = some e → mapTx env sv sf t = .ok e := by
  induction ts generalizing es with
  | nil => simp only [mapAll] at h; injection h with h; subst h; simp
  | cons t ts ih =>
    simp only [mapAll] at h
    obtain ⟨e, he, h⟩ := bind_ok h
    obtain ⟨es', hes, h⟩ := bind_ok h
    injection h with h; subst h
    obtain ⟨hl, hi⟩ := ih hes
    refine ⟨by simp [hl], ?_⟩
    intro i t' e' ht' he'
    cases i with
    | zero => simp only [List.getElem?_cons_zero, Option.some.injEq] at ht' he'; subst ht'; subst he'; exact he
    | succ i => simp only [List.getElem?_cons_succ] at ht' he'; exact hi i t' e' ht' he'

/-! ## Running -/

theorem runAll_ok {ctx : Ctx} {st : Bool} {i : Nat} {s s' : S} {es : List ExecTx} {os : List O} (h : runAll env ctx st i s es = .ok (os, s')) :
    Runs env ctx st s es os s' := by
  induction es generalizing i s os with
  | nil =>
    simp only [runAll] at h
    injection h with h; injection h with h1 h2; subst h1; subst h2
    exact .nil _
  | cons e es ih =>
    simp only [runAll] at h
    split at h
    · rename_i o s1 hr
      obtain ⟨⟨os', s2⟩, h1, h⟩ := bind_ok h
      injection h with h; injection h with ha hb; subst ha; subst hb
      exact .cons _ _ _ _ _ _ _ hr (ih h1)
    all_goals exact absurd h (by simp)

theorem runAll_of_runs {ctx : Ctx} {st : Bool} {s s' : S} {es : List ExecTx} {os : List O} (h : Runs env ctx st s es os s') (i : Nat) :
    runAll env ctx st i s es = .ok (os, s') := by
  induction h generalizing i with
  | nil s => rfl
  | cons s s1 s2 e es o os hr _ ih => simp only [runAll, hr, ih, Res.bind]

theorem runAll_failed {ctx : Ctx} {st : Bool} {i n : Nat} {s : S} {es : List ExecTx} (h : runAll env ctx st i s es = .err (.transaction n)) :
    ∃ pre e post os s', es = pre ++ e :: post ∧ n = i + pre.length ∧ Runs env ctx st s pre os s' ∧ env.run ctx st s' e = .failed := by
  induction es generalizing i s with
  | nil => simp [runAll] at h
  | cons e es ih =>
    simp only [runAll] at h
    split at h
    · rename_i o s1 hr
      rcases bind_err h with h | ⟨a, _, h⟩
      · obtain ⟨pre, e', post, os, s', h1, h2, h3, h4⟩ := ih h
        exact ⟨e :: pre, e', post, o :: os, s', by simp [h1], by simp; omega, .cons _ _ _ _ _ _ _ hr h3, h4⟩
      · exact absurd h (by simp)
    · rename_i hr
      injection h with h; injection h with h
      exact ⟨[], e, es, [], s, rfl, by simp [h], .nil _, hr⟩
    · exact absurd h (by simp)
    · exact absurd h (by simp)

theorem runs_length {ctx : Ctx} {st : Bool} {s s' : S} {es : List ExecTx} {os : List O} (h : Runs env ctx st s es os s') : os.length = es.length := by
  induction h with
  | nil => rfl
  | cons _ _ _ _ _ _ _ _ _ ih => simp [ih]

theorem runs_prefix {ctx : Ctx} {st : Bool} {s s' : S} {es fs : List ExecTx} {os : List O} (h : Runs env ctx st s (es ++ fs) os s') :
    ∃ s'', Runs env ctx st s es (os.take es.length) s'' := by
  induction es generalizing s os with
  | nil => exact ⟨s, by simpa using Runs.nil s⟩
  | cons e es ih =>
    cases h with
    | cons _ s1 _ _ _ o os hr h =>
      obtain ⟨s'', h'⟩ := ih h
      exact ⟨s'', by simpa using Runs.cons _ _ _ _ _ _ _ hr h'⟩

theorem mapAll_append {sv sf : Bool} {ts us : List Tx} {es : List ExecTx} (h : mapAll env sv sf (ts ++ us) = .ok es) :
    ∃ es1 es2, es = es1 ++ es2 ∧ mapAll env sv sf ts = .ok es1 := by
  induction ts generalizing es with
  | nil => exact ⟨[], es, rfl, rfl⟩
  | cons t ts ih =>
    simp only [List.cons_append, mapAll] at h
    obtain ⟨e, he, h⟩ := bind_ok h
    obtain ⟨es', hes, h⟩ := bind_ok h
    injection h with h; subst h
    obtain ⟨a, b, hab, ha⟩ := ih hes
    subst hab
    exact ⟨e :: a, b, rfl, by simp only [mapAll, he, ha, Res.bind]⟩

/-! ## Errors -/

theorem orErr_err {α : Type} {e e' : Err} {o : Option α} (h : orErr e o = .err e') : o = none ∧ e' = e := by
  cases o with
  | none => exact ⟨rfl, by simpa [orErr] using h.symm⟩
  | some a => simp [orErr] at h

theorem orErr_panic {α : Type} {e : Err} {o : Option α} : orErr e o ≠ .panic := by
  cases o <;> simp [orErr]

theorem key_err {a : Nat} {e : Err} : key a ≠ .err e := by unfold key; split <;> simp

theorem key_panic {a : Nat} (h : key a = .panic) : 2 ^ 251 ≤ a := by
  unfold key at h; split at h
  · exact absurd h (by simp)
  · omega

theorem fee_err {a : Nat} {e : Err} (h : fee a = .err e) : e = .internal ∧ 2 ^ 128 ≤ a := by
  unfold fee at h; split at h
  · exact absurd h (by simp)
  · exact ⟨by simpa using h.symm, by omega⟩

theorem fee_panic {a : Nat} : fee a ≠ .panic := by unfold fee; split <;> simp

theorem info_err {t : Tx} {e : Err} (h : classInfo env t = .err e) : e = .internal := by
  have hd : ∀ k, deprecatedInfo env k = .err e → e = .internal := by
    intro k h
    unfold deprecatedInfo at h
    rcases bind_err h with h | ⟨a, _, h⟩
    · exact (orErr_err h).2
    · simp only at h; split at h
      · exact absurd h (by simp)
      · simpa using h.symm
  have hs : ∀ k, sierraInfo env k = .err e → e = .internal := by
    intro k h
    unfold sierraInfo at h
    rcases bind_err h with h | ⟨a, _, h⟩
    · exact (orErr_err h).2
    rcases bind_err h with h | ⟨b, _, h⟩
    · exact (orErr_err h).2
    rcases bind_err h with h | ⟨c, _, h⟩
    · exact (orErr_err h).2
    · simp only at h; split at h
      · exact absurd h (by simp)
      · simpa using h.symm
  cases t <;> simp only [classInfo, reduceCtorEq] at h
  · exact hd _ h
  · exact hd _ h
  · exact hs _ h
  · exact hs _ h

theorem info_panic {t : Tx} : classInfo env t ≠ .panic := by
  have hd : ∀ k, deprecatedInfo env k ≠ .panic := by
    intro k h
    unfold deprecatedInfo at h
    rcases bind_panic h with h | ⟨a, _, h⟩
    · exact orErr_panic h
    · simp only at h; split at h <;> simp at h
  have hs : ∀ k, sierraInfo env k ≠ .panic := by
    intro k h
    unfold sierraInfo at h
    rcases bind_panic h with h | ⟨a, _, h⟩
    · exact orErr_panic h
    rcases bind_panic h with h | ⟨b, _, h⟩
    · exact orErr_panic h
    rcases bind_panic h with h | ⟨c, _, h⟩
    · exact orErr_panic h
    · simp only at h; split at h <;> simp at h
  cases t <;> simp only [classInfo, ne_eq, reduceCtorEq, not_false_iff]
  · exact hd _
  · exact hd _
  · exact hs _
  · exact hs _

theorem deployedKey_err {t : Tx} {e : Err} : deployedKey env t ≠ .err e := by
  intro h
  cases t <;> simp only [deployedKey, reduceCtorEq] at h
  all_goals
    rcases bind_err h with h | ⟨a, _, h⟩
    · exact key_err h
    · exact absurd h (by simp)

theorem deployedKey_panic (hp : Felts env) {t : Tx} : deployedKey env t ≠ .panic := by
  intro h
  cases t <;> simp only [deployedKey, reduceCtorEq] at h
  all_goals
    rcases bind_panic h with h | ⟨a, _, h⟩
    · exact Nat.not_lt.2 (key_panic h) (deployed_mod hp _ _ _).2
    · exact absurd h (by simp)

theorem variant_err {t : Tx} {e : Err} (h : variant env t = .err e) : e = .internal := by
  cases t <;> simp only [variant, reduceCtorEq] at h
  all_goals
    rcases bind_err h with h | ⟨a, _, h⟩
    · exact (orErr_err h).2
    · exact absurd h (by simp)

theorem variant_panic {t : Tx} : variant env t ≠ .panic := by
  intro h
  cases t <;> simp only [variant, reduceCtorEq] at h
  all_goals
    rcases bind_panic h with h | ⟨a, _, h⟩
    · exact orErr_panic h
    · exact absurd h (by simp)

theorem toApi_err {c : Common} {e : Err} (h : toApi c = .err e) : e = .internal := by
  cases c <;> simp only [toApi, reduceCtorEq] at h
  all_goals
    rcases bind_err h with h | ⟨a, _, h⟩
    · first | exact (fee_err h).1 | exact absurd h key_err
    · first
        | exact absurd h (by simp)
        | (rcases bind_err h with h | ⟨b, _, h⟩
           · exact absurd h key_err
           · exact absurd h (by simp))

theorem mapTx_err {sv sf : Bool} {t : Tx} {e : Err} (h : mapTx env sv sf t = .err e) : e = .internal := by
  unfold mapTx at h
  rcases bind_err h with h | ⟨i, _, h⟩
  · exact info_err h
  rcases bind_err h with h | ⟨d, _, h⟩
  · exact absurd h deployedKey_err
  rcases bind_err h with h | ⟨c, _, h⟩
  · exact variant_err h
  rcases bind_err h with h | ⟨a, _, h⟩
  · exact toApi_err h
  simp only at h; split at h
  · exact absurd h (by simp)
  · simpa using h.symm

theorem mapAll_err {sv sf : Bool} {ts : List Tx} {e : Err} (h : mapAll env sv sf ts = .err e) : e = .internal := by
  induction ts with
  | nil => simp [mapAll] at h
  | cons t ts ih =>
    simp only [mapAll] at h
    rcases bind_err h with h | ⟨a, _, h⟩
    · exact mapTx_err h
    rcases bind_err h with h | ⟨a, _, h⟩
    · exact ih h
    · exact absurd h (by simp)

theorem oldHash_err {db : Db} {n : Nat} {e : Err} (h : oldHash db n = .err e) : e = .internal := by
  unfold oldHash at h
  split at h
  · rcases bind_err h with h | ⟨a, _, h⟩
    · exact (orErr_err h).2
    · exact absurd h (by simp)
  · exact absurd h (by simp)

theorem context_err {db : Db} {x : Hdr} {u : Option Upd} {kzg : Bool} {e : Err} (h : context env db x u kzg = .err e) : e = .internal := by
  unfold context at h
  generalize forVersion env x.version = k at h
  rcases bind_err h with h | ⟨a, _, h⟩
  · exact absurd h key_err
  rcases bind_err h with h | ⟨a, _, h⟩
  · exact oldHash_err h
  · exact absurd h (by simp)

theorem runAll_err {ctx : Ctx} {st : Bool} {i : Nat} {s : S} {es : List ExecTx} {e : Err} (h : runAll env ctx st i s es = .err e) :
    (∃ n, e = .transaction n) ∨ e = .internal ∨ e = .custom := by
  induction es generalizing i s with
  | nil => simp [runAll] at h
  | cons x es ih =>
    simp only [runAll] at h
    split at h
    · rcases bind_err h with h | ⟨a, _, h⟩
      · exact ih h
      · exact absurd h (by simp)
    · exact .inl ⟨i, by simpa using h.symm⟩
    · exact .inr (.inl (by simpa using h.symm))
    · exact .inr (.inr (by simpa using h.symm))

theorem runAll_panic {ctx : Ctx} {st : Bool} {i : Nat} {s : S} {es : List ExecTx} : runAll env ctx st i s es ≠ .panic := by
  induction es generalizing i s with
  | nil => simp [runAll]
  | cons x es ih =>
    intro h
    simp only [runAll] at h
    split at h
    · rcases bind_panic h with h | ⟨a, _, h⟩
      · exact ih h
      · exact absurd h (by simp)
    all_goals exact absurd h (by simp)

theorem named_panic {db : Db} {pend : Option Pending} {id : Id} : named db pend id ≠ .panic := by
  intro h
  cases id <;> simp only [named] at h
  all_goals
    rcases bind_panic h with h | ⟨a, _, h⟩
    · exact orErr_panic h
    · first
        | exact absurd h (by simp)
        | (rcases bind_panic h with h | ⟨b, _, h⟩
           · exact orErr_panic h
           · exact absurd h (by simp))

theorem byNumber_none {db : Db} {n : Nat} (h : db.byNumber n = none) : ∀ x ∈ db.headers, x.number ≠ n := by
  unfold Db.byNumber at h
  intro x hx
  simpa using List.find?_eq_none.1 h x hx

/-- Nothing is found exactly when nothing is named. -/
theorem named_err {db : Db} {pend : Option Pending} {id : Id} {e : Err} (h : named db pend id = .err e) :
    (¬ ∃ x u, Names db pend id x u) ∧ e = if id = .preConfirmed then .internal else .blockNotFound := by
  cases id with
  | preConfirmed =>
    simp only [named] at h
    rcases bind_err h with h | ⟨a, _, h⟩
    · obtain ⟨h1, h2⟩ := orErr_err h
      exact ⟨by rintro ⟨x, u, hn⟩; cases hn with | preConfirmed p hp => rw [h1] at hp; simp at hp, by simpa using h2⟩
    · exact absurd h (by simp)
  | number n =>
    simp only [named] at h
    rcases bind_err h with h | ⟨a, _, h⟩
    · obtain ⟨h1, h2⟩ := orErr_err h
      exact ⟨by rintro ⟨x, u, hn⟩; cases hn with | number _ hp => exact byNumber_none h1 _ hp rfl, by simpa using h2⟩
    · exact absurd h (by simp)
  | hash y =>
    simp only [named] at h
    rcases bind_err h with h | ⟨a, _, h⟩
    · obtain ⟨h1, h2⟩ := orErr_err h
      refine ⟨?_, by simpa using h2⟩
      rintro ⟨x, u, hn⟩
      cases hn with
      | hash _ hp => simpa using List.find?_eq_none.1 h1 x hp
    · exact absurd h (by simp)
  | latest =>
    simp only [named] at h
    rcases bind_err h with h | ⟨a, _, h⟩
    · obtain ⟨h1, h2⟩ := orErr_err h
      refine ⟨?_, by simpa using h2⟩
      rintro ⟨x, u, hn⟩
      cases hn with
      | latest _ hp _ => rw [latest_none h1] at hp; simp at hp
    · exact absurd h (by simp)
  | l1Accepted =>
    simp only [named] at h
    rcases bind_err h with h | ⟨n, hl, h⟩
    · obtain ⟨h1, h2⟩ := orErr_err h
      refine ⟨?_, by simpa using h2⟩
      rintro ⟨x, u, hn⟩
      cases hn with
      | l1Accepted _ hp hq => rw [h1] at hq; simp at hq
    · have hl := orErr_ok hl
      rcases bind_err h with h | ⟨a, _, h⟩
      · obtain ⟨h1, h2⟩ := orErr_err h
        refine ⟨?_, by simpa using h2⟩
        rintro ⟨x, u, hn⟩
        cases hn with
        | l1Accepted _ hp hq => rw [hl] at hq; exact byNumber_none h1 x hp (by simpa using hq.symm)
      · exact absurd h (by simp)

theorem names_unique {db : Db} (ho : OneEach db) {pend : Option Pending} {id : Id} {x y : Hdr} {u v : Option Upd} (h : Names db pend id x u)
    (h' : Names db pend id y v) : x = y ∧ u = v := by
  cases h with
  | number _ hx =>
    generalize hid : Id.number x.number = id at h'
    cases h' with
    | number _ hy => simp only [Id.number.injEq] at hid; exact ⟨ho _ hx _ hy (.inl hid), rfl⟩
    | _ => simp at hid
  | hash _ hx =>
    generalize hid : Id.hash x.hash = id at h'
    cases h' with
    | hash _ hy => simp only [Id.hash.injEq] at hid; exact ⟨ho _ hx _ hy (.inr hid), rfl⟩
    | _ => simp at hid
  | latest _ hx hm =>
    cases h' with
    | latest _ hy hm' => exact ⟨ho _ hx _ hy (.inl (Nat.le_antisymm (hm' _ hx) (hm _ hy))), rfl⟩
  | l1Accepted _ hx hl =>
    cases h' with
    | l1Accepted _ hy hl' => exact ⟨ho _ hx _ hy (.inl (by rw [hl] at hl'; simpa using hl')), rfl⟩
  | preConfirmed p hp =>
    cases h' with
    | preConfirmed q hq => rw [hp] at hq; simp only [Option.some.injEq] at hq; subst hq; exact ⟨rfl, rfl⟩

theorem named_of {db : Db} (ho : OneEach db) {pend : Option Pending} {id : Id} {x : Hdr} {u : Option Upd} (h : Names db pend id x u) :
    named db pend id = .ok (x, u) := by
  cases hn : named db pend id with
  | panic => exact absurd hn named_panic
  | err e => exact absurd ⟨x, u, h⟩ (named_err hn).1
  | ok a =>
    obtain ⟨h1, h2⟩ := names_unique ho (named_ok (h := a.1) (u := a.2) hn) h
    rw [← h1, ← h2]

/-! ## A request that can be run -/

theorem fee_fit {f : Nat} (h : f < 2 ^ 128) : fee f = .ok f := if_pos h
theorem key_fit {a : Nat} (h : a < 2 ^ 251) : key a = .ok a := if_pos h

theorem toApi_fit {t : Tx} {c : Common} (hf : Fit env t) (hv : variant env t = .ok c) : ∃ a, toApi c = .ok a := by
  have ha := hf.address
  have hfee := hf.fee
  cases t <;> simp only [variant, Tx.address, Tx.fee, Option.some.injEq, forall_eq', reduceCtorEq] at hv ha hfee
  case declare0 | declare1 | declare2 =>
    obtain ⟨h, _, hv⟩ := bind_ok hv
    have hv := Res.ok.inj hv; subst hv
    simp only [toApi, fee_fit hfee, key_fit ha, Res.bind, Res.ok.injEq, exists_eq']
  case declare3 =>
    obtain ⟨h, _, hv⟩ := bind_ok hv
    have hv := Res.ok.inj hv; subst hv
    simp only [toApi, key_fit ha, Res.bind, Res.ok.injEq, exists_eq']
  case invoke0 | invoke1 =>
    have hv := Res.ok.inj hv; subst hv
    simp only [toApi, fee_fit hfee, key_fit ha, Res.bind, Res.ok.injEq, exists_eq']
  case invoke3 =>
    have hv := Res.ok.inj hv; subst hv
    simp only [toApi, key_fit ha, Res.bind, Res.ok.injEq, exists_eq']
  case deploy1 =>
    have hv := Res.ok.inj hv; subst hv
    simp only [toApi, fee_fit hfee, Res.bind, Res.ok.injEq, exists_eq']
  case deploy3 =>
    have hv := Res.ok.inj hv; subst hv
    simp only [toApi, Res.ok.injEq, exists_eq']

theorem variant_fit {t : Tx} (hf : Fit env t) : ∃ c, variant env t = .ok c := by
  have hh := hf.hash
  cases t <;> simp only [variant, Tx.cls, Option.some.injEq, forall_eq'] at hh ⊢
  case declare0 | declare1 | declare2 | declare3 =>
    obtain ⟨h, hh⟩ := hh
    simp only [hh, orErr, Res.bind, Res.ok.injEq, exists_eq']
  all_goals exact ⟨_, rfl⟩

theorem info_fit (hi : ∀ i, env.infoOk i = true) {t : Tx} (hf : Fit env t) : ∃ i, classInfo env t = .ok i := by
  have h0 := hf.cairo0
  have h1 := hf.sierra
  cases t <;> simp only [classInfo, Tx.cls, Tx.sierra, Option.some.injEq, forall_eq', reduceCtorEq, forall_const] at h0 h1 ⊢
  case declare0 | declare1 =>
    obtain ⟨x, hx⟩ := h0
    simp only [deprecatedInfo, hx, orErr, Res.bind, hi, if_true, Res.ok.injEq, exists_eq']
  case declare2 | declare3 =>
    obtain ⟨v, k, x, hv, hk, hx⟩ := h1
    simp only [sierraInfo, hv, hk, hx, orErr, Res.bind, hi, if_true, Res.ok.injEq, exists_eq']
  all_goals exact ⟨_, rfl⟩

theorem mapTx_fit (hp : Felts env) (hi : ∀ i, env.infoOk i = true) (hfa : ∀ e, env.fromApiOk e = true) {sv sf : Bool} {t : Tx} (hf : Fit env t) :
    ∃ e, mapTx env sv sf t = .ok e := by
  obtain ⟨i, h1⟩ := info_fit hi hf
  obtain ⟨c, h2⟩ := variant_fit hf
  obtain ⟨a, h3⟩ := toApi_fit hf h2
  have h4 : ∃ d, deployedKey env t = .ok d := by
    cases h : deployedKey env t with
    | ok d => exact ⟨d, rfl⟩
    | err e => exact absurd h deployedKey_err
    | panic => exact absurd h (deployedKey_panic hp)
  obtain ⟨d, h4⟩ := h4
  simp only [mapTx, h1, h2, h3, h4, Res.bind, hfa, if_true, Res.ok.injEq, exists_eq']

theorem mapAll_fit (hp : Felts env) (hi : ∀ i, env.infoOk i = true) (hfa : ∀ e, env.fromApiOk e = true) {sv sf : Bool} {ts : List Tx}
    (hf : ∀ t ∈ ts, Fit env t) : ∃ es, mapAll env sv sf ts = .ok es := by
  induction ts with
  | nil => exact ⟨[], rfl⟩
  | cons t ts ih =>
    obtain ⟨e, he⟩ := mapTx_fit hp hi hfa (sv := sv) (sf := sf) (hf t (by simp))
    obtain ⟨es, hes⟩ := ih (fun t ht => hf t (by simp [ht]))
    exact ⟨e :: es, by simp only [mapAll, he, hes, Res.bind]⟩

theorem context_fit {db : Db} {x : Hdr} {u : Option Upd} {kzg : Bool} (hs : x.sequencer < 2 ^ 251)
    (ho : 10 ≤ x.number → ∃ y ∈ db.headers, y.number + 10 = x.number) : ∃ cv, context env db x u kzg = .ok cv := by
  have h1 : ∃ o, oldHash db x.number = .ok o := by
    unfold oldHash
    split
    · rename_i hn
      obtain ⟨y, hy, hyn⟩ := ho hn
      cases hb : db.byNumber (x.number - 10) with
      | none => exact absurd (by omega) (byNumber_none hb y hy)
      | some z => exact ⟨_, rfl⟩
    · exact ⟨_, rfl⟩
  obtain ⟨o, h1⟩ := h1
  unfold context
  generalize forVersion env x.version = k
  rw [key_fit hs, h1]
  exact ⟨_, rfl⟩

theorem runAll_fit (hr : ∀ ctx st s e, ∃ o s', env.run ctx st s e = .ok o s') (ctx : Ctx) (st : Bool) (i : Nat) (s : S) (es : List ExecTx) :
    ∃ r, runAll env ctx st i s es = .ok r := by
  induction es generalizing i s with
  | nil => exact ⟨_, rfl⟩
  | cons e es ih =>
    obtain ⟨o, s', h⟩ := hr ctx st s e
    obtain ⟨r, h2⟩ := ih (i + 1) s'
    simp only [runAll, h, h2, Res.bind, Res.ok.injEq, exists_eq']

theorem fee_key_panic {f a : Nat} {g : Nat → Nat → Api} (ha : a < 2 ^ 251) : ((fee f).bind fun f => (key a).bind fun a => Res.ok (g f a)) ≠ .panic := by
  intro h
  rcases bind_panic h with h | ⟨_, _, h⟩
  · exact fee_panic h
  rcases bind_panic h with h | ⟨_, _, h⟩
  · have := key_panic h; omega
  · exact absurd h (by simp)

theorem key_ok_panic {a : Nat} {g : Nat → Api} (ha : a < 2 ^ 251) : ((key a).bind fun a => Res.ok (g a)) ≠ .panic := by
  intro h
  rcases bind_panic h with h | ⟨_, _, h⟩
  · have := key_panic h; omega
  · exact absurd h (by simp)

theorem fee_ok_panic {f : Nat} {g : Nat → Api} : ((fee f).bind fun f => Res.ok (g f)) ≠ .panic := by
  intro h
  rcases bind_panic h with h | ⟨_, _, h⟩
  · exact fee_panic h
  · exact absurd h (by simp)

theorem toApi_panic {t : Tx} {c : Common} (ha : ∀ a, t.address = some a → a < 2 ^ 251) (hv : variant env t = .ok c) : toApi c ≠ .panic := by
  cases t <;> simp only [variant, Tx.address, Option.some.injEq, forall_eq', reduceCtorEq] at hv ha
  case declare0 | declare1 | declare2 =>
    obtain ⟨y, _, hv⟩ := bind_ok hv
    have hv := Res.ok.inj hv; subst hv
    exact fee_key_panic ha
  case declare3 =>
    obtain ⟨y, _, hv⟩ := bind_ok hv
    have hv := Res.ok.inj hv; subst hv
    exact key_ok_panic ha
  case invoke0 | invoke1 =>
    have hv := Res.ok.inj hv; subst hv
    exact fee_key_panic ha
  case invoke3 =>
    have hv := Res.ok.inj hv; subst hv
    exact key_ok_panic ha
  case deploy1 =>
    have hv := Res.ok.inj hv; subst hv
    exact fee_ok_panic
  case deploy3 =>
    have hv := Res.ok.inj hv; subst hv
    simp [toApi]

/-! ## Limits -/

theorem cd_exceeded (t : Tx) : calldataExceeded t = true ↔ ∃ cd sig, t.lists = some (cd, sig) ∧ 10000 < cd.length := by
  cases t <;> simp [calldataExceeded, Tx.lists, limit]

theorem sig_exceeded (t : Tx) : signatureExceeded t = true ↔ ∃ cd sig, t.lists = some (cd, sig) ∧ 10000 < sig.length := by
  cases t <;> simp only [signatureExceeded, Tx.lists, limit, decide_eq_true_eq, Option.some.injEq, Prod.mk.injEq, reduceCtorEq, Bool.false_eq_true,
    false_and, exists_const, gt_iff_lt]
  all_goals exact ⟨fun h => ⟨_, _, ⟨rfl, rfl⟩, h⟩, fun ⟨_, _, ⟨_, h2⟩, h⟩ => h2 ▸ h⟩

theorem limits_none {txs : List Tx} : checkLimits txs = none ↔ ∀ t ∈ txs, Short t := by
  have key : (checkLimits txs = none) ↔ (∀ t ∈ txs, ¬ calldataExceeded t = true) ∧ ∀ t ∈ txs, ¬ signatureExceeded t = true := by
    unfold checkLimits
    cases h1 : txs.findIdx? calldataExceeded with
    | some i =>
      obtain ⟨_, hc, _⟩ := List.findIdx?_eq_some_iff_getElem.1 h1
      simp only [reduceCtorEq, false_iff, not_and]
      intro h; exact absurd hc (h _ (List.getElem_mem _))
    | none =>
      have h1 := List.findIdx?_eq_none_iff.1 h1
      cases h2 : txs.findIdx? signatureExceeded with
      | some i =>
        obtain ⟨_, hx, _⟩ := List.findIdx?_eq_some_iff_getElem.1 h2
        simp only [reduceCtorEq, false_iff, not_and]
        intro _ h; exact absurd hx (h _ (List.getElem_mem _))
      | none =>
        have h2 := List.findIdx?_eq_none_iff.1 h2
        simp only [true_iff]
        exact ⟨fun t ht => by simp [h1 t ht], fun t ht => by simp [h2 t ht]⟩
  rw [key]
  constructor
  · rintro ⟨h1, h2⟩ t ht cd sig hl
    have a := h1 t ht
    have b := h2 t ht
    rw [cd_exceeded] at a; rw [sig_exceeded] at b
    exact ⟨Nat.not_lt.1 fun h => a ⟨cd, sig, hl, h⟩, Nat.not_lt.1 fun h => b ⟨cd, sig, hl, h⟩⟩
  · intro h
    constructor
    · intro t ht hc
      obtain ⟨cd, sig, hl, hx⟩ := (cd_exceeded t).1 hc
      have := (h t ht cd sig hl).1; omega
    · intro t ht hc
      obtain ⟨cd, sig, hl, hx⟩ := (sig_exceeded t).1 hc
      have := (h t ht cd sig hl).2; omega

end Verif.Sim
