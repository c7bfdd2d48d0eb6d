import Verif.Events.Bloom
/-
Bit level lemmas about the Bloom filters.
-/
namespace Verif.Events

/-- Bit `i` of a byte list, most significant bit first. -/
def getBit (bs : List Byte) (i : Nat) : Bool := (bs[i / 8]?.getD 0#8).getLsbD (7 - i % 8)

theorem oneShift (x y : Nat) (hx : x < 8) (hy : y < 8) : (1#8 <<< (7 - x)).getLsbD (7 - y) = decide (x = y) := by
  have : ∀ x y : Fin 8, (1#8 <<< (7 - x.1)).getLsbD (7 - y.1) = decide (x = y) := by decide
  have h := this ⟨x, hx⟩ ⟨y, hy⟩
  simpa [Fin.ext_iff] using h

theorem getBit_out {bs : List Byte} {i : Nat} (h : bs.length ≤ i / 8) : getBit bs i = false := by
  unfold getBit
  rw [List.getElem?_eq_none h]; simp

theorem setBit_length (bs : List Byte) (i : Nat) : (setBit bs i).length = bs.length := by
  simp [setBit]

theorem getBit_setBit {bs : List Byte} {i : Nat} (h : i / 8 < bs.length) (j : Nat) :
    getBit (setBit bs i) j = (getBit bs j || decide (i = j)) := by
  unfold getBit setBit
  rw [List.getElem?_modify]
  by_cases hij : i / 8 = j / 8
  · simp only [hij, ite_true]
    rw [← hij, List.getElem?_eq_getElem h]
    simp only [Option.map_eq_map, Option.map_some, Option.getD_some, BitVec.getLsbD_or]
    rw [oneShift _ _ (Nat.mod_lt _ (by omega)) (Nat.mod_lt _ (by omega))]
    congr 1
    apply decide_eq_decide.2
    omega
  · have : i ≠ j := by intro e; subst e; exact hij rfl
    simp [this, hij]

theorem getBit_replicate_zero (n i : Nat) : getBit (List.replicate n 0#8) i = false := by
  unfold getBit
  rw [List.getElem?_replicate]
  split <;> simp

theorem getBit_replicate_ones (n i : Nat) (h : i / 8 < n) : getBit (List.replicate n 255#8) i = true := by
  unfold getBit
  rw [List.getElem?_replicate, if_pos h]
  have : ∀ x : Fin 8, (255#8).getLsbD (7 - x.1) = true := by decide
  exact this ⟨i % 8, Nat.mod_lt _ (by omega)⟩

/-! ### BloomFilter -/

theorem bloomSetLoop_length (c : Cfg) (item : Felt) (fuel k : Nat) (hs : UInt64 × UInt64) (bs : List Byte) :
    (bloomSetLoop c item fuel k hs bs).length = bs.length := by
  induction fuel generalizing k hs bs with
  | zero => rfl
  | succ f ih => unfold bloomSetLoop; simp only; rw [ih, setBit_length]

theorem bits_pos (c : Cfg) : 0 < c.bits := by have := c.bloomPos; unfold Cfg.bits; omega

theorem bloomSetLoop_bit (c : Cfg) (item : Felt) (fuel k : Nat) (hs : UInt64 × UInt64) (bs : List Byte)
    (hl : bs.length = c.bloomBytes) (j : Nat) :
    getBit (bloomSetLoop c item fuel k hs bs) j = (getBit bs j || decide (j ∈ indicesLoop c item fuel k hs)) := by
  induction fuel generalizing k hs bs with
  | zero => simp [bloomSetLoop, indicesLoop]
  | succ f ih =>
    unfold bloomSetLoop indicesLoop
    simp only
    have hlt := Nat.mod_lt (bloomHash c hs item k).1.toNat (bits_pos c)
    rw [ih _ _ _ (by rw [setBit_length, hl]), getBit_setBit (by rw [hl]; unfold Cfg.bits at *; omega), Bool.or_assoc]
    congr 1
    simp only [List.mem_cons, Bool.decide_or]
    congr 1
    exact decide_eq_decide.2 eq_comm

theorem indices_lt (c : Cfg) (item : Felt) (j : Nat) (h : j ∈ indicesForKey c item) : j < c.bits := by
  have : ∀ fuel k hs, j ∈ indicesLoop c item fuel k hs → j < c.bits := by
    intro fuel
    induction fuel with
    | zero => intro k hs h; simp [indicesLoop] at h
    | succ f ih =>
      intro k hs h
      unfold indicesLoop at h
      simp only [List.mem_cons] at h
      rcases h with h | h
      · rw [h]; exact Nat.mod_lt _ (bits_pos c)
      · exact ih _ _ h
  exact this _ _ _ h

theorem bloomSet_length (c : Cfg) (bs : List Byte) (item : Felt) : (bloomSet c bs item).length = bs.length :=
  bloomSetLoop_length ..

theorem bloomSet_bit (c : Cfg) (bs : List Byte) (item : Felt) (hl : bs.length = c.bloomBytes) (j : Nat) :
    getBit (bloomSet c bs item) j = (getBit bs j || decide (j ∈ indicesForKey c item)) :=
  bloomSetLoop_bit c item _ _ _ bs hl j

/-- Setting a list of items. -/
theorem bloomSets (c : Cfg) {α : Type} (f : α → Felt) (xs : List α) (bs : List Byte) (hl : bs.length = c.bloomBytes) :
    (xs.foldl (fun bs x => bloomSet c bs (f x)) bs).length = c.bloomBytes ∧
    ∀ j, getBit (xs.foldl (fun bs x => bloomSet c bs (f x)) bs) j = true ↔
      getBit bs j = true ∨ ∃ x ∈ xs, j ∈ indicesForKey c (f x) := by
  induction xs generalizing bs with
  | nil => simp [hl]
  | cons x xs ih =>
    simp only [List.foldl_cons]
    obtain ⟨h1, h2⟩ := ih (bloomSet c bs (f x)) (by rw [bloomSet_length, hl])
    refine ⟨h1, fun j => ?_⟩
    rw [h2, bloomSet_bit c bs _ hl]
    simp only [Bool.or_eq_true, decide_eq_true_eq, List.mem_cons, exists_eq_or_imp, or_assoc]

/-- The items recorded for an event: its address and its first 16 keys, each with its position. -/
def Event.items (e : Event) : List Felt := e.addr :: (e.keys.take keyLimit).zipIdx.map fun ki => tagKey ki.2 ki.1

theorem blockBloom_bit (c : Cfg) (events : List Event) :
    (blockBloom c events).length = c.bloomBytes ∧
    ∀ j, getBit (blockBloom c events) j = true ↔ ∃ e ∈ events, ∃ x ∈ e.items, j ∈ indicesForKey c x := by
  have main : ∀ bs : List Byte, bs.length = c.bloomBytes →
      (events.foldl (fun bs e => setAddress c (setKeys c bs e.keys) e.addr) bs).length = c.bloomBytes ∧
      ∀ j, getBit (events.foldl (fun bs e => setAddress c (setKeys c bs e.keys) e.addr) bs) j = true ↔
        getBit bs j = true ∨ ∃ e ∈ events, ∃ x ∈ e.items, j ∈ indicesForKey c x := by
    induction events with
    | nil => intro bs hl; simp [hl]
    | cons e es ih =>
      intro bs hl
      simp only [List.foldl_cons]
      obtain ⟨k1, k2⟩ := bloomSets c (fun ki : Felt × Nat => tagKey ki.2 ki.1) (e.keys.take keyLimit).zipIdx bs hl
      have hl' : (setAddress c (setKeys c bs e.keys) e.addr).length = c.bloomBytes := by
        unfold setAddress; rw [bloomSet_length]; exact k1
      obtain ⟨h1, h2⟩ := ih _ hl'
      refine ⟨h1, fun j => ?_⟩
      rw [h2]
      have : getBit (setAddress c (setKeys c bs e.keys) e.addr) j = true ↔
          getBit bs j = true ∨ ∃ x ∈ e.items, j ∈ indicesForKey c x := by
        unfold setAddress
        unfold setKeys
        rw [bloomSet_bit c _ _ k1]
        simp only [Bool.or_eq_true, decide_eq_true_eq, k2, Event.items, List.mem_cons, List.mem_map, exists_eq_or_imp]
        constructor
        · rintro ((h | ⟨x, hx, h⟩) | h)
          · exact .inl h
          · exact .inr (.inr ⟨_, ⟨x, hx, rfl⟩, h⟩)
          · exact .inr (.inl h)
        · rintro (h | h | ⟨_, ⟨x, hx, rfl⟩, h⟩)
          · exact .inl (.inl h)
          · exact .inr h
          · exact .inl (.inr ⟨x, hx, h⟩)
      rw [this]
      simp only [List.mem_cons, exists_eq_or_imp, or_assoc]
  obtain ⟨h1, h2⟩ := main (bloomNew c) (by simp [bloomNew])
  refine ⟨h1, fun j => ?_⟩
  unfold blockBloom
  rw [h2]
  unfold bloomNew
  simp [getBit_replicate_zero]

/-! ### AggregateBloom -/

/-- Bit of `row` for the block at offset `b`. -/
def aggBit (c : Cfg) (a : Agg) (row b : Nat) : Bool := getBit a.bitmap (row * c.len + b)

structure Agg.Ok (c : Cfg) (a : Agg) : Prop where
  len : a.bitmap.length = c.rangeBytes * c.bits
  to : a.toBlock = a.fromBlock + c.len - 1

theorem aggNew_ok (c : Cfg) (f : Nat) : (aggNew c f).Ok c := by
  constructor <;> simp [aggNew]

theorem aggNew_bit (c : Cfg) (f r b : Nat) : aggBit c (aggNew c f) r b = false := getBit_replicate_zero _ _

theorem idx_div (c : Cfg) (r b : Nat) : (r * c.len + b) / 8 = r * c.rangeBytes + b / 8 := by
  unfold Cfg.len
  have : r * (8 * c.rangeBytes) = 8 * (r * c.rangeBytes) := by
    rw [Nat.mul_left_comm]
  omega

theorem idx_mod (c : Cfg) (r b : Nat) : (r * c.len + b) % 8 = b % 8 := by
  unfold Cfg.len
  have : r * (8 * c.rangeBytes) = 8 * (r * c.rangeBytes) := by
    rw [Nat.mul_left_comm]
  omega

theorem shiftBit (x : Byte) (o b : Nat) (ho : o < 8) :
    (((x >>> (7 - o)) &&& 1#8) <<< (7 - b)) = if x.getLsbD (7 - o) then 1#8 <<< (7 - b) else 0#8 := by
  have h : ((x >>> (7 - o)) &&& 1#8) = if x.getLsbD (7 - o) then 1#8 else 0#8 := by
    have : ∀ (x : Byte) (o : Fin 8), ((x >>> (7 - o.1)) &&& 1#8) = if x.getLsbD (7 - o.1) then 1#8 else 0#8 := by
      intro x o
      revert x
      have := o.2
      match o with
      | ⟨o, ho⟩ =>
        intro x
        apply BitVec.eq_of_getLsbD_eq
        intro i hi
        rw [BitVec.getLsbD_and, BitVec.getLsbD_ushiftRight]
        by_cases h0 : i = 0
        · subst h0
          cases hx : x.getLsbD (7 - o) <;> simp
        · have e1 : (1#8).getLsbD i = false := by
            have : ∀ i : Fin 8, i.1 ≠ 0 → (1#8).getLsbD i.1 = false := by decide
            exact this ⟨i, hi⟩ h0
          cases x.getLsbD (7 - o) <;> simp [e1]
    exact this x ⟨o, ho⟩
  rw [h]
  split <;> simp

/-- Setting one bit of the aggregate is setting a bit of the flat bitmap. -/
theorem aggSetBit_eq (c : Cfg) (rel i o : Nat) (ho : o < 8) (bloom : List Byte) (x : Byte) (hx : bloom[i]? = some x)
    (bm : List Byte) :
    aggSetBit c (rel / 8) (rel % 8) i x bm o =
      if getBit bloom (8 * i + o) then setBit bm ((8 * i + o) * c.len + rel) else bm := by
  have hg : getBit bloom (8 * i + o) = x.getLsbD (7 - o) := by
    unfold getBit
    have h1 : (8 * i + o) / 8 = i := by omega
    have h2 : (8 * i + o) % 8 = o := by omega
    rw [h1, h2, hx]; rfl
  unfold aggSetBit setBit
  rw [hg, idx_div, idx_mod]
  simp only [shiftBit x o _ ho]
  cases x.getLsbD (7 - o) with
  | true => simp
  | false =>
    have : (fun x : Byte => x ||| if false = true then 1#8 <<< (7 - rel % 8) else 0#8) = id := by
      funext y; simp
    rw [this]
    simp

theorem setBits (bm : List Byte) (p : Nat → Bool) (f : Nat → Nat) (xs : List Nat)
    (hf : ∀ x ∈ xs, p x = true → f x / 8 < bm.length) :
    (xs.foldl (fun bm x => if p x then setBit bm (f x) else bm) bm).length = bm.length ∧
    ∀ j, getBit (xs.foldl (fun bm x => if p x then setBit bm (f x) else bm) bm) j = true ↔
      getBit bm j = true ∨ ∃ x ∈ xs, p x = true ∧ f x = j := by
  induction xs generalizing bm with
  | nil => simp
  | cons x xs ih =>
    simp only [List.foldl_cons]
    cases hp : p x with
    | false =>
      obtain ⟨h1, h2⟩ := ih bm fun y hy => hf y (by simp [hy])
      refine ⟨by simpa using h1, fun j => ?_⟩
      simp only [Bool.false_eq_true, ite_false, h2, List.mem_cons, exists_eq_or_imp, hp, false_and, false_or]
    | true =>
      have hx := hf x (by simp) hp
      obtain ⟨h1, h2⟩ := ih (setBit bm (f x)) fun y hy => by rw [setBit_length]; exact hf y (by simp [hy])
      refine ⟨by simpa [setBit_length] using h1, fun j => ?_⟩
      simp only [ite_true, h2, List.mem_cons, exists_eq_or_imp, hp, true_and]
      rw [getBit_setBit hx]
      simp only [Bool.or_eq_true, decide_eq_true_eq, or_assoc]

theorem aggInsert_some {c : Cfg} {a a' : Agg} {bloom : List Byte} {n : Nat} (ok : a.Ok c) (hb : bloom.length = c.bloomBytes)
    (h : aggInsert c a bloom n = some a') :
    a'.Ok c ∧ a'.fromBlock = a.fromBlock ∧ a'.toBlock = a.toBlock ∧ a.fromBlock ≤ n ∧ n ≤ a.toBlock ∧
    ∀ r b, r < c.bits → b < c.len → (aggBit c a' r b = true ↔ aggBit c a r b = true ∨ (a.fromBlock + b = n ∧ getBit bloom r = true)) := by
  unfold aggInsert at h
  split at h
  next hr =>
    simp only [Option.some.injEq] at h
    generalize hrel : n - a.fromBlock = rel at h
    have hlen : rel < c.len := by
      have := ok.to
      have : 0 < c.len := by have := c.rangePos; unfold Cfg.len; omega
      omega
    -- one byte
    have step : ∀ (bs : List Byte) (k : Nat) (bm : List Byte), bm.length = c.rangeBytes * c.bits →
        (∀ i x, bs[i]? = some x → bloom[k + i]? = some x) → k + bs.length ≤ c.bloomBytes →
        ((bs.zipIdx k).foldl (aggLoop c (rel / 8) (rel % 8)) bm).length = c.rangeBytes * c.bits ∧
        ∀ j, getBit ((bs.zipIdx k).foldl (aggLoop c (rel / 8) (rel % 8)) bm) j = true ↔
          getBit bm j = true ∨ ∃ r, 8 * k ≤ r ∧ r < 8 * (k + bs.length) ∧ getBit bloom r = true ∧ r * c.len + rel = j := by
      intro bs
      induction bs with
      | nil =>
        intro k bm hl _ _
        refine ⟨by simpa using hl, fun j => ?_⟩
        simp only [List.zipIdx_nil, List.foldl_nil, List.length_nil, Nat.add_zero]
        constructor
        · exact .inl
        · rintro (h | ⟨r, h1, h2, _⟩)
          · exact h
          · omega
      | cons x bs ih =>
        intro k bm hl hsub hk
        simp only [List.length_cons] at hk
        rw [List.zipIdx_cons, List.foldl_cons]
        have hx : bloom[k]? = some x := hsub 0 x rfl
        -- the loop over the eight bits
        have hbyte : aggLoop c (rel / 8) (rel % 8) bm (x, k) =
            (List.range 8).foldl (fun bm o => if getBit bloom (8 * k + o) then setBit bm ((8 * k + o) * c.len + rel) else bm) bm := by
          unfold aggLoop
          simp only
          have hcongr : ∀ (os : List Nat) (bm : List Byte), (∀ o ∈ os, o < 8) →
              os.foldl (aggSetBit c (rel / 8) (rel % 8) k x) bm =
              os.foldl (fun bm o => if getBit bloom (8 * k + o) then setBit bm ((8 * k + o) * c.len + rel) else bm) bm := by
            intro os
            induction os with
            | nil => intro bm _; rfl
            | cons o os ih =>
              intro bm ho
              simp only [List.foldl_cons]
              rw [aggSetBit_eq c rel k o (ho o (by simp)) bloom x hx]
              exact ih _ fun o' h' => ho o' (by simp [h'])
          split
          next h0 =>
            subst h0
            symm
            have : ∀ (os : List Nat) (bm : List Byte), (∀ o ∈ os, o < 8) →
                os.foldl (fun bm o => if getBit bloom (8 * k + o) then setBit bm ((8 * k + o) * c.len + rel) else bm) bm = bm := by
              intro os
              induction os with
              | nil => intro bm _; rfl
              | cons o os ih =>
                intro bm ho
                have : getBit bloom (8 * k + o) = false := by
                  have := ho o (by simp)
                  unfold getBit
                  have h1 : (8 * k + o) / 8 = k := by omega
                  rw [h1, hx]; simp
                simp only [List.foldl_cons, this, Bool.false_eq_true, ite_false]
                exact ih _ fun o' h' => ho o' (by simp [h'])
            exact this _ _ fun o ho => List.mem_range.1 ho
          next => exact hcongr _ _ fun o ho => List.mem_range.1 ho
        rw [hbyte]
        obtain ⟨s1, s2⟩ := setBits bm (fun o => getBit bloom (8 * k + o)) (fun o => (8 * k + o) * c.len + rel) (List.range 8) (by
          intro o ho _
          have ho := List.mem_range.1 ho
          rw [hl, idx_div]
          have h1 : rel / 8 < c.rangeBytes := by unfold Cfg.len at hlen; omega
          have h2 : 8 * k + o + 1 ≤ c.bits := by unfold Cfg.bits; omega
          calc (8 * k + o) * c.rangeBytes + rel / 8 < (8 * k + o) * c.rangeBytes + c.rangeBytes := by omega
            _ = (8 * k + o + 1) * c.rangeBytes := by rw [Nat.add_mul (8 * k + o) 1, Nat.one_mul]
            _ ≤ c.bits * c.rangeBytes := Nat.mul_le_mul_right _ h2
            _ = _ := Nat.mul_comm _ _)
        obtain ⟨t1, t2⟩ := ih (k + 1) _ (by rw [s1, hl]) (by
          intro i y hy
          have := hsub (i + 1) y hy
          rw [show k + 1 + i = k + (i + 1) by omega]; exact this) (by omega)
        refine ⟨t1, fun j => ?_⟩
        rw [t2, s2]
        simp only [List.length_cons]
        constructor
        · rintro ((h | ⟨o, ho, hp, hj⟩) | ⟨r, h1, h2, h3, h4⟩)
          · exact .inl h
          · have := List.mem_range.1 ho
            exact .inr ⟨8 * k + o, by omega, by omega, hp, hj⟩
          · exact .inr ⟨r, by omega, by omega, h3, h4⟩
        · rintro (h | ⟨r, h1, h2, h3, h4⟩)
          · exact .inl (.inl h)
          · by_cases hr8 : r < 8 * (k + 1)
            · refine .inl (.inr ⟨r - 8 * k, List.mem_range.2 (by omega), ?_⟩)
              rw [show 8 * k + (r - 8 * k) = r by omega]
              exact ⟨h3, h4⟩
            · exact .inr ⟨r, by omega, by omega, h3, h4⟩
    obtain ⟨h1, h2⟩ := step bloom 0 a.bitmap ok.len (fun i x hi => by simpa using hi) (by omega)
    subst h
    refine ⟨⟨h1, ok.to⟩, rfl, rfl, hr.1, hr.2, fun r b hrb hbl => ?_⟩
    unfold aggBit
    simp only
    rw [h2]
    constructor
    · rintro (h | ⟨r', _, h4, h5, h6⟩)
      · exact .inl h
      · right
        have hpos : 0 < c.len := by omega
        have e1 : r' = r := by
          have k1 : (r' * c.len + rel) / c.len = r' := by
            rw [Nat.add_comm, Nat.add_mul_div_right _ _ hpos, Nat.div_eq_of_lt hlen, Nat.zero_add]
          have k2 : (r * c.len + b) / c.len = r := by
            rw [Nat.add_comm, Nat.add_mul_div_right _ _ hpos, Nat.div_eq_of_lt hbl, Nat.zero_add]
          rw [← k1, ← k2, h6]
        subst e1
        exact ⟨by omega, h5⟩
    · rintro (h | ⟨h3, h4⟩)
      · exact .inl h
      · refine .inr ⟨r, by omega, by rw [hb]; unfold Cfg.bits at hrb; omega, h4, by rw [show b = rel by omega]⟩
  next => simp at h

theorem aggInsert_isSome {c : Cfg} {a : Agg} (bloom : List Byte) {n : Nat} (h1 : a.fromBlock ≤ n) (h2 : n ≤ a.toBlock) :
    ∃ a', aggInsert c a bloom n = some a' := by
  unfold aggInsert
  rw [if_pos ⟨h1, h2⟩]
  exact ⟨_, rfl⟩

/-! ### block ranges -/

theorem getBit_and {a b : List Byte} (h : a.length = b.length) (i : Nat) :
    getBit (rangeAnd a b) i = (getBit a i && getBit b i) := by
  unfold getBit rangeAnd
  rw [List.getElem?_zipWith]
  by_cases hi : i / 8 < a.length
  · rw [List.getElem?_eq_getElem hi, List.getElem?_eq_getElem (h ▸ hi)]
    simp
  · rw [List.getElem?_eq_none (by omega), List.getElem?_eq_none (by omega)]
    simp

theorem getBit_or {a b : List Byte} (h : a.length = b.length) (i : Nat) :
    getBit (rangeOr a b) i = (getBit a i || getBit b i) := by
  unfold getBit rangeOr
  rw [List.getElem?_zipWith]
  by_cases hi : i / 8 < a.length
  · rw [List.getElem?_eq_getElem hi, List.getElem?_eq_getElem (h ▸ hi)]
    simp
  · rw [List.getElem?_eq_none (by omega), List.getElem?_eq_none (by omega)]
    simp

theorem rangeAnd_length {a b : List Byte} {n : Nat} (h1 : a.length = n) (h2 : b.length = n) : (rangeAnd a b).length = n := by
  simp [rangeAnd, h1, h2]

theorem rangeOr_length {a b : List Byte} {n : Nat} (h1 : a.length = n) (h2 : b.length = n) : (rangeOr a b).length = n := by
  simp [rangeOr, h1, h2]

theorem row_end (c : Cfg) {r : Nat} (hr : r < c.bits) : r * c.rangeBytes + c.rangeBytes ≤ c.rangeBytes * c.bits := by
  calc r * c.rangeBytes + c.rangeBytes = (r + 1) * c.rangeBytes := by rw [Nat.add_mul r 1, Nat.one_mul]
    _ ≤ c.bits * c.rangeBytes := Nat.mul_le_mul_right _ hr
    _ = _ := Nat.mul_comm _ _

theorem aggRow_length {c : Cfg} {a : Agg} (ok : a.Ok c) {r : Nat} (hr : r < c.bits) : (aggRow c a r).length = c.rangeBytes := by
  have := row_end c hr
  unfold aggRow
  rw [List.length_take, List.length_drop, ok.len]
  omega

theorem aggRow_bit {c : Cfg} (a : Agg) {r b : Nat} (hb : b < c.len) : getBit (aggRow c a r) b = aggBit c a r b := by
  unfold aggBit getBit aggRow
  rw [idx_div, idx_mod, List.getElem?_take_of_lt (by unfold Cfg.len at hb; omega), List.getElem?_drop]

theorem matchesForKey_spec {c : Cfg} {a : Agg} (ok : a.Ok c) (k : Felt) :
    (matchesForKey c a k).length = c.rangeBytes ∧
    ∀ b, b < c.len → (getBit (matchesForKey c a k) b = true ↔ ∀ r ∈ indicesForKey c k, aggBit c a r b = true) := by
  have main : ∀ (rows : List Nat) (m : List Byte), (∀ r ∈ rows, r < c.bits) → m.length = c.rangeBytes →
      (rows.foldl (fun m row => rangeAnd m (aggRow c a row)) m).length = c.rangeBytes ∧
      ∀ b, b < c.len → (getBit (rows.foldl (fun m row => rangeAnd m (aggRow c a row)) m) b = true ↔
        getBit m b = true ∧ ∀ r ∈ rows, aggBit c a r b = true) := by
    intro rows
    induction rows with
    | nil => intro m _ hm; simp [hm]
    | cons r rows ih =>
      intro m hr hm
      have hrl := aggRow_length ok (hr r (by simp))
      obtain ⟨h1, h2⟩ := ih (rangeAnd m (aggRow c a r)) (fun x hx => hr x (by simp [hx])) (rangeAnd_length hm hrl)
      refine ⟨h1, fun b hb => ?_⟩
      rw [List.foldl_cons, h2 b hb, getBit_and (by rw [hm, hrl]), aggRow_bit a hb]
      simp only [Bool.and_eq_true, List.mem_cons, forall_eq_or_imp, and_assoc]
  obtain ⟨h1, h2⟩ := main (indicesForKey c k) (rangeFull c) (fun r hr => indices_lt c k r hr) (by simp [rangeFull])
  refine ⟨h1, fun b hb => ?_⟩
  unfold matchesForKey
  rw [h2 b hb]
  have : getBit (rangeFull c) b = true := getBit_replicate_ones _ _ (by unfold Cfg.len at hb; omega)
  simp [this]

theorem blocksForKeys_spec {c : Cfg} {a : Agg} (ok : a.Ok c) (keys : List Felt) :
    (blocksForKeys c a keys).length = c.rangeBytes ∧
    ∀ b, b < c.len → (getBit (blocksForKeys c a keys) b = true ↔
      keys = [] ∨ ∃ k ∈ keys, ∀ r ∈ indicesForKey c k, aggBit c a r b = true) := by
  unfold blocksForKeys
  cases keys with
  | nil =>
    refine ⟨by simp [rangeFull], fun b hb => ?_⟩
    have : getBit (rangeFull c) b = true := getBit_replicate_ones _ _ (by unfold Cfg.len at hb; omega)
    simp [this]
  | cons k0 ks0 =>
    have main : ∀ (ks : List Felt) (m : List Byte), m.length = c.rangeBytes →
        (ks.foldl (fun m k => rangeOr m (matchesForKey c a k)) m).length = c.rangeBytes ∧
        ∀ b, b < c.len → (getBit (ks.foldl (fun m k => rangeOr m (matchesForKey c a k)) m) b = true ↔
          getBit m b = true ∨ ∃ k ∈ ks, ∀ r ∈ indicesForKey c k, aggBit c a r b = true) := by
      intro ks
      induction ks with
      | nil => intro m hm; simp [hm]
      | cons k ks ih =>
        intro m hm
        obtain ⟨k1, k2⟩ := matchesForKey_spec ok k
        obtain ⟨h1, h2⟩ := ih (rangeOr m (matchesForKey c a k)) (rangeOr_length hm k1)
        refine ⟨h1, fun b hb => ?_⟩
        rw [List.foldl_cons, h2 b hb, getBit_or (by rw [hm, k1]), Bool.or_eq_true, k2 b hb]
        simp only [List.mem_cons, exists_eq_or_imp, or_assoc]
    obtain ⟨h1, h2⟩ := main (k0 :: ks0) (rangeEmpty c) (by simp [rangeEmpty])
    simp only [List.isEmpty_cons, Bool.false_eq_true, ite_false]
    refine ⟨h1, fun b hb => ?_⟩
    rw [h2 b hb]
    have : getBit (rangeEmpty c) b = false := getBit_replicate_zero _ _
    simp [this]

theorem mem_iterOnes (r : List Byte) (i : Nat) : i ∈ iterOnes r ↔ getBit r i = true := by
  unfold iterOnes
  simp only [List.mem_flatMap, List.mem_filterMap, List.mem_range]
  have key : ∀ (x : Byte) (bit : Nat), bit < 8 → (((x >>> (7 - bit)) &&& 1#8 = 1#8) ↔ x.getLsbD (7 - bit) = true) := by
    intro x bit hb
    have h := shiftBit x bit 7 hb
    simp only [Nat.sub_self] at h
    rw [show ((x >>> (7 - bit)) &&& 1#8) <<< 0 = ((x >>> (7 - bit)) &&& 1#8) from by simp] at h
    rw [h]
    cases x.getLsbD (7 - bit) <;> simp
  constructor
  · rintro ⟨⟨x, k⟩, hm, bit, hbit, h⟩
    have hx := List.mem_zipIdx_iff_getElem?.1 hm
    simp only at hx h
    split at h
    next hc =>
      simp only [Option.some.injEq] at h
      unfold getBit
      have h1 : i / 8 = k := by omega
      have h2 : i % 8 = bit := by omega
      rw [h1, h2, hx]
      exact (key x bit hbit).1 hc
    next => simp at h
  · intro h
    unfold getBit at h
    cases hx : r[i / 8]? with
    | none => rw [hx] at h; simp at h
    | some x =>
      rw [hx] at h
      refine ⟨(x, i / 8), List.mem_zipIdx_iff_getElem?.2 hx, i % 8, Nat.mod_lt _ (by omega), ?_⟩
      simp only
      rw [if_pos ((key x _ (Nat.mod_lt _ (by omega))).2 h)]
      congr 1; omega

theorem iterOnes_sorted (r : List Byte) : (iterOnes r).Pairwise (· < ·) := by
  unfold iterOnes
  have inner : ∀ (x : Byte) (k : Nat) , ((List.range 8).filterMap fun (bit : Nat) =>
      if (x >>> (7 - bit)) &&& 1#8 = 1#8 then some (k * 8 + bit) else none).Pairwise (· < ·) ∧
      ∀ j ∈ ((List.range 8).filterMap fun (bit : Nat) =>
      if (x >>> (7 - bit)) &&& 1#8 = 1#8 then some (k * 8 + bit) else none), k * 8 ≤ j ∧ j < k * 8 + 8 := by
    intro x k
    constructor
    · rw [List.pairwise_filterMap]
      refine List.Pairwise.imp ?_ List.pairwise_lt_range
      intro a b hab u hu v hv
      split at hu <;> split at hv <;> simp at hu hv
      omega
    · intro j hj
      simp only [List.mem_filterMap, List.mem_range] at hj
      obtain ⟨bit, hb, h⟩ := hj
      split at h <;> simp at h
      omega
  have main : ∀ (r : List Byte) (k : Nat), ((r.zipIdx k).flatMap fun (bi : Byte × Nat) => (List.range 8).filterMap fun (bit : Nat) =>
      if (bi.1 >>> (7 - bit)) &&& 1#8 = 1#8 then some (bi.2 * 8 + bit) else none).Pairwise (· < ·) ∧
      ∀ j ∈ ((r.zipIdx k).flatMap fun (bi : Byte × Nat) => (List.range 8).filterMap fun (bit : Nat) =>
      if (bi.1 >>> (7 - bit)) &&& 1#8 = 1#8 then some (bi.2 * 8 + bit) else none), k * 8 ≤ j := by
    intro r
    induction r with
    | nil => intro k; simp
    | cons x r ih =>
      intro k
      rw [List.zipIdx_cons, List.flatMap_cons]
      obtain ⟨i1, i2⟩ := inner x k
      obtain ⟨h1, h2⟩ := ih (k + 1)
      constructor
      · rw [List.pairwise_append]
        refine ⟨i1, h1, fun a ha b hb => ?_⟩
        have := (i2 a ha).2
        have := h2 b hb
        omega
      · intro j hj
        rcases List.mem_append.1 hj with hj | hj
        · exact (i2 j hj).1
        · have := h2 j hj; omega
  exact (main r 0).1

/-! ### check -/

theorem checkAddresses_spec {c : Cfg} {a : Agg} (ok : a.Ok c) (addrs : List Felt) :
    (checkAddresses c a addrs).length = c.rangeBytes ∧
    ∀ b, b < c.len → (getBit (checkAddresses c a addrs) b = true ↔
      addrs = [] ∨ ∃ k ∈ addrs, ∀ r ∈ indicesForKey c k, aggBit c a r b = true) := by
  unfold checkAddresses
  cases addrs with
  | nil =>
    refine ⟨by simp [rangeFull], fun b hb => ?_⟩
    have : getBit (rangeFull c) b = true := getBit_replicate_ones _ _ (by unfold Cfg.len at hb; omega)
    simp [this]
  | cons k ks =>
    simp only [List.isEmpty_cons, Bool.false_eq_true, ite_false]
    exact blocksForKeys_spec ok (k :: ks)

/-- A block passes the key check if every group (when none is empty) has a key whose bits are all set. -/
theorem checkKeys_spec {c : Cfg} {a : Agg} (ok : a.Ok c) (keys : List (List Felt)) :
    (checkKeys c a keys).length = c.rangeBytes ∧
    ∀ b, b < c.len → (getBit (checkKeys c a keys) b = true ↔
      [] ∈ keys ∨ ∀ i g, keys[i]? = some g → ∃ k ∈ g, ∀ r ∈ indicesForKey c (tagKey i k), aggBit c a r b = true) := by
  have main : ∀ (gs : List (List Felt)) (i0 : Nat) (m : List Byte), (∀ g ∈ gs, g ≠ []) → m.length = c.rangeBytes →
      (checkKeysLoop c a (gs.zipIdx i0) m).length = c.rangeBytes ∧
      ∀ b, b < c.len → (getBit (checkKeysLoop c a (gs.zipIdx i0) m) b = true ↔
        getBit m b = true ∧ ∀ i g, gs[i]? = some g → ∃ k ∈ g, ∀ r ∈ indicesForKey c (tagKey (i0 + i) k), aggBit c a r b = true) := by
    intro gs
    induction gs with
    | nil => intro i0 m _ hm; simp [checkKeysLoop, hm]
    | cons g gs ih =>
      intro i0 m hne hm
      rw [List.zipIdx_cons]
      unfold checkKeysLoop
      simp only
      obtain ⟨k1, k2⟩ := blocksForKeys_spec ok (g.map (tagKey i0))
      have hg : g.map (tagKey i0) ≠ [] := by
        have := hne g (by simp)
        simpa using this
      have head_iff : ∀ b, b < c.len → (getBit (blocksForKeys c a (g.map (tagKey i0))) b = true ↔
          ∃ k ∈ g, ∀ r ∈ indicesForKey c (tagKey i0 k), aggBit c a r b = true) := by
        intro b hb
        rw [k2 b hb]
        simp only [hg, false_or, List.mem_map]
        constructor
        · rintro ⟨_, ⟨k, hk, rfl⟩, h⟩; exact ⟨k, hk, h⟩
        · rintro ⟨k, hk, h⟩; exact ⟨_, ⟨k, hk, rfl⟩, h⟩
      split
      next he =>
        refine ⟨by simp [rangeEmpty], fun b hb => ?_⟩
        have h0 : getBit (rangeEmpty c) b = false := getBit_replicate_zero _ _
        rw [h0]
        constructor
        · intro h; simp at h
        · rintro ⟨_, h⟩
          have := (head_iff b hb).2 (by simpa using h 0 g rfl)
          rw [he, h0] at this
          exact absurd this (by simp)
      next =>
        obtain ⟨h1, h2⟩ := ih (i0 + 1) (rangeAnd m (blocksForKeys c a (g.map (tagKey i0)))) (fun x hx => hne x (by simp [hx])) (rangeAnd_length hm k1)
        refine ⟨h1, fun b hb => ?_⟩
        rw [h2 b hb, getBit_and (by rw [hm, k1]), Bool.and_eq_true, head_iff b hb]
        constructor
        · rintro ⟨⟨e1, e2⟩, e3⟩
          refine ⟨e1, fun i g' hi => ?_⟩
          cases i with
          | zero => simp only [List.getElem?_cons_zero, Option.some.injEq] at hi; subst hi; simpa using e2
          | succ i =>
            rw [List.getElem?_cons_succ] at hi
            have := e3 i g' hi
            rwa [show i0 + 1 + i = i0 + (i + 1) by omega] at this
        · rintro ⟨e1, e2⟩
          refine ⟨⟨e1, by simpa using e2 0 g rfl⟩, fun i g' hi => ?_⟩
          have := e2 (i + 1) g' (by simpa using hi)
          rwa [show i0 + (i + 1) = i0 + 1 + i by omega] at this
  have hfull : ∀ b, b < c.len → getBit (rangeFull c) b = true := fun b hb =>
    getBit_replicate_ones _ _ (by unfold Cfg.len at hb; omega)
  unfold checkKeys
  split
  next h =>
    refine ⟨by simp [rangeFull], fun b hb => ?_⟩
    simp only [hfull b hb, true_iff]
    rw [Bool.or_eq_true, List.isEmpty_iff, List.any_eq_true] at h
    rcases h with h | ⟨g, hg, h⟩
    · subst h; right; simp
    · rw [List.isEmpty_iff] at h; subst h; exact .inl hg
  next h =>
    have hne : ∀ g ∈ keys, g ≠ [] := by
      intro g hg he
      subst he
      apply h
      simp only [Bool.or_eq_true, List.any_eq_true]
      exact .inr ⟨[], hg, rfl⟩
    obtain ⟨h1, h2⟩ := main keys 0 (rangeFull c) hne (by simp [rangeFull])
    refine ⟨h1, fun b hb => ?_⟩
    rw [h2 b hb]
    have : [] ∉ keys := fun hm => hne [] hm rfl
    simp [this, hfull b hb]

/-- The blocks found by a filter. -/
theorem mem_aggCheck {c : Cfg} {a : Agg} (ok : a.Ok c) (addrs : List Felt) (keys : List (List Felt)) (n : Nat) :
    n ∈ aggCheck c a addrs keys ↔ ∃ b, b < c.len ∧ n = a.fromBlock + b ∧
      (addrs = [] ∨ ∃ k ∈ addrs, ∀ r ∈ indicesForKey c k, aggBit c a r b = true) ∧
      ([] ∈ keys ∨ ∀ i g, keys[i]? = some g → ∃ k ∈ g, ∀ r ∈ indicesForKey c (tagKey i k), aggBit c a r b = true) := by
  obtain ⟨a1, a2⟩ := checkAddresses_spec ok addrs
  obtain ⟨k1, k2⟩ := checkKeys_spec ok keys
  unfold aggCheck
  simp only [List.mem_map, mem_iterOnes]
  constructor
  · rintro ⟨b, hb, rfl⟩
    have hlt : b < c.len := by
      apply Classical.byContradiction
      intro hn
      rw [getBit_out (by rw [rangeAnd_length a1 k1]; unfold Cfg.len at hn; omega)] at hb
      simp at hb
    rw [getBit_and (by rw [a1, k1]), Bool.and_eq_true, a2 b hlt, k2 b hlt] at hb
    exact ⟨b, hlt, rfl, hb.1, hb.2⟩
  · rintro ⟨b, hlt, rfl, h1, h2⟩
    refine ⟨b, ?_, rfl⟩
    rw [getBit_and (by rw [a1, k1]), Bool.and_eq_true, a2 b hlt, k2 b hlt]
    exact ⟨h1, h2⟩

theorem aggCheck_sorted (c : Cfg) (a : Agg) (addrs : List Felt) (keys : List (List Felt)) :
    (aggCheck c a addrs keys).Pairwise (· < ·) := by
  unfold aggCheck
  rw [List.pairwise_map]
  exact (iterOnes_sorted _).imp (fun h => by omega)

end Verif.Events
