import Verif.Common.Version
/-! # C45: protocol versions -/
namespace Verif.Common
open Verif.Events.TokenText (showNat readNat showNat_digits showNat_ne readNat_show readDigit)

theorem splitDots_ne (s : List Char) : splitDots s ≠ [] := by
  cases s with
  | nil => simp [splitDots]
  | cons c cs =>
    unfold splitDots
    split
    · simp
    · split <;> simp

theorem splitDots_plain {s : List Char} (h : ∀ c ∈ s, c ≠ '.') : splitDots s = [s] := by
  induction s with
  | nil => rfl
  | cons c cs ih =>
    rw [splitDots, if_neg (h c (by simp)), ih (fun x hx => h x (by simp [hx]))]

theorem splitDots_append {p s : List Char} (h : ∀ c ∈ p, c ≠ '.') : splitDots (p ++ '.' :: s) = p :: splitDots s := by
  induction p with
  | nil => rw [List.nil_append, splitDots, if_pos rfl]
  | cons c cs ih =>
    rw [List.cons_append, splitDots, if_neg (h c (by simp)), ih (fun x hx => h x (by simp [hx]))]

theorem show_no_dot (n : Nat) : ∀ c ∈ showNat n, c ≠ '.' := by
  intro c hc h
  have := showNat_digits n c hc
  rw [h] at this
  exact absurd this (by decide)

theorem readU8_show (x : UInt8) : readU8 (showNat x.toNat) = some x := by
  rw [readU8, readNat_show 256 _ x.toNat_lt, Option.map_some, UInt8.ofNat_toNat]

/-- Reading what was printed gives the version back. -/
theorem C45_read_show (v : Version) : Version.read v.show = some v := by
  have dot := fun n s => splitDots_append (p := showNat n) (s := s) (show_no_dot n)
  have last := fun n => splitDots_plain (s := showNat n) (show_no_dot n)
  unfold Version.show
  split
  · rename_i h
    obtain ⟨a, b, c, d⟩ := v
    obtain ⟨rfl, rfl, rfl, rfl⟩ := h
    rfl
  split
  · rename_i h
    rw [Version.read, if_neg (by simp), dot, dot, last]
    simp only [readU8_show, Option.bind_eq_bind, Option.bind_some, Option.pure_def, ← h]
  · rw [Version.read, if_neg (by simp), dot, dot, dot, last]
    simp only [readU8_show, Option.bind_eq_bind, Option.bind_some, Option.pure_def]

/-- Different versions are printed differently. -/
theorem C45_show_injective {v w : Version} (h : v.show = w.show) : v = w := by
  have := C45_read_show v
  rw [h, C45_read_show w] at this
  exact (Option.some_inj.1 this).symm

/-- The parts, joined by dots. -/
def joinDots : List (List Char) → List Char
  | [] => []
  | [p] => p
  | p :: q :: ps => p ++ '.' :: joinDots (q :: ps)

theorem join_splitDots (s : List Char) : joinDots (splitDots s) = s := by
  induction s with
  | nil => rfl
  | cons c cs ih =>
    rw [splitDots]
    cases h : splitDots cs with
    | nil => exact absurd h (splitDots_ne cs)
    | cons p ps =>
      rw [h] at ih
      split
      · rename_i hc
        rw [joinDots, ih, hc]; rfl
      · cases ps with
        | nil => simp only [joinDots] at ih ⊢; rw [ih]
        | cons q qs => simp only [joinDots] at ih ⊢; rw [List.cons_append, ih]

theorem foldl_read {bound : Nat} {s : List Char} {acc : Option Nat} {n : Nat} (h : s.foldl (readDigit bound) acc = some n)
    (ha : ∀ a, acc = some a → a < bound) : n < bound ∧ ∀ c ∈ s, 48 ≤ c.toNat ∧ c.toNat < 58 := by
  have hn : ∀ l : List Char, l.foldl (readDigit bound) none = none := by
    intro l
    induction l with
    | nil => rfl
    | cons c cs ih => exact ih
  induction s generalizing acc with
  | nil => exact ⟨ha n h, by simp⟩
  | cons c cs ih =>
    rw [List.foldl_cons] at h
    cases acc with
    | none => exact absurd (h.symm.trans (hn cs)) nofun
    | some a =>
      rw [readDigit] at h
      by_cases hc : 48 ≤ c.toNat ∧ c.toNat < 58
      · rw [if_pos hc] at h
        split at h
        · rename_i hb
          obtain ⟨h1, h2⟩ := ih h (fun x hx => Option.some_inj.1 hx ▸ hb)
          refine ⟨h1, fun x hx => ?_⟩
          rcases List.mem_cons.1 hx with rfl | hx
          · exact hc
          · exact h2 x hx
        · exact absurd (h.symm.trans (hn cs)) nofun
      · rw [if_neg hc] at h
        exact absurd (h.symm.trans (hn cs)) nofun

theorem readNat_some {s : List Char} {n : Nat} (h : readNat 256 s = some n) : n < 256 ∧ ∀ c ∈ s, c ≠ '.' := by
  have digit : ∀ c : Char, 48 ≤ c.toNat ∧ c.toNat < 58 → c ≠ '.' := by
    intro c hc h
    rw [h] at hc
    exact absurd hc (by decide)
  have h0 : ∀ a : Nat, some 0 = some a → a < 256 := fun a ha => by rw [← Option.some_inj.1 ha]; omega
  unfold readNat at h
  split at h
  · cases h
  · rename_i c cs
    split at h
    · rename_i hc
      split at h
      · cases h
      · obtain ⟨h1, h2⟩ := foldl_read h h0
        refine ⟨h1, fun x hx => ?_⟩
        rcases List.mem_cons.1 hx with rfl | hx
        · rw [hc]; decide
        · exact digit x (h2 x hx)
    · obtain ⟨h1, h2⟩ := foldl_read h h0
      exact ⟨h1, fun x hx => digit x (h2 x hx)⟩

theorem readNat_no_dot {s : List Char} {n : Nat} (h : readNat 256 s = some n) : ∀ c ∈ s, c ≠ '.' := (readNat_some h).2

theorem readU8_some {s : List Char} {x : UInt8} (h : readU8 s = some x) : readNat 256 s = some x.toNat := by
  unfold readU8 at h
  rw [Option.map_eq_some_iff] at h
  obtain ⟨n, hn, rfl⟩ := h
  rw [hn, UInt8.toNat_ofNat', Nat.mod_eq_of_lt (readNat_some hn).1]

/-- What is accepted: the empty string, and three or four numbers below 256 separated by dots. -/
theorem C45_read_accepts (s : List Char) (v : Version) : Version.read s = some v ↔
    (s = [] ∧ v = ⟨0, 0, 0, 0⟩) ∨
    (∃ a b c, s = a ++ '.' :: (b ++ '.' :: c) ∧ readNat 256 a = some v.a.toNat ∧ readNat 256 b = some v.b.toNat ∧
      readNat 256 c = some v.c.toNat ∧ v.d = 0) ∨
    (∃ a b c d, s = a ++ '.' :: (b ++ '.' :: (c ++ '.' :: d)) ∧ readNat 256 a = some v.a.toNat ∧ readNat 256 b = some v.b.toNat ∧
      readNat 256 c = some v.c.toNat ∧ readNat 256 d = some v.d.toNat) := by
  unfold Version.read
  constructor
  · intro h
    split at h
    · rename_i hs
      exact .inl ⟨hs, (Option.some_inj.1 h).symm⟩
    split at h
    · rename_i a b c hs
      simp only [Option.bind_eq_bind, Option.bind_eq_some_iff, Option.pure_def, Option.some_inj] at h
      obtain ⟨x, hx, y, hy, z, hz, rfl⟩ := h
      have := join_splitDots s
      rw [hs] at this
      exact .inr (.inl ⟨a, b, c, this.symm, readU8_some hx, readU8_some hy, readU8_some hz, rfl⟩)
    · rename_i a b c d hs
      simp only [Option.bind_eq_bind, Option.bind_eq_some_iff, Option.pure_def, Option.some_inj] at h
      obtain ⟨x, hx, y, hy, z, hz, w, hw, rfl⟩ := h
      have := join_splitDots s
      rw [hs] at this
      exact .inr (.inr ⟨a, b, c, d, this.symm, readU8_some hx, readU8_some hy, readU8_some hz, readU8_some hw⟩)
    · cases h
  · rintro (⟨rfl, rfl⟩ | ⟨a, b, c, rfl, ha, hb, hc, hd⟩ | ⟨a, b, c, d, rfl, ha, hb, hc, hd⟩)
    · rfl
    · rw [if_neg (by simp), splitDots_append (readNat_no_dot ha), splitDots_append (readNat_no_dot hb), splitDots_plain (readNat_no_dot hc)]
      simp only [readU8, ha, hb, hc, Option.map_some, UInt8.ofNat_toNat, Option.bind_eq_bind, Option.bind_some, Option.pure_def, ← hd]
    · rw [if_neg (by simp), splitDots_append (readNat_no_dot ha), splitDots_append (readNat_no_dot hb),
        splitDots_append (readNat_no_dot hc), splitDots_plain (readNat_no_dot hd)]
      simp only [readU8, ha, hb, hc, hd, Option.map_some, UInt8.ofNat_toNat, Option.bind_eq_bind, Option.bind_some, Option.pure_def]

/-- The integer form is reversible in both directions. -/
theorem C45_from_as_u32 (v : Version) : Version.fromU32 v.asU32 = v := by
  obtain ⟨a, b, c, d⟩ := v
  have ha := a.toNat_lt
  have hb := b.toNat_lt
  have hc := c.toNat_lt
  have hd := d.toNat_lt
  unfold Version.fromU32 Version.asU32
  simp only
  congr 1
  · rw [show (a.toNat + 256 * (b.toNat + 256 * (c.toNat + 256 * d.toNat))) % 256 = a.toNat by omega, UInt8.ofNat_toNat]
  · rw [show (a.toNat + 256 * (b.toNat + 256 * (c.toNat + 256 * d.toNat))) / 256 % 256 = b.toNat by omega, UInt8.ofNat_toNat]
  · rw [show (a.toNat + 256 * (b.toNat + 256 * (c.toNat + 256 * d.toNat))) / 65536 % 256 = c.toNat by omega, UInt8.ofNat_toNat]
  · rw [show (a.toNat + 256 * (b.toNat + 256 * (c.toNat + 256 * d.toNat))) / 16777216 % 256 = d.toNat by omega, UInt8.ofNat_toNat]

theorem C45_as_from_u32 {n : Nat} (h : n < 2 ^ 32) : (Version.fromU32 n).asU32 = n := by
  unfold Version.fromU32 Version.asU32
  simp only [UInt8.toNat_ofNat']
  omega

theorem C45_as_u32_lt (v : Version) : v.asU32 < 2 ^ 32 := by
  have ha := v.a.toNat_lt
  have hb := v.b.toNat_lt
  have hc := v.c.toNat_lt
  have hd := v.d.toNat_lt
  unfold Version.asU32
  omega

/-- The four parts as one number, the first part first. -/
def Version.rank (v : Version) : Nat := ((v.a.toNat * 256 + v.b.toNat) * 256 + v.c.toNat) * 256 + v.d.toNat

theorem rank_injective {v w : Version} (h : v.rank = w.rank) : v = w := by
  obtain ⟨a, b, c, d⟩ := v
  obtain ⟨a', b', c', d'⟩ := w
  unfold Version.rank at h
  have ha := a.toNat_lt
  have hb := b.toNat_lt
  have hc := c.toNat_lt
  have hd := d.toNat_lt
  have ha' := a'.toNat_lt
  have hb' := b'.toNat_lt
  have hc' := c'.toNat_lt
  have hd' := d'.toNat_lt
  simp only at h
  rw [Version.mk.injEq]
  refine ⟨?_, ?_, ?_, ?_⟩ <;> apply UInt8.toNat_inj.1 <;> omega

/-- Comparison is the one of the numbers, that is lexicographic. -/
theorem C45_order (v w : Version) : v.cmp w = compare v.rank w.rank := by
  have ha := v.a.toNat_lt
  have hb := v.b.toNat_lt
  have hc := v.c.toNat_lt
  have hd := v.d.toNat_lt
  have ha' := w.a.toNat_lt
  have hb' := w.b.toNat_lt
  have hc' := w.c.toNat_lt
  have hd' := w.d.toNat_lt
  unfold Version.cmp Version.rank
  generalize v.a.toNat = a at *
  generalize v.b.toNat = b at *
  generalize v.c.toNat = c at *
  generalize v.d.toNat = d at *
  generalize w.a.toNat = a' at *
  generalize w.b.toNat = b' at *
  generalize w.c.toNat = c' at *
  generalize w.d.toNat = d' at *
  rcases Nat.lt_trichotomy a a' with h1 | rfl | h1
  · rw [(Nat.compare_eq_lt (a := (((a * 256 + b) * 256 + c) * 256 + d))).2 (by omega), Nat.compare_eq_lt.2 h1]; rfl
  · rcases Nat.lt_trichotomy b b' with h2 | rfl | h2
    · rw [(Nat.compare_eq_lt (a := (((a * 256 + b) * 256 + c) * 256 + d))).2 (by omega), Nat.compare_eq_lt.2 h2, Nat.compare_eq_eq.2 rfl]; rfl
    · rcases Nat.lt_trichotomy c c' with h3 | rfl | h3
      · rw [(Nat.compare_eq_lt (a := (((a * 256 + b) * 256 + c) * 256 + d))).2 (by omega), Nat.compare_eq_lt.2 h3, Nat.compare_eq_eq.2 rfl, Nat.compare_eq_eq.2 rfl]; rfl
      · rw [Nat.compare_eq_eq.2 rfl, Nat.compare_eq_eq.2 rfl, Nat.compare_eq_eq.2 rfl]
        rcases Nat.lt_trichotomy d d' with h4 | rfl | h4
        · rw [(Nat.compare_eq_lt (a := (((a * 256 + b) * 256 + c) * 256 + d))).2 (by omega), Nat.compare_eq_lt.2 h4]; rfl
        · rw [Nat.compare_eq_eq.2 rfl, Nat.compare_eq_eq.2 rfl]; rfl
        · rw [(Nat.compare_eq_gt (a := (((a * 256 + b) * 256 + c) * 256 + d))).2 (by omega), Nat.compare_eq_gt.2 h4]; rfl
      · rw [(Nat.compare_eq_gt (a := (((a * 256 + b) * 256 + c) * 256 + d))).2 (by omega), Nat.compare_eq_gt.2 h3, Nat.compare_eq_eq.2 rfl, Nat.compare_eq_eq.2 rfl]; rfl
    · rw [(Nat.compare_eq_gt (a := (((a * 256 + b) * 256 + c) * 256 + d))).2 (by omega), Nat.compare_eq_gt.2 h2, Nat.compare_eq_eq.2 rfl]; rfl
  · rw [(Nat.compare_eq_gt (a := (((a * 256 + b) * 256 + c) * 256 + d))).2 (by omega), Nat.compare_eq_gt.2 h1]; rfl

/-- Two versions are equal exactly if neither is smaller. -/
theorem C45_order_eq (v w : Version) : v.cmp w = .eq ↔ v = w := by
  rw [C45_order, Nat.compare_eq_eq]
  exact ⟨rank_injective, fun h => by rw [h]⟩

/-- The integer form does not keep the order: it must not be used to compare versions. The program stores it and compares only after
reading it back. -/
theorem C45_as_u32_unordered : ∃ v w : Version, v.cmp w = .lt ∧ w.asU32 < v.asU32 := ⟨⟨0, 13, 2, 0⟩, ⟨0, 14, 1, 0⟩, by decide, by decide⟩

/-! ## The hypotheses are met -/
example : Version.show ⟨0, 13, 4, 0⟩ = "0.13.4".toList := by decide +kernel
example : Version.show ⟨0, 12, 3, 11⟩ = "0.12.3.11".toList := by decide +kernel
example : Version.read "0.13.1.1".toList = some ⟨0, 13, 1, 1⟩ := by decide +kernel
example : Version.read "0.13".toList = none := by decide +kernel

end Verif.Common
