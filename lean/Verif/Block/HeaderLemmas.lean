import Verif.Block.BodyLemmas
import Verif.Common.VersionProps
/-!
# Lemmas on the hashes of headers
-/
namespace Verif.Block
open Verif.Common (Version)
open Verif.Events.TokenText (showNat)

/-! ## Versions as field elements -/

def textNum (s : List Char) : Nat := s.foldl (fun n c => n * 256 + c.toNat) 0

theorem nil_or_snoc (s : List Char) : s = [] ∨ ∃ t c, s = t ++ [c] := by
  rcases List.eq_nil_or_concat s with h | ⟨t, c, h⟩
  · exact .inl h
  · exact .inr ⟨t, c, by rw [h, List.concat_eq_append]⟩

theorem textNum_concat (s : List Char) (c : Char) : textNum (s ++ [c]) = textNum s * 256 + c.toNat := by
  simp [textNum]

theorem textNum_inj {s s' : List Char} (hs : ∀ c ∈ s, 0 < c.toNat ∧ c.toNat < 256) (hs' : ∀ c ∈ s', 0 < c.toNat ∧ c.toNat < 256)
    (e : textNum s = textNum s') : s = s' := by
  induction hn : s.length generalizing s s' with
  | zero =>
    obtain rfl := List.eq_nil_of_length_eq_zero hn
    rcases nil_or_snoc s' with rfl | ⟨t, c, rfl⟩
    · rfl
    · rw [textNum_concat] at e
      have := hs' c (by simp)
      simp [textNum] at e
      omega
  | succ n ih =>
    rcases nil_or_snoc s with rfl | ⟨t, c, rfl⟩
    · simp at hn
    · rw [textNum_concat] at e
      have h1 := hs c (by simp)
      rcases nil_or_snoc s' with rfl | ⟨t', c', rfl⟩
      · simp [textNum] at e
        omega
      · rw [textNum_concat] at e
        have h2 := hs' c' (by simp)
        have h3 : textNum t = textNum t' := by omega
        have h4 : c.toNat = c'.toNat := by omega
        rw [ih (fun x hx => hs x (by simp [hx])) (fun x hx => hs' x (by simp [hx])) h3 (by simpa using hn),
          show c = c' from Char.toNat_inj.1 h4]

theorem textNum_lt {s : List Char} (hs : ∀ c ∈ s, c.toNat < 256) : textNum s < 256 ^ s.length := by
  induction hn : s.length generalizing s with
  | zero =>
    obtain rfl := List.eq_nil_of_length_eq_zero hn
    simp [textNum]
  | succ n ih =>
    rcases nil_or_snoc s with rfl | ⟨t, c, rfl⟩
    · simp at hn
    · rw [textNum_concat, Nat.pow_succ]
      have h1 := hs c (by simp)
      have h2 := ih (s := t) (fun x hx => hs x (by simp [hx])) (by simpa using hn)
      omega

theorem showNat_small (n : UInt8) : (showNat n.toNat).length ≤ 3 ∧ ∀ c ∈ showNat n.toNat, 0 < c.toNat ∧ c.toNat < 256 := by
  have : ∀ n : Fin 256, (showNat n.val).length ≤ 3 ∧ ∀ c ∈ showNat n.val, 0 < c.toNat ∧ c.toNat < 256 := by decide +kernel
  exact this ⟨n.toNat, n.toNat_lt⟩

theorem show_small (v : Version) : v.show.length ≤ 15 ∧ ∀ c ∈ v.show, 0 < c.toNat ∧ c.toNat < 256 := by
  have ha := showNat_small v.a
  have hb := showNat_small v.b
  have hc := showNat_small v.c
  have hd := showNat_small v.d
  have dot : 0 < ('.' : Char).toNat ∧ ('.' : Char).toNat < 256 := by decide
  unfold Version.show
  split
  · simp
  · split
    · refine ⟨by simp; omega, ?_⟩
      intro c h
      simp only [List.mem_append, List.mem_cons] at h
      rcases h with h | rfl | h | rfl | h
      · exact ha.2 c h
      · exact dot
      · exact hb.2 c h
      · exact dot
      · exact hc.2 c h
    · refine ⟨by simp; omega, ?_⟩
      intro c h
      simp only [List.mem_append, List.mem_cons] at h
      rcases h with h | rfl | h | rfl | h | rfl | h
      · exact ha.2 c h
      · exact dot
      · exact hb.2 c h
      · exact dot
      · exact hc.2 c h
      · exact dot
      · exact hd.2 c h

theorem version_inj {v w : Version} (e : feltText v.show = feltText w.show) : v = w := by
  have bound : ∀ v : Version, textNum v.show < P := by
    intro v
    have h1 := show_small v
    have h2 := textNum_lt (s := v.show) fun c hc => (h1.2 c hc).2
    have h3 : 256 ^ v.show.length ≤ 256 ^ 15 := Nat.pow_le_pow_right (by decide) h1.1
    have h4 : 256 ^ 15 < P := by decide
    omega
  have := felt_inj (bound v) (bound w) e
  exact Verif.Common.C45_show_injective (textNum_inj (show_small v).2 (show_small w).2 this)

/-! ## Counts -/

theorem counts_arith {t n s k t' n' s' k' q q' r : Nat} (h1 : t < 2 ^ 64) (h2 : n < 2 ^ 64) (h3 : s < 2 ^ 64) (hk : k < 2)
    (h1' : t' < 2 ^ 64) (h2' : n' < 2 ^ 64) (h3' : s' < 2 ^ 64) (hk' : k' < 2)
    (d1 : P * q + r = t * 2 ^ 192 + n * 2 ^ 128 + s * 2 ^ 64 + k * 2 ^ 63)
    (d2 : P * q' + r = t' * 2 ^ 192 + n' * 2 ^ 128 + s' * 2 ^ 64 + k' * 2 ^ 63) : t = t' ∧ n = n' ∧ s = s' ∧ k = k' := by
  unfold P at d1 d2
  have hq : q < 32 := by omega
  have hq' : q' < 32 := by omega
  have : q = q' := by omega
  subst this
  omega

theorem counts_inj {b b' : Header} (hb : b.Ok) (hb' : b'.Ok) (e : concatCounts b = concatCounts b') :
    b.transactionCount = b'.transactionCount ∧ b.eventCount = b'.eventCount ∧ b.stateDiffLength = b'.stateDiffLength ∧ b.blob = b'.blob := by
  have h1 := hb.transactionCount
  have h2 := hb.eventCount
  have h3 := hb.stateDiffLength
  have h1' := hb'.transactionCount
  have h2' := hb'.eventCount
  have h3' := hb'.stateDiffLength
  have ev := congrArg Fin.val e
  unfold concatCounts felt at ev
  simp only [Fin.val_ofNat] at ev
  have hm : ∀ x : Bool, ∃ k, k < 2 ∧ (if x then 128 else 0) * 2 ^ 56 = k * 2 ^ 63 ∧ (x = true ↔ k = 1) := by
    intro x
    cases x
    · exact ⟨0, by decide, by decide, by decide⟩
    · exact ⟨1, by decide, by decide, by decide⟩
  obtain ⟨k, hk, ek, hkb⟩ := hm b.blob
  obtain ⟨k', hk', ek', hkb'⟩ := hm b'.blob
  rw [ek, ek'] at ev
  have d1 := Nat.div_add_mod (b.transactionCount * 2 ^ 192 + b.eventCount * 2 ^ 128 + b.stateDiffLength * 2 ^ 64 + k * 2 ^ 63) P
  have d2 := Nat.div_add_mod (b'.transactionCount * 2 ^ 192 + b'.eventCount * 2 ^ 128 + b'.stateDiffLength * 2 ^ 64 + k' * 2 ^ 63) P
  rw [← ev] at d2
  have key := counts_arith h1 h2 h3 hk h1' h2' h3' hk' d1 d2
  refine ⟨key.1, key.2.1, key.2.2.1, ?_⟩
  have h5 : (b.blob = true ↔ b'.blob = true) := by rw [hkb, hkb', key.2.2.2]
  exact Bool.eq_iff_iff.2 h5

end Verif.Block
