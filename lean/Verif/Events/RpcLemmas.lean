import Verif.Events.RpcSpec
import Verif.Events.Pages
/-
Lemmas about pages with pending events.
-/
namespace Verif.Events

section
variable {chain : List Body} {p : Pending} {addrs : List Felt} {keys : List (List Felt)}

theorem wantedAt_stored {n : Nat} (h : n < chain.length) :
    wantedAt chain p addrs keys n = (wantedIn chain addrs keys n).map REvent.ofEmitted := by
  unfold wantedAt wantedIn content
  rw [List.getElem?_eq_getElem h]
  simp only [emittedBy, Option.map_some]
  rw [show (fun e : Emitted => wanted addrs keys e.event) = (fun e : REvent => wanted addrs keys e.event) ∘ REvent.ofEmitted from rfl,
    ← List.filter_map]
  congr 1
  rw [List.flatMap_map, List.map_flatMap]
  congr 1
  funext ti
  rw [List.map_map]
  rfl

theorem answerAt_stored {a b : Nat} (h : b < chain.length) :
    answerAt chain p addrs keys a b = (answer chain addrs keys a b).map REvent.ofEmitted := by
  unfold answerAt answer
  rw [List.map_flatMap, List.flatMap_def, List.flatMap_def]
  congr 1
  apply List.map_congr_left
  intro n hn
  rw [List.mem_range'_1] at hn
  exact wantedAt_stored (by omega)

theorem answerAt_split {a m b : Nat} (h1 : a ≤ m + 1) (h2 : m ≤ b) :
    answerAt chain p addrs keys a b = answerAt chain p addrs keys a m ++ answerAt chain p addrs keys (m + 1) b := by
  unfold answerAt
  rw [← List.flatMap_append]
  congr 1
  rw [show b + 1 - a = (m + 1 - a) + (b + 1 - (m + 1)) by omega, ← List.range'_append_1]
  congr 2
  omega

theorem answerAt_empty {a b : Nat} (h : b < a) : answerAt chain p addrs keys a b = [] := by
  unfold answerAt
  rw [show b + 1 - a = 0 by omega]
  rfl

theorem answerAt_one (n : Nat) : answerAt chain p addrs keys n n = wantedAt chain p addrs keys n := by
  unfold answerAt
  rw [show n + 1 - n = 1 by omega]
  simp

theorem answerAt_two (n : Nat) :
    answerAt chain p addrs keys n (n + 1) = wantedAt chain p addrs keys n ++ wantedAt chain p addrs keys (n + 1) := by
  rw [answerAt_split (m := n) (by omega) (by omega), answerAt_one, answerAt_one]

/-! ### pending blocks -/

theorem matches_trim (addrs : List Felt) (keys : List (List Felt)) (e : Event) :
    (addrMatches addrs e && keysMatch (trimKeys keys) e) = wanted addrs keys e := by
  obtain ⟨es, he, -, ht⟩ := trimKeys_split keys
  rw [matches_eq addrs (trimKeys keys) e ht, wanted_trim]

theorem matchAndFill_eq (b : PendingBlock) (skip max : Nat) :
    matchAndFill b skip max (trimKeys keys) addrs =
      let H := ((pendingEmit b).filter fun e => wanted addrs keys e.event).drop skip
      (H.take max, decide (H.length ≤ max)) := by
  unfold matchAndFill
  simp only [matches_trim]
  generalize ((pendingEmit b).filter fun e => wanted addrs keys e.event).drop skip = H
  by_cases h : max < H.length
  · rw [if_pos (by rw [List.length_take]; omega)]
    rw [List.dropLast_eq_take, List.take_take, List.length_take]
    congr 1
    · congr 1; omega
    · simp; omega
  · rw [if_neg (by rw [List.length_take]; omega)]
    rw [List.take_of_length_le (by omega), List.take_of_length_le (by omega)]
    congr 1
    simp; omega

theorem Follows.pc_ge (h : Follows chain p) : chain.length ≤ p.preConfirmed.number := by
  obtain ⟨-, h⟩ := h
  split at h <;> omega

theorem Follows.start (h : Follows chain p) : pendingStart p = chain.length := by
  obtain ⟨-, h⟩ := h
  unfold pendingStart
  split at h
  next hb => rw [hb]; exact h.1
  next hb => rw [hb]; exact h

theorem Follows.isPending (h : Follows chain p) (n : Nat) :
    isPending p n = true ↔ chain.length ≤ n ∧ n ≤ p.preConfirmed.number := by
  obtain ⟨-, h⟩ := h
  unfold Events.isPending
  split at h
  next hb => rw [hb]; simp; omega
  next hb => rw [hb]; simp; omega

theorem wantedAt_preConfirmed (h : Follows chain p) :
    ((pendingEmit p.preConfirmed).filter fun e => wanted addrs keys e.event) = wantedAt chain p addrs keys p.preConfirmed.number := by
  have hge := h.pc_ge
  unfold wantedAt content pendingEmit
  rw [List.getElem?_eq_none hge]
  simp only [Option.map_none]
  rw [if_neg]
  · rw [if_pos trivial]
  · obtain ⟨-, h⟩ := h
    split at h
    next hb => rw [hb]; simp; omega
    next hb => rw [hb]; simp

theorem wantedAt_preLatest (h : Follows chain p) {b : PendingBlock} (hb : p.preLatest = some b) :
    ((pendingEmit b).filter fun e => wanted addrs keys e.event) = wantedAt chain p addrs keys b.number := by
  obtain ⟨-, h⟩ := h
  rw [hb] at h
  simp only at h
  unfold wantedAt content pendingEmit
  rw [List.getElem?_eq_none (by omega)]
  simp only [Option.map_none, hb, Option.map_some, if_true, Option.getD_some]

/-- One page of pending events. -/
theorem pendingFill_spec (h : Follows chain p) (t : Token) (max : Nat) (hmax : 1 ≤ max) (hb1 : chain.length ≤ t.block)
    (hb2 : t.block ≤ p.preConfirmed.number) (ho : t.offset ≤ (wantedAt chain p addrs keys t.block).length) :
    let rest (t : Token) := (answerAt chain p addrs keys t.block p.preConfirmed.number).drop t.offset
    let r := pendingFill p t max (trimKeys keys) addrs
    r.1.length ≤ max ∧ (r.2 = none → rest t = r.1) ∧
    ∀ t', r.2 = some t' → rest t = r.1 ++ rest t' ∧ t.block ≤ t'.block ∧ t'.block ≤ p.preConfirmed.number ∧
      t'.offset ≤ (wantedAt chain p addrs keys t'.block).length ∧ (t.block = t'.block → t.offset < t'.offset) := by
  intro rest r
  have honly : t.block = p.preConfirmed.number → r = fromPreConfirmed p t.offset max (trimKeys keys) addrs →
      r.1.length ≤ max ∧ (r.2 = none → rest t = r.1) ∧
      ∀ t', r.2 = some t' → rest t = r.1 ++ rest t' ∧ t.block ≤ t'.block ∧ t'.block ≤ p.preConfirmed.number ∧
        t'.offset ≤ (wantedAt chain p addrs keys t'.block).length ∧ (t.block = t'.block → t.offset < t'.offset) := by
    intro hbt hr
    rw [hr]
    unfold fromPreConfirmed
    rw [matchAndFill_eq]
    simp only
    rw [wantedAt_preConfirmed h]
    have hrest : rest t = (wantedAt chain p addrs keys p.preConfirmed.number).drop t.offset := by
      simp only [rest, hbt]
      rw [answerAt_one]
    rw [hrest]
    rw [hbt] at ho
    generalize hW : wantedAt chain p addrs keys p.preConfirmed.number = W at *
    refine ⟨by rw [List.length_take]; omega, ?_, ?_⟩
    · intro hn
      split at hn
      next hd => simp only [decide_eq_true_eq] at hd; rw [List.take_of_length_le hd]
      next => simp at hn
    · intro t' ht'
      split at ht'
      next => simp at ht'
      next hd =>
        simp only [decide_eq_true_eq, List.length_drop] at hd
        simp only [Option.some.injEq] at ht'
        subst ht'
        simp only [rest]
        rw [answerAt_one, hW]
        have hl : ((W.drop t.offset).take max).length = max := by rw [List.length_take, List.length_drop]; omega
        rw [hl]
        refine ⟨?_, by omega, by omega, by omega, by omega⟩
        rw [← List.drop_drop, List.take_append_drop]
  cases hpl : p.preLatest with
  | none =>
    have hf := h.2
    rw [hpl] at hf
    simp only at hf
    exact honly (by omega) (by simp only [r, pendingFill, hpl])
  | some b =>
    have hf := h.2
    rw [hpl] at hf
    simp only at hf
    by_cases hbt : b.number = t.block
    · have hr : r = fromPreLatest p b t.offset max (trimKeys keys) addrs := by simp only [r, pendingFill, hpl, if_pos hbt]
      rw [hr]
      unfold fromPreLatest
      simp only [matchAndFill_eq, wantedAt_preConfirmed h, wantedAt_preLatest h hpl]
      have hrest : rest t = (wantedAt chain p addrs keys b.number).drop t.offset ++ wantedAt chain p addrs keys p.preConfirmed.number := by
        simp only [rest]
        rw [show p.preConfirmed.number = t.block + 1 by omega, answerAt_two, List.drop_append_of_le_length ho, hbt]
      rw [hrest]
      rw [← hbt] at ho
      have e1 : answerAt chain p addrs keys p.preConfirmed.number p.preConfirmed.number = wantedAt chain p addrs keys p.preConfirmed.number :=
        answerAt_one _
      have e2 : answerAt chain p addrs keys b.number p.preConfirmed.number =
          wantedAt chain p addrs keys b.number ++ wantedAt chain p addrs keys p.preConfirmed.number := by
        rw [show p.preConfirmed.number = b.number + 1 by omega, answerAt_two]
      simp only [rest]
      generalize hW : wantedAt chain p addrs keys b.number = W at *
      generalize hV : wantedAt chain p addrs keys p.preConfirmed.number = V at *
      rw [List.drop_zero]
      by_cases hfull : ((W.drop t.offset).take max).length = max
      · rw [if_pos hfull]
        refine ⟨by simp only; omega, by simp, ?_⟩
        intro t' ht'
        simp only [Option.some.injEq] at ht'
        rw [List.length_take, List.length_drop] at hfull
        split at ht'
        next hd =>
          simp only [decide_eq_true_eq] at hd
          subst ht'
          simp only
          rw [e1, List.take_of_length_le hd, List.drop_zero]
          exact ⟨rfl, by omega, by omega, by omega, by omega⟩
        next hd =>
          simp only [decide_eq_true_eq, List.length_drop] at hd
          subst ht'
          simp only
          rw [e2, hW, List.drop_append_of_le_length (by omega), ← List.drop_drop, ← List.append_assoc, List.take_append_drop]
          exact ⟨rfl, by omega, by omega, by omega, by omega⟩
      · rw [if_neg hfull]
        rw [List.length_take, List.length_drop] at hfull
        have hlen : ((W.drop t.offset).take max) = W.drop t.offset := List.take_of_length_le (by rw [List.length_drop]; omega)
        rw [hlen]
        refine ⟨by simp only [List.length_append, List.length_take, List.length_drop]; omega, ?_, ?_⟩
        · intro hn
          split at hn
          next hd => simp only [decide_eq_true_eq] at hd; rw [List.take_of_length_le hd]
          next => simp at hn
        · intro t' ht'
          split at ht'
          next => simp at ht'
          next hd =>
            simp only [decide_eq_true_eq, List.length_drop] at hd
            simp only [Option.some.injEq] at ht'
            subst ht'
            simp only
            rw [e1, hV, List.length_take, List.length_drop, Nat.min_eq_left (by omega), List.append_assoc, List.take_append_drop]
            exact ⟨rfl, by omega, by omega, by omega, by omega⟩
    · exact honly (by omega) (by simp only [r, pendingFill, hpl, if_neg hbt])

/-! ### one page -/

/-- The last block that the node looks at for a position. -/
def reach (chain : List Body) (limit b : Nat) : Nat := if b < chain.length then min (chain.length - 1) (b + limit - 1) else b

/-- The offset of a token is inside what the node looks at. -/
def RValid (chain : List Body) (p : Pending) (limit : Nat) (addrs : List Felt) (keys : List (List Felt)) (L : Nat) (t : Token) : Prop :=
  t.offset ≤ (answerAt chain p addrs keys t.block (min L (reach chain limit t.block))).length

theorem toPending_last {r : Request} (hf : Follows chain p) (hr : PlainRange chain p r) {L : Nat}
    (hL : rangeLast chain p r.toBlock = some L) :
    (toPending (r.toBlock.map (replacePending p)) = true → L = p.preConfirmed.number) ∧
    (toPending (r.toBlock.map (replacePending p)) = false → L < chain.length) := by
  have hne := List.length_pos_iff.2 hf.1
  cases hto : r.toBlock with
  | none => rw [hto] at hL; simp only [rangeLast, Option.some.injEq] at hL; simp [toPending, hL]
  | some b =>
    rw [hto] at hL
    cases b with
    | number n =>
      simp only [rangeLast, Option.some.injEq] at hL
      subst hL
      have h1 := hr.to_le n hto
      have h2 := hr.to_pre
      simp only [Option.map_some, replacePending]
      by_cases hp : isPending p n = true
      · rw [if_pos hp]
        refine ⟨fun _ => ?_, by simp [toPending]⟩
        rw [hf.isPending] at hp
        have hff := hf.2
        cases hpl : p.preLatest with
        | none => rw [hpl] at hff; simp only at hff; omega
        | some b =>
          rw [hpl] at hff
          simp only at hff
          have : n ≠ b.number := fun e => h2 b hpl (by rw [hto, e])
          omega
      · rw [if_neg hp]
        rw [hf.isPending] at hp
        simp only [toPending]
        simp
        omega
    | stored n =>
      obtain ⟨k, rfl, hk⟩ := hr.to_stored n hto
      simp only [rangeLast, Option.some.injEq] at hL
      subst hL
      simp [replacePending, toPending, hk]
    | latest =>
      simp only [rangeLast, Option.some.injEq] at hL
      simp [replacePending, toPending]
      omega
    | preConfirmed =>
      simp only [rangeLast, Option.some.injEq] at hL
      simp [replacePending, toPending, hL]

/-- A query from beyond the head finds nothing. -/
theorem page_beyond {c : Cfg} {s : Sys} (v : View c s.db s.mem chain 0) (limit : Nat) (hl : 1 ≤ limit)
    (q : Constraints) (hp : 1 ≤ q.pageSize) (hk : q.keys.length ≤ keyLimit) (hne : chain ≠ []) (h : chain.length ≤ q.fromBlock.getD 0) :
    (events c s.db s.mem false limit q).1 = .ok ⟨[], none⟩ := by
  have hcpos : 0 < chain.length := List.length_pos_iff.2 hne
  obtain ⟨page, h1, h2, h3, -⟩ := events_spec v limit hl q hp hk hne _ _ rfl rfl (Nat.zero_le _)
  have hto : queryTo (chain.length - 1) q.toBlock ≤ chain.length - 1 := by unfold queryTo; split <;> omega
  have hempty : hitsBetween chain q.addrs q.keys (q.fromBlock.getD 0)
      (min (queryTo (chain.length - 1) q.toBlock) (q.fromBlock.getD 0 + limit - 1)) = [] := by
    unfold hitsBetween
    rw [List.flatMap_eq_nil_iff]
    intro n hn
    rw [List.mem_range'_1] at hn
    omega
  rw [hempty] at h2 h3
  simp only [List.drop_nil, List.take_nil, List.length_nil, Nat.zero_le, forall_const] at h2 h3
  rw [if_neg (by omega)] at h3
  rw [h1]
  obtain ⟨e, t⟩ := page
  simp only at h2 h3
  rw [h2, h3]

/-- What a page promises, for the position `P`. -/
def PageOk (chain : List Body) (p : Pending) (limit : Nat) (r : Request) (L : Nat) (P : Token) (out : List REvent × Option Token) : Prop :=
  let rest (t : Token) := (answerAt chain p r.addrs r.keys t.block L).drop t.offset
  out.1.length ≤ r.chunk ∧ (out.2 = none → rest P = out.1) ∧
  ∀ t, out.2 = some t → rest P = out.1 ++ rest t ∧ RValid chain p limit r.addrs r.keys L t ∧ P.block ≤ t.block ∧ t.block ≤ L ∧
    (P.block = t.block → P.offset < t.offset)

theorem pageOk_empty {limit L : Nat} {r : Request} {P : Token} (h : L < P.block) : PageOk chain p limit r L P ([], none) := by
  refine ⟨by simp, fun _ => ?_, by simp⟩
  simp only
  rw [answerAt_empty h]
  simp

theorem pageOk_pending {limit : Nat} {r : Request} (hf : Follows chain p) (hp : 1 ≤ r.chunk) {P : Token} (h1 : chain.length ≤ P.block)
    (h2 : P.block ≤ p.preConfirmed.number) (hv : RValid chain p limit r.addrs r.keys p.preConfirmed.number P) :
    PageOk chain p limit r p.preConfirmed.number P (pendingFill p P r.chunk (trimKeys r.keys) r.addrs) := by
  have hv' : P.offset ≤ (wantedAt chain p r.addrs r.keys P.block).length := by
    unfold RValid reach at hv
    rw [if_neg (by omega), Nat.min_eq_right h2, answerAt_one] at hv
    exact hv
  obtain ⟨g1, g2, g3⟩ := pendingFill_spec hf P r.chunk hp h1 h2 hv'
  refine ⟨g1, g2, fun t ht => ?_⟩
  obtain ⟨k1, k2, k3, k4, k5⟩ := g3 t ht
  refine ⟨k1, ?_, k2, k3, k5⟩
  unfold RValid reach
  rw [if_neg (by omega), Nat.min_eq_right k3, answerAt_one]
  exact k4

end

end Verif.Events
