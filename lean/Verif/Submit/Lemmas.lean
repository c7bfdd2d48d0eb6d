import Verif.Submit.Spec

/-! # What the tracker keeps -/
namespace Verif.Submit

open Spec

/-- A transaction is in the list, not older than `st`, with only transactions of `D` before it. -/
def Held (h st : Nat) (D : List Nat) (l : List Entry) : Prop :=
  ∃ pre e post, l = pre ++ e :: post ∧ e.hash = h ∧ st ≤ e.stamp ∧ (∀ x ∈ pre, x.hash ∈ D ∧ x.hash ≠ h) ∧ (pre.map (·.hash)).Nodup

theorem Held.short {h : Nat} {D : List Nat} {pre : List Entry} (hm : ∀ x ∈ pre, x.hash ∈ D ∧ x.hash ≠ h)
    (hn : (pre.map (·.hash)).Nodup) : pre.length ≤ D.length := by
  have := hn.length_le_of_subset (l₂ := D) (by
    intro x hx
    rw [List.mem_map] at hx
    obtain ⟨e, he, rfl⟩ := hx
    exact (hm e he).1)
  simpa using this

theorem nodup_filter_map (f : Entry → Bool) {l : List Entry} (h : (l.map (·.hash)).Nodup) : ((l.filter f).map (·.hash)).Nodup :=
  h.sublist (List.filter_sublist.map _)

theorem Held.filter {h st : Nat} {D : List Nat} {l : List Entry} (f : Entry → Bool) (H : Held h st D l)
    (hf : ∀ e : Entry, e.hash = h → st ≤ e.stamp → f e = true) : Held h st D (l.filter f) := by
  obtain ⟨pre, e, post, rfl, he, hs, hm, hn⟩ := H
  refine ⟨pre.filter f, e, post.filter f, ?_, he, hs, ?_, nodup_filter_map f hn⟩
  · simp [List.filter_append, hf e he hs]
  · intro x hx
    exact hm x (List.mem_filter.1 hx).1

theorem Held.front {h st : Nat} {D : List Nat} {l : List Entry} (x : Entry) (H : Held h st D l) (hx : x.hash ∈ D) (hne : x.hash ≠ h) :
    Held h st D (x :: l.filter (fun y => y.hash != x.hash)) := by
  obtain ⟨pre, e, post, rfl, he, hs, hm, hn⟩ := H
  refine ⟨x :: pre.filter (fun y => y.hash != x.hash), e, post.filter (fun y => y.hash != x.hash), ?_, he, hs, ?_, ?_⟩
  · have : (e.hash != x.hash) = true := by rw [he]; simpa using fun h' => hne h'.symm
    simp [List.filter_append, this]
  · intro y hy
    rcases List.mem_cons.1 hy with rfl | hy'
    · exact ⟨hx, hne⟩
    · exact hm y (List.mem_filter.1 hy').1
  · rw [List.map_cons, List.nodup_cons]
    refine ⟨?_, nodup_filter_map _ hn⟩
    intro hc
    rw [List.mem_map] at hc
    obtain ⟨y, hy, hyx⟩ := hc
    have := (List.mem_filter.1 hy).2
    simp [hyx] at this

theorem Held.cons {h st : Nat} {D : List Nat} {l : List Entry} (x : Entry) (H : Held h st D l) (hx : x.hash ∈ D) (hne : x.hash ≠ h)
    (hnew : ∀ y ∈ l, y.hash ≠ x.hash) : Held h st D (x :: l) := by
  have e : l.filter (fun y => y.hash != x.hash) = l := by
    rw [List.filter_eq_self]
    intro y hy
    simpa using hnew y hy
  have := H.front x hx hne
  rwa [e] at this

theorem Held.replace {h st : Nat} {D : List Nat} {l : List Entry} (x : Entry) (H : Held h st D l) (hst : st ≤ x.stamp) :
    Held h st D (l.map fun y => if y.hash == x.hash then x else y) := by
  obtain ⟨pre, e, post, rfl, he, hs, hm, hn⟩ := H
  have hh : ∀ y : Entry, (if y.hash == x.hash then x else y).hash = y.hash := by
    intro y
    by_cases hy : y.hash = x.hash
    · simp [hy]
    · simp [hy]
  refine ⟨pre.map fun y => if y.hash == x.hash then x else y, if e.hash == x.hash then x else e,
    post.map fun y => if y.hash == x.hash then x else y, by simp, ?_, ?_, ?_, ?_⟩
  · rw [hh, he]
  · split
    · exact hst
    · exact hs
  · intro y hy
    rw [List.mem_map] at hy
    obtain ⟨z, hz, rfl⟩ := hy
    rw [hh]
    exact hm z hz
  · rw [List.map_map]
    have : ((fun y : Entry => y.hash) ∘ fun y => if y.hash == x.hash then x else y) = fun y => y.hash := funext hh
    rw [this]
    exact hn

theorem Held.top {st : Nat} {D : List Nat} {l : List Entry} (x : Entry) (hst : st ≤ x.stamp) : Held x.hash st D (x :: l) :=
  ⟨[], x, l, rfl, rfl, hst, by simp, by simp⟩

theorem Held.room {h st : Nat} {D : List Nat} {l : List Entry} (n : Nat) (H : Held h st D l) (hn : D.length + 2 ≤ n) :
    Held h st D (makeRoom n l) := by
  unfold makeRoom
  split
  · rename_i hl
    obtain ⟨pre, e, post, rfl, he, hs, hm, hd⟩ := H
    have hp := Held.short hm hd
    cases hpost : post with
    | nil =>
      subst hpost
      simp at hl
      omega
    | cons y ys =>
      refine ⟨pre, e, (y :: ys).dropLast, ?_, he, hs, hm, hd⟩
      rw [List.dropLast_append_cons]
      rfl
  · exact H

theorem Held.flush {p : Par} {h st now : Nat} {D : List Nat} {l : List Entry} (H : Held h st D l) (ht : now - st < p.life) :
    Held h st D (flush p now l) := by
  refine H.filter _ ?_
  intro e _ hs
  unfold fresh
  simp only [decide_eq_true_eq]
  omega

theorem Held.mem {h st : Nat} {D : List Nat} {l : List Entry} (H : Held h st D l) : ∃ e ∈ l, e.hash = h ∧ st ≤ e.stamp := by
  obtain ⟨pre, e, post, rfl, he, hs, -, -⟩ := H
  exact ⟨e, by simp, he, hs⟩

theorem Held.find {h st : Nat} {D : List Nat} {l : List Entry} (H : Held h st D l) :
    ∃ e, (l.find? fun e => e.hash == h) = some e ∧ e.hash = h ∧ st ≤ e.stamp := by
  obtain ⟨pre, e, post, rfl, he, hs, hm, -⟩ := H
  refine ⟨e, ?_, he, hs⟩
  rw [List.find?_append]
  have : (pre.find? fun e => e.hash == h) = none := by
    rw [List.find?_eq_none]
    intro x hx
    simpa using (hm x hx).2
  rw [this]
  simp [he]

theorem Held.get {p : Par} {h st now k : Nat} {D : List Nat} {l : List Entry} (H : Held h st D l) (hk : k ≠ h → k ∈ D) :
    Held h st D (cacheGet p now k l).1 := by
  unfold cacheGet
  split
  · exact H
  · rename_i e hf
    have hek : e.hash = k := by simpa using List.find?_some hf
    split
    · by_cases hkh : k = h
      · obtain ⟨e', hf', he', hs'⟩ := H.find
        rw [hkh, hf'] at hf
        cases hf
        have := Held.top (D := D) (l := l.filter (fun x => x.hash != k)) _ hs'
        rw [he'] at this
        exact this
      · have := H.front e (by rw [hek]; exact hk hkh) (by rw [hek]; exact hkh)
        rw [hek] at this
        exact this
    · exact H

theorem Held.put {p : Par} {h st : Nat} {D : List Nat} {l : List Entry} (x : Entry) (H : Held h st D l) (hk : x.hash ≠ h → x.hash ∈ D)
    (hst : st ≤ x.stamp) : Held h st D (put p x l) := by
  unfold Submit.put
  split
  · split
    · by_cases hx : x.hash = h
      · have := Held.top (D := D) (l := l.filter (fun y => y.hash != x.hash)) x hst
        rw [hx] at this ⊢
        exact this
      · exact H.front x (hk hx) hx
    · exact H.replace x hst
  · rename_i ha
    have hnew : ∀ y ∈ l, y.hash ≠ x.hash := by
      intro y hy he
      exact ha (List.any_eq_true.2 ⟨y, hy, by simpa using he⟩)
    by_cases hx : x.hash = h
    · obtain ⟨e, hm, he, -⟩ := H.mem
      exact absurd (he.trans hx.symm) (hnew e hm)
    · exact H.cons x (hk hx) hx hnew

theorem Held.set {p : Par} {h st : Nat} {D : List Nat} {l : List Entry} (x : Entry) (H : Held h st D l) (hk : x.hash ≠ h → x.hash ∈ D)
    (hst : st ≤ x.stamp) (hc : D.length + 2 ≤ p.cap) : Held h st D (cacheSet p x l) := by
  unfold cacheSet
  split
  · exact (H.room p.cap hc).put x hk hst
  · exact (H.put x hk hst).room _ (by omega)

/-- What a submission does to the tracker: nothing, or one insertion of a transaction that the gateway took. -/
theorem submit_tracker (p : Par) (w : World) (api now : Nat) (l : List Entry) (t : Tx) :
    (submit p w api now l t).tracker = l ∨
      ∃ a n v, a.hash ∈ touched (.submit w api t) ∧ remember w.address a.classHash t = some v ∧ w.latest = some n ∧
        (submit p w api now l t).ans = .ok a ∧ (submit p w api now l t).tracker = insert p now a.hash (n.getD 0) v l := by
  unfold submit
  split
  · exact .inl rfl
  · unfold submitAny
    split
    · exact .inl rfl
    · exact .inl rfl
    · rename_i j hj
      split
      · exact .inl rfl
      · rename_i a ha
        split
        · rename_i n v hn hv
          refine .inr ⟨a, n, v, ?_, hv, hn, rfl, rfl⟩
          simp [touched, hj, ha]
        · exact .inl rfl

theorem Held.query {p : Par} {api : Nat} {n : Local} {gw : Option GwStatus} {h st now k : Nat} {D : List Nat} {l : List Entry}
    (H : Held h st D l) (hk : k ≠ h → k ∈ D) (ht : now - st < p.life) : Held h st D (status p api n gw now l k).2 := by
  unfold status
  split
  · exact H
  · exact H
  · split
    · exact Held.flush (H.get hk) ht
    · exact H.flush ht

theorem Held.submit {p : Par} {w : World} {api : Nat} {t : Tx} {h st now : Nat} {D : List Nat} {l : List Entry}
    (H : Held h st D l) (hk : ∀ k ∈ touched (.submit w api t), k ≠ h → k ∈ D) (ht : now - st < p.life) (hst : st ≤ now)
    (hc : D.length + 2 ≤ p.cap) : Held h st D (submit p w api now l t).tracker := by
  rcases submit_tracker p w api now l t with he | ⟨a, n, v, ha, -, -, -, he⟩
  · rw [he]; exact H
  · rw [he]
    unfold insert
    exact (H.flush ht).set _ (hk _ ha) hst hc

theorem run_held {p : Par} {h st : Nat} {D : List Nat} (hc : D.length + 2 ≤ p.cap) : ∀ (acts : List Act) (s : Node),
    Held h st D s.tracker → st ≤ s.now → s.now + waited acts - st < p.life →
    (∀ a ∈ acts, ∀ k ∈ touched a, k ≠ h → k ∈ D) →
    Held h st D (run p s acts).tracker ∧ (run p s acts).now = s.now + waited acts := by
  intro acts
  induction acts with
  | nil => intro s H _ _ _; exact ⟨H, rfl⟩
  | cons a as ih =>
    intro s H hs ht hk
    have hk' : ∀ b ∈ as, ∀ k ∈ touched b, k ≠ h → k ∈ D := fun b hb => hk b (List.mem_cons_of_mem _ hb)
    have ha := hk a List.mem_cons_self
    unfold run
    cases a with
    | submit w api t =>
      have e : waited (.submit w api t :: as) = waited as := rfl
      rw [e] at ht ⊢
      exact ih (step p s (.submit w api t)) (H.submit ha (by omega) hs hc) hs ht hk'
    | query api n gw k =>
      have e : waited (.query api n gw k :: as) = waited as := rfl
      rw [e] at ht ⊢
      exact ih (step p s (.query api n gw k)) (H.query (ha k (by simp [touched])) (by omega)) hs ht hk'
    | get k =>
      have e : waited (.get k :: as) = waited as := rfl
      rw [e] at ht ⊢
      exact ih (step p s (.get k)) (H.get (ha k (by simp [touched]))) hs ht hk'
    | flush =>
      have e : waited (.flush :: as) = waited as := rfl
      rw [e] at ht ⊢
      exact ih (step p s .flush) (H.flush (by omega)) hs ht hk'
    | wait d =>
      have e : waited (.wait d :: as) = d + waited as := rfl
      rw [e] at ht ⊢
      have := ih (step p s (.wait d)) H (by show st ≤ s.now + d; omega) (by show s.now + d + waited as - st < p.life; omega) hk'
      refine ⟨this.1, this.2.trans ?_⟩
      show s.now + d + waited as = _
      omega

/-- Right after an insertion. -/
theorem insert_held {p : Par} {now h n : Nat} {v : Variant} {l : List Entry} (hc : 2 ≤ p.cap)
    (hnew : p.moveOnSet = true ∨ ∀ e ∈ l, e.hash ≠ h) : ∃ e post, insert p now h n v l = e :: post ∧ e = ⟨h, now, n, v⟩ := by
  unfold insert
  have hput : ∀ l' : List Entry, (∀ e ∈ l', e ∈ l) → ∃ post, put p ⟨h, now, n, v⟩ l' = ⟨h, now, n, v⟩ :: post := by
    intro l' hl'
    unfold put
    split
    · rename_i ha
      rcases hnew with hm | hm
      · rw [if_pos hm]; exact ⟨_, rfl⟩
      · obtain ⟨x, hx, hxe⟩ := List.any_eq_true.1 ha
        exact absurd (by simpa using hxe) (hm x (hl' x hx))
    · exact ⟨_, rfl⟩
  have hfl : ∀ e ∈ flush p now l, e ∈ l := fun e he => (List.mem_filter.1 he).1
  unfold cacheSet
  split
  · have hr : ∀ e ∈ makeRoom p.cap (flush p now l), e ∈ l := by
      intro e he
      unfold makeRoom at he
      split at he
      · exact hfl e (List.dropLast_subset _ he)
      · exact hfl e he
    obtain ⟨post, hp⟩ := hput _ hr
    exact ⟨_, post, hp, rfl⟩
  · obtain ⟨post, hp⟩ := hput _ hfl
    rw [hp]
    unfold makeRoom
    split
    · rename_i hl
      cases post with
      | nil => simp at hl; omega
      | cons y ys => exact ⟨_, (y :: ys).dropLast, rfl, rfl⟩
    · exact ⟨_, post, rfl, rfl⟩

end Verif.Submit
