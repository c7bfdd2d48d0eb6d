import Verif.Conn.Evict
/-! # Lemmas on attacks from one network -/

namespace Verif.Conn

theorem honest_exists {cs : List Cand} {evil : Nat → Bool} (h : 0 < honest cs evil) :
    ∃ c ∈ cs, evil c.id = false := by
  unfold honest at h
  obtain ⟨c, hc⟩ := List.exists_mem_of_length_pos h
  have := List.mem_filter.1 hc
  exact ⟨c, this.1, by simpa using this.2⟩

theorem filter_le {α : Type} {p q : α → Bool} {l : List α} (h : ∀ x ∈ l, p x = true → q x = true) :
    (l.filter p).length ≤ (l.filter q).length := by
  induction l with
  | nil => exact Nat.le_refl _
  | cons x xs ih =>
    have := ih (fun y hy => h y (List.mem_cons_of_mem _ hy))
    have hx := h x List.mem_cons_self
    rw [List.filter_cons, List.filter_cons]
    cases hp : p x <;> cases hq : q x <;> simp_all <;> omega

theorem attack_chosen {rank : Nat → Nat} {cs : List Cand} (hn : (cs.map (·.id)).Nodup)
    {evil : Nat → Bool} {g : Nat} (ha : OneNetworkAttack cs evil g) (h12 : 12 < honest cs evil) :
    ∃ c, choose rank cs = some c ∧ evil c.id = false := by
  have hn1 := without_nodup (ids := guards rank cs) hn
  have hn2 := without_nodup (ids := fastest (without cs (guards rank cs))) hn1
  have l1 := length_without (fun c => !evil c.id) hn (guards rank cs)
  have l2 := length_without (fun c => !evil c.id) hn1 (fastest (without cs (guards rank cs)))
  have g1 := guards_length rank cs
  have g2 := fastest_length (without cs (guards rank cs))
  rw [choose_eq]
  have sub2 : ∀ c ∈ without (without cs (guards rank cs)) (fastest (without cs (guards rank cs))),
      c ∈ cs := fun c hc => without_sub (without_sub hc)
  generalize without (without cs (guards rank cs)) (fastest (without cs (guards rank cs))) = c2 at *
  have hpos : 0 < honest c2 evil := by unfold honest at *; omega
  obtain ⟨h, hh, hev⟩ := honest_exists hpos
  obtain ⟨y, hy, hle⟩ := unsettled hn2 hh
  have hyc := sub2 y (without_sub hy)
  have hyev : evil y.id = false := by
    cases e : evil y.id with
    | false => rfl
    | true =>
      have := ha.younger y hyc e h (sub2 h hh) hev
      omega
  obtain ⟨m, hm⟩ := head_some (cs := cs) (List.ne_nil_of_mem hy)
  refine ⟨m, hm, ?_⟩
  obtain ⟨hmem, hall⟩ := head_sorted hm
  have hb := hall y hy
  have hmc := sub2 m (without_sub hmem)
  cases e : evil m.id with
  | false => rfl
  | true =>
    have hg := ha.group m hmc e
    have hlt := ha.larger y hyc hyev
    have hle2 : (cs.filter fun c => evil c.id).length ≤ groupSize cs g :=
      filter_le fun c hc he => by simp [ha.group c hc he]
    simp only [before, Bool.or_eq_true, Bool.and_eq_true, decide_eq_true_eq] at hb
    rw [hg] at hb
    have : groupSize cs y.group = (cs.filter fun c => c.group == y.group).length := rfl
    omega

theorem filter_ne_length {cs : List Cand} (hn : (cs.map (·.id)).Nodup) {c : Cand} (hc : c ∈ cs)
    (p : Cand → Bool) :
    ((cs.filter fun d => d.id != c.id).filter p).length + (if p c = true then 1 else 0) =
      (cs.filter p).length := by
  induction cs with
  | nil => cases hc
  | cons x xs ih =>
    simp only [List.map_cons, List.nodup_cons] at hn
    rcases List.mem_cons.1 hc with rfl | hc'
    · have e : (xs.filter fun d => d.id != c.id) = xs := by
        refine List.filter_eq_self.2 ?_
        intro d hd
        have : d.id ≠ c.id := fun e => hn.1 (e ▸ List.mem_map_of_mem (f := (·.id)) hd)
        simpa using this
      rw [List.filter_cons]
      simp only [bne_self_eq_false, Bool.false_eq_true, if_false]
      rw [e, List.filter_cons]
      cases p c <;> simp
    · have hne : x.id ≠ c.id := fun e => hn.1 (e ▸ List.mem_map_of_mem (f := (·.id)) hc')
      have := ih hn.2 hc'
      rw [List.filter_cons]
      have hb : (x.id != c.id) = true := by simpa using hne
      rw [hb]
      simp only [if_true]
      rw [List.filter_cons, List.filter_cons]
      cases p x
      · simp only [Bool.false_eq_true, if_false]; exact this
      · simp only [if_true, List.length_cons]; omega

theorem siege_attack {rank : Nat → Nat} {evil : Nat → Bool} {g : Nat} (new : List Cand) :
    ∀ (cs : List Cand), (cs.map (·.id) ++ new.map (·.id)).Nodup → OneNetworkAttack cs evil g →
      (∀ n ∈ new, evil n.id = true ∧ n.group = g ∧ ∀ d ∈ cs, evil d.id = false → d.since < n.since) →
      12 + new.length ≤ honest cs evil →
      honest (siege (choose rank) cs new) evil + new.length = honest cs evil := by
  induction new with
  | nil => intro cs _ _ _ _; rfl
  | cons n new ih =>
    intro cs hn ha hnew hlen
    simp only [List.length_cons] at hlen
    have hn1 : (cs.map (·.id)).Nodup := (List.nodup_append.1 hn).1
    obtain ⟨c, hc, hev⟩ := attack_chosen (rank := rank) hn1 ha (by omega)
    have hcm := choose_mem hc
    simp only [siege, hc]
    obtain ⟨hne, hng, hny⟩ := hnew n List.mem_cons_self
    have hg : ∀ d ∈ cs, evil d.id = false → d.group ≠ g := by
      intro d hd he e
      have := ha.larger d hd he
      have hle2 : (cs.filter fun c => evil c.id).length ≤ (cs.filter fun c => c.group == d.group).length :=
        filter_le fun c hc he => by simp [ha.group c hc he, e]
      omega
    have hsub : ∀ d ∈ cs.filter (fun d => d.id != c.id) ++ [n], d ∈ cs ∨ d = n := by
      intro d hd
      rcases List.mem_append.1 hd with h | h
      · exact .inl (List.mem_filter.1 h).1
      · exact .inr (by simpa using h)
    have hon : honest (cs.filter (fun d => d.id != c.id) ++ [n]) evil + 1 = honest cs evil := by
      have := filter_ne_length hn1 hcm (fun c => !evil c.id)
      unfold honest
      rw [List.filter_append, List.length_append]
      simp only [hev, Bool.not_false, if_true] at this
      have e : ([n].filter fun c => !evil c.id) = [] := by simp [hne]
      rw [e]
      simpa using this
    have := ih (cs.filter (fun d => d.id != c.id) ++ [n]) ?_ ?_ ?_ (by omega)
    · simp only [List.length_cons]; omega
    · rw [List.map_append, List.append_assoc]
      refine hn.sublist ?_
      exact ((List.filter_sublist).map _).append (List.Sublist.refl _)
    · refine ⟨?_, ?_, ?_⟩
      · intro d hd he
        rcases hsub d hd with h | rfl
        · exact ha.group d h he
        · exact hng
      · intro d hd he e hd' hh
        rcases hsub e hd' with h2 | rfl
        · rcases hsub d hd with h | rfl
          · exact ha.younger d h he e h2 hh
          · exact hny e h2 hh
        · rw [hne] at hh; cases hh
      · intro d hd he
        rcases hsub d hd with h | rfl
        · have h1 := ha.larger d h he
          have h2 := filter_ne_length hn1 hcm (fun c => evil c.id)
          have h3 := filter_ne_length hn1 hcm (fun c => c.group == d.group)
          have hdg := hg d h he
          rw [List.filter_append, List.filter_append, List.length_append, List.length_append]
          have e1 : ([n].filter fun c => c.group == d.group) = [] := by
            simp [hng, Ne.symm hdg]
          have e2 : ([n].filter fun c => evil c.id) = [n] := by simp [hne]
          rw [e1, e2]
          simp only [hev, Bool.false_eq_true, if_false] at h2
          simp only [List.length_nil, List.length_singleton]
          omega
        · rw [hne] at he; cases he
    · intro k hk
      obtain ⟨k1, k2, k3⟩ := hnew k (List.mem_cons_of_mem _ hk)
      refine ⟨k1, k2, ?_⟩
      intro d hd he
      rcases hsub d hd with h | rfl
      · exact k3 d h he
      · rw [hne] at he; cases he

end Verif.Conn
