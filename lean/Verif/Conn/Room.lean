import Verif.Conn.Guards
import Verif.Conn.Attack
/-! # Lemmas: making room for a newcomer -/

namespace Verif.Conn

variable {cfg : Cfg}

/-- The candidates of a kind, as the code lists them. -/
def cands (cfg : Cfg) (now : Nat) (b : B) (relayed : Bool) : Peers :=
  if relayed then inboundRelayed cfg now b else inboundDirect cfg now b

theorem makeRoom_eq (now : Nat) (b : B) (a : Addr) :
    makeRoom cfg now b a =
      if cfg.maxInbound (viaRelay a) ≤ (cands cfg now b (viaRelay a)).length then
        evictInbound cfg now b (cands cfg now b (viaRelay a))
      else .ok b := by
  unfold makeRoom cands Cfg.maxInbound
  cases viaRelay a <;> rfl

theorem cands_eq (now : Nat) (b : B) (r : Bool) :
    cands cfg now b r =
      b.peers.filter fun e => e.2.isConnected && e.2.isInbound && (e.2.isRelayed == r) := by
  have key : ∀ q : Nat × Peer → Bool, (∀ e, q e = true → e.2.isConnected = true) →
      (iter cfg now b.peers).filter q = b.peers.filter q := by
    intro q hq
    unfold iter
    rw [List.filter_filter]
    refine List.filter_congr ?_
    intro e _
    cases he : q e with
    | false => rfl
    | true => simp [connected_fresh (hq e he)]
  cases r
  · simp only [cands, inboundDirect, Bool.false_eq_true, if_false]
    rw [key]
    · congr 1; funext e; cases e.2.isRelayed <;> simp
    · intro e he; simp only [Bool.and_eq_true] at he; exact he.1.1
  · simp only [cands, inboundRelayed, if_true]
    rw [key]
    · congr 1; funext e; cases e.2.isRelayed <;> simp
    · intro e he; simp only [Bool.and_eq_true] at he; exact he.1.1

theorem allSome_filterMap {α β : Type} {f : α → Option β} {l : List α} {r : List β}
    (h : allSome (l.map f) = some r) : r = l.filterMap f ∧ r.length = l.length := by
  induction l generalizing r with
  | nil => cases h; exact ⟨rfl, rfl⟩
  | cons x xs ih =>
    cases hf : f x with
    | none => simp [allSome, hf] at h
    | some y =>
      simp only [List.map_cons, hf, allSome, Option.map_eq_some_iff] at h
      obtain ⟨r', h1, rfl⟩ := h
      obtain ⟨e1, e2⟩ := ih h1
      exact ⟨by rw [List.filterMap_cons, hf, ← e1], by simp [e2]⟩

theorem rivals_eq (now : Nat) (b : B) (r : Bool) :
    rivals b.peers r = (cands cfg now b r).filterMap candOf := by
  rw [cands_eq, List.filterMap_filter]
  rfl

theorem grouped_some {b : B} (hg : Grouped b) (hn : (keys b.peers).Nodup) {e : Nat × Peer} (he : e ∈ b.peers)
    (h2 : e.2.isConnected = true) : (candOf e).isSome = true := by
  have g1 := hg _ _ (mem_get hn (i := e.1) (p := e.2) he) h2
  have g2 := since_connected h2
  unfold candOf
  cases hgr : e.2.group with
  | none => rw [hgr] at g1; cases g1
  | some g =>
    cases hs : e.2.since with
    | none => rw [hs] at g2; cases g2
    | some t => rfl

theorem grouped_cand {b : B} (hg : Grouped b) (hn : (keys b.peers).Nodup) (now : Nat) (r : Bool) :
    allSome ((cands cfg now b r).map candOf) = some (rivals b.peers r) ∧
      (rivals b.peers r).length = (cands cfg now b r).length := by
  obtain ⟨cs, hcs⟩ := allSome_map (f := candOf) (l := cands cfg now b r) (by
    intro e he
    rw [cands_eq] at he
    obtain ⟨h1, h2⟩ := List.mem_filter.1 he
    simp only [Bool.and_eq_true] at h2
    exact grouped_some hg hn h1 h2.1.1)
  obtain ⟨e1, e2⟩ := allSome_filterMap hcs
  rw [hcs, rivals_eq (cfg := cfg) now]
  exact ⟨by rw [e1], by rw [← e1, e2]⟩

theorem candOf_id {e : Nat × Peer} {c : Cand} (h : candOf e = some c) : c.id = e.1 := by
  unfold candOf at h
  split at h
  · cases h; rfl
  · cases h

theorem rivals_nodup {ps : Peers} (hn : (keys ps).Nodup) (r : Bool) : ((rivals ps r).map (·.id)).Nodup := by
  unfold rivals
  induction ps with
  | nil => exact List.nodup_nil
  | cons e es ih =>
    simp only [keys, List.map_cons, List.nodup_cons] at hn
    rw [List.filterMap_cons]
    have ih' := ih hn.2
    split
    · exact ih'
    · rename_i c hc
      rw [List.map_cons, List.nodup_cons]
      refine ⟨?_, ih'⟩
      intro hm
      obtain ⟨d, hd, ed⟩ := List.mem_map.1 hm
      obtain ⟨x, hx, ex⟩ := List.mem_filterMap.1 hd
      have c1 : c.id = e.1 := by
        split at hc
        · exact candOf_id hc
        · cases hc
      have c2 : d.id = x.1 := by
        split at ex
        · exact candOf_id ex
        · cases ex
      exact hn.1 (List.mem_map.2 ⟨x, hx, by rw [← c2, ed, c1]⟩)

/-- With more than twelve candidates one is chosen. -/
theorem choose_some {rank : Nat → Nat} {cs : List Cand} (hn : (cs.map (·.id)).Nodup) (h : 12 < cs.length) :
    ∃ c, choose rank cs = some c := by
  have hn1 := without_nodup (ids := guards rank cs) hn
  have hn2 := without_nodup (ids := fastest (without cs (guards rank cs))) hn1
  have l1 := length_without (fun _ => true) hn (guards rank cs)
  have l2 := length_without (fun _ => true) hn1 (fastest (without cs (guards rank cs)))
  have g1 := guards_length rank cs
  have g2 := fastest_length (without cs (guards rank cs))
  have hall : ∀ l : List Cand, l.filter (fun _ => true) = l := fun l => by simp
  rw [hall, hall] at l1 l2
  obtain ⟨x, hx⟩ := List.exists_mem_of_length_pos
    (l := without (without cs (guards rank cs)) (fastest (without cs (guards rank cs)))) (by omega)
  obtain ⟨y, hy, _⟩ := unsettled hn2 hx
  rw [choose_eq]
  exact head_some (List.ne_nil_of_mem hy)

theorem room_spec {b : B} (hg : Grouped b) (hn : (keys b.peers).Nodup) (now : Nat) (a : Addr) :
    (makeRoom cfg now b a = .ok b ∧ (rivals b.peers (viaRelay a)).length < cfg.maxInbound (viaRelay a)) ∨
    (cfg.maxInbound (viaRelay a) ≤ (rivals b.peers (viaRelay a)).length ∧
      choose cfg.rank (rivals b.peers (viaRelay a)) = none ∧ makeRoom cfg now b a = .deny b) ∨
    (cfg.maxInbound (viaRelay a) ≤ (rivals b.peers (viaRelay a)).length ∧
      ∃ c b', choose cfg.rank (rivals b.peers (viaRelay a)) = some c ∧ makeRoom cfg now b a = .ok b' ∧
        b'.queue = b.queue ++ [c.id]) := by
  obtain ⟨h1, h2⟩ := grouped_cand (cfg := cfg) hg hn now (viaRelay a)
  rw [makeRoom_eq]
  split
  · rename_i hle
    right
    unfold evictInbound
    rw [h1]
    simp only
    cases hc : choose cfg.rank (rivals b.peers (viaRelay a)) with
    | none => left; exact ⟨by omega, rfl, rfl⟩
    | some c =>
      right
      obtain ⟨e, he, ee⟩ := List.mem_filterMap.1 (choose_mem hc)
      have hcon : e.2.isConnected = true ∧ candOf e = some c := by
        split at ee
        · rename_i hq
          simp only [Bool.and_eq_true] at hq
          exact ⟨hq.1.1, ee⟩
        · cases ee
      have hget : get b.peers e.1 = some e.2 := mem_get hn he
      obtain ⟨ps, hu⟩ := update_isSome (cfg := cfg) (now := now)
        (f := fun p => { p with link := .disconnecting p.since, evicted := true }) hn hget (connected_fresh hcon.1)
      refine ⟨by omega, c, { peers := ps, queue := b.queue ++ [c.id] }, rfl, ?_, rfl⟩
      simp only
      have hid := candOf_id hcon.2
      rw [← hid] at hu
      unfold evict
      rw [hu]
  · rename_i hle
    left
    exact ⟨rfl, by omega⟩

/-- A newcomer whom the behaviour lets in is connected. -/
theorem accept_step {s : Sys} {i id : Nat} {a : Addr} {b' : B} (hup : s.crashed = false)
    (ha : s.arriving[i]? = some a) (hok : establishedInbound cfg s.now s.b id a = .ok b') :
    step cfg s (.accept i id true) = some
      { s with arriving := s.arriving.eraseIdx i
               b := onEstablished cfg s.now b' id a false
               live := s.live ++ [{ peer := id, addr := a, dialer := false, closing := false }] } := by
  simp only [step, hup, ha, hok]
  rfl

/-- The peers seen in the interval are counted. -/
theorem recent_le {b : B} {now : Nat} {ids : List Nat} (hd : ids.Nodup)
    (h : ∀ i ∈ ids, ∃ p u, get b.peers i = some p ∧ p.isInbound = true ∧ stale cfg now p = false ∧
      p.since = some u ∧ now - cfg.rateInterval ≤ u ∧ u < now) : ids.length ≤ recentCount cfg now b := by
  unfold recentCount
  rw [List.countP_filterMap, List.countP_filter]
  unfold iter
  rw [List.countP_filter, List.countP_eq_length_filter, ← List.length_map (f := fun e : Nat × Peer => e.1)]
  refine List.Nodup.length_le_of_subset hd ?_
  intro i hi
  obtain ⟨p, u, h1, h2, h3, h4, h5⟩ := h i hi
  refine List.mem_map.2 ⟨(i, p), List.mem_filter.2 ⟨get_mem h1, ?_⟩, rfl⟩
  simp [h2, h3, h4, inWindow, h5]

/-- No dial begins while all places are taken by peers not reported as not useful. -/
theorem dial_refused {s : Sys} (hup : s.crashed = false)
    (hfull : cfg.maxOut ≤ (outboundPeers cfg s.now s.b).length) (hroom : evictOutbound cfg s.now s.b = .deny s.b)
    (id : Nat) : (step cfg s (.dial (some id) true)).map (·.dials) = some s.dials := by
  have : pendingOutbound cfg s.now s.b (some id) true = .deny s.b := by
    unfold pendingOutbound
    simp only [Bool.not_true, Bool.false_eq_true, if_false, if_pos hfull, hroom]
    split <;> rfl
  simp only [step, hup, this]
  rfl

end Verif.Conn
