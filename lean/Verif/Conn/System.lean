import Verif.Conn.Lemmas
/-! # What every step keeps -/

namespace Verif.Conn

variable {cfg : Cfg}

theorem filter_some {o : Option Peer} {q : Peer → Bool} {p : Peer} :
    o.filter q = some p ↔ o = some p ∧ q p = true := by
  cases o with
  | none => simp
  | some x =>
    simp only [Option.filter, Option.some.injEq]
    split
    · rename_i h
      constructor
      · intro e; cases e; exact ⟨rfl, h⟩
      · rintro ⟨e, _⟩; cases e; rfl
    · rename_i h
      constructor
      · intro e; cases e
      · rintro ⟨e, h2⟩; cases e; exact absurd h2 h

/-- A peer stops being recorded as connected only together with a request to close it. -/
structure Keep (b b' : B) : Prop where
  nd : (keys b'.peers).Nodup
  back : ∀ i p', get b'.peers i = some p' → p'.isConnected = true →
    ∃ p, get b.peers i = some p ∧ p.isConnected = true ∧ p.addr = p'.addr ∧ p.group = p'.group ∧
      p.dir = p'.dir
  fwd : ∀ i p, get b.peers i = some p → p.isConnected = true → i ∉ b'.queue →
    ∃ p', get b'.peers i = some p' ∧ p'.isConnected = true ∧ p'.addr = p.addr
  queue : ∀ i ∈ b.queue, i ∈ b'.queue

theorem keep_refl {b : B} (hn : (keys b.peers).Nodup) : Keep b b :=
  ⟨hn, fun _ p' h1 h2 => ⟨p', h1, h2, rfl, rfl, rfl⟩, fun _ p h1 h2 _ => ⟨p, h1, h2, rfl⟩,
    fun _ h => h⟩

theorem keep_trans {a b c : B} (h1 : Keep a b) (h2 : Keep b c) : Keep a c := by
  refine ⟨h2.nd, ?_, ?_, fun i hi => h2.queue i (h1.queue i hi)⟩
  · intro i p' hg hc
    obtain ⟨q, q1, q2, q3, q4, q5⟩ := h2.back i p' hg hc
    obtain ⟨r, r1, r2, r3, r4, r5⟩ := h1.back i q q1 q2
    exact ⟨r, r1, r2, r3.trans q3, r4.trans q4, r5.trans q5⟩
  · intro i p hg hc hq
    obtain ⟨q, q1, q2, q3⟩ := h1.fwd i p hg hc (fun h => hq (h2.queue i h))
    obtain ⟨r, r1, r2, r3⟩ := h2.fwd i q q1 q2 hq
    exact ⟨r, r1, r2, r3.trans q3⟩

/-- An update of what does not matter for connections. -/
theorem keep_update {b : B} (hn : (keys b.peers).Nodup) {now id : Nat} {f : Peer → Peer} {ps' : Peers}
    (h : update cfg now b.peers id f = some ps')
    (hf : ∀ p, (f p).link = p.link ∧ (f p).addr = p.addr ∧ (f p).group = p.group ∧ (f p).dir = p.dir) :
    Keep b { b with peers := ps' } := by
  have hc : ∀ p, (f p).isConnected = p.isConnected := fun p => by
    unfold Peer.isConnected; rw [(hf p).1]
  refine ⟨keys_update hn h, ?_, ?_, fun _ h => h⟩
  · intro i p' hg hcon
    rw [get_update hn h] at hg
    simp only [Option.map_eq_some_iff] at hg
    obtain ⟨p, hp, e⟩ := hg
    have hp := (filter_some.1 hp).1
    by_cases hi : i = id
    · simp only [hi, if_true] at e
      subst e
      refine ⟨p, hp, (hc p).symm.trans hcon, (hf p).2.1.symm, (hf p).2.2.1.symm, (hf p).2.2.2.symm⟩
    · simp only [hi, if_false] at e
      subst e
      exact ⟨p, hp, hcon, rfl, rfl, rfl⟩
  · intro i p hg hcon _
    by_cases hi : i = id
    · refine ⟨f p, ?_, (hc p).trans hcon, (hf p).2.1⟩
      simp only
      rw [get_update hn h, hg]
      simp [Option.filter, connected_fresh hcon, hi]
    · refine ⟨p, ?_, hcon, rfl⟩
      simp only
      rw [get_update hn h, hg]
      simp [Option.filter, connected_fresh hcon, hi]

/-- A record of a peer that is not connected changes. -/
theorem keep_upsert {b : B} (hn : (keys b.peers).Nodup) {now id : Nat} {f : Peer → Peer} {new : Peer}
    (h1 : ∀ p, p.isConnected = true → f p = p) (h2 : ∀ p, p.isConnected = false → (f p).isConnected = false)
    (h3 : new.isConnected = false) :
    Keep b { b with peers := upsert cfg now b.peers id f new } := by
  refine ⟨keys_upsert hn now id f new, ?_, ?_, fun _ h => h⟩
  · intro i p' hg hcon
    simp only at hg
    rw [get_upsert hn] at hg
    by_cases hi : i = id
    · subst hi
      rw [if_pos rfl] at hg
      cases hq : (get b.peers i).filter (fun p => !stale cfg now p) with
      | none => rw [hq] at hg; cases hg; rw [h3] at hcon; cases hcon
      | some p =>
        rw [hq] at hg
        simp only [Option.some.injEq] at hg
        subst hg
        cases hc : p.isConnected with
        | false => rw [h2 p hc] at hcon; cases hcon
        | true =>
          rw [h1 p hc]
          exact ⟨p, (filter_some.1 hq).1, hc, rfl, rfl, rfl⟩
    · rw [if_neg hi] at hg
      exact ⟨p', (filter_some.1 hg).1, hcon, rfl, rfl, rfl⟩
  · intro i p hg hcon _
    refine ⟨p, ?_, hcon, rfl⟩
    simp only
    rw [get_upsert hn]
    by_cases hi : i = id
    · subst hi
      rw [if_pos rfl, hg]
      simp [Option.filter, connected_fresh hcon, h1 p hcon]
    · rw [if_neg hi, hg]
      simp [Option.filter, connected_fresh hcon]

/-- What an eviction does. -/
structure Evicted (cfg : Cfg) (now : Nat) (b b' : B) (id : Nat) (p : Peer) : Prop where
  was : get b.peers id = some p
  con : p.isConnected = true
  upd : update cfg now b.peers id (fun p =>
      { p with link := .disconnecting p.since, evicted := true }) = some b'.peers
  queue : b'.queue = b.queue ++ [id]

theorem evicted_get {b b' : B} (hn : (keys b.peers).Nodup) {now id : Nat} {p : Peer}
    (h : Evicted cfg now b b' id p) {i : Nat} {p' : Peer} (hg : get b'.peers i = some p') :
    (i = id ∧ p' = { p with link := .disconnecting p.since, evicted := true }) ∨
      (i ≠ id ∧ get b.peers i = some p') := by
  rw [get_update hn h.upd] at hg
  simp only [Option.map_eq_some_iff] at hg
  obtain ⟨q, hq, e⟩ := hg
  have hq := (filter_some.1 hq).1
  by_cases hi : i = id
  · subst hi
    rw [h.was] at hq
    cases hq
    simp only [if_true] at e
    exact .inl ⟨rfl, e.symm⟩
  · simp only [hi, if_false] at e
    subst e
    exact .inr ⟨hi, hq⟩

theorem evicted_keep {b b' : B} (hn : (keys b.peers).Nodup) {now id : Nat} {p : Peer}
    (h : Evicted cfg now b b' id p) : Keep b b' := by
  refine ⟨keys_update hn h.upd, ?_, ?_, ?_⟩
  · intro i p' hg hc
    rcases evicted_get hn h hg with ⟨_, e⟩ | ⟨_, hq⟩
    · subst e; cases hc
    · exact ⟨p', hq, hc, rfl, rfl, rfl⟩
  · intro i q hg hcon hq
    have hi : i ≠ id := by
      intro e
      rw [h.queue] at hq
      exact hq (by simp [e])
    refine ⟨q, ?_, hcon, rfl⟩
    rw [get_update hn h.upd, hg]
    simp [Option.filter, connected_fresh hcon, hi]
  · intro i hi
    rw [h.queue]
    exact List.mem_append_left _ hi

theorem evict_ok {b : B} (hn : (keys b.peers).Nodup) {now id : Nat} {p : Peer}
    (hg : get b.peers id = some p) (hc : p.isConnected = true) :
    ∃ b', evict cfg now b id = .ok b' ∧ Evicted cfg now b b' id p := by
  obtain ⟨ps', h⟩ := update_isSome (cfg := cfg) (now := now) hn
    (f := fun p => { p with link := .disconnecting p.since, evicted := true }) hg (connected_fresh hc)
  refine ⟨{ peers := ps', queue := b.queue ++ [id] }, ?_, hg, hc, h, rfl⟩
  unfold evict
  rw [h]

/-- Connected records carry their network group. -/
def Grouped (b : B) : Prop := ∀ i p, get b.peers i = some p → p.isConnected = true → p.group.isSome = true

theorem allSome_map {α β : Type} {f : α → Option β} {l : List α} (h : ∀ x ∈ l, (f x).isSome = true) :
    ∃ r, allSome (l.map f) = some r := by
  induction l with
  | nil => exact ⟨[], rfl⟩
  | cons x xs ih =>
    obtain ⟨r, hr⟩ := ih (fun y hy => h y (List.mem_cons_of_mem _ hy))
    have hx := h x List.mem_cons_self
    cases hf : f x with
    | none => rw [hf] at hx; cases hx
    | some y => exact ⟨y :: r, by simp [allSome, hf, hr]⟩

theorem allSome_mem {α β : Type} {f : α → Option β} {l : List α} {r : List β}
    (h : allSome (l.map f) = some r) {y : β} (hy : y ∈ r) : ∃ x ∈ l, f x = some y := by
  induction l generalizing r with
  | nil => cases h; cases hy
  | cons x xs ih =>
    rw [List.map_cons] at h
    cases hf : f x with
    | none => rw [hf] at h; cases h
    | some z =>
      rw [hf] at h
      simp only [allSome, Option.map_eq_some_iff] at h
      obtain ⟨r', hr', rfl⟩ := h
      rcases List.mem_cons.1 hy with rfl | hy
      · exact ⟨x, List.mem_cons_self, hf⟩
      · obtain ⟨x', hx', e⟩ := ih hr' hy
        exact ⟨x', List.mem_cons_of_mem _ hx', e⟩

theorem since_connected {p : Peer} (h : p.isConnected = true) : p.since.isSome = true := by
  unfold Peer.isConnected at h
  unfold Peer.since
  split at h
  · rename_i hl; rw [hl]; rfl
  · cases h

/-- Evicting one of a set of connected peers: nobody panics, and it is one of them. -/
theorem evictInbound_spec {b : B} (hn : (keys b.peers).Nodup) (hg : Grouped b) {now : Nat} {cands : Peers}
    (hc : ∀ e ∈ cands, get b.peers e.1 = some e.2 ∧ e.2.isConnected = true) :
    (evictInbound cfg now b cands = .deny b) ∨
      ∃ b' id p, evictInbound cfg now b cands = .ok b' ∧ Evicted cfg now b b' id p ∧ (id, p) ∈ cands := by
  obtain ⟨cs, hcs⟩ := allSome_map (f := candOf) (l := cands) (by
    intro e he
    obtain ⟨h1, h2⟩ := hc e he
    have g1 := hg _ _ h1 h2
    have g2 := since_connected h2
    unfold candOf
    cases hgr : e.2.group with
    | none => rw [hgr] at g1; cases g1
    | some g =>
      cases hs : e.2.since with
      | none => rw [hs] at g2; cases g2
      | some t => rfl)
  unfold evictInbound
  rw [hcs]
  simp only
  cases hch : choose cfg.rank cs with
  | none => exact .inl rfl
  | some c =>
    obtain ⟨⟨i, p⟩, hx, e⟩ := allSome_mem hcs (choose_mem hch)
    have hid : c.id = i := by
      unfold candOf at e
      split at e
      · cases e; rfl
      · cases e
    obtain ⟨h1, h2⟩ := hc _ hx
    obtain ⟨b', hb, hev⟩ := evict_ok (cfg := cfg) (now := now) hn h1 h2
    simp only
    rw [hid]
    exact .inr ⟨b', i, p, hb, hev, hx⟩

theorem mem_iter_filter {b : B} (hn : (keys b.peers).Nodup) {now : Nat} {q : Peer → Bool} {e : Nat × Peer}
    (h : e ∈ (iter cfg now b.peers).filter fun e => q e.2) :
    get b.peers e.1 = some e.2 ∧ q e.2 = true := by
  obtain ⟨h1, h2⟩ := List.mem_filter.1 h
  exact ⟨mem_get hn (List.mem_filter.1 h1).1, h2⟩

/-- Kinds of peers. -/
def isD (p : Peer) : Bool := p.isConnected && p.isInbound && !p.isRelayed
/-- See `isD`. -/
def isR (p : Peer) : Bool := p.isConnected && p.isInbound && p.isRelayed
/-- See `isD`. -/
def isO (p : Peer) : Bool := p.isConnected && p.isOutbound

theorem isD_con {p : Peer} (h : isD p = true) : p.isConnected = true := by
  simp only [isD, Bool.and_eq_true] at h; exact h.1.1
theorem isR_con {p : Peer} (h : isR p = true) : p.isConnected = true := by
  simp only [isR, Bool.and_eq_true] at h; exact h.1.1
theorem isO_con {p : Peer} (h : isO p = true) : p.isConnected = true := by
  simp only [isO, Bool.and_eq_true] at h; exact h.1

theorem direct_length (now : Nat) (b : B) : (inboundDirect cfg now b).length = cnt isD b.peers :=
  cnt_iter (cfg := cfg) (q := isD) (fun _ => isD_con) now b.peers
theorem relayed_length (now : Nat) (b : B) : (inboundRelayed cfg now b).length = cnt isR b.peers :=
  cnt_iter (cfg := cfg) (q := isR) (fun _ => isR_con) now b.peers
theorem outbound_length (now : Nat) (b : B) : (outboundPeers cfg now b).length = cnt isO b.peers :=
  cnt_iter (cfg := cfg) (q := isO) (fun _ => isO_con) now b.peers

/-- The peer evicted to make room is of the kind that arrives. -/
def kind (a : Addr) : Peer → Bool := if viaRelay a then isR else isD

/-- The limit of a kind. -/
def kindMax (cfg : Cfg) (a : Addr) : Nat := if viaRelay a then cfg.maxRelayed else cfg.maxDirect

theorem kind_con {a : Addr} {p : Peer} (h : kind a p = true) : p.isConnected = true := by
  unfold kind at h
  split at h
  · exact isR_con h
  · exact isD_con h

theorem makeRoom_spec {b : B} (hn : (keys b.peers).Nodup) (hg : Grouped b) (now : Nat) (a : Addr) :
    (makeRoom cfg now b a = .deny b) ∨
      (makeRoom cfg now b a = .ok b ∧ cnt (kind a) b.peers < kindMax cfg a) ∨
      ∃ b' id p, makeRoom cfg now b a = .ok b' ∧ Evicted cfg now b b' id p ∧ kind a p = true := by
  unfold makeRoom kind kindMax
  by_cases hr : viaRelay a = true
  · simp only [hr, if_true]
    rw [relayed_length]
    by_cases hm : cfg.maxRelayed ≤ cnt isR b.peers
    · rw [if_pos hm]
      rcases evictInbound_spec (cfg := cfg) (now := now) (cands := inboundRelayed cfg now b) hn hg (by
        intro e he
        have := mem_iter_filter (q := isR) hn he
        exact ⟨this.1, isR_con this.2⟩) with h | ⟨b', id, p, h1, h2, h3⟩
      · exact .inl h
      · exact .inr (.inr ⟨b', id, p, h1, h2, (mem_iter_filter (q := isR) hn h3).2⟩)
    · rw [if_neg hm]
      exact .inr (.inl ⟨rfl, by omega⟩)
  · simp only [hr, Bool.false_eq_true, if_false]
    rw [direct_length]
    by_cases hm : cfg.maxDirect ≤ cnt isD b.peers
    · rw [if_pos hm]
      rcases evictInbound_spec (cfg := cfg) (now := now) (cands := inboundDirect cfg now b) hn hg (by
        intro e he
        have := mem_iter_filter (q := isD) hn he
        exact ⟨this.1, isD_con this.2⟩) with h | ⟨b', id, p, h1, h2, h3⟩
      · exact .inl h
      · exact .inr (.inr ⟨b', id, p, h1, h2, (mem_iter_filter (q := isD) hn h3).2⟩)
    · rw [if_neg hm]
      exact .inr (.inl ⟨rfl, by omega⟩)

theorem maxRank_mem {rank : Nat → Nat} {l : List Nat} {m : Nat} (h : maxRank rank l = some m) : m ∈ l := by
  induction l generalizing m with
  | nil => cases h
  | cons c r ih =>
    simp only [maxRank] at h
    cases hr : maxRank rank r with
    | none => rw [hr] at h; cases h; exact List.mem_cons_self
    | some k =>
      rw [hr] at h
      simp only at h
      split at h
      · cases h; exact List.mem_cons_self
      · cases h; exact List.mem_cons_of_mem _ (ih hr)

theorem evictOutbound_spec {b : B} (hn : (keys b.peers).Nodup) (now : Nat) :
    (evictOutbound cfg now b = .deny b) ∨
      ∃ b' id p, evictOutbound cfg now b = .ok b' ∧ Evicted cfg now b b' id p ∧ isO p = true ∧
        p.useful = false := by
  unfold evictOutbound
  cases hm : maxRank cfg.rank (((outboundPeers cfg now b).filter fun e => !e.2.useful).map (·.1)) with
  | none => exact .inl rfl
  | some id =>
    simp only
    obtain ⟨⟨i, p⟩, he, rfl⟩ := List.mem_map.1 (maxRank_mem hm)
    obtain ⟨h1, h2⟩ := List.mem_filter.1 he
    have h3 := mem_iter_filter (q := isO) hn h1
    obtain ⟨b', hb, hev⟩ := evict_ok (cfg := cfg) (now := now) hn h3.1 (isO_con h3.2)
    exact .inr ⟨b', i, p, hb, hev, h3.2, by simpa using h2⟩

/-! ## The handlers -/

/-- An allowed or denied inbound connection. -/
theorem pendingInbound_spec {b : B} (hn : (keys b.peers).Nodup) (hg : Grouped b) (now : Nat) (a : Addr) :
    (pendingInbound cfg now b a = .deny b) ∨
      ((∃ ip, getIp cfg a = some ip ∧ cfg.whitelist ip = true) ∧
        ((pendingInbound cfg now b a = .ok b) ∨
        ∃ b' id p, pendingInbound cfg now b a = .ok b' ∧ Evicted cfg now b b' id p ∧ kind a p = true)) := by
  unfold pendingInbound
  split
  · exact .inl rfl
  · cases hip : getIp cfg a with
    | none => exact .inl rfl
    | some ip =>
      simp only
      split
      · exact .inl rfl
      · rename_i hw
        split
        · exact .inl rfl
        · split
          · exact .inl rfl
          · rcases makeRoom_spec (cfg := cfg) hn hg now a with h | h | h
            · exact .inl h
            · exact .inr ⟨⟨ip, rfl, by simpa using hw⟩, .inl h.1⟩
            · exact .inr ⟨⟨ip, rfl, by simpa using hw⟩, .inr h⟩

theorem establishedInbound_spec {b : B} (hn : (keys b.peers).Nodup) (hg : Grouped b) (now id : Nat) (a : Addr) :
    (establishedInbound cfg now b id a = .deny b) ∨
      ((∃ ip, getIp cfg a = some ip) ∧ duplicate b id = false ∧ banned now b id = false ∧
        ((establishedInbound cfg now b id a = .ok b ∧ cnt (kind a) b.peers < kindMax cfg a) ∨
        ∃ b' j p, establishedInbound cfg now b id a = .ok b' ∧ Evicted cfg now b b' j p ∧ kind a p = true)) := by
  unfold establishedInbound
  split
  · exact .inl rfl
  · rename_i hip
    split
    · exact .inl rfl
    · rename_i hd
      split
      · exact .inl rfl
      · rename_i hb
        have hip' : ∃ ip, getIp cfg a = some ip := by
          cases h : getIp cfg a with
          | none => rw [h] at hip; simp at hip
          | some ip => exact ⟨ip, rfl⟩
        rcases makeRoom_spec (cfg := cfg) hn hg now a with h | h | h
        · exact .inl h
        · exact .inr ⟨hip', by simpa using hd, by simpa using hb, .inl h⟩
        · exact .inr ⟨hip', by simpa using hd, by simpa using hb, .inr h⟩

theorem establishedOutbound_spec {b : B} (now id : Nat) (a : Addr) :
    (establishedOutbound cfg now b id a = .deny b) ∨
      ((∃ ip, getIp cfg a = some ip) ∧ duplicate b id = false ∧ banned now b id = false ∧
        establishedOutbound cfg now b id a = .ok b) := by
  unfold establishedOutbound
  split
  · exact .inl rfl
  · rename_i hip
    split
    · exact .inl rfl
    · rename_i hd
      split
      · exact .inl rfl
      · rename_i hb
        have hip' : ∃ ip, getIp cfg a = some ip := by
          cases h : getIp cfg a with
          | none => rw [h] at hip; simp at hip
          | some ip => exact ⟨ip, rfl⟩
        exact .inr ⟨hip', by simpa using hd, by simpa using hb, rfl⟩

/-- The record a dial leaves. -/
def dialed (cfg : Cfg) (now : Nat) (b : B) (id : Nat) : B :=
  { b with
    peers := upsert cfg now b.peers id
      (fun p => if p.isConnected then p else { p with link := .dialing })
      (fresh .dialing .outbound none none) }

theorem pendingOutbound_spec {b : B} (hn : (keys b.peers).Nodup) (now : Nat) (peer : Option Nat) (dialer : Bool) :
    (pendingOutbound cfg now b peer dialer = .ok b ∧ (peer = none ∨ dialer = false)) ∨
    ∃ id, peer = some id ∧ dialer = true ∧
      ((pendingOutbound cfg now b peer dialer = .deny b) ∨
      (banned now b id = false ∧
      ((pendingOutbound cfg now b peer dialer = .ok (dialed cfg now b id) ∧ cnt isO b.peers < cfg.maxOut) ∨
        ∃ b' j p, pendingOutbound cfg now b peer dialer = .ok (dialed cfg now b' id) ∧
          Evicted cfg now b b' j p ∧ isO p = true ∧ p.useful = false))) := by
  unfold pendingOutbound
  cases peer with
  | none => exact .inl ⟨rfl, .inl rfl⟩
  | some id =>
    cases dialer with
    | false => exact .inl ⟨rfl, .inr rfl⟩
    | true =>
      refine .inr ⟨id, rfl, rfl, ?_⟩
      simp only [Bool.not_true, Bool.false_eq_true, if_false]
      by_cases hb : banned now b id = true
      · rw [if_pos hb]; exact .inl rfl
      · rw [if_neg hb, outbound_length]
        by_cases hm : cfg.maxOut ≤ cnt isO b.peers
        · rw [if_pos hm]
          rcases evictOutbound_spec (cfg := cfg) hn now with h | ⟨b', j, p, h, h2, h3, h4⟩
          · rw [h]; exact .inl rfl
          · rw [h]
            exact .inr ⟨by simpa using hb, .inr ⟨b', j, p, rfl, h2, h3, h4⟩⟩
        · rw [if_neg hm]
          exact .inr ⟨by simpa using hb, .inl ⟨rfl, by omega⟩⟩

theorem dialed_keep {b : B} (hn : (keys b.peers).Nodup) (now id : Nat) : Keep b (dialed cfg now b id) :=
  keep_upsert hn (fun p h => by simp [h]) (fun p h => by rw [if_neg (by simp [h])]; rfl) rfl

theorem dialFailure_keep {b : B} (hn : (keys b.peers).Nodup) (now : Nat) (peer : Option Nat) :
    Keep b (onDialFailure cfg now b peer) := by
  cases peer with
  | none => exact keep_refl hn
  | some id =>
    exact keep_upsert hn (fun p h => by simp [h]) (fun p h => by rw [if_neg (by simp [h])]; rfl) rfl

/-! ## The invariant -/

/-- What holds in every history. -/
structure Inv (s : Sys) : Prop where
  nd : (keys s.b.peers).Nodup
  grp : Grouped s.b
  conn : ∀ c ∈ s.live, c.closing = false → c.peer ∉ s.b.queue →
    ∃ p, get s.b.peers c.peer = some p ∧ p.isConnected = true ∧ p.addr = some c.addr
  uniq : s.live.Pairwise fun c d =>
    c.peer = d.peer → c.closing = true ∨ d.closing = true ∨ c.peer ∈ s.b.queue

theorem keep_grouped {b b' : B} (h : Keep b b') (hg : Grouped b) : Grouped b' := by
  intro i p' h1 h2
  obtain ⟨p, p1, p2, _, p4, _⟩ := h.back i p' h1 h2
  rw [← p4]
  exact hg i p p1 p2

theorem inv_keep {s s' : Sys} (hi : Inv s) (h : Keep s.b s'.b) (hl : s'.live = s.live) : Inv s' := by
  refine ⟨h.nd, keep_grouped h hi.grp, ?_, ?_⟩
  · intro c hc hcl hq
    rw [hl] at hc
    obtain ⟨p, p1, p2, p3⟩ := hi.conn c hc hcl (fun h' => hq (h.queue _ h'))
    obtain ⟨p', q1, q2, q3⟩ := h.fwd _ p p1 p2 hq
    exact ⟨p', q1, q2, q3.trans p3⟩
  · rw [hl]
    refine hi.uniq.imp ?_
    intro c d hcd e
    rcases hcd e with h1 | h1 | h1
    · exact .inl h1
    · exact .inr (.inl h1)
    · exact .inr (.inr (h.queue _ h1))

theorem established_get {b : B} (hn : (keys b.peers).Nodup) {now id : Nat} {a : Addr} {dialer : Bool} {ip : Nat}
    (hip : getIp cfg a = some ip) (i : Nat) :
    get (onEstablished cfg now b id a dialer).peers i =
      if i = id then some (match (get b.peers id).filter (fun p => !stale cfg now p) with
        | some p => { p with link := .connected now, addr := some a, group := some (cfg.group ip) }
        | none => fresh (.connected now) (if dialer then .outbound else .inbound) (some a)
            (some (cfg.group ip)))
      else (get b.peers i).filter fun p => !stale cfg now p := by
  unfold onEstablished
  simp only [hip]
  exact get_upsert hn now id _ _ i

theorem established_queue {b : B} {now id : Nat} {a : Addr} {dialer : Bool} {ip : Nat}
    (hip : getIp cfg a = some ip) : (onEstablished cfg now b id a dialer).queue = b.queue := by
  unfold onEstablished
  simp only [hip]

theorem established_nd {b : B} (hn : (keys b.peers).Nodup) {now id : Nat} {a : Addr} {dialer : Bool} {ip : Nat}
    (hip : getIp cfg a = some ip) : (keys (onEstablished cfg now b id a dialer).peers).Nodup := by
  unfold onEstablished
  simp only [hip]
  exact keys_upsert hn now id _ _

/-- The record of the peer just connected. -/
theorem established_self {b : B} (hn : (keys b.peers).Nodup) {now id : Nat} {a : Addr} {dialer : Bool} {ip : Nat}
    (hip : getIp cfg a = some ip) :
    ∃ p, get (onEstablished cfg now b id a dialer).peers id = some p ∧ p.isConnected = true ∧
      p.addr = some a ∧ p.group = some (cfg.group ip) := by
  rw [established_get hn hip, if_pos rfl]
  cases (get b.peers id).filter (fun p => !stale cfg now p) with
  | none => exact ⟨_, rfl, rfl, rfl, rfl⟩
  | some p => exact ⟨_, rfl, rfl, rfl, rfl⟩

theorem duplicate_false {b : B} {id : Nat} (h : duplicate b id = false) :
    ∀ p, get b.peers id = some p → p.isConnected = false := by
  intro p hp
  unfold duplicate at h
  rw [hp] at h
  simpa using h

theorem keep_duplicate {b b' : B} (h : Keep b b') {id : Nat} (hd : duplicate b id = false) :
    duplicate b' id = false := by
  unfold duplicate
  cases hg : get b'.peers id with
  | none => rfl
  | some p' =>
    cases hc : p'.isConnected with
    | false => simp [hc]
    | true =>
      obtain ⟨p, p1, p2, _⟩ := h.back id p' hg hc
      rw [duplicate_false hd p p1] at p2
      cases p2

theorem inv_establish {s s' : Sys} (hi : Inv s) {id : Nat} {a : Addr} {dialer : Bool} {ip : Nat}
    (hip : getIp cfg a = some ip) (hd : duplicate s.b id = false)
    (hb : s'.b = onEstablished cfg s.now s.b id a dialer)
    (hl : s'.live = s.live ++ [{ peer := id, addr := a, dialer := dialer, closing := false }]) :
    Inv s' := by
  have hq : s'.b.queue = s.b.queue := by rw [hb]; exact established_queue hip
  refine ⟨by rw [hb]; exact established_nd hi.nd hip, ?_, ?_, ?_⟩
  · intro i p h1 h2
    rw [hb] at h1
    by_cases e : i = id
    · subst e
      obtain ⟨q, q1, _, _, q4⟩ := established_self (cfg := cfg) hi.nd (now := s.now) (dialer := dialer) (id := i) hip
      rw [q1] at h1
      cases h1
      rw [q4]; rfl
    · rw [established_get hi.nd hip, if_neg e] at h1
      exact hi.grp i p (filter_some.1 h1).1 h2
  · intro c hc hcl hcq
    rw [hq] at hcq
    rw [hl] at hc
    rw [hb]
    rcases List.mem_append.1 hc with hc | hc
    · obtain ⟨p, p1, p2, p3⟩ := hi.conn c hc hcl hcq
      have e : c.peer ≠ id := by
        intro e
        rw [e] at p1
        rw [duplicate_false hd p p1] at p2
        cases p2
      refine ⟨p, ?_, p2, p3⟩
      rw [established_get hi.nd hip, if_neg e, p1]
      simp [Option.filter, connected_fresh p2]
    · have : c = { peer := id, addr := a, dialer := dialer, closing := false } := by simpa using hc
      subst this
      obtain ⟨q, q1, q2, q3, _⟩ := established_self (cfg := cfg) hi.nd (now := s.now) (dialer := dialer) (id := id) hip
      exact ⟨q, q1, q2, q3⟩
  · rw [hl, hq]
    refine List.pairwise_append.2 ⟨hi.uniq, by simp, ?_⟩
    intro c hc d hd' e
    have : d = { peer := id, addr := a, dialer := dialer, closing := false } := by simpa using hd'
    subst this
    simp only at e
    cases hcl : c.closing with
    | true => exact .inl rfl
    | false =>
      by_cases hcq : c.peer ∈ s.b.queue
      · exact .inr (.inr hcq)
      · obtain ⟨p, p1, p2, _⟩ := hi.conn c hc hcl hcq
        rw [e] at p1
        rw [duplicate_false hd p p1] at p2
        cases p2

theorem inv_closeAll {s s' : Sys} (hi : Inv s) {id : Nat} (hp : s'.b.peers = s.b.peers)
    (hq : ∀ i ∈ s.b.queue, i ∈ s'.b.queue ∨ i = id)
    (hl : s'.live = closeAll s.live id) : Inv s' := by
  refine ⟨by rw [hp]; exact hi.nd, ?_, ?_, ?_⟩
  · intro i p h1 h2
    rw [hp] at h1
    exact hi.grp i p h1 h2
  · intro c hc hcl hcq
    rw [hl] at hc
    obtain ⟨d, hd, e⟩ := List.mem_map.1 hc
    rw [hp]
    by_cases h : d.peer = id
    · rw [if_pos h] at e
      subst e
      cases hcl
    · rw [if_neg h] at e
      subst e
      refine hi.conn d hd hcl ?_
      intro h2
      rcases hq _ h2 with h3 | h3
      · exact hcq h3
      · exact h h3
  · rw [hl]
    unfold closeAll
    rw [List.pairwise_map]
    refine hi.uniq.imp ?_
    intro c d hcd e
    by_cases h1 : c.peer = id
    · left; simp [h1]
    · by_cases h2 : d.peer = id
      · right; left; simp [h2]
      · simp only [h1, h2, if_false] at e ⊢
        rcases hcd e with h3 | h3 | h3
        · exact .inl h3
        · exact .inr (.inl h3)
        · rcases hq _ h3 with h4 | h4
          · exact .inr (.inr h4)
          · exact absurd h4 h1

theorem closed_spec {b b' : B} {now id rem : Nat} (h : onClosed cfg now b id rem = some b') :
    (rem ≠ 0 ∧ b' = b) ∨ (rem = 0 ∧ b'.queue = b.queue ∧
      update cfg now b.peers id (fun p => { p with link := .disconnected p.since now }) = some b'.peers) := by
  unfold onClosed at h
  split at h
  · rename_i h0
    simp only [Option.map_eq_some_iff] at h
    obtain ⟨ps, h1, rfl⟩ := h
    exact .inr ⟨h0, rfl, h1⟩
  · rename_i h0
    cases h
    exact .inl ⟨h0, rfl⟩

theorem inv_closed {s s' : Sys} (hi : Inv s) {i : Nat} {c : Conn} {b' : B}
    (hl : s'.live = s.live.eraseIdx i)
    (h : onClosed cfg s.now s.b c.peer ((s.live.eraseIdx i).countP fun d => d.peer == c.peer) = some b')
    (hb : s'.b = b') : Inv s' := by
  have hsub := List.eraseIdx_sublist s.live i
  rcases closed_spec h with ⟨_, e⟩ | ⟨h0, hq, hu⟩
  · rw [e] at hb
    refine ⟨by rw [hb]; exact hi.nd, by rw [hb]; exact hi.grp, ?_, ?_⟩
    · intro d hd
      rw [hl] at hd
      rw [hb]
      exact hi.conn d (hsub.subset hd)
    · rw [hl, hb]
      exact hi.uniq.sublist hsub
  · refine ⟨by rw [hb]; exact keys_update hi.nd hu, ?_, ?_, ?_⟩
    · intro j p h1 h2
      rw [hb, get_update hi.nd hu] at h1
      simp only [Option.map_eq_some_iff] at h1
      obtain ⟨q, hq1, e⟩ := h1
      by_cases hj : j = c.peer
      · simp only [hj, if_true] at e
        subst e
        cases h2
      · simp only [hj, if_false] at e
        subst e
        exact hi.grp j q (filter_some.1 hq1).1 h2
    · intro d hd hcl hdq
      rw [hl] at hd
      rw [hb, hq] at hdq
      obtain ⟨p, p1, p2, p3⟩ := hi.conn d (hsub.subset hd) hcl hdq
      have hne : d.peer ≠ c.peer := by
        intro e
        have := List.countP_eq_zero.1 h0 d hd
        simp [e] at this
      refine ⟨p, ?_, p2, p3⟩
      rw [hb, get_update hi.nd hu, p1]
      simp [Option.filter, connected_fresh p2, hne]
    · rw [hl, hb, hq]
      exact hi.uniq.sublist hsub

theorem isPerm_perm {a b : Peers} (h : a.isPerm b = true) : a.Perm b := List.isPerm_iff.1 h

theorem shuffle_keep {b : B} (hn : (keys b.peers).Nodup) {ps : Peers} (h : ps.Perm b.peers) :
    Keep b { b with peers := ps } := by
  have hg := get_perm hn h
  refine ⟨((h.map _).nodup_iff).2 hn, ?_, ?_, fun _ h => h⟩
  · intro i p' h1 h2
    simp only at h1
    rw [hg] at h1
    exact ⟨p', h1, h2, rfl, rfl, rfl⟩
  · intro i p h1 h2 _
    refine ⟨p, ?_, h2, rfl⟩
    simp only
    rw [hg]
    exact h1

theorem ping_keep {b b' : B} (hn : (keys b.peers).Nodup) {now id d : Nat} (h : onPing cfg now b id d = some b') :
    Keep b b' := by
  unfold onPing at h
  simp only [Option.map_eq_some_iff] at h
  obtain ⟨ps, h1, rfl⟩ := h
  exact keep_update hn h1 (fun p => ⟨rfl, rfl, rfl, rfl⟩)

theorem notUseful_keep {b b' : B} (hn : (keys b.peers).Nodup) {now id : Nat}
    (h : onNotUseful cfg now b id = some b') : Keep b b' := by
  unfold onNotUseful at h
  simp only [Option.map_eq_some_iff] at h
  obtain ⟨ps, h1, rfl⟩ := h
  exact keep_update hn h1 (fun p => ⟨rfl, rfl, rfl, rfl⟩)

/-- Every step, seen from outside the handlers. -/
inductive Seen (cfg : Cfg) (s : Sys) : Act → Sys → Prop where
  | crash (a id f) (h : update cfg s.now s.b.peers id f = none)
    (hw : a = .notUseful id ∨ ∃ c ∈ s.live, c.peer = id) : Seen cfg s a s.crash
  | tick (d) : Seen cfg s (.tick d) { s with now := s.now + d }
  | shuffle (ps) (h : ps.Perm s.b.peers) : Seen cfg s (.shuffle ps) (s.setB { s.b with peers := ps })
  | arriveDeny (a) : Seen cfg s (.arrive a) (s.setB s.b)
  | arriveOk (a) (ip) (h1 : getIp cfg a = some ip) (h2 : cfg.whitelist ip = true) :
    Seen cfg s (.arrive a) { s with b := s.b, arriving := s.arriving ++ [a] }
  | arriveEvict (a) (ip) (h1 : getIp cfg a = some ip) (h2 : cfg.whitelist ip = true)
    (b' j p) (h3 : Evicted cfg s.now s.b b' j p) (h4 : kind a p = true) :
    Seen cfg s (.arrive a) { s with b := b', arriving := s.arriving ++ [a] }
  | acceptDeny (i id inner a) (h : s.arriving[i]? = some a) :
    Seen cfg s (.accept i id inner) { s with b := s.b, arriving := s.arriving.eraseIdx i }
  | acceptRoom (i id a b' j p) (h : s.arriving[i]? = some a) (h3 : Evicted cfg s.now s.b b' j p)
    (h4 : kind a p = true) :
    Seen cfg s (.accept i id false) { s with b := b', arriving := s.arriving.eraseIdx i }
  | acceptOk (i id a ip) (h : s.arriving[i]? = some a) (hip : getIp cfg a = some ip)
    (hd : duplicate s.b id = false) (hb : banned s.now s.b id = false)
    (hc : cnt (kind a) s.b.peers < kindMax cfg a) :
    Seen cfg s (.accept i id true)
      { s with arriving := s.arriving.eraseIdx i
               b := onEstablished cfg s.now s.b id a false
               live := s.live ++ [{ peer := id, addr := a, dialer := false, closing := false }] }
  | acceptEvict (i id a ip b' j p) (h : s.arriving[i]? = some a) (hip : getIp cfg a = some ip)
    (hd : duplicate s.b id = false) (hb : banned s.now s.b id = false)
    (h3 : Evicted cfg s.now s.b b' j p) (h4 : kind a p = true) :
    Seen cfg s (.accept i id true)
      { s with arriving := s.arriving.eraseIdx i
               b := onEstablished cfg s.now b' id a false
               live := s.live ++ [{ peer := id, addr := a, dialer := false, closing := false }] }
  | lost (i) : Seen cfg s (.lost i) { s with arriving := s.arriving.eraseIdx i }
  | dialFree (peer dialer) (h : peer = none ∨ dialer = false) :
    Seen cfg s (.dial peer dialer) { s with b := s.b, dials := s.dials ++ [peer] }
  | dialDeny (id) :
    Seen cfg s (.dial (some id) true) (s.setB (onDialFailure cfg s.now s.b (some id)))
  | dialOk (id) (hb : banned s.now s.b id = false) (hc : cnt isO s.b.peers < cfg.maxOut) :
    Seen cfg s (.dial (some id) true)
      { s with b := dialed cfg s.now s.b id, dials := s.dials ++ [some id] }
  | dialEvict (id b' j p) (hb : banned s.now s.b id = false) (h3 : Evicted cfg s.now s.b b' j p)
    (h4 : isO p = true) (h5 : p.useful = false) :
    Seen cfg s (.dial (some id) true)
      { s with b := dialed cfg s.now b' id, dials := s.dials ++ [some id] }
  | reachFail (i id a inner peer) (h : s.dials[i]? = some peer) (hp : peer = none ∨ peer = some id) :
    Seen cfg s (.reach i id a inner)
      { s with b := onDialFailure cfg s.now s.b (some id), dials := s.dials.eraseIdx i }
  | reachOk (i id a ip peer) (h : s.dials[i]? = some peer) (hp : peer = none ∨ peer = some id)
    (hip : getIp cfg a = some ip) (hd : duplicate s.b id = false) (hb : banned s.now s.b id = false) :
    Seen cfg s (.reach i id a true)
      { s with dials := s.dials.eraseIdx i
               b := onEstablished cfg s.now s.b id a true
               live := s.live ++ [{ peer := id, addr := a, dialer := true, closing := false }] }
  | fail (i peer) (h : s.dials[i]? = some peer) :
    Seen cfg s (.fail i) { s with dials := s.dials.eraseIdx i, b := onDialFailure cfg s.now s.b peer }
  | poll (id q) (h : s.b.queue = id :: q) :
    Seen cfg s .poll { s with b := { s.b with queue := q }, live := closeAll s.live id }
  | disconnect (id) : Seen cfg s (.disconnect id) { s with live := closeAll s.live id }
  | close (i c b') (h : s.live[i]? = some c)
    (hc : onClosed cfg s.now s.b c.peer ((s.live.eraseIdx i).countP fun d => d.peer == c.peer) = some b') :
    Seen cfg s (.close i) { s with b := b', live := s.live.eraseIdx i }
  | ping (i d c b') (h : s.live[i]? = some c) (hp : onPing cfg s.now s.b c.peer d = some b') :
    Seen cfg s (.ping i d) (s.setB b')
  | notUseful (id b') (h : onNotUseful cfg s.now s.b id = some b') :
    Seen cfg s (.notUseful id) (s.setB b')

theorem seen {s s' : Sys} {a : Act} (hn : (keys s.b.peers).Nodup) (hg : Grouped s.b)
    (h : step cfg s a = some s') : Seen cfg s a s' := by
  unfold step at h
  split at h
  · cases h
  · cases a with
    | tick d => cases h; exact .tick d
    | shuffle ps =>
      simp only at h
      split at h
      · rename_i hp; cases h; exact .shuffle ps (isPerm_perm hp)
      · cases h
    | arrive a =>
      simp only at h
      rcases pendingInbound_spec (cfg := cfg) hn hg s.now a with e | ⟨⟨ip, h1, h2⟩, e | ⟨b', j, p, e, h3, h4⟩⟩
      · rw [e] at h; cases h; exact .arriveDeny a
      · rw [e] at h; cases h; exact .arriveOk a ip h1 h2
      · rw [e] at h; cases h; exact .arriveEvict a ip h1 h2 b' j p h3 h4
    | accept i id inner =>
      simp only at h
      cases ha : s.arriving[i]? with
      | none => rw [ha] at h; cases h
      | some a =>
        rw [ha] at h
        simp only at h
        rcases establishedInbound_spec (cfg := cfg) hn hg s.now id a with
          e | ⟨⟨ip, h1⟩, h2, h3, ⟨e, h4⟩ | ⟨b', j, p, e, h4, h5⟩⟩
        · rw [e] at h; cases h; exact .acceptDeny i id inner a ha
        · rw [e] at h
          cases inner with
          | true => cases h; exact .acceptOk i id a ip ha h1 h2 h3 h4
          | false => cases h; exact .acceptDeny i id false a ha
        · rw [e] at h
          cases inner with
          | true => cases h; exact .acceptEvict i id a ip b' j p ha h1 h2 h3 h4 h5
          | false => cases h; exact .acceptRoom i id a b' j p ha h4 h5
    | lost i =>
      simp only at h
      split at h
      · cases h; exact .lost i
      · cases h
    | dial peer dialer =>
      simp only at h
      rcases pendingOutbound_spec (cfg := cfg) hn s.now peer dialer with
        ⟨e, h1⟩ | ⟨id, h1, h2, e | ⟨hb, ⟨e, h4⟩ | ⟨b', j, p, e, h4, h5, h6⟩⟩⟩
      · rw [e] at h; cases h; exact .dialFree peer dialer h1
      · subst h1 h2; rw [e] at h; cases h; exact .dialDeny id
      · subst h1 h2; rw [e] at h; cases h; exact .dialOk id hb h4
      · subst h1 h2; rw [e] at h; cases h; exact .dialEvict id b' j p hb h4 h5 h6
    | reach i id a inner =>
      simp only at h
      cases ha : s.dials[i]? with
      | none => rw [ha] at h; cases h
      | some peer =>
        rw [ha] at h
        simp only at h
        split at h
        · cases h
        · rename_i hp
          have hp' : peer = none ∨ peer = some id := by
            cases peer with
            | none => exact .inl rfl
            | some k => right; simpa using hp
          rcases establishedOutbound_spec (cfg := cfg) (b := s.b) s.now id a with
            e | ⟨⟨ip, h1⟩, h2, h3, e⟩
          · rw [e] at h; cases h; exact .reachFail i id a inner peer ha hp'
          · rw [e] at h
            cases inner with
            | true => cases h; exact .reachOk i id a ip peer ha hp' h1 h2 h3
            | false => cases h; exact .reachFail i id a false peer ha hp'
    | fail i =>
      simp only at h
      cases ha : s.dials[i]? with
      | none => rw [ha] at h; cases h
      | some peer => rw [ha] at h; cases h; exact .fail i peer ha
    | poll =>
      simp only at h
      cases hq : s.b.queue with
      | nil => rw [hq] at h; cases h
      | cons id q => rw [hq] at h; cases h; exact .poll id q hq
    | disconnect id => cases h; exact .disconnect id
    | close i =>
      simp only at h
      cases ha : s.live[i]? with
      | none => rw [ha] at h; cases h
      | some c =>
        rw [ha] at h
        simp only at h
        cases hc : onClosed cfg s.now s.b c.peer ((s.live.eraseIdx i).countP fun d => d.peer == c.peer) with
        | none =>
          rw [hc] at h; cases h
          unfold onClosed at hc
          split at hc
          · exact .crash _ c.peer _ (by simpa using hc) (.inr ⟨c, List.mem_of_getElem? ha, rfl⟩)
          · cases hc
        | some b' => rw [hc] at h; cases h; exact .close i c b' ha hc
    | ping i d =>
      simp only at h
      cases ha : s.live[i]? with
      | none => rw [ha] at h; cases h
      | some c =>
        rw [ha] at h
        simp only at h
        cases hc : onPing cfg s.now s.b c.peer d with
        | none =>
          rw [hc] at h; cases h
          unfold onPing at hc
          exact .crash _ c.peer _ (by simpa using hc) (.inr ⟨c, List.mem_of_getElem? ha, rfl⟩)
        | some b' => rw [hc] at h; cases h; exact .ping i d c b' ha hc
    | notUseful id =>
      simp only at h
      cases hc : onNotUseful cfg s.now s.b id with
      | none =>
        rw [hc] at h; cases h
        unfold onNotUseful at hc
        exact .crash _ id _ (by simpa using hc) (.inl rfl)
      | some b' => rw [hc] at h; cases h; exact .notUseful id b' hc

theorem inv_same {s s' : Sys} (hi : Inv s) (hb : s'.b = s.b) (hl : s'.live = s.live) : Inv s' :=
  inv_keep hi (by rw [hb]; exact keep_refl hi.nd) hl

theorem inv_seen {s s' : Sys} {a : Act} (hi : Inv s) (h : Seen cfg s a s') : Inv s' := by
  cases h with
  | crash => exact inv_same hi rfl rfl
  | tick => exact inv_same hi rfl rfl
  | shuffle ps hp => exact inv_keep hi (shuffle_keep hi.nd hp) rfl
  | arriveDeny => exact inv_same hi rfl rfl
  | arriveOk => exact inv_same hi rfl rfl
  | arriveEvict a ip h1 h2 b' j p h3 => exact inv_keep hi (evicted_keep hi.nd h3) rfl
  | acceptDeny => exact inv_same hi rfl rfl
  | acceptRoom i id a b' j p h h3 => exact inv_keep hi (evicted_keep hi.nd h3) rfl
  | acceptOk i id a ip h hip hd => exact inv_establish hi hip hd rfl rfl
  | acceptEvict i id a ip b' j p h hip hd hb h3 =>
    have hk := evicted_keep hi.nd h3
    exact inv_establish (s := { s with b := b' }) (inv_keep hi hk rfl) hip (keep_duplicate hk hd) rfl rfl
  | lost => exact inv_same hi rfl rfl
  | dialFree => exact inv_same hi rfl rfl
  | dialDeny id => exact inv_keep hi (dialFailure_keep (cfg := cfg) hi.nd s.now (some id)) rfl
  | dialOk id => exact inv_keep hi (dialed_keep hi.nd _ _) rfl
  | dialEvict id b' j p hb h3 =>
    have hk := evicted_keep hi.nd h3
    exact inv_keep hi (keep_trans hk (dialed_keep hk.nd _ _)) rfl
  | reachFail i id => exact inv_keep hi (dialFailure_keep (cfg := cfg) hi.nd s.now (some id)) rfl
  | reachOk i id a ip peer h hp hip hd => exact inv_establish hi hip hd rfl rfl
  | fail i peer => exact inv_keep hi (dialFailure_keep (cfg := cfg) hi.nd s.now peer) rfl
  | poll id q h =>
    refine inv_closeAll hi (id := id) rfl ?_ rfl
    intro i hi'
    rw [h] at hi'
    rcases List.mem_cons.1 hi' with h' | h'
    · exact .inr h'
    · exact .inl h'
  | disconnect id => exact inv_closeAll hi (id := id) rfl (fun i h => .inl h) rfl
  | close i c b' h hc => exact inv_closed hi rfl hc rfl
  | ping i d c b' h hp => exact inv_keep hi (ping_keep hi.nd hp) rfl
  | notUseful id b' h => exact inv_keep hi (notUseful_keep hi.nd h) rfl

theorem inv_start (t : Nat) : Inv (start t) :=
  ⟨List.nodup_nil, (by intro i p h; cases h), (by intro c h; cases h), List.Pairwise.nil⟩

/-- Induction over a history, with the invariant at hand. -/
theorem run_induct {P : Sys → Prop} (hstep : ∀ s a s', Inv s → P s → Seen cfg s a s' → P s')
    {acts : List Act} : ∀ {s s' : Sys}, Inv s → P s → run cfg s acts = some s' → Inv s' ∧ P s' := by
  induction acts with
  | nil => intro s s' hi hp h; cases h; exact ⟨hi, hp⟩
  | cons a r ih =>
    intro s s' hi hp h
    simp only [run, Option.bind_eq_some_iff] at h
    obtain ⟨s1, h1, h2⟩ := h
    have hs := seen hi.nd hi.grp h1
    exact ih (inv_seen hi hs) (hstep s a s1 hi hp hs) h2

/-- The same for histories whose actions satisfy a condition. -/
theorem run_induct' {P : Sys → Prop} {Q : Act → Prop}
    (hstep : ∀ s a s', Inv s → P s → Q a → Seen cfg s a s' → P s') {acts : List Act} :
    ∀ {s s' : Sys}, Inv s → P s → (∀ a ∈ acts, Q a) → run cfg s acts = some s' → Inv s' ∧ P s' := by
  induction acts with
  | nil => intro s s' hi hp _ h; cases h; exact ⟨hi, hp⟩
  | cons a r ih =>
    intro s s' hi hp hq h
    simp only [run, Option.bind_eq_some_iff] at h
    obtain ⟨s1, h1, h2⟩ := h
    have hs := seen hi.nd hi.grp h1
    exact ih (inv_seen hi hs) (hstep s a s1 hi hp (hq a List.mem_cons_self) hs)
      (fun b hb => hq b (List.mem_cons_of_mem _ hb)) h2

end Verif.Conn
