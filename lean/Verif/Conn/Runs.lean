import Verif.Conn.System
/-! # Lemmas on histories -/

namespace Verif.Conn

variable {cfg : Cfg}

/-- Connected records are old ones. -/
def Back (b b' : B) : Prop :=
  ∀ i p', get b'.peers i = some p' → p'.isConnected = true →
    ∃ p, get b.peers i = some p ∧ p.isConnected = true ∧ p.addr = p'.addr ∧ p.dir = p'.dir

theorem keep_back {b b' : B} (h : Keep b b') : Back b b' := by
  intro i p' h1 h2
  obtain ⟨p, p1, p2, p3, _, p5⟩ := h.back i p' h1 h2
  exact ⟨p, p1, p2, p3, p5⟩

theorem closed_nd {b b' : B} (hn : (keys b.peers).Nodup) {now id rem : Nat}
    (h : onClosed cfg now b id rem = some b') : (keys b'.peers).Nodup := by
  rcases closed_spec h with ⟨_, e⟩ | ⟨_, _, hu⟩
  · rw [e]; exact hn
  · exact keys_update hn hu

theorem closed_back {b b' : B} (hn : (keys b.peers).Nodup) {now id rem : Nat}
    (h : onClosed cfg now b id rem = some b') : Back b b' := by
  intro i p' h1 h2
  rcases closed_spec h with ⟨_, e⟩ | ⟨_, _, hu⟩
  · rw [e] at h1; exact ⟨p', h1, h2, rfl, rfl⟩
  · rw [get_update hn hu] at h1
    simp only [Option.map_eq_some_iff] at h1
    obtain ⟨q, hq, e⟩ := h1
    by_cases hi : i = id
    · simp only [hi, if_true] at e
      subst e
      cases h2
    · simp only [hi, if_false] at e
      subst e
      exact ⟨q, (filter_some.1 hq).1, h2, rfl, rfl⟩

/-- A kind of connected peer told from its address and direction. -/
structure Kind (q : Peer → Bool) : Prop where
  con : ∀ p, q p = true → p.isConnected = true
  congr : ∀ p p', p.isConnected = true → p'.isConnected = true → p.addr = p'.addr → p.dir = p'.dir →
    q p = q p'

theorem kindD : Kind isD := by
  refine ⟨fun _ => isD_con, ?_⟩
  intro p p' h1 h2 h3 h4
  unfold isD Peer.isInbound Peer.isRelayed
  rw [h1, h2, h3, h4]

theorem kindR : Kind isR := by
  refine ⟨fun _ => isR_con, ?_⟩
  intro p p' h1 h2 h3 h4
  unfold isR Peer.isInbound Peer.isRelayed
  rw [h1, h2, h3, h4]

theorem kindO : Kind isO := by
  refine ⟨fun _ => isO_con, ?_⟩
  intro p p' h1 h2 h3 h4
  unfold isO Peer.isOutbound
  rw [h1, h2, h4]

theorem kind_kind (a : Addr) : Kind (kind a) := by
  unfold kind
  split
  · exact kindR
  · exact kindD

theorem cnt_back {b b' : B} (hn : (keys b.peers).Nodup) (hn' : (keys b'.peers).Nodup) (h : Back b b')
    {q : Peer → Bool} (hq : Kind q) : cnt q b'.peers ≤ cnt q b.peers := by
  refine cnt_mono hn hn' ?_
  intro i p' h1 h2
  obtain ⟨p, p1, p2, p3, p4⟩ := h i p' h1 (hq.con p' h2)
  exact ⟨p, p1, (hq.congr p p' p2 (hq.con p' h2) p3 p4).trans h2⟩

theorem cnt_keep {b b' : B} (hn : (keys b.peers).Nodup) (h : Keep b b') {q : Peer → Bool} (hq : Kind q) :
    cnt q b'.peers ≤ cnt q b.peers := cnt_back hn h.nd (keep_back h) hq

theorem cnt_evicted {b b' : B} (hn : (keys b.peers).Nodup) {now id : Nat} {p : Peer}
    (h : Evicted cfg now b b' id p) {q : Peer → Bool} (hq : Kind q) (hp : q p = true) :
    cnt q b'.peers + 1 ≤ cnt q b.peers := by
  have hk := evicted_keep hn h
  refine cnt_lt hn hk.nd ?_ h.was hp ?_
  · intro i p' h1 h2
    obtain ⟨p, p1, p2, p3, p4⟩ := keep_back hk i p' h1 (hq.con p' h2)
    exact ⟨p, p1, (hq.congr p p' p2 (hq.con p' h2) p3 p4).trans h2⟩
  · intro p' hg
    rcases evicted_get hn h hg with ⟨_, e⟩ | ⟨h1, _⟩
    · cases hc : q p' with
      | false => rfl
      | true =>
        have := hq.con p' hc
        rw [e] at this
        cases this
    · exact absurd rfl h1

theorem cnt_established {b : B} (hn : (keys b.peers).Nodup) {now id : Nat} {a : Addr} {dialer : Bool} {ip : Nat}
    (hip : getIp cfg a = some ip) {q : Peer → Bool} :
    cnt q (onEstablished cfg now b id a dialer).peers ≤ cnt q b.peers + 1 := by
  refine cnt_succ hn (established_nd hn hip) (j := id) ?_
  intro i p' hi h1 h2
  rw [established_get hn hip, if_neg hi] at h1
  exact ⟨p', (filter_some.1 h1).1, h2⟩

theorem cnt_established_same {b : B} (hn : (keys b.peers).Nodup) {now id : Nat} {a : Addr} {dialer : Bool} {ip : Nat}
    (hip : getIp cfg a = some ip) {q : Peer → Bool}
    (h : ∀ p, get (onEstablished cfg now b id a dialer).peers id = some p → q p = false) :
    cnt q (onEstablished cfg now b id a dialer).peers ≤ cnt q b.peers := by
  refine cnt_mono hn (established_nd hn hip) ?_
  intro i p' h1 h2
  by_cases hi : i = id
  · subst hi
    rw [h p' h1] at h2
    cases h2
  · rw [established_get hn hip, if_neg hi] at h1
    exact ⟨p', (filter_some.1 h1).1, h2⟩

/-! ## Directions -/

/-- The direction a peer has under `OneWay D`. -/
def dirOf (D : Nat → Bool) (i : Nat) : Dir := if D i then .outbound else .inbound

/-- Records tell the direction. -/
def DirOk (D : Nat → Bool) (b : B) : Prop := ∀ i p, get b.peers i = some p → p.dir = dirOf D i

theorem dir_update {D : Nat → Bool} {b : B} (hn : (keys b.peers).Nodup) (hd : DirOk D b) {now id : Nat}
    {f : Peer → Peer} {ps' : Peers} (h : update cfg now b.peers id f = some ps')
    (hf : ∀ p, (f p).dir = p.dir) {q : List Nat} : DirOk D { peers := ps', queue := q } := by
  intro i p hg
  simp only at hg
  rw [get_update hn h] at hg
  simp only [Option.map_eq_some_iff] at hg
  obtain ⟨r, hr, e⟩ := hg
  have := hd i r (filter_some.1 hr).1
  by_cases hi : i = id
  · simp only [hi, if_true] at e
    rw [← e, hf, this, hi]
  · simp only [hi, if_false] at e
    rw [← e, this]

theorem dir_upsert {D : Nat → Bool} {b : B} (hn : (keys b.peers).Nodup) (hd : DirOk D b) {now id : Nat}
    {f : Peer → Peer} {new : Peer} (hf : ∀ p, (f p).dir = p.dir) (hnew : new.dir = dirOf D id)
    {q : List Nat} : DirOk D { peers := upsert cfg now b.peers id f new, queue := q } := by
  intro i p hg
  simp only at hg
  rw [get_upsert hn] at hg
  by_cases hi : i = id
  · subst hi
    rw [if_pos rfl] at hg
    cases hr : (get b.peers i).filter (fun p => !stale cfg now p) with
    | none => rw [hr] at hg; simp only [Option.some.injEq] at hg; rw [← hg, hnew]
    | some r =>
      rw [hr] at hg
      simp only [Option.some.injEq] at hg
      rw [← hg, hf, hd i r (filter_some.1 hr).1]
  · rw [if_neg hi] at hg
    exact hd i p (filter_some.1 hg).1

theorem dir_evicted {D : Nat → Bool} {b b' : B} (hn : (keys b.peers).Nodup) (hd : DirOk D b) {now id : Nat}
    {p : Peer} (h : Evicted cfg now b b' id p) : DirOk D b' :=
  dir_update hn hd h.upd (fun _ => rfl) (q := b'.queue)

theorem dir_dialed {D : Nat → Bool} {b : B} (hn : (keys b.peers).Nodup) (hd : DirOk D b) {now id : Nat}
    (hD : D id = true) : DirOk D (dialed cfg now b id) :=
  dir_upsert hn hd (fun p => by split <;> rfl) (by simp [dirOf, hD, fresh]) (q := b.queue)

theorem dir_failure {D : Nat → Bool} {b : B} (hn : (keys b.peers).Nodup) (hd : DirOk D b) {now : Nat}
    {peer : Option Nat} (hD : ∀ id, peer = some id → D id = true) : DirOk D (onDialFailure cfg now b peer) := by
  cases peer with
  | none => exact hd
  | some id =>
    exact dir_upsert hn hd (fun p => by split <;> rfl) (by simp [dirOf, hD id rfl, fresh]) (q := b.queue)

theorem dir_established {D : Nat → Bool} {b : B} (hn : (keys b.peers).Nodup) (hd : DirOk D b) {now id : Nat}
    {a : Addr} {dialer : Bool} {ip : Nat} (hip : getIp cfg a = some ip) (hD : D id = dialer) :
    DirOk D (onEstablished cfg now b id a dialer) := by
  unfold onEstablished
  simp only [hip]
  refine dir_upsert hn hd ?_ ?_ (q := b.queue)
  · exact fun p => rfl
  · simp [dirOf, hD, fresh]

theorem dir_closed {D : Nat → Bool} {b b' : B} (hn : (keys b.peers).Nodup) (hd : DirOk D b) {now id rem : Nat}
    (h : onClosed cfg now b id rem = some b') : DirOk D b' := by
  rcases closed_spec h with ⟨_, e⟩ | ⟨_, _, hu⟩
  · rw [e]; exact hd
  · exact dir_update hn hd hu (fun _ => rfl) (q := b'.queue)

theorem dir_ping {D : Nat → Bool} {b b' : B} (hn : (keys b.peers).Nodup) (hd : DirOk D b) {now id d : Nat}
    (h : onPing cfg now b id d = some b') : DirOk D b' := by
  unfold onPing at h
  simp only [Option.map_eq_some_iff] at h
  obtain ⟨ps, h1, rfl⟩ := h
  exact dir_update hn hd h1 (fun _ => rfl)

theorem dir_notUseful {D : Nat → Bool} {b b' : B} (hn : (keys b.peers).Nodup) (hd : DirOk D b) {now id : Nat}
    (h : onNotUseful cfg now b id = some b') : DirOk D b' := by
  unfold onNotUseful at h
  simp only [Option.map_eq_some_iff] at h
  obtain ⟨ps, h1, rfl⟩ := h
  exact dir_update hn hd h1 (fun _ => rfl)

theorem mem_eraseIdx {α : Type} {l : List α} {i : Nat} {x : α} (h : x ∈ l.eraseIdx i) : x ∈ l :=
  (List.eraseIdx_sublist l i).subset h

/-- What holds in one-way histories. -/
structure One (D : Nat → Bool) (s : Sys) : Prop where
  dir : DirOk D s.b
  dials : ∀ i, some i ∈ s.dials → D i = true
  live : ∀ c ∈ s.live, c.dialer = D c.peer

theorem one_seen {D : Nat → Bool} {s s' : Sys} {a : Act} (hi : Inv s) (ho : One D s) (hw : OneWay D a)
    (h : Seen cfg s a s') : One D s' := by
  have hlive : ∀ id, ∀ c ∈ closeAll s.live id, c.dialer = D c.peer := by
    intro id c hc
    obtain ⟨d, hd, e⟩ := List.mem_map.1 hc
    have := ho.live d hd
    by_cases h : d.peer = id
    · rw [if_pos h] at e; rw [← e]; exact this
    · rw [if_neg h] at e; rw [← e]; exact this
  cases h with
  | crash => exact ⟨ho.dir, ho.dials, ho.live⟩
  | tick => exact ⟨ho.dir, ho.dials, ho.live⟩
  | shuffle ps hp =>
    refine ⟨?_, ho.dials, ho.live⟩
    intro i p hg
    exact ho.dir i p ((get_perm hi.nd hp i).symm.trans hg)
  | arriveDeny => exact ⟨ho.dir, ho.dials, ho.live⟩
  | arriveOk => exact ⟨ho.dir, ho.dials, ho.live⟩
  | arriveEvict a ip h1 h2 b' j p h3 => exact ⟨dir_evicted hi.nd ho.dir h3, ho.dials, ho.live⟩
  | acceptDeny => exact ⟨ho.dir, ho.dials, ho.live⟩
  | acceptRoom i id a b' j p h h3 => exact ⟨dir_evicted hi.nd ho.dir h3, ho.dials, ho.live⟩
  | acceptOk i id a ip h hip hd =>
    refine ⟨dir_established hi.nd ho.dir hip hw, ho.dials, ?_⟩
    intro c hc
    rcases List.mem_append.1 hc with hc | hc
    · exact ho.live c hc
    · have e : c = { peer := id, addr := a, dialer := false, closing := false } := by simpa using hc
      rw [e]; exact hw.symm
  | acceptEvict i id a ip b' j p h hip hd hb h3 =>
    refine ⟨dir_established (evicted_keep hi.nd h3).nd (dir_evicted hi.nd ho.dir h3) hip hw, ho.dials, ?_⟩
    intro c hc
    rcases List.mem_append.1 hc with hc | hc
    · exact ho.live c hc
    · have e : c = { peer := id, addr := a, dialer := false, closing := false } := by simpa using hc
      rw [e]; exact hw.symm
  | lost => exact ⟨ho.dir, ho.dials, ho.live⟩
  | dialFree peer dialer hp =>
    refine ⟨ho.dir, ?_, ho.live⟩
    intro i hm
    rcases List.mem_append.1 hm with hm | hm
    · exact ho.dials i hm
    · have e : some i = peer := by simpa using hm
      subst e
      exact hw
  | dialDeny id =>
    exact ⟨dir_failure hi.nd ho.dir (fun i e => by cases e; exact hw), ho.dials, ho.live⟩
  | dialOk id =>
    refine ⟨dir_dialed hi.nd ho.dir hw, ?_, ho.live⟩
    intro i hm
    rcases List.mem_append.1 hm with hm | hm
    · exact ho.dials i hm
    · have e : i = id := by simpa using hm
      rw [e]; exact hw
  | dialEvict id b' j p hb h3 =>
    refine ⟨dir_dialed (evicted_keep hi.nd h3).nd (dir_evicted hi.nd ho.dir h3) hw, ?_, ho.live⟩
    intro i hm
    rcases List.mem_append.1 hm with hm | hm
    · exact ho.dials i hm
    · have e : i = id := by simpa using hm
      rw [e]; exact hw
  | reachFail i id =>
    exact ⟨dir_failure hi.nd ho.dir (fun i e => by cases e; exact hw),
      fun i hm => ho.dials i (mem_eraseIdx hm), ho.live⟩
  | reachOk i id a ip peer h hp hip hd =>
    refine ⟨dir_established hi.nd ho.dir hip hw, fun i hm => ho.dials i (mem_eraseIdx hm), ?_⟩
    intro c hc
    rcases List.mem_append.1 hc with hc | hc
    · exact ho.live c hc
    · have e : c = { peer := id, addr := a, dialer := true, closing := false } := by simpa using hc
      rw [e]; exact hw.symm
  | fail i peer h =>
    refine ⟨dir_failure hi.nd ho.dir ?_, fun i hm => ho.dials i (mem_eraseIdx hm), ho.live⟩
    intro id e
    subst e
    exact ho.dials id (List.mem_of_getElem? h)
  | poll id q h => exact ⟨ho.dir, ho.dials, hlive id⟩
  | disconnect id => exact ⟨ho.dir, ho.dials, hlive id⟩
  | close i c b' h hc =>
    exact ⟨dir_closed hi.nd ho.dir hc, ho.dials, fun c hm => ho.live c (mem_eraseIdx hm)⟩
  | ping i d c b' h hp => exact ⟨dir_ping hi.nd ho.dir hp, ho.dials, ho.live⟩
  | notUseful id b' h => exact ⟨dir_notUseful hi.nd ho.dir h, ho.dials, ho.live⟩

/-- The record of a peer just met under one-way histories. -/
theorem established_dir {D : Nat → Bool} {b : B} (hn : (keys b.peers).Nodup) (hd : DirOk D b) {now id : Nat}
    {a : Addr} {dialer : Bool} {ip : Nat} (hip : getIp cfg a = some ip) (hD : D id = dialer) {p : Peer}
    (hg : get (onEstablished cfg now b id a dialer).peers id = some p) :
    p.dir = (if dialer then Dir.outbound else Dir.inbound) ∧ p.addr = some a := by
  refine ⟨?_, ?_⟩
  · rw [dir_established hn hd hip hD id p hg, dirOf, hD]
  · obtain ⟨q, q1, _, q3, _⟩ := established_self (cfg := cfg) hn (now := now) (dialer := dialer) (id := id) hip
    rw [q1] at hg
    cases hg
    exact q3

/-- The limits. -/
structure Lim (cfg : Cfg) (D : Nat → Bool) (s : Sys) : Prop where
  one : One D s
  direct : cnt isD s.b.peers ≤ cfg.maxDirect
  relayed : cnt isR s.b.peers ≤ cfg.maxRelayed

theorem lim_keep {D : Nat → Bool} {s s' : Sys} (hi : Inv s) (hl : Lim cfg D s) (ho : One D s')
    (h : Keep s.b s'.b) : Lim cfg D s' :=
  ⟨ho, Nat.le_trans (cnt_keep hi.nd h kindD) hl.direct, Nat.le_trans (cnt_keep hi.nd h kindR) hl.relayed⟩

theorem lim_same {D : Nat → Bool} {s s' : Sys} (hl : Lim cfg D s) (ho : One D s')
    (h : s'.b.peers = s.b.peers) : Lim cfg D s' :=
  ⟨ho, by rw [h]; exact hl.direct, by rw [h]; exact hl.relayed⟩

/-- An inbound peer added where there is room. -/
theorem lim_inbound {D : Nat → Bool} {b : B} (hn : (keys b.peers).Nodup) (hd : DirOk D b) {now id : Nat}
    {a : Addr} {ip : Nat} (hip : getIp cfg a = some ip) (hD : D id = false)
    (h1 : cnt isD b.peers ≤ cfg.maxDirect) (h2 : cnt isR b.peers ≤ cfg.maxRelayed)
    (hroom : cnt (kind a) b.peers < kindMax cfg a) :
    cnt isD (onEstablished cfg now b id a false).peers ≤ cfg.maxDirect ∧
      cnt isR (onEstablished cfg now b id a false).peers ≤ cfg.maxRelayed := by
  have hrel : ∀ p, get (onEstablished cfg now b id a false).peers id = some p → p.isRelayed = viaRelay a := by
    intro p hg
    have := (established_dir hn hd hip hD hg).2
    unfold Peer.isRelayed
    rw [this]
  cases hr : viaRelay a with
  | true =>
    have hk : kind a = isR := by unfold kind; rw [hr]; rfl
    have hm : kindMax cfg a = cfg.maxRelayed := by unfold kindMax; rw [hr]; rfl
    rw [hk, hm] at hroom
    refine ⟨Nat.le_trans (cnt_established_same hn hip ?_) h1, ?_⟩
    · intro p hg
      unfold isD
      rw [hrel p hg, hr]
      simp
    · have := cnt_established (cfg := cfg) hn (now := now) (id := id) (dialer := false) hip (q := isR)
      omega
  | false =>
    have hk : kind a = isD := by unfold kind; rw [hr]; rfl
    have hm : kindMax cfg a = cfg.maxDirect := by unfold kindMax; rw [hr]; rfl
    rw [hk, hm] at hroom
    refine ⟨?_, Nat.le_trans (cnt_established_same hn hip ?_) h2⟩
    · have := cnt_established (cfg := cfg) hn (now := now) (id := id) (dialer := false) hip (q := isD)
      omega
    · intro p hg
      unfold isR
      rw [hrel p hg, hr]
      simp

theorem kind_room {b b' : B} (hn : (keys b.peers).Nodup) {now j : Nat} {p : Peer} {a : Addr}
    (h : Evicted cfg now b b' j p) (hk : kind a p = true)
    (h1 : cnt isD b.peers ≤ cfg.maxDirect) (h2 : cnt isR b.peers ≤ cfg.maxRelayed) :
    cnt (kind a) b'.peers < kindMax cfg a := by
  have := cnt_evicted hn h (kind_kind a) hk
  unfold kind kindMax at *
  split at this <;> (rename_i hr; simp only [hr, if_true, Bool.false_eq_true, if_false]; omega)

theorem lim_seen {D : Nat → Bool} {s s' : Sys} {a : Act} (hi : Inv s) (hl : Lim cfg D s) (hw : OneWay D a)
    (h : Seen cfg s a s') : Lim cfg D s' := by
  have ho := one_seen hi hl.one hw h
  cases h with
  | crash => exact lim_same hl ho rfl
  | tick => exact lim_same hl ho rfl
  | shuffle ps hp => exact lim_keep hi hl ho (shuffle_keep hi.nd hp)
  | arriveDeny => exact lim_same hl ho rfl
  | arriveOk => exact lim_same hl ho rfl
  | arriveEvict a ip h1 h2 b' j p h3 => exact lim_keep hi hl ho (evicted_keep hi.nd h3)
  | acceptDeny => exact lim_same hl ho rfl
  | acceptRoom i id a b' j p h h3 => exact lim_keep hi hl ho (evicted_keep hi.nd h3)
  | acceptOk i id a ip h hip hd hb hc =>
    obtain ⟨h1, h2⟩ := lim_inbound (cfg := cfg) hi.nd hl.one.dir (now := s.now) hip hw hl.direct hl.relayed hc
    exact ⟨ho, h1, h2⟩
  | acceptEvict i id a ip b' j p h hip hd hb h3 h4 =>
    have hk := evicted_keep hi.nd h3
    obtain ⟨h1, h2⟩ := lim_inbound (cfg := cfg) hk.nd (dir_evicted hi.nd hl.one.dir h3) (now := s.now) hip hw
      (Nat.le_trans (cnt_keep hi.nd hk kindD) hl.direct) (Nat.le_trans (cnt_keep hi.nd hk kindR) hl.relayed)
      (kind_room hi.nd h3 h4 hl.direct hl.relayed)
    exact ⟨ho, h1, h2⟩
  | lost => exact lim_same hl ho rfl
  | dialFree => exact lim_same hl ho rfl
  | dialDeny id => exact lim_keep hi hl ho (dialFailure_keep (cfg := cfg) hi.nd s.now (some id))
  | dialOk id => exact lim_keep hi hl ho (dialed_keep hi.nd _ _)
  | dialEvict id b' j p hb h3 =>
    have hk := evicted_keep hi.nd h3
    exact lim_keep hi hl ho (keep_trans hk (dialed_keep hk.nd _ _))
  | reachFail i id => exact lim_keep hi hl ho (dialFailure_keep (cfg := cfg) hi.nd s.now (some id))
  | reachOk i id a ip peer h hp hip hd =>
    refine ⟨ho, Nat.le_trans (cnt_established_same hi.nd hip ?_) hl.direct,
      Nat.le_trans (cnt_established_same hi.nd hip ?_) hl.relayed⟩
    · intro p hg
      unfold isD Peer.isInbound
      rw [(established_dir hi.nd hl.one.dir hip hw hg).1]
      simp
    · intro p hg
      unfold isR Peer.isInbound
      rw [(established_dir hi.nd hl.one.dir hip hw hg).1]
      simp
  | fail i peer => exact lim_keep hi hl ho (dialFailure_keep (cfg := cfg) hi.nd s.now peer)
  | poll => exact lim_same hl ho rfl
  | disconnect => exact lim_same hl ho rfl
  | close i c b' h hc =>
    exact ⟨ho, Nat.le_trans (cnt_back hi.nd (closed_nd hi.nd hc) (closed_back hi.nd hc) kindD) hl.direct,
      Nat.le_trans (cnt_back hi.nd (closed_nd hi.nd hc) (closed_back hi.nd hc) kindR) hl.relayed⟩
  | ping i d c b' h hp => exact lim_keep hi hl ho (ping_keep hi.nd hp)
  | notUseful id b' h => exact lim_keep hi hl ho (notUseful_keep hi.nd h)

theorem one_start (D : Nat → Bool) (t : Nat) : One D (start t) :=
  ⟨(by intro i p h; cases h), (by intro i h; cases h), (by intro c h; cases h)⟩

theorem lim_start (D : Nat → Bool) (t : Nat) : Lim cfg D (start t) :=
  ⟨one_start D t, Nat.zero_le _, Nat.zero_le _⟩

theorem keeps_iff {s : Sys} {c : Conn} : s.keeps c = true ↔ c.closing = false ∧ c.peer ∉ s.b.queue := by
  simp [Sys.keeps]

/-- The peers of the connections kept are distinct. -/
theorem kept_nodup {s : Sys} (hi : Inv s) (q : Conn → Bool) :
    ((s.live.filter fun c => s.keeps c && q c).map (·.peer)).Nodup := by
  unfold List.Nodup
  rw [List.pairwise_map]
  have h1 := hi.uniq.sublist (List.filter_sublist (l := s.live) (p := fun c => s.keeps c && q c))
  refine h1.imp_of_mem ?_
  intro c d hc hd hcd e
  have hc' := (List.mem_filter.1 hc).2
  have hd' := (List.mem_filter.1 hd).2
  simp only [Bool.and_eq_true] at hc' hd'
  obtain ⟨c1, c2⟩ := keeps_iff.1 hc'.1
  obtain ⟨d1, _⟩ := keeps_iff.1 hd'.1
  rcases hcd e with h | h | h
  · rw [c1] at h; cases h
  · rw [d1] at h; cases h
  · exact c2 h

/-- Connections kept are counted by the records of a kind. -/
theorem kept_le {s : Sys} (hi : Inv s) (q : Conn → Bool) (k : Peer → Bool)
    (h : ∀ c ∈ s.live, q c = true → ∀ p, get s.b.peers c.peer = some p → p.isConnected = true →
      p.addr = some c.addr → k p = true) :
    (s.live.filter fun c => s.keeps c && q c).length ≤ cnt k s.b.peers := by
  rw [← List.length_map (f := (·.peer)), cnt_keys]
  refine List.Nodup.length_le_of_subset (kept_nodup hi q) ?_
  intro i hm
  obtain ⟨c, hc, rfl⟩ := List.mem_map.1 hm
  obtain ⟨hc1, hc2⟩ := List.mem_filter.1 hc
  simp only [Bool.and_eq_true] at hc2
  obtain ⟨k1, k2⟩ := keeps_iff.1 hc2.1
  obtain ⟨p, p1, p2, p3⟩ := hi.conn c hc1 k1 k2
  exact (mem_keys_filter hi.nd).2 ⟨p, p1, h c hc1 hc2.2 p p1 p2 p3⟩

theorem inbound_kept {D : Nat → Bool} {s : Sys} (hi : Inv s) (hl : Lim cfg D s) :
    (s.inboundKept false).length ≤ cfg.maxDirect ∧ (s.inboundKept true).length ≤ cfg.maxRelayed := by
  have hdir : ∀ c ∈ s.live, c.dialer = false → ∀ p, get s.b.peers c.peer = some p → p.isInbound = true := by
    intro c hc hcd p hp
    have := hl.one.dir _ p hp
    have h2 := hl.one.live c hc
    rw [hcd] at h2
    unfold Peer.isInbound
    rw [this, dirOf, ← h2]
    rfl
  constructor
  · refine Nat.le_trans ?_ hl.direct
    unfold Sys.inboundKept
    have e : (s.live.filter fun c => s.keeps c && !c.dialer && (viaRelay c.addr == false)) =
        s.live.filter fun c => s.keeps c && (!c.dialer && (viaRelay c.addr == false)) := by
      congr 1; funext c; exact Bool.and_assoc _ _ _
    rw [e]
    refine kept_le hi _ isD ?_
    intro c hc hq p hp hcon ha
    simp only [Bool.and_eq_true, Bool.not_eq_true', beq_iff_eq] at hq
    unfold isD Peer.isRelayed
    rw [hcon, hdir c hc hq.1 p hp, ha]
    simp [hq.2]
  · refine Nat.le_trans ?_ hl.relayed
    unfold Sys.inboundKept
    have e : (s.live.filter fun c => s.keeps c && !c.dialer && (viaRelay c.addr == true)) =
        s.live.filter fun c => s.keeps c && (!c.dialer && (viaRelay c.addr == true)) := by
      congr 1; funext c; exact Bool.and_assoc _ _ _
    rw [e]
    refine kept_le hi _ isR ?_
    intro c hc hq p hp hcon ha
    simp only [Bool.and_eq_true, Bool.not_eq_true', beq_iff_eq] at hq
    unfold isR Peer.isRelayed
    rw [hcon, hdir c hc hq.1 p hp, ha]
    simp [hq.2]

end Verif.Conn
