import Verif.Conn.Runs
/-! # Lemmas on histories: dials, bans, whitelist, panics -/

namespace Verif.Conn

variable {cfg : Cfg}

/-- Induction over a history with a condition on each action and the state it meets. -/
theorem along_induct {P : Sys → Prop} {ok : Sys → Act → Prop}
    (hstep : ∀ s a s', Inv s → P s → ok s a → step cfg s a = some s' → Seen cfg s a s' → P s')
    {acts : List Act} :
    ∀ {s s' : Sys}, Inv s → P s → Along cfg ok s acts → run cfg s acts = some s' → Inv s' ∧ P s' := by
  induction acts with
  | nil => intro s s' hi hp _ h; cases h; exact ⟨hi, hp⟩
  | cons a r ih =>
    intro s s' hi hp hq h
    simp only [run, Option.bind_eq_some_iff] at h
    obtain ⟨s1, h1, h2⟩ := h
    have hs := seen hi.nd hi.grp h1
    exact ih (inv_seen hi hs) (hstep s a s1 hi hp hq.1 h1 hs) (hq.2 s1 h1) h2

/-! ## Outbound -/

/-- With dials one at a time. -/
structure OutLim (cfg : Cfg) (D : Nat → Bool) (s : Sys) : Prop where
  one : One D s
  peers : ∀ d ∈ s.dials, ∃ i, d = some i
  few : s.dials.length ≤ 1
  lim : cnt isO s.b.peers + s.dials.length ≤ cfg.maxOut

theorem outlim_keep {D : Nat → Bool} {s s' : Sys} (hi : Inv s) (hl : OutLim cfg D s) (ho : One D s')
    (h : Keep s.b s'.b) (hd : s'.dials = s.dials) : OutLim cfg D s' :=
  ⟨ho, by rw [hd]; exact hl.peers, by rw [hd]; exact hl.few, by
    have := cnt_keep hi.nd h kindO
    have := hl.lim
    rw [hd]; omega⟩

theorem outlim_erase {D : Nat → Bool} {s s' : Sys} (hi : Inv s) (hl : OutLim cfg D s) (ho : One D s')
    (h : Keep s.b s'.b) {i : Nat} (hd : s'.dials = s.dials.eraseIdx i) : OutLim cfg D s' := by
  have hlen : (s.dials.eraseIdx i).length ≤ s.dials.length := (List.eraseIdx_sublist _ _).length_le
  refine ⟨ho, ?_, ?_, ?_⟩
  · rw [hd]; exact fun d hm => hl.peers d (mem_eraseIdx hm)
  · rw [hd]; have := hl.few; omega
  · have := cnt_keep hi.nd h kindO
    have := hl.lim
    rw [hd]; omega

theorem outlim_back {D : Nat → Bool} {s s' : Sys} (hi : Inv s) (hl : OutLim cfg D s) (ho : One D s')
    (hn : (keys s'.b.peers).Nodup) (h : Back s.b s'.b) (hd : s'.dials = s.dials) : OutLim cfg D s' :=
  ⟨ho, by rw [hd]; exact hl.peers, by rw [hd]; exact hl.few, by
    have := cnt_back hi.nd hn h kindO
    have := hl.lim
    rw [hd]; omega⟩

theorem back_refl (b : B) : Back b b := fun _ p' h1 h2 => ⟨p', h1, h2, rfl, rfl⟩

theorem back_trans {a b c : B} (h1 : Back a b) (h2 : Back b c) : Back a c := by
  intro i p' hg hc
  obtain ⟨p, p1, p2, p3, p4⟩ := h2 i p' hg hc
  obtain ⟨q, q1, q2, q3, q4⟩ := h1 i p p1 p2
  exact ⟨q, q1, q2, q3.trans p3, q4.trans p4⟩

/-- An inbound peer does not count as outbound in one-way histories. -/
theorem inbound_not_out {D : Nat → Bool} {b : B} (hn : (keys b.peers).Nodup) (hd : DirOk D b) {now id : Nat}
    {a : Addr} {ip : Nat} (hip : getIp cfg a = some ip) (hD : D id = false) :
    cnt isO (onEstablished cfg now b id a false).peers ≤ cnt isO b.peers := by
  refine cnt_established_same hn hip ?_
  intro p hg
  unfold isO Peer.isOutbound
  rw [(established_dir hn hd hip hD hg).1]
  simp

theorem outlim_seen {D : Nat → Bool} {s s' : Sys} {a : Act} (hi : Inv s) (hl : OutLim cfg D s) (hw : OneWay D a)
    (hd1 : OneDial s a) (h : Seen cfg s a s') : OutLim cfg D s' := by
  have ho := one_seen hi hl.one hw h
  cases h with
  | crash => exact outlim_back hi hl ho hi.nd (back_refl _) rfl
  | tick => exact outlim_back hi hl ho hi.nd (back_refl _) rfl
  | shuffle ps hp => exact outlim_keep hi hl ho (shuffle_keep hi.nd hp) rfl
  | arriveDeny => exact outlim_back hi hl ho hi.nd (back_refl _) rfl
  | arriveOk => exact outlim_back hi hl ho hi.nd (back_refl _) rfl
  | arriveEvict a ip h1 h2 b' j p h3 => exact outlim_keep hi hl ho (evicted_keep hi.nd h3) rfl
  | acceptDeny => exact outlim_back hi hl ho hi.nd (back_refl _) rfl
  | acceptRoom i id a b' j p h h3 => exact outlim_keep hi hl ho (evicted_keep hi.nd h3) rfl
  | acceptOk i id a ip h hip hd hb hc =>
    refine ⟨ho, hl.peers, hl.few, ?_⟩
    have := inbound_not_out (cfg := cfg) hi.nd hl.one.dir (now := s.now) hip hw
    have := hl.lim
    simp only
    omega
  | acceptEvict i id a ip b' j p h hip hd hb h3 h4 =>
    have hk := evicted_keep hi.nd h3
    refine ⟨ho, hl.peers, hl.few, ?_⟩
    have h1 := inbound_not_out (cfg := cfg) hk.nd (dir_evicted hi.nd hl.one.dir h3) (now := s.now) hip hw
    have h2 := cnt_keep hi.nd hk kindO
    have := hl.lim
    simp only
    omega
  | lost => exact outlim_back hi hl ho hi.nd (back_refl _) rfl
  | dialFree peer dialer hp =>
    obtain ⟨_, h2, h3⟩ := hd1
    rcases hp with hp | hp
    · subst hp; cases h2
    · subst hp; cases h3
  | dialDeny id => exact outlim_keep hi hl ho (dialFailure_keep (cfg := cfg) hi.nd s.now (some id)) rfl
  | dialOk id hb hc =>
    obtain ⟨h1, _, _⟩ := hd1
    have hk := dialed_keep (cfg := cfg) hi.nd s.now id
    have := cnt_keep hi.nd hk kindO
    refine ⟨ho, ?_, ?_, ?_⟩
    · simp only [h1, List.nil_append]
      intro d hm
      exact ⟨id, by simpa using hm⟩
    · simp [h1]
    · simp only [h1, List.nil_append, List.length_singleton]; omega
  | dialEvict id b' j p hb h3 h4 =>
    obtain ⟨h1, _, _⟩ := hd1
    have hk1 := evicted_keep hi.nd h3
    have hk := dialed_keep (cfg := cfg) hk1.nd s.now id
    have e1 := cnt_keep hk1.nd hk kindO
    have e2 := cnt_evicted hi.nd h3 kindO h4
    have e3 := hl.lim
    refine ⟨ho, ?_, ?_, ?_⟩
    · simp only [h1, List.nil_append]
      intro d hm
      exact ⟨id, by simpa using hm⟩
    · simp [h1]
    · simp only [h1, List.nil_append, List.length_singleton]; omega
  | reachFail i id => exact outlim_erase hi hl ho (dialFailure_keep (cfg := cfg) hi.nd s.now (some id)) rfl
  | reachOk i id a ip peer h hp hip hd =>
    have hlt : i < s.dials.length := by
      have := List.getElem?_eq_some_iff.1 h
      exact this.1
    have hlen : (s.dials.eraseIdx i).length + 1 = s.dials.length := by
      rw [List.length_eraseIdx_of_lt hlt]; omega
    have := cnt_established (cfg := cfg) hi.nd (now := s.now) (id := id) (dialer := true) hip (q := isO)
    refine ⟨ho, fun d hm => hl.peers d (mem_eraseIdx hm), ?_, ?_⟩
    · have := hl.few; simp only; omega
    · have := hl.lim; simp only; omega
  | fail i peer => exact outlim_erase hi hl ho (dialFailure_keep (cfg := cfg) hi.nd s.now peer) rfl
  | poll => exact outlim_back hi hl ho hi.nd (back_refl _) rfl
  | disconnect => exact outlim_back hi hl ho hi.nd (back_refl _) rfl
  | close i c b' h hc => exact outlim_back hi hl ho (closed_nd hi.nd hc) (closed_back hi.nd hc) rfl
  | ping i d c b' h hp => exact outlim_keep hi hl ho (ping_keep hi.nd hp) rfl
  | notUseful id b' h => exact outlim_keep hi hl ho (notUseful_keep hi.nd h) rfl

theorem outbound_kept {D : Nat → Bool} {s : Sys} (hi : Inv s) (hl : OutLim cfg D s) :
    s.outboundKept.length ≤ cfg.maxOut := by
  refine Nat.le_trans (kept_le hi (fun c => c.dialer) isO ?_) (by have := hl.lim; omega)
  intro c hc hq p hp hcon _
  have h1 := hl.one.dir _ p hp
  have h2 := hl.one.live c hc
  unfold isO Peer.isOutbound
  rw [hcon, h1, dirOf, ← h2, hq]
  rfl

/-! ## Bans -/

/-- The peer was evicted and its connection ended at `t` or later. -/
def Out (t id : Nat) (b : B) : Prop :=
  ∃ p, get b.peers id = some p ∧ p.evicted = true ∧ ∃ s t', p.link = .disconnected s t' ∧ t ≤ t'

theorem out_banned {t id now : Nat} {b : B} (h : Out t id b) (hnow : now < t + banTime) :
    banned now b id = true := by
  obtain ⟨p, h1, h2, s, t', h3, h4⟩ := h
  unfold banned
  rw [h1]
  simp only [h2, h3, decide_eq_true_eq]
  have : 0 < banTime := by decide
  omega

theorem out_fresh {t now : Nat} {p : Peer} {s : Option Nat} {t' : Nat}
    (hc : banTime ≤ cfg.evictionTimeout) (hnow : now < t + banTime) (hl : p.link = .disconnected s t')
    (ht : t ≤ t') : stale cfg now p = false := by
  unfold stale
  rw [hl]
  simp only [decide_eq_false_iff_not]
  have : 0 < banTime := by decide
  omega

theorem out_update {t id now : Nat} {b b' : B} (hn : (keys b.peers).Nodup) (h : Out t id b)
    (hc : banTime ≤ cfg.evictionTimeout) (hnow : now < t + banTime) {j : Nat} {f : Peer → Peer}
    (hu : update cfg now b.peers j f = some b'.peers)
    (hf : j = id → ∀ p, get b.peers id = some p → (f p).evicted = p.evicted ∧
      ((f p).link = p.link ∨ ∃ s t', (f p).link = .disconnected s t' ∧ t ≤ t')) : Out t id b' := by
  obtain ⟨p, h1, h2, s, t', h3, h4⟩ := h
  have hs := out_fresh (cfg := cfg) hc hnow h3 h4
  by_cases hj : id = j
  · subst hj
    obtain ⟨f1, f2⟩ := hf rfl p h1
    refine ⟨f p, ?_, by rw [f1]; exact h2, ?_⟩
    · rw [get_update hn hu, h1]
      simp [Option.filter, hs]
    · rcases f2 with f2 | f2
      · exact ⟨s, t', f2.trans h3, h4⟩
      · exact f2
  · refine ⟨p, ?_, h2, s, t', h3, h4⟩
    rw [get_update hn hu, h1]
    simp [Option.filter, hs, hj]

theorem out_upsert {t id now : Nat} {b : B} (hn : (keys b.peers).Nodup) (h : Out t id b)
    (hc : banTime ≤ cfg.evictionTimeout) (hnow : now < t + banTime) {j : Nat} {f : Peer → Peer} {new : Peer}
    {q : List Nat}
    (hf : j = id → ∀ p, get b.peers id = some p → (f p).evicted = p.evicted ∧
      ((f p).link = p.link ∨ ∃ s t', (f p).link = .disconnected s t' ∧ t ≤ t')) :
    Out t id { peers := upsert cfg now b.peers j f new, queue := q } := by
  obtain ⟨p, h1, h2, s, t', h3, h4⟩ := h
  have hs := out_fresh (cfg := cfg) hc hnow h3 h4
  by_cases hj : id = j
  · subst hj
    obtain ⟨f1, f2⟩ := hf rfl p h1
    refine ⟨f p, ?_, by rw [f1]; exact h2, ?_⟩
    · simp only
      rw [get_upsert hn, if_pos rfl, h1]
      simp [Option.filter, hs]
    · rcases f2 with f2 | f2
      · exact ⟨s, t', f2.trans h3, h4⟩
      · exact f2
  · refine ⟨p, ?_, h2, s, t', h3, h4⟩
    simp only
    rw [get_upsert hn, if_neg hj, h1]
    simp [Option.filter, hs]

theorem out_evicted {t id now : Nat} {b b' : B} (hn : (keys b.peers).Nodup) (h : Out t id b)
    (hc : banTime ≤ cfg.evictionTimeout) (hnow : now < t + banTime) {j : Nat} {p : Peer}
    (he : Evicted cfg now b b' j p) : Out t id b' := by
  refine out_update hn h hc hnow he.upd ?_
  intro e q hq
  subst e
  obtain ⟨p', h1, _, s, t', h3, _⟩ := h
  have := he.was
  rw [h1] at this
  cases this
  have hcon := he.con
  unfold Peer.isConnected at hcon
  rw [h3] at hcon
  cases hcon

theorem out_dialed {t id now : Nat} {b : B} (hn : (keys b.peers).Nodup) (h : Out t id b)
    (hc : banTime ≤ cfg.evictionTimeout) (hnow : now < t + banTime) {j : Nat} (hne : j ≠ id) :
    Out t id (dialed cfg now b j) :=
  out_upsert hn h hc hnow (fun e => absurd e hne)

theorem out_failure {t id now : Nat} {b : B} (hn : (keys b.peers).Nodup) (h : Out t id b)
    (hc : banTime ≤ cfg.evictionTimeout) (hnow : now < t + banTime) (hle : t ≤ now) (peer : Option Nat) :
    Out t id (onDialFailure cfg now b peer) := by
  cases peer with
  | none => exact h
  | some j =>
    refine out_upsert hn h hc hnow ?_
    intro _ p _
    refine ⟨by split <;> rfl, ?_⟩
    by_cases hp : p.isConnected = true
    · left; simp [hp]
    · right; exact ⟨none, now, by simp [hp], hle⟩

theorem out_established {t id now : Nat} {b : B} (hn : (keys b.peers).Nodup) (h : Out t id b)
    (hc : banTime ≤ cfg.evictionTimeout) (hnow : now < t + banTime) {j : Nat} (hne : j ≠ id) {a : Addr}
    {dialer : Bool} {ip : Nat} (hip : getIp cfg a = some ip) : Out t id (onEstablished cfg now b j a dialer) := by
  unfold onEstablished
  simp only [hip]
  exact out_upsert hn h hc hnow (fun e => absurd e hne)

/-- A connection of a banned peer is not made. -/
structure Away (cfg : Cfg) (t id n : Nat) (s : Sys) : Prop where
  late : t ≤ s.now
  soon : s.now < t + banTime → Out t id s.b ∧ s.live.countP (fun c => c.peer == id) ≤ n

theorem closeAll_count (l : List Conn) (j id : Nat) :
    (closeAll l j).countP (fun c => c.peer == id) = l.countP (fun c => c.peer == id) := by
  unfold closeAll
  rw [List.countP_map]
  congr 1
  funext c
  simp only [Function.comp]
  split <;> rfl

theorem count_append (l : List Conn) {c : Conn} {id : Nat} (h : c.peer ≠ id) :
    (l ++ [c]).countP (fun c => c.peer == id) = l.countP (fun c => c.peer == id) := by
  rw [List.countP_append]
  simp [h]

theorem away_seen {t id n : Nat} (hc : banTime ≤ cfg.evictionTimeout) {s s' : Sys} {a : Act} (hi : Inv s)
    (ha : Away cfg t id n s) (h : Seen cfg s a s') : Away cfg t id n s' := by
  have hl := ha.late
  cases h with
  | crash => exact ⟨ha.late, ha.soon⟩
  | tick d =>
    refine ⟨by simp only; omega, ?_⟩
    intro hs
    simp only at hs
    exact ha.soon (by omega)
  | shuffle ps hp =>
    refine ⟨hl, ?_⟩
    intro hs
    obtain ⟨⟨p, h1, h2⟩, h3⟩ := ha.soon hs
    exact ⟨⟨p, (get_perm hi.nd hp id).trans h1, h2⟩, h3⟩
  | arriveDeny => exact ⟨ha.late, ha.soon⟩
  | arriveOk => exact ⟨ha.late, ha.soon⟩
  | arriveEvict a ip h1 h2 b' j p h3 =>
    exact ⟨hl, fun hs => ⟨out_evicted hi.nd (ha.soon hs).1 hc hs h3, (ha.soon hs).2⟩⟩
  | acceptDeny => exact ⟨ha.late, ha.soon⟩
  | acceptRoom i id a b' j p h h3 =>
    exact ⟨hl, fun hs => ⟨out_evicted hi.nd (ha.soon hs).1 hc hs h3, (ha.soon hs).2⟩⟩
  | acceptOk i j a ip h hip hd hb =>
    refine ⟨hl, fun hs => ?_⟩
    have hs' : s.now < t + banTime := hs
    obtain ⟨h1, h2⟩ := ha.soon hs'
    have hne : j ≠ id := by
      intro e; subst e
      rw [out_banned h1 hs'] at hb; cases hb
    exact ⟨out_established hi.nd h1 hc hs hne hip, by simp only; rw [count_append _ (by exact hne)]; exact h2⟩
  | acceptEvict i j a ip b' k p h hip hd hb h3 =>
    refine ⟨hl, fun hs => ?_⟩
    have hs' : s.now < t + banTime := hs
    obtain ⟨h1, h2⟩ := ha.soon hs'
    have hne : j ≠ id := by
      intro e; subst e
      rw [out_banned h1 hs'] at hb; cases hb
    exact ⟨out_established (evicted_keep hi.nd h3).nd (out_evicted hi.nd h1 hc hs h3) hc hs hne hip,
      by simp only; rw [count_append _ (by exact hne)]; exact h2⟩
  | lost => exact ⟨ha.late, ha.soon⟩
  | dialFree => exact ⟨ha.late, ha.soon⟩
  | dialDeny j =>
    exact ⟨hl, fun hs => ⟨out_failure hi.nd (ha.soon hs).1 hc hs hl _, (ha.soon hs).2⟩⟩
  | dialOk j hb =>
    refine ⟨hl, fun hs => ?_⟩
    have hs' : s.now < t + banTime := hs
    obtain ⟨h1, h2⟩ := ha.soon hs'
    have hne : j ≠ id := by
      intro e; subst e
      rw [out_banned h1 hs'] at hb; cases hb
    exact ⟨out_dialed hi.nd h1 hc hs hne, h2⟩
  | dialEvict j b' k p hb h3 =>
    refine ⟨hl, fun hs => ?_⟩
    have hs' : s.now < t + banTime := hs
    obtain ⟨h1, h2⟩ := ha.soon hs'
    have hne : j ≠ id := by
      intro e; subst e
      rw [out_banned h1 hs'] at hb; cases hb
    exact ⟨out_dialed (evicted_keep hi.nd h3).nd (out_evicted hi.nd h1 hc hs h3) hc hs hne, h2⟩
  | reachFail i j =>
    exact ⟨hl, fun hs => ⟨out_failure hi.nd (ha.soon hs).1 hc hs hl _, (ha.soon hs).2⟩⟩
  | reachOk i j a ip peer h hp hip hd hb =>
    refine ⟨hl, fun hs => ?_⟩
    have hs' : s.now < t + banTime := hs
    obtain ⟨h1, h2⟩ := ha.soon hs'
    have hne : j ≠ id := by
      intro e; subst e
      rw [out_banned h1 hs'] at hb; cases hb
    exact ⟨out_established hi.nd h1 hc hs hne hip, by simp only; rw [count_append _ (by exact hne)]; exact h2⟩
  | fail i peer =>
    exact ⟨hl, fun hs => ⟨out_failure hi.nd (ha.soon hs).1 hc hs hl _, (ha.soon hs).2⟩⟩
  | poll j q h =>
    refine ⟨hl, fun hs => ⟨(ha.soon hs).1, ?_⟩⟩
    simp only
    rw [closeAll_count]
    exact (ha.soon hs).2
  | disconnect j =>
    refine ⟨hl, fun hs => ⟨(ha.soon hs).1, ?_⟩⟩
    simp only
    rw [closeAll_count]
    exact (ha.soon hs).2
  | close i c b' h hcl =>
    refine ⟨hl, fun hs => ?_⟩
    obtain ⟨h1, h2⟩ := ha.soon hs
    refine ⟨?_, Nat.le_trans ((List.eraseIdx_sublist _ _).countP_le) h2⟩
    rcases closed_spec hcl with ⟨_, e⟩ | ⟨_, _, hu⟩
    · simp only; rw [e]; exact h1
    · refine out_update hi.nd h1 hc hs hu ?_
      intro _ p _
      exact ⟨rfl, .inr ⟨_, _, rfl, hl⟩⟩
  | ping i d c b' h hp =>
    refine ⟨hl, fun hs => ⟨?_, (ha.soon hs).2⟩⟩
    unfold onPing at hp
    simp only [Option.map_eq_some_iff] at hp
    obtain ⟨ps, h1, rfl⟩ := hp
    exact out_update hi.nd (ha.soon hs).1 hc hs h1 (fun _ p _ => ⟨rfl, .inl rfl⟩)
  | notUseful j b' h =>
    refine ⟨hl, fun hs => ⟨?_, (ha.soon hs).2⟩⟩
    unfold onNotUseful at h
    simp only [Option.map_eq_some_iff] at h
    obtain ⟨ps, h1, rfl⟩ := h
    exact out_update hi.nd (ha.soon hs).1 hc hs h1 (fun _ p _ => ⟨rfl, .inl rfl⟩)

/-! ## The whitelist -/

/-- Arriving and inbound connections come from listed addresses. -/
structure Listed (cfg : Cfg) (s : Sys) : Prop where
  arriving : ∀ a ∈ s.arriving, ∃ ip, getIp cfg a = some ip ∧ cfg.whitelist ip = true
  live : ∀ c ∈ s.live, c.dialer = false → ∃ ip, getIp cfg c.addr = some ip ∧ cfg.whitelist ip = true

theorem listed_seen {s s' : Sys} {a : Act} (hl : Listed cfg s) (h : Seen cfg s a s') : Listed cfg s' := by
  have hadd : ∀ a ip, getIp cfg a = some ip → cfg.whitelist ip = true →
      ∀ x ∈ s.arriving ++ [a], ∃ ip, getIp cfg x = some ip ∧ cfg.whitelist ip = true := by
    intro a ip h1 h2 x hx
    rcases List.mem_append.1 hx with hx | hx
    · exact hl.arriving x hx
    · have : x = a := by simpa using hx
      subst this
      exact ⟨ip, h1, h2⟩
  have hall : ∀ id, ∀ c ∈ closeAll s.live id, c.dialer = false →
      ∃ ip, getIp cfg c.addr = some ip ∧ cfg.whitelist ip = true := by
    intro id c hc hd
    obtain ⟨d, hm, e⟩ := List.mem_map.1 hc
    by_cases h : d.peer = id
    · rw [if_pos h] at e; subst e; exact hl.live d hm hd
    · rw [if_neg h] at e; subst e; exact hl.live d hm hd
  have hin : ∀ (i id : Nat) (a : Addr), s.arriving[i]? = some a →
      ∀ c ∈ s.live ++ [{ peer := id, addr := a, dialer := false, closing := false }], c.dialer = false →
      ∃ ip, getIp cfg c.addr = some ip ∧ cfg.whitelist ip = true := by
    intro i id a ha c hc hd
    rcases List.mem_append.1 hc with hc | hc
    · exact hl.live c hc hd
    · have e : c = { peer := id, addr := a, dialer := false, closing := false } := by simpa using hc
      rw [e]
      exact hl.arriving a (List.mem_of_getElem? ha)
  cases h with
  | arriveOk a ip h1 h2 => exact ⟨hadd a ip h1 h2, hl.live⟩
  | arriveEvict a ip h1 h2 => exact ⟨hadd a ip h1 h2, hl.live⟩
  | acceptDeny => exact ⟨fun a ha => hl.arriving a (mem_eraseIdx ha), hl.live⟩
  | acceptRoom => exact ⟨fun a ha => hl.arriving a (mem_eraseIdx ha), hl.live⟩
  | acceptOk i id a ip h => exact ⟨fun a ha => hl.arriving a (mem_eraseIdx ha), hin i id a h⟩
  | acceptEvict i id a ip b' j p h => exact ⟨fun a ha => hl.arriving a (mem_eraseIdx ha), hin i id a h⟩
  | lost => exact ⟨fun a ha => hl.arriving a (mem_eraseIdx ha), hl.live⟩
  | reachOk i id a =>
    refine ⟨hl.arriving, ?_⟩
    intro c hc hd
    rcases List.mem_append.1 hc with hc | hc
    · exact hl.live c hc hd
    · have e : c = { peer := id, addr := a, dialer := true, closing := false } := by simpa using hc
      rw [e] at hd
      cases hd
  | poll id => exact ⟨hl.arriving, hall id⟩
  | disconnect id => exact ⟨hl.arriving, hall id⟩
  | close i => exact ⟨hl.arriving, fun c hc => hl.live c (mem_eraseIdx hc)⟩
  | _ => exact ⟨hl.arriving, hl.live⟩

/-! ## Useful peers -/

/-- The record of a peer dialled and never said not to be useful. -/
structure Good (D : Nat → Bool) (id : Nat) (s : Sys) : Prop where
  one : One D s
  useful : ∀ p, get s.b.peers id = some p → p.useful = true
  queue : id ∉ s.b.queue
  still : ∀ c ∈ s.live, c.peer = id → c.closing = false

theorem useful_update {b : B} {id now j : Nat} (hn : (keys b.peers).Nodup)
    (h : ∀ p, get b.peers id = some p → p.useful = true) {f : Peer → Peer} {ps' : Peers}
    (hu : update cfg now b.peers j f = some ps') (hf : j = id → ∀ p, (f p).useful = p.useful) :
    ∀ p, get ps' id = some p → p.useful = true := by
  intro p hg
  rw [get_update hn hu] at hg
  simp only [Option.map_eq_some_iff] at hg
  obtain ⟨q, hq, e⟩ := hg
  have := h q (filter_some.1 hq).1
  by_cases hj : id = j
  · simp only [hj, if_true] at e
    rw [← e, hf hj.symm]; exact this
  · simp only [hj, if_false] at e
    rw [← e]; exact this

theorem useful_upsert {b : B} {id now j : Nat} (hn : (keys b.peers).Nodup)
    (h : ∀ p, get b.peers id = some p → p.useful = true) {f : Peer → Peer} {new : Peer}
    (hf : ∀ p, (f p).useful = p.useful) (hnew : new.useful = true) :
    ∀ p, get (upsert cfg now b.peers j f new) id = some p → p.useful = true := by
  intro p hg
  rw [get_upsert hn] at hg
  by_cases hj : id = j
  · subst hj
    rw [if_pos rfl] at hg
    cases hr : (get b.peers id).filter (fun p => !stale cfg now p) with
    | none => rw [hr] at hg; simp only [Option.some.injEq] at hg; rw [← hg, hnew]
    | some r =>
      rw [hr] at hg
      simp only [Option.some.injEq] at hg
      rw [← hg, hf]
      exact h r (filter_some.1 hr).1
  · rw [if_neg hj] at hg
    exact h p (filter_some.1 hg).1

theorem useful_failure {b : B} {id now : Nat} (hn : (keys b.peers).Nodup)
    (h : ∀ p, get b.peers id = some p → p.useful = true) (peer : Option Nat) :
    ∀ p, get (onDialFailure cfg now b peer).peers id = some p → p.useful = true := by
  cases peer with
  | none => exact h
  | some j => exact useful_upsert hn h (fun p => by split <;> rfl) rfl

theorem useful_established {b : B} {id now j : Nat} (hn : (keys b.peers).Nodup)
    (h : ∀ p, get b.peers id = some p → p.useful = true) {a : Addr} {dialer : Bool} {ip : Nat}
    (hip : getIp cfg a = some ip) :
    ∀ p, get (onEstablished cfg now b j a dialer).peers id = some p → p.useful = true := by
  unfold onEstablished
  simp only [hip]
  refine useful_upsert hn h ?_ ?_
  · exact fun p => rfl
  · rfl

theorem good_evicted {D : Nat → Bool} {id : Nat} (hD : D id = true) {b b' : B} (hn : (keys b.peers).Nodup)
    (hd : DirOk D b) (hu : ∀ p, get b.peers id = some p → p.useful = true) (hq : id ∉ b.queue) {now j : Nat}
    {p : Peer} (he : Evicted cfg now b b' j p) (hk : p.isInbound = true ∨ p.useful = false) :
    (∀ p, get b'.peers id = some p → p.useful = true) ∧ id ∉ b'.queue := by
  have hne : j ≠ id := by
    intro e
    subst e
    rcases hk with hk | hk
    · have := hd j p he.was
      unfold Peer.isInbound at hk
      rw [this, dirOf, hD] at hk
      cases hk
    · rw [hu p he.was] at hk; cases hk
  refine ⟨useful_update hn hu he.upd (fun e => absurd e hne), ?_⟩
  rw [he.queue]
  intro hm
  rcases List.mem_append.1 hm with h | h
  · exact hq h
  · have : id = j := by simpa using h
    exact hne this.symm

theorem kind_inbound {a : Addr} {p : Peer} (h : kind a p = true) : p.isInbound = true := by
  unfold kind at h
  split at h
  · simp only [isR, Bool.and_eq_true] at h; exact h.1.2
  · simp only [isD, Bool.and_eq_true] at h; exact h.1.2

theorem good_seen {D : Nat → Bool} {id : Nat} (hD : D id = true) {s s' : Sys} {a : Act} (hi : Inv s)
    (hg : Good D id s) (hw : OneWay D a) (hnu : a ≠ .notUseful id)
    (hnd : a ≠ .disconnect id) (h : Seen cfg s a s') : Good D id s' := by
  have ho := one_seen hi hg.one hw h
  have hadd : ∀ c : Conn, c.closing = false → ∀ d ∈ s.live ++ [c], d.peer = id → d.closing = false := by
    intro c hc d hd he
    rcases List.mem_append.1 hd with hd | hd
    · exact hg.still d hd he
    · have e : d = c := by simpa using hd
      rw [e]; exact hc
  have hall : ∀ j, j ≠ id → ∀ d ∈ closeAll s.live j, d.peer = id → d.closing = false := by
    intro j hj d hd he
    obtain ⟨c, hm, e⟩ := List.mem_map.1 hd
    by_cases h : c.peer = j
    · rw [if_pos h] at e; subst e; exact absurd (h.symm.trans he) hj
    · rw [if_neg h] at e; subst e; exact hg.still c hm he
  cases h with
  | shuffle ps hp =>
    exact ⟨ho, fun p h => hg.useful p ((get_perm hi.nd hp id).symm.trans h), hg.queue, hg.still⟩
  | arriveEvict a ip h1 h2 b' j p h3 h4 =>
    obtain ⟨e1, e2⟩ := good_evicted hD hi.nd hg.one.dir hg.useful hg.queue h3 (.inl (kind_inbound h4))
    exact ⟨ho, e1, e2, hg.still⟩
  | acceptRoom i id a b' j p h h3 h4 =>
    obtain ⟨e1, e2⟩ := good_evicted hD hi.nd hg.one.dir hg.useful hg.queue h3 (.inl (kind_inbound h4))
    exact ⟨ho, e1, e2, hg.still⟩
  | acceptOk i j a ip h hip =>
    exact ⟨ho, useful_established hi.nd hg.useful hip, by simp only; rw [established_queue hip]; exact hg.queue, hadd _ rfl⟩
  | acceptEvict i j a ip b' k p h hip hd hb h3 h4 =>
    obtain ⟨e1, e2⟩ := good_evicted hD hi.nd hg.one.dir hg.useful hg.queue h3 (.inl (kind_inbound h4))
    exact ⟨ho, useful_established (evicted_keep hi.nd h3).nd e1 hip, by
      simp only; rw [established_queue hip]; exact e2, hadd _ rfl⟩
  | dialDeny j => exact ⟨ho, useful_failure hi.nd hg.useful _, hg.queue, hg.still⟩
  | dialOk j => exact ⟨ho, useful_upsert hi.nd hg.useful (fun p => by split <;> rfl) rfl, hg.queue, hg.still⟩
  | dialEvict j b' k p hb h3 h4 h5 =>
    obtain ⟨e1, e2⟩ := good_evicted hD hi.nd hg.one.dir hg.useful hg.queue h3 (.inr h5)
    exact ⟨ho, useful_upsert (evicted_keep hi.nd h3).nd e1 (fun p => by split <;> rfl) rfl, e2, hg.still⟩
  | reachFail => exact ⟨ho, useful_failure hi.nd hg.useful _, hg.queue, hg.still⟩
  | reachOk i j a ip peer h hp hip =>
    exact ⟨ho, useful_established hi.nd hg.useful hip, by simp only; rw [established_queue hip]; exact hg.queue, hadd _ rfl⟩
  | fail i peer =>
    refine ⟨ho, useful_failure hi.nd hg.useful _, ?_, hg.still⟩
    cases peer <;> exact hg.queue
  | poll j q h =>
    refine ⟨ho, hg.useful, fun hm => hg.queue ?_, hall j ?_⟩
    · rw [h]
      exact List.mem_cons_of_mem _ hm
    · intro e
      subst e
      exact hg.queue (by rw [h]; exact List.mem_cons_self)
  | disconnect j => exact ⟨ho, hg.useful, hg.queue, hall j (fun e => hnd (by rw [e]))⟩
  | close i c b' h hc =>
    rcases closed_spec hc with ⟨_, e⟩ | ⟨_, hq, hu⟩
    · refine ⟨ho, ?_, ?_, fun d hd => hg.still d (mem_eraseIdx hd)⟩
      · simp only; rw [e]; exact hg.useful
      · simp only; rw [e]; exact hg.queue
    · refine ⟨ho, useful_update hi.nd hg.useful hu (fun _ p => rfl), ?_, fun d hd => hg.still d (mem_eraseIdx hd)⟩
      simp only
      rw [hq]
      exact hg.queue
  | ping i d c b' h hp =>
    unfold onPing at hp
    simp only [Option.map_eq_some_iff] at hp
    obtain ⟨ps, h1, rfl⟩ := hp
    exact ⟨ho, useful_update hi.nd hg.useful h1 (fun _ p => rfl), hg.queue, hg.still⟩
  | notUseful j b' h =>
    unfold onNotUseful at h
    simp only [Option.map_eq_some_iff] at h
    obtain ⟨ps, h1, rfl⟩ := h
    exact ⟨ho, useful_update hi.nd hg.useful h1 (fun e => absurd (by rw [e]) hnu), hg.queue, hg.still⟩
  | _ => exact ⟨ho, hg.useful, hg.queue, hg.still⟩

/-! ## Panics -/

/-- The record is not that of a peer whose connections are all closed. -/
def Peer.stays (p : Peer) : Bool :=
  match p.link with
  | .disconnected _ _ => false
  | _ => true

/-- Every connection has a record that does not go stale. -/
structure Known (s : Sys) : Prop where
  up : s.crashed = false
  live : ∀ c ∈ s.live, ∃ p, get s.b.peers c.peer = some p ∧ p.stays = true

theorem stays_fresh {p : Peer} (h : p.stays = true) (now : Nat) : stale cfg now p = false := by
  unfold Peer.stays at h
  unfold stale
  cases hl : p.link <;> simp_all

theorem stays_connected {p : Peer} (h : p.isConnected = true) : p.stays = true := by
  unfold Peer.isConnected at h
  unfold Peer.stays
  split at h
  · rename_i e; rw [e]
  · cases h

theorem known_update {b : B} {now j id : Nat} (hn : (keys b.peers).Nodup) {f : Peer → Peer} {ps' : Peers}
    (hu : update cfg now b.peers j f = some ps')
    (h : ∃ p, get b.peers id = some p ∧ p.stays = true)
    (hf : j = id → ∀ p, p.stays = true → (f p).stays = true) :
    ∃ p, get ps' id = some p ∧ p.stays = true := by
  obtain ⟨p, h1, h2⟩ := h
  have hs := stays_fresh (cfg := cfg) h2 now
  by_cases hj : id = j
  · subst hj
    refine ⟨f p, ?_, hf rfl p h2⟩
    rw [get_update hn hu, h1]; simp [Option.filter, hs]
  · refine ⟨p, ?_, h2⟩
    rw [get_update hn hu, h1]; simp [Option.filter, hs, hj]

theorem known_upsert {b : B} {now j id : Nat} (hn : (keys b.peers).Nodup) {f : Peer → Peer} {new : Peer}
    (h : ∃ p, get b.peers id = some p ∧ p.stays = true)
    (hf : j = id → ∀ p, get b.peers id = some p → p.stays = true → (f p).stays = true) :
    ∃ p, get (upsert cfg now b.peers j f new) id = some p ∧ p.stays = true := by
  obtain ⟨p, h1, h2⟩ := h
  have hs := stays_fresh (cfg := cfg) h2 now
  by_cases hj : id = j
  · subst hj
    refine ⟨f p, ?_, hf rfl p h1 h2⟩
    rw [get_upsert hn, if_pos rfl, h1]
    simp [Option.filter, hs]
  · refine ⟨p, ?_, h2⟩
    rw [get_upsert hn, if_neg hj, h1]
    simp [Option.filter, hs]

theorem known_established {b : B} {now j id : Nat} (hn : (keys b.peers).Nodup) {a : Addr} {dialer : Bool} {ip : Nat}
    (hip : getIp cfg a = some ip)
    (h : id = j ∨ ∃ p, get b.peers id = some p ∧ p.stays = true) :
    ∃ p, get (onEstablished cfg now b j a dialer).peers id = some p ∧ p.stays = true := by
  by_cases e : id = j
  · subst e
    obtain ⟨p, h1, h2, _⟩ := established_self (cfg := cfg) hn (now := now) (dialer := dialer) (id := id) hip
    exact ⟨p, h1, stays_connected h2⟩
  · rcases h with h | ⟨p, h1, h2⟩
    · exact absurd h e
    · refine ⟨p, ?_, h2⟩
      rw [established_get hn hip, if_neg e, h1]
      simp [Option.filter, stays_fresh (cfg := cfg) h2 now]

/-- A peer dialled in calm histories is connected if it has a connection at all. -/
theorem quiet_connected {s : Sys} (hi : Inv s) {id : Nat} (hq : Calm.Quiet s id) (h : ∃ c ∈ s.live, c.peer = id) :
    ∀ p, get s.b.peers id = some p → p.isConnected = true := by
  obtain ⟨c, hc, e, hk⟩ := hq h
  obtain ⟨k1, k2⟩ := keeps_iff.1 hk
  obtain ⟨p, p1, p2, _⟩ := hi.conn c hc k1 k2
  intro q hg
  rw [← e, p1] at hg
  cases hg
  exact p2

theorem known_failure {s : Sys} (hi : Inv s) (hk : Known s) {peer : Option Nat}
    (hq : ∀ id, peer = some id → Calm.Quiet s id) :
    ∀ c ∈ s.live, ∃ p, get (onDialFailure cfg s.now s.b peer).peers c.peer = some p ∧ p.stays = true := by
  intro c hc
  cases peer with
  | none => exact hk.live c hc
  | some j =>
    refine known_upsert hi.nd (hk.live c hc) ?_
    intro e p hp hst
    have := quiet_connected hi (hq j rfl) ⟨c, hc, e.symm⟩ p (by rw [e]; exact hp)
    simp [this, hst]

theorem known_evicted {b b' : B} (hn : (keys b.peers).Nodup) {now j id : Nat} {p : Peer}
    (he : Evicted cfg now b b' j p) (h : ∃ p, get b.peers id = some p ∧ p.stays = true) :
    ∃ p, get b'.peers id = some p ∧ p.stays = true :=
  known_update hn he.upd h (fun _ _ _ => rfl)

theorem known_dialed {b : B} (hn : (keys b.peers).Nodup) {j now id : Nat}
    (h : ∃ p, get b.peers id = some p ∧ p.stays = true) :
    ∃ p, get (dialed cfg now b j).peers id = some p ∧ p.stays = true := by
  refine known_upsert hn h ?_
  intro _ p _ hs
  by_cases hp : p.isConnected = true
  · simp [hp, hs]
  · simp [hp, Peer.stays]

theorem update_known {s : Sys} (hi : Inv s) (hk : Known s) {id : Nat} (hc : ∃ c ∈ s.live, c.peer = id)
    (f : Peer → Peer) : update cfg s.now s.b.peers id f ≠ none := by
  obtain ⟨c, hc, rfl⟩ := hc
  obtain ⟨p, h1, h2⟩ := hk.live c hc
  obtain ⟨ps, e⟩ := update_isSome (f := f) hi.nd h1 (stays_fresh (cfg := cfg) h2 s.now)
  rw [e]
  exact fun h => by cases h

theorem known_closeAll {s : Sys} (hk : Known s) (id : Nat) :
    ∀ c ∈ closeAll s.live id, ∃ p, get s.b.peers c.peer = some p ∧ p.stays = true := by
  intro c hc
  obtain ⟨d, hm, e⟩ := List.mem_map.1 hc
  by_cases h : d.peer = id
  · rw [if_pos h] at e; subst e; exact hk.live d hm
  · rw [if_neg h] at e; subst e; exact hk.live d hm

theorem known_added {s : Sys} {b : B} (hn : (keys b.peers).Nodup) {j now : Nat} {a : Addr}
    {dialer : Bool} {ip : Nat} (hip : getIp cfg a = some ip)
    (hb : ∀ c ∈ s.live, ∃ p, get b.peers c.peer = some p ∧ p.stays = true) :
    ∀ c ∈ s.live ++ [{ peer := j, addr := a, dialer := dialer, closing := false }],
      ∃ p, get (onEstablished cfg now b j a dialer).peers c.peer = some p ∧ p.stays = true := by
  intro c hc
  rcases List.mem_append.1 hc with hc | hc
  · exact known_established hn hip (.inr (hb c hc))
  · have e : c = { peer := j, addr := a, dialer := dialer, closing := false } := by simpa using hc
    exact known_established hn hip (.inl (by rw [e]))

theorem known_seen {s s' : Sys} {a : Act} (hi : Inv s) (hk : Known s) (hc : Calm s a) (h : Seen cfg s a s') :
    Known s' := by
  cases h with
  | crash _ id f h hw =>
    refine absurd h (update_known hi hk ?_ f)
    rcases hw with hw | hw
    · subst hw; exact hc
    · exact hw
  | shuffle ps hp =>
    refine ⟨hk.up, fun c h => ?_⟩
    obtain ⟨p, h1, h2⟩ := hk.live c h
    exact ⟨p, (get_perm hi.nd hp c.peer).trans h1, h2⟩
  | arriveEvict a ip h1 h2 b' j p h3 => exact ⟨hk.up, fun c h => known_evicted hi.nd h3 (hk.live c h)⟩
  | acceptRoom i id a b' j p h h3 => exact ⟨hk.up, fun c h => known_evicted hi.nd h3 (hk.live c h)⟩
  | acceptOk i id a ip h hip => exact ⟨hk.up, known_added hi.nd hip hk.live⟩
  | acceptEvict i id a ip b' j p h hip hd hb h3 =>
    exact ⟨hk.up, known_added (evicted_keep hi.nd h3).nd hip fun c h => known_evicted hi.nd h3 (hk.live c h)⟩
  | dialDeny id =>
    exact ⟨hk.up, known_failure hi hk (peer := some id) (fun j e => by cases e; exact hc)⟩
  | dialOk id => exact ⟨hk.up, fun c h => known_dialed hi.nd (hk.live c h)⟩
  | dialEvict id b' j p hb h3 =>
    exact ⟨hk.up, fun c h => known_dialed (evicted_keep hi.nd h3).nd (known_evicted hi.nd h3 (hk.live c h))⟩
  | reachFail i id =>
    exact ⟨hk.up, known_failure hi hk (peer := some id) (fun j e => by cases e; exact hc)⟩
  | reachOk i id a ip peer h hp hip => exact ⟨hk.up, known_added hi.nd hip hk.live⟩
  | fail i peer h =>
    exact ⟨hk.up, known_failure hi hk (peer := peer) (fun j e => hc j (by rw [h, e]))⟩
  | poll id q h => exact ⟨hk.up, known_closeAll hk id⟩
  | disconnect id => exact ⟨hk.up, known_closeAll hk id⟩
  | close i c b' h hcl =>
    refine ⟨hk.up, ?_⟩
    intro d hd
    have hd' := mem_eraseIdx hd
    rcases closed_spec hcl with ⟨_, e⟩ | ⟨h0, _, hu⟩
    · simp only; rw [e]; exact hk.live d hd'
    · refine known_update hi.nd hu (hk.live d hd') ?_
      intro e
      rw [List.countP_eq_zero] at h0
      exact absurd (by simp [e]) (h0 d hd)
  | ping i d c b' h hp =>
    unfold onPing at hp
    simp only [Option.map_eq_some_iff] at hp
    obtain ⟨ps, h1, rfl⟩ := hp
    exact ⟨hk.up, fun c h => known_update hi.nd h1 (hk.live c h) (fun _ p hs => hs)⟩
  | notUseful j b' h =>
    unfold onNotUseful at h
    simp only [Option.map_eq_some_iff] at h
    obtain ⟨ps, h1, rfl⟩ := h
    exact ⟨hk.up, fun c h => known_update hi.nd h1 (hk.live c h) (fun _ p hs => hs)⟩
  | _ => exact ⟨hk.up, hk.live⟩

end Verif.Conn
