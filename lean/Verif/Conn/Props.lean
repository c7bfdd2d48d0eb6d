import Verif.Conn.Room
/-!
# C91: connections of a node with its peers

`run cfg (start t) acts = some s` says that `s` is a state of a node started at time `t` after any
history whatever of connections, dials, failures, pings, reports and passing time.
-/

namespace Verif.Conn

/-! ## One connection for each peer -/

/-- C91: of the connections with one peer, the node keeps at most one: every other one is being
closed. -/
theorem C91_one_connection {cfg : Cfg} {t : Nat} {acts : List Act} {s : Sys}
    (h : run cfg (start t) acts = some s) (id : Nat) :
    (s.live.filter fun c => s.keeps c && (c.peer == id)).length ≤ 1 := by
  have hi := (run_induct (P := fun _ => True) (fun _ _ _ _ _ _ => trivial) (inv_start t) trivial h).1
  have hn := kept_nodup hi (fun c => c.peer == id)
  have hall : ∀ c ∈ s.live.filter (fun c => s.keeps c && (c.peer == id)), c.peer = id := by
    intro c hc
    have := (List.mem_filter.1 hc).2
    simp only [Bool.and_eq_true, beq_iff_eq] at this
    exact this.2
  generalize s.live.filter (fun c => s.keeps c && (c.peer == id)) = l at hn hall
  match l with
  | [] => exact Nat.zero_le _
  | [_] => exact Nat.le_refl _
  | a :: b :: r =>
    have ha := hall a List.mem_cons_self
    have hb := hall b (List.mem_cons_of_mem _ List.mem_cons_self)
    simp only [List.map_cons, List.nodup_cons, List.mem_cons, not_or] at hn
    exact absurd (ha.trans hb.symm) hn.1.1

/-- A small node for the examples: one peer of each kind. -/
def tiny : Cfg :=
  { directTimeout := 100, relayTimeout := 100, maxDirect := 1, maxRelayed := 1, maxOut := 1,
    evictionTimeout := 3600000, whitelist := fun ip => ip != 66, rateMax := 10, rateInterval := 1000,
    group := fun ip => ip, rank := fun id => id, resolve := fun _ => none }

/-- The peer 7 connects, and connects again from another address: the second connection is refused. -/
example : ((run tiny (start 0)
    [.arrive [.ip 1], .arrive [.ip 2], .accept 0 7 true, .accept 0 7 true]).map fun s =>
      (s.live.map (·.peer), s.live.map s.keeps)) = some ([7], [true]) := by decide +kernel

/-- And there may be two, the first of which is being closed: not useful, it makes room for a dial. -/
example : ((run tiny (start 0)
    [.dial (some 7) true, .reach 0 7 [.ip 1] true, .notUseful 7, .dial (some 7) true,
      .reach 0 7 [.ip 1] true, .poll]).map fun s =>
      (s.live.map (·.peer), s.live.map (·.closing))) = some ([7, 7], [true, true]) := by decide +kernel

/-! ## Limits on inbound peers -/

/-- C91, partial: if no peer is met in both directions, the inbound connections kept are never more
than the limits allow.  Missing: peers met in both directions, for which it is false (below). -/
theorem C91_inbound_limit_partial {cfg : Cfg} {D : Nat → Bool} {t : Nat} {acts : List Act} {s : Sys}
    (hw : ∀ a ∈ acts, OneWay D a) (h : run cfg (start t) acts = some s) :
    (s.inboundKept false).length ≤ cfg.maxDirect ∧ (s.inboundKept true).length ≤ cfg.maxRelayed := by
  obtain ⟨hi, hl⟩ := run_induct' (Q := OneWay D) (fun _ _ _ hi hl hw h => lim_seen hi hl hw h)
    (inv_start t) (lim_start D t) hw h
  exact inbound_kept hi hl

example : ((run tiny (start 0)
    [.arrive [.ip 1], .arrive [.ip 2], .arrive [.ip 3, .circuit], .accept 0 7 true, .accept 0 8 true,
      .accept 0 9 true]).map fun s => (s.inboundKept false, s.inboundKept true)) =
    some ([⟨7, [.ip 1], false, false⟩], [⟨9, [.ip 3, .circuit], false, false⟩]) := by decide +kernel

example : ∀ a ∈ [Act.arrive [.ip 1], .accept 0 7 true, .dial (some 8) true],
    OneWay (fun id => id == 8) a := by
  intro a ha
  simp only [List.mem_cons, List.not_mem_nil, or_false] at ha
  rcases ha with rfl | rfl | rfl <;> first | trivial | rfl

/-- C91 is violated: a record keeps the direction of the first contact.  A peer that the node once
failed to dial counts as outbound when it connects by itself, so the limit on inbound peers does
not see it. -/
theorem C91_inbound_limit_violated :
    ∃ (acts : List Act) (s : Sys), run tiny (start 0) acts = some s ∧
      tiny.maxDirect < (s.inboundKept false).length := by
  refine ⟨[.dial (some 7) true, .fail 0, .arrive [.ip 1], .accept 0 7 true, .arrive [.ip 2], .accept 0 8 true],
    _, rfl, ?_⟩
  decide +kernel

/-- A node that failed to dial 7, to which 7 then connected. -/
def taken : Sys :=
  (run tiny (start 0) [.dial (some 7) true, .fail 0, .arrive [.ip 1], .accept 0 7 true]).getD (start 0)

/-- C91 is violated: and such a peer takes the place of an outbound one: the node has no outbound
connection and makes no dial any more. -/
theorem C91_outbound_starved_violated :
    ∃ (acts : List Act) (s : Sys), run tiny (start 0) acts = some s ∧ s.outboundKept = [] ∧ 0 < tiny.maxOut ∧
      ∀ id, (step tiny s (.dial (some id) true)).map (·.dials) = some [] := by
  refine ⟨[.dial (some 7) true, .fail 0, .arrive [.ip 1], .accept 0 7 true], taken, by decide +kernel,
    by decide +kernel, by decide, ?_⟩
  exact dial_refused (cfg := tiny) (s := taken) rfl (by decide +kernel) rfl

/-! ## The limit on outbound peers -/

/-- C91, partial: dialling known peers one at a time, none of which connects by itself, the node
never keeps more outbound connections than the limit.  Missing: dials at the same time, dials of
addresses, hole punching (below). -/
theorem C91_outbound_limit_partial {cfg : Cfg} {D : Nat → Bool} {t : Nat} {acts : List Act} {s : Sys}
    (hw : Along cfg (fun s a => OneWay D a ∧ OneDial s a) (start t) acts)
    (h : run cfg (start t) acts = some s) : s.outboundKept.length ≤ cfg.maxOut := by
  obtain ⟨hi, hl⟩ := along_induct (P := OutLim cfg D)
    (fun _ _ _ hi hl hw _ h => outlim_seen hi hl hw.1 hw.2 h) (inv_start t)
    ⟨one_start D t, (by intro d hd; cases hd), Nat.zero_le _, Nat.zero_le _⟩ hw h
  exact outbound_kept hi hl

example : ((run tiny (start 0)
    [.dial (some 7) true, .reach 0 7 [.ip 1] true, .dial (some 8) true]).map fun s =>
      (s.outboundKept.map (·.peer), s.dials)) = some ([7], []) := by decide +kernel

/-- C91 is violated: the limit is looked at when a dial begins, and dials under way do not count. -/
theorem C91_outbound_limit_violated :
    ∃ (acts : List Act) (s : Sys), run tiny (start 0) acts = some s ∧
      tiny.maxOut < s.outboundKept.length := by
  refine ⟨[.dial (some 7) true, .dial (some 8) true, .reach 0 7 [.ip 1] true, .reach 0 8 [.ip 2] true],
    _, rfl, ?_⟩
  decide +kernel

/-- C91, partial: a peer that the node dialled, that never connects by itself and that nobody
reports as not useful is never disconnected by the node.  Missing: peers met in both directions. -/
theorem C91_useful_kept_partial {cfg : Cfg} {D : Nat → Bool} {id t : Nat} (hD : D id = true)
    {acts : List Act} {s : Sys}
    (hw : ∀ a ∈ acts, OneWay D a ∧ a ≠ .notUseful id ∧ a ≠ .disconnect id)
    (h : run cfg (start t) acts = some s) : ∀ c ∈ s.live, c.peer = id → s.keeps c = true := by
  obtain ⟨_, hg⟩ := run_induct' (P := Good D id) (Q := fun a => OneWay D a ∧ a ≠ .notUseful id ∧ a ≠ .disconnect id)
    (fun _ _ _ hi hg hw h => good_seen hD hi hg hw.1 hw.2.1 hw.2.2 h) (inv_start t)
    ⟨one_start D t, (by intro p hp; cases hp), (by intro h; cases h), (by intro c hc; cases hc)⟩ hw h
  intro c hc e
  exact keeps_iff.2 ⟨hg.still c hc e, by rw [e]; exact hg.queue⟩

/-- 7 is useful and stays, 8 is not dialled. -/
example : ((run tiny (start 0)
    [.dial (some 7) true, .reach 0 7 [.ip 1] true, .ping 0 5, .dial (some 8) true]).map fun s =>
      s.live.map fun c => (c.peer, s.keeps c)) = some [(7, true)] := by decide +kernel

/-- The other side: once reported as not useful, it makes room. -/
example : ((run tiny (start 0)
    [.dial (some 7) true, .reach 0 7 [.ip 1] true, .notUseful 7, .dial (some 8) true]).map fun s =>
      (s.live.map fun c => (c.peer, s.keeps c), s.dials)) = some ([(7, false)], [some 8]) := by decide +kernel

/-! ## Evicted peers -/

/-- C91, partial: for thirty seconds after the connection of an evicted peer has ended, no
connection with that peer is made, in either direction, whatever happens.  Missing: the time from
the eviction to the end of the connection, and the rest of the configured eviction timeout (both
below). -/
theorem C91_evicted_banned_partial {cfg : Cfg} (hc : 30000 ≤ cfg.evictionTimeout) {t0 id t : Nat}
    {acts acts' : List Act} {s s' : Sys} {p : Peer} {since : Option Nat}
    (h : run cfg (start t0) acts = some s)
    (hg : get s.b.peers id = some p) (he : p.evicted = true) (hl : p.link = .disconnected since t) (ht : t ≤ s.now)
    (h' : run cfg s acts' = some s') (hnow : s'.now < t + 30000) :
    s'.live.countP (fun c => c.peer == id) ≤ s.live.countP (fun c => c.peer == id) := by
  have hi := (run_induct (P := fun _ => True) (fun _ _ _ _ _ _ => trivial) (inv_start t0) trivial h).1
  obtain ⟨_, ha⟩ := run_induct (P := Away cfg t id (s.live.countP fun c => c.peer == id))
    (fun _ _ _ hi ha h => away_seen hc hi ha h) hi
    ⟨ht, fun _ => ⟨⟨p, hg, he, since, t, hl, Nat.le_refl _⟩, Nat.le_refl _⟩⟩ h'
  exact (ha.soon hnow).2

/-- 7 is evicted at 0, its connection ends at 5; at 6 its dial and its own connection are refused. -/
example : ((run tiny (start 0)
    [.dial (some 7) true, .reach 0 7 [.ip 1] true, .notUseful 7, .dial (some 8) true, .poll, .tick 5,
      .close 0]).map fun s => (get s.b.peers 7).map fun p => (p.evicted, p.link)) =
    some (some (true, .disconnected (some 0) 5)) := by decide +kernel

example : ((run tiny (start 0)
    [.dial (some 7) true, .reach 0 7 [.ip 1] true, .notUseful 7, .dial (some 8) true, .poll, .tick 5,
      .close 0, .tick 1, .fail 0, .dial (some 7) true, .arrive [.ip 4], .accept 0 7 true]).map fun s =>
      (s.live, s.dials, s.arriving)) = some ([], [], []) := by decide +kernel

/-- C91 is violated: an evicted peer is back at once, over a second connection opened before the
first is closed. -/
theorem C91_evicted_returns_violated :
    ∃ (acts : List Act) (s : Sys), run tiny (start 0) acts = some s ∧
      ∃ c ∈ s.live, c.peer = 7 ∧ s.keeps c = true ∧ ∃ p, get s.b.peers 7 = some p ∧ p.evicted = true := by
  refine ⟨[.dial (some 7) true, .reach 0 7 [.ip 1] true, .notUseful 7, .dial (some 8) true, .poll,
    .arrive [.ip 4], .accept 0 7 true], _, rfl, ⟨7, [.ip 4], false, false⟩, by decide +kernel, rfl,
    by decide +kernel, _, rfl, rfl⟩

/-- C91 is violated: the configured time "to prevent evicted peers from reconnecting" is an hour,
and the peer is back after thirty seconds. -/
theorem C91_eviction_timeout_violated :
    tiny.evictionTimeout = 3600000 ∧
    ∃ (acts : List Act) (s : Sys), run tiny (start 0) acts = some s ∧ s.now = 30000 ∧
      ∃ c ∈ s.live, c.peer = 7 ∧ s.keeps c = true ∧ ∃ p, get s.b.peers 7 = some p ∧ p.evicted = true := by
  refine ⟨rfl, [.dial (some 7) true, .reach 0 7 [.ip 1] true, .notUseful 7, .dial (some 8) true, .poll,
    .close 0, .tick 30000, .arrive [.ip 4], .accept 0 7 true], _, rfl, by decide +kernel,
    ⟨7, [.ip 4], false, false⟩, by decide +kernel, rfl, by decide +kernel, _, rfl, rfl⟩

/-! ## The whitelist -/

/-- C91: no inbound connection from an address that is not on the whitelist is ever accepted. -/
theorem C91_whitelist {cfg : Cfg} {t : Nat} {acts : List Act} {s : Sys}
    (h : run cfg (start t) acts = some s) :
    ∀ c ∈ s.live, c.dialer = false → ∃ ip, getIp cfg c.addr = some ip ∧ cfg.whitelist ip = true :=
  (run_induct (P := Listed cfg) (fun _ _ _ _ hl h => listed_seen hl h) (inv_start t)
    ⟨(by intro a ha; cases ha), (by intro c hc; cases hc)⟩ h).2.live

/-- 66 is not on the list. -/
example : ((run tiny (start 0) [.arrive [.ip 66], .arrive [.ip 1], .accept 0 7 true]).map fun s =>
    s.live.map (·.addr)) = some [[.ip 1]] := by decide +kernel

/-! ## Whom a newcomer replaces -/

/-- C91: the inbound peer evicted for a newcomer is a connected inbound peer of the same kind; it is
not the one that stands for one of the four protected network groups, nor one of the eight fastest. -/
theorem C91_evict_protects {cfg : Cfg} {t : Nat} {acts : List Act} {s s' : Sys} {a : Addr} {id : Nat}
    (h : run cfg (start t) acts = some s) (hs : step cfg s (.arrive a) = some s')
    (hq : s'.b.queue = s.b.queue ++ [id]) :
    ∃ c ∈ rivals s.b.peers (viaRelay a), c.id = id ∧
      ¬ Guard cfg.rank (rivals s.b.peers (viaRelay a)) c ∧ ¬ Fast (rivals s.b.peers (viaRelay a)) c := by
  have hi := (run_induct (P := fun _ => True) (fun _ _ _ _ _ _ => trivial) (inv_start t) trivial h).1
  have hne : s'.b ≠ s.b := by
    intro e
    rw [e] at hq
    simpa using congrArg List.length hq
  have hroom : ∃ b', makeRoom cfg s.now s.b a = .ok b' ∧ s'.b = b' := by
    simp only [step] at hs
    split at hs
    · cases hs
    · unfold pendingInbound at hs
      split at hs
      · rename_i hp
        cases hs
        split at hp
        · cases hp
        · split at hp
          · cases hp
          · split at hp
            · cases hp
            · split at hp
              · cases hp
              · split at hp
                · cases hp
                · exact ⟨_, hp, rfl⟩
      · rename_i b0 hp
        cases hs
        have : b0 = s.b := by
          split at hp
          · cases hp; rfl
          · split at hp
            · cases hp; rfl
            · split at hp
              · cases hp; rfl
              · split at hp
                · cases hp; rfl
                · split at hp
                  · cases hp; rfl
                  · rcases room_spec (cfg := cfg) hi.grp hi.nd s.now a with ⟨e, _⟩ | ⟨_, _, e⟩ | ⟨_, _, _, _, e, _⟩
                    · rw [e] at hp; cases hp
                    · rw [e] at hp; cases hp; rfl
                    · rw [e] at hp; cases hp
        exact absurd this hne
      · cases hs
        exact absurd rfl hne
  obtain ⟨b', e1, e2⟩ := hroom
  rcases room_spec (cfg := cfg) hi.grp hi.nd s.now a with ⟨e, _⟩ | ⟨_, _, e⟩ | ⟨_, c, b1, hc, e, hb⟩
  · rw [e] at e1; cases e1; exact absurd e2 hne
  · rw [e] at e1; cases e1
  · rw [e] at e1
    cases e1
    rw [e2, hb] at hq
    have hid : c.id = id := by simpa using hq
    have hn := rivals_nodup hi.nd (viaRelay a)
    refine ⟨c, choose_mem hc, hid, ?_, ?_⟩
    · exact fun hg => choose_not_guard hc (guard_protected (choose_mem hc) hg)
    · rintro ⟨p, hp, hlt⟩
      obtain ⟨h1, h2⟩ := choose_not_fast hc
      refine h2 (fast_protected (without_nodup hn) h1 hp ?_)
      refine Nat.lt_of_le_of_lt ?_ hlt
      exact (List.Sublist.filter _ (List.filter_sublist (l := rivals s.b.peers (viaRelay a)))).length_le

/-- A node with room for fifteen; addresses from 100 on are one network. -/
def big : Cfg :=
  { directTimeout := 0, relayTimeout := 0, maxDirect := 15, maxRelayed := 1, maxOut := 1,
    evictionTimeout := 3600000, whitelist := fun _ => true, rateMax := 100, rateInterval := 1000,
    group := fun ip => if 100 ≤ ip then 50 else ip, rank := fun id => id, resolve := fun _ => none }

/-- Thirteen peers from thirteen networks connect, then two from one network. -/
def crowd : List Act :=
  ((List.range 13 ++ [100, 101]).map fun i => [Act.tick 10, .arrive [.ip i], .accept 0 i true]).flatten

/-- The state they leave. -/
def crowded : Sys := (run big (start 0) crowd).getD (start 0)

theorem crowded_eq : run big (start 0) crowd = some crowded := by
  unfold crowded
  have : (run big (start 0) crowd).isSome = true := by decide +kernel
  cases h : run big (start 0) crowd with
  | none => rw [h] at this; cases this
  | some s => rfl

/-- One more of that network arrives, and somebody has to go. -/
example : ∃ s' id, step big crowded (.arrive [.ip 102]) = some s' ∧ s'.b.queue = crowded.b.queue ++ [id] := by
  have hi := (run_induct (P := fun _ => True) (fun _ _ _ _ _ _ => trivial) (inv_start 0) trivial crowded_eq).1
  have hp : pendingInbound big crowded.now crowded.b [.ip 102] = makeRoom big crowded.now crowded.b [.ip 102] := by
    unfold pendingInbound
    rw [if_neg (by decide +kernel)]
    simp only [getIp]
    rw [if_neg (by decide +kernel), if_neg (by decide +kernel), if_neg (by decide +kernel)]
  have hup : crowded.crashed = false := by decide +kernel
  have h12 : 15 ≤ (rivals crowded.b.peers (viaRelay [.ip 102])).length := by decide +kernel
  rcases room_spec (cfg := big) hi.grp hi.nd crowded.now [.ip 102] with ⟨_, e⟩ | ⟨_, e, _⟩ | ⟨_, c, b', hc, e, hb⟩
  · exact absurd e (Nat.not_lt.2 h12)
  · obtain ⟨c, hc⟩ := choose_some (rank := big.rank) (rivals_nodup hi.nd (viaRelay [.ip 102])) (by omega)
    rw [hc] at e; cases e
  · refine ⟨{ crowded with b := b', arriving := crowded.arriving ++ [[.ip 102]] }, c.id, ?_, hb⟩
    simp only [step, hup, hp, e]
    rfl

/-- C91: once more than twelve inbound peers of a kind are connected a newcomer is never turned away
for want of room. -/
theorem C91_evict_always {cfg : Cfg} {t : Nat} {acts : List Act} {s : Sys} {i id : Nat} {a : Addr}
    (h : run cfg (start t) acts = some s) (hup : s.crashed = false) (ha : s.arriving[i]? = some a)
    (hip : (getIp cfg a).isSome = true)
    (hnew : ∀ p, get s.b.peers id = some p → p.isConnected = false ∧ p.evicted = false)
    (h12 : 12 < (rivals s.b.peers (viaRelay a)).length) :
    ∃ s', step cfg s (.accept i id true) = some s' ∧
      { peer := id, addr := a, dialer := false, closing := false } ∈ s'.live := by
  have hi := (run_induct (P := fun _ => True) (fun _ _ _ _ _ _ => trivial) (inv_start t) trivial h).1
  have h1 : duplicate s.b id = false := by
    unfold duplicate
    cases hg : get s.b.peers id with
    | none => rfl
    | some p => simpa using (hnew p hg).1
  have h2 : banned s.now s.b id = false := by
    unfold banned
    cases hg : get s.b.peers id with
    | none => rfl
    | some p => simp [(hnew p hg).2]
  have hok : ∃ b', establishedInbound cfg s.now s.b id a = .ok b' := by
    unfold establishedInbound
    rw [h1, h2]
    cases hgi : getIp cfg a with
    | none => rw [hgi] at hip; cases hip
    | some ip =>
      simp only [Option.isNone_some, Bool.false_eq_true, if_false]
      rcases room_spec (cfg := cfg) hi.grp hi.nd s.now a with ⟨e, _⟩ | ⟨_, e, _⟩ | ⟨_, _, b', _, e, _⟩
      · exact ⟨_, e⟩
      · obtain ⟨c, hc⟩ := choose_some (rank := cfg.rank) (rivals_nodup hi.nd (viaRelay a)) h12
        rw [hc] at e; cases e
      · exact ⟨b', e⟩
  obtain ⟨b', hok⟩ := hok
  exact ⟨_, accept_step hup ha hok, List.mem_append_right _ List.mem_cons_self⟩

example : 12 < (rivals crowded.b.peers (viaRelay [.ip 102])).length ∧ crowded.crashed = false ∧
    ∀ p, get crowded.b.peers 102 = some p → p.isConnected = false ∧ p.evicted = false := by
  refine ⟨by decide +kernel, by decide +kernel, ?_⟩
  have : get crowded.b.peers 102 = none := by decide +kernel
  intro p hp
  rw [this] at hp
  cases hp

/-- C91 is violated: the comments say that the peers connected the longest are protected and that the
youngest peer of the most populous network is evicted.  It is the other way round: when attackers
from one network, all younger than every other peer and more than any other network, are joined by
another one, and more than twelve other peers are left, one of those is evicted. -/
theorem C91_attack_violated {cfg : Cfg} {t : Nat} {acts : List Act} {s : Sys} {i id : Nat} {a : Addr}
    {evil : Nat → Bool} {g : Nat}
    (h : run cfg (start t) acts = some s) (hup : s.crashed = false) (ha : s.arriving[i]? = some a)
    (hip : (getIp cfg a).isSome = true)
    (hnew : ∀ p, get s.b.peers id = some p → p.isConnected = false ∧ p.evicted = false)
    (hfull : cfg.maxInbound (viaRelay a) ≤ (rivals s.b.peers (viaRelay a)).length)
    (hatk : OneNetworkAttack (rivals s.b.peers (viaRelay a)) evil g)
    (h12 : 12 < honest (rivals s.b.peers (viaRelay a)) evil) :
    ∃ s' victim, step cfg s (.accept i id true) = some s' ∧ evil victim = false ∧
      s'.b.queue = s.b.queue ++ [victim] := by
  have hi := (run_induct (P := fun _ => True) (fun _ _ _ _ _ _ => trivial) (inv_start t) trivial h).1
  have h1 : duplicate s.b id = false := by
    unfold duplicate
    cases hg : get s.b.peers id with
    | none => rfl
    | some p => simpa using (hnew p hg).1
  have h2 : banned s.now s.b id = false := by
    unfold banned
    cases hg : get s.b.peers id with
    | none => rfl
    | some p => simp [(hnew p hg).2]
  obtain ⟨c, hc, hev⟩ := attack_chosen (rank := cfg.rank) (rivals_nodup hi.nd (viaRelay a)) hatk h12
  cases hgi : getIp cfg a with
  | none => rw [hgi] at hip; cases hip
  | some ip =>
    have hok : ∃ b', establishedInbound cfg s.now s.b id a = .ok b' ∧ b'.queue = s.b.queue ++ [c.id] := by
      unfold establishedInbound
      rw [h1, h2, hgi]
      simp only [Option.isNone_some, Bool.false_eq_true, if_false]
      rcases room_spec (cfg := cfg) hi.grp hi.nd s.now a with ⟨_, e⟩ | ⟨_, e, _⟩ | ⟨_, d, b', hd, e, hb⟩
      · omega
      · rw [hc] at e; cases e
      · rw [hc] at hd; cases hd; exact ⟨b', e, hb⟩
    obtain ⟨b', hok, hb⟩ := hok
    refine ⟨_, c.id, accept_step hup ha hok, hev, ?_⟩
    simp only [onEstablished, hgi]
    exact hb

/-- The two latecomers of one network are such an attack. -/
example : OneNetworkAttack (rivals crowded.b.peers false) (fun id => decide (100 ≤ id)) 50 ∧
    honest (rivals crowded.b.peers false) (fun id => decide (100 ≤ id)) = 13 ∧
    big.maxInbound false ≤ (rivals crowded.b.peers false).length := by
  refine ⟨⟨by decide +kernel, by decide +kernel, by decide +kernel⟩, by decide +kernel, by decide +kernel⟩

/-- C91 is violated: and so on, one honest peer for each new attacker, until twelve are left. -/
theorem C91_siege_violated {rank : Nat → Nat} {evil : Nat → Bool} {g : Nat} (cs new : List Cand)
    (hn : (cs.map (·.id) ++ new.map (·.id)).Nodup) (hatk : OneNetworkAttack cs evil g)
    (hnew : ∀ n ∈ new, evil n.id = true ∧ n.group = g ∧ ∀ d ∈ cs, evil d.id = false → d.since < n.since)
    (hlen : 12 + new.length ≤ honest cs evil) :
    honest (siege (choose rank) cs new) evil + new.length = honest cs evil :=
  siege_attack new cs hn hatk hnew hlen

example : (∀ n ∈ [(⟨102, 50, none, 1000⟩ : Cand)], decide (100 ≤ n.id) = true ∧ n.group = 50 ∧
    ∀ d ∈ rivals crowded.b.peers false, decide (100 ≤ d.id) = false → d.since < n.since) ∧
    ((rivals crowded.b.peers false).map (fun c : Cand => c.id) ++ [102]).Nodup := by
  refine ⟨by decide +kernel, by decide +kernel⟩

/-! ## The rate of inbound connections -/

/-- C91, partial: when a connection is let in, fewer inbound peers than the limit have connected in
the last interval (of those whose records are kept).  Missing: connections under way do not count
(below). -/
theorem C91_rate_limit_partial {cfg : Cfg} {t : Nat} {acts : List Act} {s s' : Sys} {a : Addr}
    (h : run cfg (start t) acts = some s) (hs : step cfg s (.arrive a) = some s')
    (hin : s'.arriving ≠ s.arriving) (ids : List Nat) (hn : ids.Nodup)
    (hids : ∀ i ∈ ids, ∃ p u, get s.b.peers i = some p ∧ p.isInbound = true ∧ stale cfg s.now p = false ∧
      p.since = some u ∧ s.now - cfg.rateInterval ≤ u ∧ u < s.now) : ids.length < cfg.rateMax := by
  have hi := (run_induct (P := fun _ => True) (fun _ _ _ _ _ _ => trivial) (inv_start t) trivial h).1
  have hlt : recentCount cfg s.now s.b < cfg.rateMax := by
    refine Nat.lt_of_not_le fun hle => hin ?_
    have : pendingInbound cfg s.now s.b a = .deny s.b := by
      unfold pendingInbound; rw [if_pos hle]
    simp only [step] at hs
    split at hs
    · cases hs
    · rw [this] at hs; cases hs; rfl
  exact Nat.lt_of_le_of_lt (recent_le hn hids) hlt

example : ((run { big with rateMax := 1 } (start 0)
    [.arrive [.ip 1], .accept 0 7 true, .tick 1, .arrive [.ip 2], .tick 999, .arrive [.ip 3], .tick 1,
      .arrive [.ip 4]]).map fun s => s.arriving) = some [[.ip 4]] := by decide +kernel

/-- C91 is violated: the rate is looked at when a connection begins to be accepted, so two at the same
time pass a limit of one. -/
theorem C91_rate_limit_violated :
    ∃ (cfg : Cfg) (acts : List Act) (s : Sys), run cfg (start 0) acts = some s ∧ cfg.rateMax = 1 ∧ s.now = 0 ∧
      (s.inboundKept false).length = 2 := by
  refine ⟨{ big with rateMax := 1 },
    [.arrive [.ip 1], .arrive [.ip 2], .accept 0 7 true, .accept 0 8 true], _, rfl, rfl, rfl, ?_⟩
  decide +kernel

/-- C91, partial: when a connection is let in, no inbound peer of the same kind whose record is kept
has connected from the same address within the timeout.  Missing: connections under way. -/
theorem C91_reconnect_partial {cfg : Cfg} {s s' : Sys} {a : Addr} {ip : Nat}
    (hs : step cfg s (.arrive a) = some s')
    (hin : s'.arriving ≠ s.arriving) (hip : getIp cfg a = some ip) {id : Nat} {p : Peer} {u : Nat}
    (hg : get s.b.peers id = some p) (hp : p.isInbound = true) (hf : stale cfg s.now p = false)
    (hu : p.since = some u) (hk : p.isRelayed = viaRelay a) (hpi : p.ip = some ip) :
    (if viaRelay a then cfg.relayTimeout else cfg.directTimeout) ≤ s.now - u := by
  refine Nat.le_of_not_lt fun hlt => hin ?_
  have hmem : (recentIps cfg s.now s.b (viaRelay a)).contains ip = true := by
    rw [List.contains_iff_mem]
    unfold recentIps
    refine List.mem_filterMap.2 ⟨(id, p), List.mem_filter.2 ⟨get_mem hg, by simp [hf]⟩, ?_⟩
    simp only [hp, if_true, hu, Option.bind_some, hk]
    cases hr : viaRelay a <;> rw [hr] at hlt <;> simp at hlt ⊢ <;> exact ⟨by omega, hpi⟩
  have hden : pendingInbound cfg s.now s.b a = .deny s.b := by
    unfold pendingInbound
    rw [hip]
    simp only [hmem, if_true]
    split
    · rfl
    · split <;> rfl
  simp only [step] at hs
  split at hs
  · cases hs
  · rw [hden] at hs; cases hs; rfl

example : ((run { big with directTimeout := 100 } (start 0)
    [.arrive [.ip 1], .accept 0 7 true, .tick 99, .arrive [.ip 1], .tick 1, .arrive [.ip 1]]).map fun s =>
      s.arriving) = some [[.ip 1]] := by decide +kernel

/-- C91 is violated: two peers from one address at the same time. -/
theorem C91_reconnect_violated :
    ∃ (cfg : Cfg) (acts : List Act) (s : Sys), run cfg (start 0) acts = some s ∧ cfg.directTimeout = 100 ∧
      s.now = 0 ∧ (s.inboundKept false).map (·.addr) = [[.ip 1], [.ip 1]] := by
  refine ⟨{ big with directTimeout := 100 },
    [.arrive [.ip 1], .arrive [.ip 1], .accept 0 7 true, .accept 0 8 true], _, rfl, rfl, rfl, ?_⟩
  decide +kernel

/-! ## No panic -/

/-- C91, partial: if no peer is dialled while its last connection is being closed, and only connected
peers are reported as not useful, the node never panics.  Missing: the other histories (below). -/
theorem C91_no_crash_partial {cfg : Cfg} {t : Nat} {acts : List Act} {s : Sys}
    (hc : Along cfg Calm (start t) acts) (h : run cfg (start t) acts = some s) : s.crashed = false :=
  (along_induct (P := Known) (fun _ _ _ hi hk hc _ h => known_seen hi hk hc h) (inv_start t)
    ⟨rfl, (by intro c hc; cases hc)⟩ hc h).2.up

example : Along tiny Calm (start 0)
    [.dial (some 7) true, .reach 0 7 [.ip 1] true, .ping 0 3, .notUseful 7, .disconnect 7, .close 0] := by
  refine ⟨?_, fun _ h => ?_⟩
  · intro h; obtain ⟨c, hc, _⟩ := h; cases hc
  cases h
  refine ⟨?_, fun _ h => ?_⟩
  · intro h; obtain ⟨c, hc, _⟩ := h; cases hc
  cases h
  refine ⟨trivial, fun _ h => ?_⟩
  cases h
  refine ⟨⟨_, List.mem_cons_self, rfl⟩, fun _ h => ?_⟩
  cases h
  exact ⟨trivial, fun _ _ => ⟨trivial, fun _ _ => trivial⟩⟩

/-- C91 is violated: a peer whose connection is being closed is dialled and the dial fails; the record
says that it is disconnected, is dropped after the eviction timeout, and the end of the connection
is a panic. -/
theorem C91_crash_violated :
    ∃ (acts : List Act) (s : Sys), run tiny (start 0) acts = some s ∧ s.crashed = true ∧
      ∀ id, Act.notUseful id ∈ acts → id = 7 ∧ acts.take 2 = [.dial (some 7) true, .reach 0 7 [.ip 1] true] := by
  refine ⟨[.dial (some 7) true, .reach 0 7 [.ip 1] true, .notUseful 7, .dial (some 7) true, .fail 0,
    .poll, .tick 3600000, .ping 0 3], _, rfl, by decide +kernel, ?_⟩
  intro id h
  exact ⟨by simpa using h, rfl⟩

/-- C91 is violated: a report about a peer that is gone is a panic. -/
theorem C91_report_crash_violated {cfg : Cfg} {s : Sys} {id : Nat} (hup : s.crashed = false)
    (h : get (iter cfg s.now s.b.peers) id = none) :
    ∃ s', step cfg s (.notUseful id) = some s' ∧ s'.crashed = true := by
  refine ⟨s.crash, ?_, rfl⟩
  simp only [step, hup, onNotUseful, update, h]
  rfl

example : get (iter tiny (start 0).now (start 0).b.peers) 7 = none := rfl

end Verif.Conn
