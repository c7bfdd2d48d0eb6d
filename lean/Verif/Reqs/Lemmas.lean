import Verif.Reqs.Spec

/-
Lemmas about requests to peers.
-/

namespace Verif.Reqs

open Verif.Reqs.Spec

theorem mem_del {a id : Nat} {l : List Nat} : a ∈ del id l ↔ a ∈ l ∧ a ≠ id := by
  unfold del
  simp

theorem mem_upd {cid : Nat} {f : Conn → Conn} {cs : List Conn} {c : Conn} :
    c ∈ upd cid f cs ↔ ∃ x ∈ cs, (x.cid = cid ∧ c = f x) ∨ (x.cid ≠ cid ∧ c = x) := by
  unfold upd
  simp only [List.mem_map]
  constructor
  · rintro ⟨x, hx, rfl⟩
    refine ⟨x, hx, ?_⟩
    by_cases h : x.cid = cid
    · exact Or.inl ⟨h, by rw [if_pos h]⟩
    · exact Or.inr ⟨h, by rw [if_neg h]⟩
  · rintro ⟨x, hx, ⟨h, rfl⟩ | ⟨h, rfl⟩⟩
    · exact ⟨x, hx, by rw [if_pos h]⟩
    · exact ⟨c, hx, by rw [if_neg h]⟩

theorem upd_all {P : Conn → Prop} {cid : Nat} {f : Conn → Conn} {cs : List Conn}
    (h : ∀ c ∈ cs, c.cid ≠ cid → P c) (h' : ∀ c ∈ cs, c.cid = cid → P (f c)) :
    ∀ c ∈ upd cid f cs, P c := by
  intro c hc
  obtain ⟨x, hx, ⟨e, rfl⟩ | ⟨e, rfl⟩⟩ := mem_upd.mp hc
  · exact h' x hx e
  · exact h c hx e

theorem cids_upd (cid : Nat) (f : Conn → Conn) (cs : List Conn) (hf : ∀ c, (f c).cid = c.cid) :
    (upd cid f cs).map Conn.cid = cs.map Conn.cid := by
  unfold upd
  rw [List.map_map]
  apply List.map_congr_left
  intro c _
  simp only [Function.comp_apply]
  split
  · exact hf c
  · rfl

theorem conn_mem {s : Sys} {cid : Nat} {c : Conn} (h : s.conn cid = some c) :
    c ∈ s.conns ∧ c.cid = cid := by
  unfold Sys.conn at h
  have := List.find?_some h
  exact ⟨List.mem_of_find?_eq_some h, by simpa using this⟩

theorem unique_cid {cs : List Conn} (h : (cs.map Conn.cid).Nodup) {a b : Conn} (ha : a ∈ cs)
    (hb : b ∈ cs) (e : a.cid = b.cid) : a = b := by
  induction cs with
  | nil => cases ha
  | cons x xs ih =>
    simp only [List.map_cons, List.nodup_cons, List.mem_map, not_exists, not_and] at h
    simp only [List.mem_cons] at ha hb
    rcases ha with rfl | ha <;> rcases hb with rfl | hb
    · rfl
    · exact absurd e.symm (h.1 b hb)
    · exact absurd e (h.1 a ha)
    · exact ih h.2 ha hb

/-! ### Runs -/

theorem run_induct {lost : Bool} {cap : Nat} (P : Sys → Prop)
    (hstep : ∀ s a s', P s → step lost cap s a = some s' → P s') (s : Sys) (acts : List Act)
    (s' : Sys) (h : P s) (hr : run lost cap s acts = some s') : P s' := by
  induction acts generalizing s with
  | nil =>
    simp only [run, Option.some.injEq] at hr
    subst hr
    exact h
  | cons a as ih =>
    simp only [run] at hr
    rcases e : step lost cap s a with _ | t
    · simp [e] at hr
    · simp only [e] at hr
      exact ih t (hstep s a t h e) hr

theorem run_append (lost : Bool) (cap : Nat) (s : Sys) (as bs : List Act) :
    run lost cap s (as ++ bs) = (run lost cap s as).bind fun s' => run lost cap s' bs := by
  induction as generalizing s with
  | nil => rfl
  | cons a as ih =>
    simp only [List.cons_append, run]
    rcases step lost cap s a with _ | s'
    · rfl
    · exact ih s'

/-! ### What a step is -/

/-- Every step, with what is found in the state. -/
inductive Step (lost : Bool) (cap : Nat) (s : Sys) : Act → Sys → Prop where
  | sendTo (p : Nat) (c : Conn) (hc : c ∈ s.conns) (hp : c.peer = p) :
    Step lost cap s (.send p)
      { s with
        next := s.next + 1
        conns := upd c.cid (fun c => { c with pend := s.next :: c.pend }) s.conns
        queue := s.queue ++ [.notify c.cid s.next]
        pending := s.next :: s.pending }
  | sendWait (p : Nat) :
    Step lost cap s (.send p)
      { s with
        next := s.next + 1
        queue := s.queue ++ [.dial p]
        waiting := s.waiting ++ [(p, s.next)]
        pending := s.next :: s.pending }
  | poll (e : QEv) (q : List QEv) (hq : s.queue = e :: q) :
    Step lost cap s .poll (deliver lost e { s with queue := q })
  | connect (p : Nat) : Step lost cap s (.connect p) (connect p s)
  | close (c : Conn) (hc : c ∈ s.conns) :
    Step lost cap s (.close c.cid)
      { s with
        conns := s.conns.filter fun x => x.cid != c.cid
        queue := s.queue ++ c.pend.map .failure }
  | dialFailure (p : Nat) : Step lost cap s (.dialFailure p) (dialFailure p s)
  | ask (c : Conn) (hc : c ∈ s.conns) (id : Nat) (q : List Nat) (ho : c.outq = id :: q) :
    Step lost cap s (.ask c.cid)
      { s with conns := upd c.cid (fun c =>
        { c with outq := q, req := c.req ++ [id], subs := c.subs + 1 }) s.conns }
  | noReq (c : Conn) (hc : c ∈ s.conns) (hs : c.subs ≠ 0) (hr : c.req = []) (a : Act)
      (ha : a = .negotiated c.cid ∨ ∃ e, a = .upgradeError c.cid e) :
    Step lost cap s a { s with panicked := true }
  | negotiated (c : Conn) (hc : c ∈ s.conns) (hs : c.subs ≠ 0) (id : Nat) (q : List Nat)
      (hr : c.req = id :: q) (hn : s.conn c.cid = some c) :
    Step lost cap s (.negotiated c.cid)
      { s with conns := upd c.cid (fun c =>
          { c with
            subs := c.subs - 1
            req := q
            workers := if c.workers.length < cap then c.workers ++ [(id, .writing)]
              else c.workers }) s.conns }
  | upgradeEvent (c : Conn) (hc : c ∈ s.conns) (hs : c.subs ≠ 0) (id : Nat) (q : List Nat)
      (hr : c.req = id :: q) (e : UpgradeError) (ev : HEv)
      (he : (e = .timeout ∧ ev = .timeout id) ∨ (e = .unsupported ∧ ev = .unsupported id)) :
    Step lost cap s (.upgradeError c.cid e)
      { s with conns := upd c.cid (fun c =>
          { c with subs := c.subs - 1, req := q, hev := c.hev ++ [ev] }) s.conns }
  | upgradeIo (c : Conn) (hc : c ∈ s.conns) (hs : c.subs ≠ 0) (id : Nat) (q : List Nat)
      (hr : c.req = id :: q) :
    Step lost cap s (.upgradeError c.cid .io)
      { s with conns := upd c.cid (fun c =>
          { c with subs := c.subs - 1, req := q ++ [id] }) s.conns }
  | event (c : Conn) (hc : c ∈ s.conns) (e : HEv) (q : List HEv) (hh : c.hev = e :: q) :
    Step lost cap s (.event c.cid) (emit c.cid (fun c => { c with hev := q }) e s)
  | take (c : Conn) (hc : c ∈ s.conns) (id : Nat) (q : List Nat) (hh : c.chan = id :: q) :
    Step lost cap s (.take c.cid) (emit c.cid (fun c =>
        { c with chan := q, workers := setPhase id .streaming c.workers }) (.awaiting id) s)
  | written (c : Conn) (hc : c ∈ s.conns) (id : Nat) (hw : (id, .writing) ∈ c.workers) :
    Step lost cap s (.work c.cid id .written)
      { s with conns := upd c.cid (fun c =>
        { c with workers := setPhase id .parked c.workers, chan := c.chan ++ [id] }) s.conns }
  | gone (c : Conn) (hc : c ∈ s.conns) (hn : s.conn c.cid = some c) (id : Nat) (p : Phase)
      (hw : (id, p) ∈ c.workers)
      (w : Work) (e : HEv)
      (he : (p = .streaming ∧ w = .ended ∧ e = .closed id) ∨
        (p ≠ .parked ∧ w ≠ .streamTimeout ∧ (e = .timeout id ∨ e = .failed id)) ∨
        (w = .streamTimeout ∧ e = .timeout id)) :
    Step lost cap s (.work c.cid id w)
      (emit c.cid (fun c => { c with workers := dropWorker id c.workers }) e s)

theorem step_step {lost : Bool} {cap : Nat} {s s' : Sys} {a : Act}
    (h : step lost cap s a = some s') : Step lost cap s a s' := by
  unfold step at h
  split at h
  · cases h
  · cases a with
    | send p =>
      simp only [Option.some.injEq] at h
      subst h
      simp only [send]
      split
      · rename_i c hc
        have hm := List.mem_of_getElem? hc
        simp only [List.mem_filter, beq_iff_eq] at hm
        exact .sendTo p c hm.1 hm.2
      · exact .sendWait p
    | poll =>
      simp only [poll] at h
      split at h
      · cases h
      · rename_i e q hq
        cases h
        exact .poll e q hq
    | connect p =>
      simp only [Option.some.injEq] at h
      subst h
      exact .connect p
    | close cid =>
      simp only [close] at h
      split at h
      · cases h
      · rename_i c hc
        cases h
        obtain ⟨h1, rfl⟩ := conn_mem (s := s) hc
        exact .close c h1
    | dialFailure p =>
      simp only [Option.some.injEq] at h
      subst h
      exact .dialFailure p
    | ask cid =>
      simp only [ask] at h
      split at h
      · cases h
      · rename_i c hc
        obtain ⟨h1, rfl⟩ := conn_mem hc
        split at h
        · cases h
        · rename_i id q ho
          cases h
          exact .ask c h1 id q ho
    | negotiated cid =>
      simp only [negotiated] at h
      split at h
      · cases h
      · rename_i c hc
        obtain ⟨h1, rfl⟩ := conn_mem hc
        split at h
        · cases h
        · rename_i hs
          split at h
          · rename_i hr
            cases h
            exact .noReq c h1 hs hr _ (Or.inl rfl)
          · rename_i id q hr
            cases h
            exact .negotiated c h1 hs id q hr hc
    | upgradeError cid e =>
      simp only [upgradeError] at h
      split at h
      · cases h
      · rename_i c hc
        obtain ⟨h1, rfl⟩ := conn_mem hc
        split at h
        · cases h
        · rename_i hs
          split at h
          · rename_i hr
            cases h
            exact .noReq c h1 hs hr _ (Or.inr ⟨e, rfl⟩)
          · rename_i id q hr
            cases h
            cases e with
            | timeout => exact .upgradeEvent c h1 hs id q hr .timeout _ (Or.inl ⟨rfl, rfl⟩)
            | unsupported => exact .upgradeEvent c h1 hs id q hr .unsupported _ (Or.inr ⟨rfl, rfl⟩)
            | io => exact .upgradeIo c h1 hs id q hr
    | event cid =>
      simp only [event] at h
      split at h
      · cases h
      · rename_i c hc
        obtain ⟨h1, rfl⟩ := conn_mem hc
        split at h
        · cases h
        · rename_i e q hh
          cases h
          exact .event c h1 e q hh
    | take cid =>
      simp only [take] at h
      split at h
      · cases h
      · rename_i c hc
        obtain ⟨h1, rfl⟩ := conn_mem hc
        split at h
        · cases h
        · rename_i id q hh
          cases h
          exact .take c h1 id q hh
    | work cid id w =>
      simp only [work] at h
      split at h
      · cases h
      · rename_i c hc
        obtain ⟨h1, rfl⟩ := conn_mem hc
        have found : ∀ x p, c.workers.find? (fun x => x.1 == id) = some (x, p) →
            (id, p) ∈ c.workers := by
          intro x p e
          have := List.find?_some e
          simp only [beq_iff_eq] at this
          subst this
          exact List.mem_of_find?_eq_some e
        split at h
        · rename_i hf
          cases h
          exact .written c h1 id (found _ _ hf)
        · rename_i x t hf
          cases h
          refine .gone c h1 hc id .writing (found _ _ hf) _ _ (Or.inr (Or.inl ⟨by decide, by simp, ?_⟩))
          cases t <;> simp
        · rename_i hf
          cases h
          exact .gone c h1 hc id .streaming (found _ _ hf) _ _ (Or.inl ⟨rfl, rfl, rfl⟩)
        · rename_i x t hf
          cases h
          refine .gone c h1 hc id .streaming (found _ _ hf) _ _ (Or.inr (Or.inl ⟨by decide, by simp, ?_⟩))
          cases t <;> simp
        · rename_i x hf
          cases h
          exact .gone c h1 hc id _ (found _ _ hf) _ _ (Or.inr (Or.inr ⟨rfl, rfl⟩))
        · cases h

end Verif.Reqs
