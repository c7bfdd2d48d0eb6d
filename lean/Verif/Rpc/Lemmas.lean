import Verif.Rpc.Spec
/-!
# Lemmas for the answers
-/
namespace Verif.Rpc

theorem field_eq (k : String) (l : List (String × Json)) :
    field k l = match values k l with
      | [] => some none
      | [v] => some (some v)
      | _ => none := by
  unfold field values
  generalize l.filter (fun p => p.1 == k) = f
  rcases f with _ | ⟨a, _ | ⟨b, t⟩⟩ <;> rfl

theorem field_some {k : String} {l : List (String × Json)} {o : Option Json} (h : field k l = some o) : values k l = o.toList := by
  rw [field_eq] at h
  rcases e : values k l with _ | ⟨a, _ | ⟨b, t⟩⟩ <;> rw [e] at h <;> simp at h <;> subst h <;> rfl

theorem field_of {k : String} {l : List (String × Json)} {o : Option Json} (h : values k l = o.toList) : field k l = some o := by
  rw [field_eq, h]
  cases o <;> rfl

theorem params_eq (p : Option Json) : params p = given p := by
  rcases p with _ | v
  · rfl
  · cases v <;> rfl

theorem parse_isReq {j : Json} {m : String} {p id : Option Json} (h : IsReq j m p id) :
    parseReq j = match id with
      | none => some ⟨m, given p, .notification⟩
      | some i => (parseId i).map fun i => ⟨m, given p, i⟩ := by
  obtain ⟨l, rfl, h1, h2, h3, h4⟩ := h
  have e1 := field_of (o := some (.str "2.0")) h1
  have e2 := field_of (o := some (.str m)) h2
  simp only [parseReq, e1, e2, field_of h3, field_of h4, Option.bind_some, build, if_true, params_eq]
  cases id <;> rfl

theorem isReq_parse {j : Json} {r : Req} (hj : ∀ l, j ≠ .arr l) (h : parseReq j = some r) :
    ∃ p id, IsReq j r.method p id ∧ r.params = given p ∧
      ((id = none ∧ r.id = .notification) ∨ ∃ i, id = some i ∧ parseId i = some r.id) := by
  cases j with
  | obj l =>
    simp only [parseReq, Option.bind_eq_some_iff] at h
    obtain ⟨a, h1, i, h2, m, h3, p, h4, h5⟩ := h
    unfold build at h5
    split at h5
    · rename_i v m'
      split at h5
      · rename_i hv
        subst hv
        refine ⟨p, i, ?_⟩
        cases i with
        | none =>
          simp only [Option.some.injEq] at h5
          subst h5
          exact ⟨⟨l, rfl, field_some h1, field_some h3, field_some h4, field_some h2⟩, params_eq p, .inl ⟨rfl, rfl⟩⟩
        | some i =>
          simp only [Option.map_eq_some_iff] at h5
          obtain ⟨x, hx, rfl⟩ := h5
          exact ⟨⟨l, rfl, field_some h1, field_some h3, field_some h4, field_some h2⟩, params_eq p, .inr ⟨i, rfl, hx⟩⟩
      · cases h5
    · cases h5
  | arr l => exact absurd rfl (hj l)
  | null => cases h
  | bool => cases h
  | int => cases h
  | frac => cases h
  | str => cases h

/-- How an id is written. -/
def Id.json : Id → Option Json
  | .num i => some (.int i)
  | .str s => some (.str s)
  | .null => some .null
  | .notification => none

theorem parseId_taken {i : Json} (h : IdTaken i) : ∃ x, parseId i = some x ∧ x.json = some i := by
  cases h with
  | null => exact ⟨.null, rfl, rfl⟩
  | str s => exact ⟨.str s, rfl, rfl⟩
  | int i h1 h2 => exact ⟨.num i, by unfold parseId; exact if_pos ⟨h1, h2⟩, rfl⟩

theorem taken_parseId {i : Json} {x : Id} (h : parseId i = some x) : IdTaken i ∧ x.json = some i := by
  cases i with
  | null => simp only [parseId, Option.some.injEq] at h; subst h; exact ⟨.null, rfl⟩
  | str s => simp only [parseId, Option.some.injEq] at h; subst h; exact ⟨.str s, rfl⟩
  | int i =>
    simp only [parseId] at h
    split at h
    · rename_i hi
      simp only [Option.some.injEq] at h
      subst h
      exact ⟨.int i hi.1 hi.2, rfl⟩
    · cases h
  | bool => cases h
  | frac => cases h
  | arr => cases h
  | obj => cases h

/-- The requests handled on a websocket: as on HTTP, with more methods known. -/
def wsKnown (env : Env) (m : String) : Bool := env.isMethod m || m == "starknet_unsubscribe" || env.isSub m

theorem handleRequest_eq (env : Env) (pos : Nat) (raw : Json) :
    handleRequest env pos raw = runRequest { env with isMethod := wsKnown env } pos raw := by
  unfold handleRequest runRequest
  cases h : parseReq raw with
  | none => rfl
  | some r =>
    obtain ⟨m, p, id⟩ := r
    cases id with
    | notification => rfl
    | _ =>
      simp only [wsKnown]
      by_cases h1 : env.isMethod m = true
      · simp [h1]
      · by_cases h2 : m = "starknet_unsubscribe"
        · simp [h2]
        · by_cases h3 : env.isSub m = true <;> simp [h1, h2, h3]

theorem toJson_ok (v : Json) (x : Id) (i : Json) (h : x.json = some i) :
    (Resp.toJson ⟨.inl v, x⟩) = .obj [("jsonrpc", .str "2.0"), ("result", v), ("id", i)] := by
  cases x <;> simp [Id.json] at h <;> subst h <;> rfl

theorem toJson_err (e : RErr) (x : Id) (i : Json) (h : x.json = some i) : (Resp.toJson ⟨.inr e, x⟩) = errorAnswer e.code e.message i := by
  cases x <;> simp [Id.json] at h <;> subst h <;> rfl

theorem runRequest_some {env : Env} {pos : Nat} {raw : Json} {r : Req} {i : Json} (h : parseReq raw = some r) (hi : r.id.json = some i) :
    runRequest env pos raw = if env.isMethod r.method then ⟨some ⟨(env.run pos r.method r.params).output, r.id⟩, [⟨pos, r.method, r.params⟩]⟩
      else ⟨some ⟨.inr .methodNotFound, r.id⟩, []⟩ := by
  unfold runRequest
  rw [h]
  obtain ⟨m, p, id⟩ := r
  cases id with
  | notification => simp [Id.json] at hi
  | _ => rfl

theorem runRequest_right (env : Env) (pos : Nat) (j : Json) :
    RightAnswer env.isMethod env.run pos j ((runRequest env pos j).resp.map Resp.toJson) := by
  refine ⟨?_, ?_, ?_⟩
  · intro m p id h hid
    obtain ⟨x, hx, hxj⟩ := parseId_taken hid
    have hp := parse_isReq h
    simp only [hx, Option.map_some] at hp
    rw [runRequest_some hp hxj]
    unfold expected
    simp only
    split
    · simp only [Option.map_some]
      cases env.run pos m (given p) with
      | ok v => simp only [MRes.output, toJson_ok v x id hxj]
      | err c s => simp only [MRes.output, toJson_err _ x id hxj]; rfl
      | panic => simp only [MRes.output, toJson_err _ x id hxj]; rfl
    · simp only [Option.map_some, toJson_err _ x id hxj]; rfl
  · intro m p h
    have hp := parse_isReq h
    simp only at hp
    unfold runRequest
    rw [hp]
    rfl
  · intro h hj
    have : parseReq j = none := by
      cases hp : parseReq j with
      | none => rfl
      | some r =>
        obtain ⟨p, id, hr, _⟩ := isReq_parse hj hp
        exact absurd hr (h _ _ _)
    unfold runRequest
    rw [this]
    rfl

theorem runRequest_calls (env : Env) (pos : Nat) (j : Json) :
    ((runRequest env pos j).calls.map (·.pos)).Nodup ∧ (∀ c ∈ (runRequest env pos j).calls, c.pos = pos) ∧
      ((∀ l, j ≠ .arr l) → ∀ m p, (⟨pos, m, p⟩ ∈ (runRequest env pos j).calls ↔ Asks env.isMethod j m p)) := by
  unfold runRequest
  cases hp : parseReq j with
  | none =>
    refine ⟨List.nodup_nil, by simp, ?_⟩
    intro hj m p
    simp only [List.not_mem_nil, false_iff]
    rintro ⟨p', id, h, hid, _, _⟩
    rw [parse_isReq h] at hp
    obtain ⟨x, hx, _⟩ := parseId_taken hid
    simp [hx] at hp
  | some r =>
    have key : (∀ l, j ≠ .arr l) → ∀ m p, Asks env.isMethod j m p ↔ (r.id.json ≠ none ∧ env.isMethod m = true ∧ m = r.method ∧ p = r.params) := by
      intro hj m p
      constructor
      · rintro ⟨p', id, h, hid, hk, rfl⟩
        rw [parse_isReq h] at hp
        obtain ⟨x, hx, hxj⟩ := parseId_taken hid
        simp only [hx, Option.map_some, Option.some.injEq] at hp
        subst hp
        exact ⟨by simp [hxj], hk, rfl, rfl⟩
      · rintro ⟨h1, h2, rfl, rfl⟩
        obtain ⟨p', id, hr, hpp, hid⟩ := isReq_parse hj hp
        rcases hid with ⟨_, hn⟩ | ⟨i, rfl, hi⟩
        · rw [hn] at h1; simp [Id.json] at h1
        · exact ⟨p', i, hr, (taken_parseId hi).1, h2, hpp⟩
    obtain ⟨m0, p0, id⟩ := r
    cases id with
    | notification =>
      refine ⟨List.nodup_nil, by simp, ?_⟩
      intro hj m p
      rw [key hj]
      simp [Id.json]
    | _ =>
      simp only
      split
      · rename_i hk
        refine ⟨by simp, by simp, ?_⟩
        intro hj m p
        rw [key hj]
        simp only [List.mem_singleton, Call.mk.injEq, true_and, Id.json, ne_eq, reduceCtorEq, not_false_eq_true]
        constructor
        · rintro ⟨rfl, rfl⟩; exact ⟨hk, rfl, rfl⟩
        · rintro ⟨_, h1, h2⟩; exact ⟨h1, h2⟩
      · rename_i hk
        refine ⟨List.nodup_nil, by simp, ?_⟩
        intro hj m p
        rw [key hj]
        simp only [List.not_mem_nil, Id.json, ne_eq, reduceCtorEq, not_false_eq_true, true_and, false_iff, not_and]
        rintro h1 rfl
        exact absurd h1 hk

/-- Whatever the order in which the tasks finish, the results are in the order of the batch. -/
theorem runConcurrently_eq {α : Type} {n : Nat} {sched : List Nat} (hs : sched.Perm (List.range n)) (hn : n ≠ 0) (work : Nat → α) :
    runConcurrently n sched work = some ((List.range n).map work) := by
  unfold runConcurrently
  rw [if_neg hn]
  congr 1
  have hperm : ((sched.map fun i => (i, work i)).mergeSort fun a b => a.1 ≤ b.1).Perm ((List.range n).map fun i => (i, work i)) :=
    (List.mergeSort_perm _ _).trans (hs.map _)
  have hsort := List.pairwise_mergeSort (le := fun (a b : Nat × α) => decide (a.1 ≤ b.1))
    (by intro a b c h1 h2; simp at *; omega) (by intro a b; simp; omega) (sched.map fun i => (i, work i))
  have hsort2 : ((List.range n).map fun i => (i, work i)).Pairwise fun a b => decide (a.1 ≤ b.1) = true := by
    rw [List.pairwise_map]
    exact (List.pairwise_lt_range (n := n)).imp (by intro a b h; simp; omega)
  have heq := hperm.eq_of_pairwise (by
    intro a b ha hb h1 h2
    simp only [decide_eq_true_eq] at h1 h2
    have ha' := hperm.mem_iff.1 ha
    obtain ⟨i, _, rfl⟩ := List.mem_map.1 ha'
    obtain ⟨k, _, rfl⟩ := List.mem_map.1 hb
    simp only at h1 h2
    have : i = k := by omega
    rw [this]) hsort hsort2
  rw [heq, List.map_map]
  rfl

theorem workAt_range (f : Nat → Json → Done) (js : List Json) (i : Nat) (j : Json) (h : js[i]? = some j) : workAt f js i = f i j := by
  unfold workAt
  rw [h]

theorem runBatch_right {env : Env} {js : List Json} {sched : List Nat} (hs : sched.Perm (List.range js.length)) (hne : js ≠ []) :
    RightBatch env.isMethod env.run js (runBatch (runRequest env) js sched).answer ∧
      RightCalls env.isMethod js (runBatch (runRequest env) js sched).calls := by
  have hn : js.length ≠ 0 := by simpa [List.length_eq_zero_iff] using hne
  unfold runBatch
  rw [runConcurrently_eq hs hn]
  simp only
  constructor
  · refine ⟨(List.range js.length).map fun i => (workAt (runRequest env) js i).resp.map Resp.toJson, by simp, ?_, ?_⟩
    · intro i j r hj hr
      have hi : i < js.length := (List.getElem?_eq_some_iff.1 hj).1
      rw [List.getElem?_map, List.getElem?_range hi, Option.map_some, Option.some.injEq] at hr
      rw [workAt_range _ _ _ _ hj] at hr
      rw [← hr]
      exact runRequest_right env i j
    · have hf : List.filterMap id ((List.range js.length).map fun i => (workAt (runRequest env) js i).resp.map Resp.toJson) =
          (List.filterMap (·.resp) ((List.range js.length).map (workAt (runRequest env) js))).map Resp.toJson := by
        rw [List.filterMap_map, List.filterMap_map, List.map_filterMap]
        rfl
      rw [hf]
      unfold collect
      cases h : List.filterMap (·.resp) ((List.range js.length).map (workAt (runRequest env) js)) with
      | nil => rfl
      | cons r rs => exact ⟨by simp, rfl⟩
  · refine ⟨?_, ?_, ?_⟩
    · have hperm : ((sched.map (workAt (runRequest env) js)).flatMap (·.calls)).Perm
          (((List.range js.length).map (workAt (runRequest env) js)).flatMap (·.calls)) := (hs.map _).flatMap_right _
      rw [(hperm.map _).nodup_iff]
      have gen : ∀ l : List Nat, l.Nodup → ((((l.map (workAt (runRequest env) js)).flatMap (·.calls))).map (·.pos)).Nodup ∧
          ∀ c ∈ (l.map (workAt (runRequest env) js)).flatMap (·.calls), c.pos ∈ l := by
        intro l
        induction l with
        | nil => intro _; exact ⟨List.nodup_nil, by simp⟩
        | cons i l ih =>
          intro hl
          obtain ⟨hl1, hl2⟩ := List.nodup_cons.1 hl
          obtain ⟨ih1, ih2⟩ := ih hl2
          have hw : ((workAt (runRequest env) js i).calls.map (·.pos)).Nodup ∧ ∀ c ∈ (workAt (runRequest env) js i).calls, c.pos = i := by
            unfold workAt
            cases js[i]? with
            | none => exact ⟨List.nodup_nil, by simp⟩
            | some j => exact ⟨(runRequest_calls env i j).1, (runRequest_calls env i j).2.1⟩
          rw [List.map_cons, List.flatMap_cons, List.map_append, List.nodup_append]
          refine ⟨⟨hw.1, ih1, ?_⟩, ?_⟩
          · intro a ha b hb hab
            obtain ⟨c, hc, rfl⟩ := List.mem_map.1 ha
            obtain ⟨d, hd, rfl⟩ := List.mem_map.1 hb
            have := ih2 d hd
            rw [← hab, hw.2 c hc] at this
            exact hl1 this
          · intro c hc
            rcases List.mem_append.1 hc with hc | hc
            · rw [hw.2 c hc]; exact List.mem_cons_self
            · exact List.mem_cons_of_mem _ (ih2 c hc)
      exact (gen _ List.nodup_range).1
    · intro c hc
      obtain ⟨d, hd, hc⟩ := List.mem_flatMap.1 hc
      obtain ⟨k, hk, rfl⟩ := List.mem_map.1 hd
      have hk' : k < js.length := List.mem_range.1 (hs.mem_iff.1 hk)
      rw [workAt_range _ _ _ _ (List.getElem?_eq_getElem hk')] at hc
      rw [(runRequest_calls env k js[k]).2.1 _ hc]
      exact hk'
    · intro i j hj hja m p
      rw [← (runRequest_calls env i j).2.2 hja m p]
      have hi : i < js.length := (List.getElem?_eq_some_iff.1 hj).1
      rw [List.mem_flatMap]
      constructor
      · rintro ⟨d, hd, hc⟩
        obtain ⟨k, hk, rfl⟩ := List.mem_map.1 hd
        have hk' : k < js.length := List.mem_range.1 (hs.mem_iff.1 hk)
        rw [workAt_range _ _ _ _ (List.getElem?_eq_getElem hk')] at hc
        have := (runRequest_calls env k js[k]).2.1 _ hc
        simp only at this
        subst this
        rw [List.getElem?_eq_getElem hk'] at hj
        cases hj
        exact hc
      · intro hc
        refine ⟨workAt (runRequest env) js i, List.mem_map_of_mem (hs.mem_iff.2 (List.mem_range.2 hi)), ?_⟩
        rw [workAt_range _ _ _ _ hj]
        exact hc

theorem runOne_right (env : Env) (j : Json) :
    RightMsg env.isMethod env.run (.one (some j)) (runOne (runRequest env 0 j)).answer (runOne (runRequest env 0 j)).calls := by
  have hc : (runOne (runRequest env 0 j)).calls = (runRequest env 0 j).calls := by unfold runOne; split <;> rfl
  refine ⟨⟨_, runRequest_right env 0 j, ?_⟩, ?_⟩
  · unfold runOne
    cases (runRequest env 0 j).resp <;> rfl
  · rw [hc]
    obtain ⟨h1, h2, h3⟩ := runRequest_calls env 0 j
    refine ⟨h1, fun c hc => by rw [h2 c hc]; exact Nat.zero_lt_one, ?_⟩
    intro i j' hj hja
    cases i with
    | zero => cases hj; exact h3 hja
    | succ i => cases hj

theorem right_many {env : Env} {js : List Json} {sched : List Nat} (hs : sched.Perm (List.range js.length)) (hne : js ≠ []) :
    RightMsg env.isMethod env.run (.many (some js)) (runBatch (runRequest env) js sched).answer (runBatch (runRequest env) js sched).calls := by
  have := runBatch_right (env := env) hs hne
  cases js with
  | nil => exact absurd rfl hne
  | cons j js => exact this

theorem parseError_right : OneError (-32700) "Parse error" parseError.answer := ⟨_, rfl, rfl⟩
theorem invalidRequest_right : OneError (-32600) "Invalid request" invalidRequest.answer := ⟨_, rfl, rfl⟩

/-- A round on a living connection with a body that is no empty batch. -/
theorem wsStep_right {env : Env} {sched : List Nat} {c : Conn} {b : Body} (hc : c.alive = true) (hs : sched.Perm (List.range b.size))
    (hb : b ≠ .many (some [])) :
    ∃ a calls, RightMsg (wsKnown env) env.run b a calls ∧ (wsStep env sched c (.body b)).alive = true ∧
      (wsStep env sched c (.body b)).out = c.out ++ a.sent ∧ (wsStep env sched c (.body b)).calls = c.calls ++ calls := by
  have send : ∀ h : Handled, h.answer ≠ .crash → (c.send h).alive = true ∧ (c.send h).out = c.out ++ h.answer.sent ∧ (c.send h).calls = c.calls ++ h.calls := by
    intro h hh
    obtain ⟨a, k⟩ := h
    cases a <;> simp_all [Conn.send, Answer.sent]
  have perr : ∃ a calls, (OneError (-32700) "Parse error" a ∧ calls = []) ∧ (c.send parseError).alive = true ∧
      (c.send parseError).out = c.out ++ a.sent ∧ (c.send parseError).calls = c.calls ++ calls :=
    ⟨_, [], ⟨parseError_right, rfl⟩, send parseError (by simp [parseError])⟩
  have hf : handleRequest env = runRequest { env with isMethod := wsKnown env } := by
    funext pos raw; exact handleRequest_eq env pos raw
  unfold wsStep
  rw [if_pos hc]
  cases b with
  | notUtf8 => exact perr
  | one j =>
    cases j with
    | none => exact perr
    | some j =>
      simp only [hf]
      have hr := runOne_right { env with isMethod := wsKnown env } j
      refine ⟨_, _, hr, send _ ?_⟩
      intro he
      simp only [RightMsg, he] at hr
      obtain ⟨⟨_, _, h⟩, _⟩ := hr
      exact h
  | many js =>
    cases js with
    | none => exact perr
    | some js =>
      have hne : js ≠ [] := fun h => hb (by rw [h])
      have hie : js.isEmpty = false := by cases js <;> simp_all
      simp only [hf, hie, Bool.false_eq_true, if_false]
      have hr := right_many (env := { env with isMethod := wsKnown env }) hs hne
      refine ⟨_, _, hr, send _ ?_⟩
      intro he
      cases js with
      | nil => exact hne rfl
      | cons j js =>
        simp only [RightMsg, he] at hr
        obtain ⟨⟨_, _, _, h⟩, _⟩ := hr
        exact h

end Verif.Rpc
