import Verif.Submit.Uniq
import Verif.Submit.Wire

/-!
# C92: a transaction that is submitted reaches the gateway as it is, and its status is known from then on

The specification is in `Verif.Submit.Spec`.
-/
namespace Verif.Submit

open Spec

/-! ## Cases that are used as examples -/

def exInvoke : Invoke3 :=
  { version := 3, signature := [7, 8], nonce := 5, bounds := ⟨⟨1, 2⟩, ⟨3, 4⟩, some ⟨5, 6⟩⟩, tip := 0, paymaster := [], deployment := [], nonceMode := .l1,
    feeMode := .l2, sender := 77, calldata := [1, 2, 3], proofFacts := [9], proof := [1, 255] }

/-- A declare transaction of version 2, marked as for queries only. -/
def exDeclare : Declare2 :=
  { version := 2 ^ 128 + 2, maxFee := 1, signature := [], nonce := 0, compiled := 4, cls := 6, sender := 77 }

def exWorld (latest : Option (Option Nat)) (h : Nat) : World :=
  { gateway := fun _ => .ok ⟨h, 0⟩, latest := latest, convert := some, address := fun _ _ _ => 0 }

def exPar (cap : Nat) (moveOnSet roomFirst : Bool) : Par := ⟨cap, 300, moveOnSet, roomFirst⟩

/-! ## What the gateway gets -/

theorem request_spec (convert : Nat → Option Nat) (t : Tx) (j : J) (hp : t.parsed) (ho : ¬ oldDeclare t) (hr : request convert t = .ok j) :
    ∃ u, converted convert t = some u ∧ Spec.read j = some (withVersion (plain t.version) u) := by
  cases t with
  | invoke0 t =>
    cases hr
    refine ⟨_, rfl, ?_⟩
    have hv : plain t.version = 0 := hp
    rw [read_invoke0 t _ rfl]
    simp [withVersion, Tx.version, hv]
  | invoke1 t =>
    cases hr
    refine ⟨_, rfl, ?_⟩
    have hv : plain t.version = 1 := hp
    rw [read_invoke1 t _ rfl]
    simp [withVersion, Tx.version, hv]
  | invoke3 t =>
    cases hr
    refine ⟨_, rfl, ?_⟩
    have hv : plain t.version = 3 := hp
    rw [read_invoke3 t]
    simp [withVersion, Tx.version, hv]
  | declare0 v => cases hr
  | declare1 t => exact absurd trivial ho
  | declare2 t => exact absurd trivial ho
  | declare3 t =>
    have hv : plain t.version = 3 := hp
    unfold request at hr
    cases hc : convert t.cls with
    | none => simp [hc] at hr
    | some c =>
      simp only [hc, Except.ok.injEq] at hr
      subst hr
      refine ⟨.declare3 { t with cls := c }, by simp [converted, classOf, hc, withClass], ?_⟩
      rw [read_declare3]
      simp [withVersion, Tx.version, hv]
  | deploy1 t =>
    have hv : plain t.version = 1 := hp
    unfold request at hr
    simp only [hv, Nat.one_ne_zero, if_false, if_true, Except.ok.injEq] at hr
    subst hr
    refine ⟨_, rfl, ?_⟩
    rw [read_deploy1]
    simp [withVersion, Tx.version, hv]
  | deploy3 t =>
    cases hr
    refine ⟨_, rfl, ?_⟩
    have hv : plain t.version = 3 := hp
    rw [read_deploy3 t]
    simp [withVersion, Tx.version, hv]

theorem withVersion_self (t : Tx) : withVersion t.version t = t := by cases t <;> rfl

theorem withVersion_version (v : Nat) (t : Tx) : (withVersion v t).version = v := by cases t <;> rfl

theorem converted_version {convert : Nat → Option Nat} {t u : Tx} (h : converted convert t = some u) : u.version = t.version := by
  unfold converted at h
  split at h
  · cases h; rfl
  · rename_i c hc
    cases hv : convert c with
    | none => simp [hv] at h
    | some c' =>
      simp only [hv, Option.map_some, Option.some.injEq] at h
      subst h
      cases t <;> rfl

/-- **C92.** The gateway reads from the request exactly the transaction that was submitted, with its class in the gateway's form. Partial: not for
declare transactions of versions 1 and 2, and only for versions without a mark for queries. -/
theorem C92_forwarded_partial (convert : Nat → Option Nat) (t : Tx) (j : J) (hp : t.parsed) (ho : ¬ oldDeclare t) (hv : t.version < 2 ^ 128)
    (hr : request convert t = .ok j) : ∃ u, converted convert t = some u ∧ Spec.read j = some u := by
  obtain ⟨u, hu, hj⟩ := request_spec convert t j hp ho hr
  refine ⟨u, hu, ?_⟩
  rw [hj]
  have : plain t.version = u.version := by rw [converted_version hu]; exact Nat.mod_eq_of_lt hv
  rw [this, withVersion_self]

example : (Tx.invoke3 exInvoke).parsed ∧ ¬ oldDeclare (.invoke3 exInvoke) ∧ (Tx.invoke3 exInvoke).version < 2 ^ 128 ∧
    ∃ j, request some (.invoke3 exInvoke) = .ok j := ⟨by decide, fun h => h, by decide, _, rfl⟩

/-- **C92.** Declare transactions of versions 1 and 2 reach a gateway for which the last value of a repeated key counts, with the version they
were given. -/
theorem C92_forwarded_declare_partial (convert : Nat → Option Nat) (t : Tx) (j : J) (hp : t.parsed) (ho : oldDeclare t)
    (hr : request convert t = .ok j) : ∃ u, converted convert t = some u ∧ Spec.readLenient j = some u := by
  cases t with
  | declare1 t =>
    have hv : plain t.version = 1 := hp
    unfold request at hr
    cases hc : convert t.cls with
    | none => simp [hc] at hr
    | some c =>
      simp only [hc, Except.ok.injEq] at hr
      subst hr
      exact ⟨.declare1 { t with cls := c }, by simp [converted, classOf, hc, withClass], lenient_declare1 t c hv _ rfl⟩
  | declare2 t =>
    have hv : plain t.version = 2 := hp
    unfold request at hr
    cases hc : convert t.cls with
    | none => simp [hc] at hr
    | some c =>
      simp only [hc, Except.ok.injEq] at hr
      subst hr
      exact ⟨.declare2 { t with cls := c }, by simp [converted, classOf, hc, withClass], lenient_declare2 t c hv _ rfl⟩
  | _ => exact absurd ho (by simp [oldDeclare])

example : (Tx.declare2 exDeclare).parsed ∧ oldDeclare (.declare2 exDeclare) ∧ ∃ j, request some (.declare2 exDeclare) = .ok j :=
  ⟨by decide, trivial, _, rfl⟩

/-- **C92, violated.** The request for every declare transaction of version 1 or 2 has the key `version` twice, so that a gateway for which
each key must be there once cannot read it. For a transaction that is marked as for queries only, the two values say different things. -/
theorem C92_declare_version_twice_violated (convert : Nat → Option Nat) (t : Tx) (j : J) (ho : oldDeclare t) (hr : request convert t = .ok j) :
    (values "version" j).length = 2 ∧ Spec.read j = none ∧ values "version" j = [.str (if t matches .declare1 _ then "0x1" else "0x2"), .hex t.version] := by
  cases t with
  | declare1 t =>
    unfold request at hr
    cases hc : convert t.cls with
    | none => simp [hc] at hr
    | some c =>
      simp only [hc, Except.ok.injEq] at hr
      subst hr
      simp [values, tagged, ReqDeclare012.fields, optField, Spec.read, Spec.one, Tx.version]
  | declare2 t =>
    unfold request at hr
    cases hc : convert t.cls with
    | none => simp [hc] at hr
    | some c =>
      simp only [hc, Except.ok.injEq] at hr
      subst hr
      simp [values, tagged, ReqDeclare012.fields, optField, Spec.read, Spec.one, Tx.version]
  | _ => exact absurd ho (by simp [oldDeclare])

/-- **C92, violated.** A transaction that is marked as for queries only — and every other whose version has something above its lower 128
bits — is sent to the gateway as an ordinary transaction: what the gateway reads has another version. -/
theorem C92_query_sent_violated (convert : Nat → Option Nat) (t : Tx) (j : J) (hp : t.parsed) (ho : ¬ oldDeclare t) (hv : 2 ^ 128 ≤ t.version)
    (hr : request convert t = .ok j) : ∃ u, Spec.read j = some u ∧ u.version = plain t.version ∧ u.version ≠ t.version := by
  obtain ⟨u, -, hj⟩ := request_spec convert t j hp ho hr
  refine ⟨_, hj, withVersion_version _ _, ?_⟩
  rw [withVersion_version]
  have := Nat.mod_lt t.version (Nat.two_pow_pos 128)
  unfold plain
  omega

example : (Tx.invoke3 { exInvoke with version := 2 ^ 128 + 3 }).parsed ∧ 2 ^ 128 ≤ (Tx.invoke3 { exInvoke with version := 2 ^ 128 + 3 }).version ∧
    ∃ j, request some (.invoke3 { exInvoke with version := 2 ^ 128 + 3 }) = .ok j := ⟨by decide, by decide, _, rfl⟩

/-- **C92.** Of the transactions that can be submitted, only declare transactions of version 0 and those with a class that cannot be converted
are not sent. -/
theorem C92_refused (convert : Nat → Option Nat) (t : Tx) (hp : t.parsed) :
    (∃ j, request convert t = .ok j) ↔ (∀ v, t ≠ .declare0 v) ∧ (∀ c, classOf t = some c → ∃ c', convert c = some c') := by
  cases t with
  | deploy1 t =>
    have hv : plain t.version = 1 := hp
    simp [request, hv, classOf]
  | declare1 t => cases hc : convert t.cls <;> simp [request, hc, classOf]
  | declare2 t => cases hc : convert t.cls <;> simp [request, hc, classOf]
  | declare3 t => cases hc : convert t.cls <;> simp [request, hc, classOf]
  | _ => simp [request, classOf]

example : (∃ j, request some (.invoke3 exInvoke) = .ok j) ∧ ¬ ∃ j, request (fun _ => none) (.declare2 exDeclare) = .ok j :=
  ⟨⟨_, rfl⟩, by rintro ⟨j, h⟩; cases h⟩

/-! ## What is answered -/

theorem remember_same (address : List Nat → Nat → Nat → Nat) (c : Nat) (t : Tx) (v : Variant) (h : remember address c t = some v) :
    Same address c t v := by
  cases t <;> simp only [remember, Option.some.injEq, reduceCtorEq] at h <;> subst h <;> simp [Same]

theorem submit_cases (p : Par) (w : World) (api now : Nat) (l : List Entry) (t : Tx) :
    ((submit p w api now l t).sent = none ∧ (submit p w api now l t).taken = none ∧ ∃ c, (submit p w api now l t).ans = .err c) ∨
      ∃ j, request w.convert t = .ok j ∧ (submit p w api now l t).sent = some j ∧ ¬ (8 ≤ api ∧ t.isV3 = false) ∧
        ((∃ e, w.gateway j = .error e ∧ (submit p w api now l t).taken = none ∧ (submit p w api now l t).ans = .err (gwCode t.kind e)) ∨
          ∃ a, w.gateway j = .ok a ∧ (submit p w api now l t).taken = some a ∧
            ((∃ n v, w.latest = some n ∧ remember w.address a.classHash t = some v ∧ (submit p w api now l t).ans = .ok a ∧
                (submit p w api now l t).tracker = insert p now a.hash (n.getD 0) v l) ∨
              ((w.latest = none ∨ remember w.address a.classHash t = none) ∧ (submit p w api now l t).ans = .err 63 ∧
                (submit p w api now l t).tracker = l))) := by
  unfold submit
  split
  · exact .inl ⟨rfl, rfl, _, rfl⟩
  · rename_i hg
    unfold submitAny
    split
    · exact .inl ⟨rfl, rfl, _, rfl⟩
    · exact .inl ⟨rfl, rfl, _, rfl⟩
    · rename_i j hj
      refine .inr ⟨j, hj, ?_⟩
      split
      · rename_i e he
        exact ⟨rfl, hg, .inl ⟨e, he, rfl, rfl⟩⟩
      · rename_i a ha
        split
        · rename_i n v hn hv
          exact ⟨rfl, hg, .inr ⟨a, ha, rfl, .inl ⟨n, v, hn, hv, rfl, rfl⟩⟩⟩
        · rename_i hno
          refine ⟨rfl, hg, .inr ⟨a, ha, rfl, .inr ⟨?_, rfl, rfl⟩⟩⟩
          cases hl : w.latest with
          | none => exact .inl rfl
          | some n =>
            cases hv : remember w.address a.classHash t with
            | none => exact .inr rfl
            | some v => exact absurd hv (hno n v hl)

/-- **C92.** If a submission is answered with a hash, the gateway took that very request and answered with that hash; and from then on the node
knows the transaction: with the hash, the fields it was submitted with, and the latest block of that moment. -/
theorem C92_submit_ok (p : Par) (w : World) (api now : Nat) (l : List Entry) (t : Tx) (a : Accepted) (hc : 2 ≤ p.cap)
    (hnew : p.moveOnSet = true ∨ ∀ e ∈ l, e.hash ≠ a.hash) (h : (submit p w api now l t).ans = .ok a) :
    (∃ j, request w.convert t = .ok j ∧ (submit p w api now l t).sent = some j ∧ w.gateway j = .ok a) ∧
      ∃ e ∈ (submit p w api now l t).tracker, e.hash = a.hash ∧ e.stamp = now ∧ (∃ n, w.latest = some n ∧ e.block = n.getD 0) ∧
        Same w.address a.classHash t e.tx := by
  rcases submit_cases p w api now l t with ⟨-, -, c, hc'⟩ | ⟨j, hj, hs, -, ⟨e, -, -, he⟩ | ⟨a', ha, -, ⟨n, v, hn, hv, hans, htr⟩ | ⟨-, hans, -⟩⟩⟩
  · rw [hc'] at h; cases h
  · rw [he] at h; cases h
  · rw [hans] at h
    cases h
    refine ⟨⟨j, hj, hs, ha⟩, ?_⟩
    obtain ⟨e, post, hi, he⟩ := insert_held (now := now) (n := n.getD 0) (v := v) hc hnew
    rw [htr, hi]
    refine ⟨e, List.mem_cons_self, ?_⟩
    subst he
    exact ⟨rfl, rfl, ⟨n, hn, rfl⟩, remember_same _ _ _ _ hv⟩
  · rw [hans] at h; cases h

example : (submit (exPar 2 false false) (exWorld (some (some 4)) 11) 9 100 [] (.invoke3 exInvoke)).ans = .ok ⟨11, 0⟩ := rfl

/-- **C92.** If a submission is answered with an error, the gateway did not take the transaction. Partial: only if the database can be read
after the gateway has answered. -/
theorem C92_submit_err_partial (p : Par) (w : World) (api now : Nat) (l : List Entry) (t : Tx) (c : Int) (hdb : w.latest ≠ none)
    (h : (submit p w api now l t).ans = .err c) : (submit p w api now l t).taken = none := by
  rcases submit_cases p w api now l t with ⟨-, ht, -⟩ | ⟨j, hj, hs, -, ⟨e, -, ht, -⟩ | ⟨a', ha, -, ⟨n, v, hn, hv, hans, htr⟩ | ⟨hno, hans, -⟩⟩⟩
  · exact ht
  · exact ht
  · rw [hans] at h; cases h
  · rcases hno with hl | hv
    · exact absurd hl hdb
    · cases t <;> simp only [remember, reduceCtorEq] at hv
      cases hj

example : ∃ c, (submit (exPar 2 false false) { exWorld (some none) 11 with gateway := fun _ => .error (.starknet .balance false) } 9 100 []
    (.invoke3 exInvoke)).ans = .err c := ⟨54, rfl⟩

/-- **C92, violated.** If the database cannot be read at that moment, the answer to every transaction that the gateway took is "unexpected
error", and the node forgets it: if the gateway does not list it yet, it says that there is no such transaction. -/
theorem C92_submit_err_violated (p : Par) (w : World) (api now : Nat) (l : List Entry) (t : Tx) (j : J) (a : Accepted) (hg : api < 8 ∨ t.isV3 = true)
    (hdb : w.latest = none) (hj : request w.convert t = .ok j) (ha : w.gateway j = .ok a) (hl : ∀ e ∈ l, e.hash ≠ a.hash) :
    (submit p w api now l t).taken = some a ∧ (submit p w api now l t).ans = .err 63 ∧
      ∀ n : Local, n.look a.hash = .ok none →
        (status p api n (some ⟨.notReceived, false, none⟩) now (submit p w api now l t).tracker a.hash).1 = .notFound := by
  have hgate : ¬ (8 ≤ api ∧ t.isV3 = false) := by
    rintro ⟨h1, h2⟩
    rcases hg with hg | hg
    · omega
    · rw [hg] at h2; cases h2
  have hs : submit p w api now l t = ⟨.err 63, some j, some a, l⟩ := by
    unfold submit
    rw [if_neg hgate]
    unfold submitAny
    simp only [hj, ha, hdb]
  rw [hs]
  refine ⟨rfl, rfl, ?_⟩
  intro n hn
  have hf : (l.find? fun e => e.hash == a.hash) = none := by
    rw [List.find?_eq_none]
    intro x hx
    simpa using hl x hx
  unfold status
  simp [hn, asksTracker, containsKey, cacheGet, hf, fromGateway]

/-- **C92.** From version 0.8 of the API on, transactions of other versions than 3 are never sent to the gateway; they are answered with
"unsupported version". -/
theorem C92_only_v3 (p : Par) (w : World) (api now : Nat) (l : List Entry) (t : Tx) (ha : 8 ≤ api) (ht : plain t.version ≠ 3) (hp : t.parsed) :
    (submit p w api now l t).sent = none ∧ (submit p w api now l t).ans = .err 61 ∧ (submit p w api now l t).tracker = l := by
  have : t.isV3 = false := by
    cases t with
    | invoke3 t => exact absurd hp ht
    | declare3 t => exact absurd hp ht
    | deploy3 t => exact absurd hp ht
    | _ => rfl
  unfold submit
  rw [if_pos ⟨ha, this⟩]
  exact ⟨rfl, rfl, rfl⟩

example : plain (Tx.declare2 exDeclare).version ≠ 3 ∧ (Tx.declare2 exDeclare).parsed := by decide

/-- **C92.** The errors of the gateway are answered with the codes that the API has for them. -/
theorem C92_error_codes (p : Par) (w : World) (api now : Nat) (l : List Entry) (t : Tx) (j : J) (e : GwErr) (hj : request w.convert t = .ok j)
    (hg : ¬ (8 ≤ api ∧ t.isV3 = false)) (he : w.gateway j = .error e) :
    (submit p w api now l t).ans = .err (expectedCode t.kind e) := by
  have hc : ∀ k e, gwCode k e = expectedCode k e := by
    intro k e
    cases k <;> cases e with
    | starknet c n => cases c <;> rfl
    | http s =>
      show _ = if s = some 413 then (-32603 : Int) else 63
      split
      · rename_i h; subst h; rfl
      · rename_i h
        simp only [gwCode, codeInvoke, codeDeclare, codeDeploy]
        split <;> simp_all
    | other => rfl
  rcases submit_cases p w api now l t with ⟨hs, -, -⟩ | ⟨j', hj', hs, -, ⟨e', he', -, hans⟩ | ⟨a', ha, -, -⟩⟩
  · exfalso
    unfold submit at hs
    rw [if_neg hg] at hs
    unfold submitAny at hs
    simp only [hj, he] at hs
    cases hs
  · rw [hj] at hj'
    cases hj'
    rw [he] at he'
    cases he'
    rw [hans, hc]
  · rw [hj] at hj'
    cases hj'
    rw [he] at ha
    cases ha

example : expectedCode .invoke (.starknet .validate true) = 52 ∧ expectedCode .declare (.starknet .proof false) = 63 ∧
    expectedCode .deploy (.starknet .undeclared false) = 28 := by decide

/-! ## The status -/

/-- **C92.** A query for a status is answered with what the node itself has; if it has nothing, with what the gateway says; and if the gateway
has not received it either, with whether it was submitted through this node not long ago. -/
theorem C92_status (p : Par) (acts : List Act) (api : Nat) (n : Local) (gw : Option GwStatus) (h : Nat) (a : Status) :
    (status p api n gw (run p ⟨0, []⟩ acts).now (run p ⟨0, []⟩ acts).tracker h).1 = a ↔
      Answer api (n.look h) gw (Tracked p (run p ⟨0, []⟩ acts) h) a := by
  have hu : Uniq (run p ⟨0, []⟩ acts).tracker := run_uniq acts _ List.nodup_nil
  generalize run p ⟨0, []⟩ acts = s at hu ⊢
  have hcon := contains_iff (p := p) hu h
  unfold status
  constructor
  · intro ha
    split at ha
    · rename_i e he; cases ha; exact .broken e he
    · rename_i st hs; cases ha; exact .own st hs
    · rename_i hn
      cases gw with
      | none =>
        cases ha
        exact .gatewayDown hn rfl
      | some g =>
        obtain ⟨f, r, m⟩ := g
        cases f with
        | notReceived =>
          simp only [asksTracker, beq_self_eq_true, if_true, fromGateway] at ha
          split at ha
          · rename_i ht; cases ha; exact .onItsWay _ hn rfl rfl (hcon.1 ht)
          · rename_i ht; cases ha; exact .unknown _ hn rfl rfl (fun h' => ht (hcon.2 h'))
        | received =>
          cases r with
          | false => cases ha; exact .waiting _ hn rfl (by simp) rfl
          | true =>
            simp only [asksTracker, fromGateway, show (GwFinality.received == .notReceived) = false from rfl, Bool.false_eq_true, if_false] at ha
            split at ha
            · rename_i h9; cases ha; exact .rejected _ hn rfl (by simp) rfl h9
            · rename_i h9; cases ha; exact .rejected9 _ hn rfl (by simp) rfl (by omega)
        | onL2 =>
          cases r with
          | false => cases ha; exact .waiting _ hn rfl (by simp) rfl
          | true =>
            simp only [asksTracker, fromGateway, show (GwFinality.onL2 == .notReceived) = false from rfl, Bool.false_eq_true, if_false] at ha
            split at ha
            · rename_i h9; cases ha; exact .rejected _ hn rfl (by simp) rfl h9
            · rename_i h9; cases ha; exact .rejected9 _ hn rfl (by simp) rfl (by omega)
        | onL1 =>
          cases r with
          | false => cases ha; exact .waiting _ hn rfl (by simp) rfl
          | true =>
            simp only [asksTracker, fromGateway, show (GwFinality.onL1 == .notReceived) = false from rfl, Bool.false_eq_true, if_false] at ha
            split at ha
            · rename_i h9; cases ha; exact .rejected _ hn rfl (by simp) rfl h9
            · rename_i h9; cases ha; exact .rejected9 _ hn rfl (by simp) rfl (by omega)
  · intro ha
    cases ha with
    | own st hs => simp only [hs]
    | broken e he => simp only [he]
    | gatewayDown hn hg => simp [hn, hg, asksTracker, fromGateway]
    | waiting g hn hg hf hr =>
      obtain ⟨f, r, m⟩ := g
      cases hr
      cases f <;> simp_all [asksTracker, fromGateway]
    | onItsWay g hn hg hf ht =>
      have hk := hcon.2 ht
      obtain ⟨f, r, m⟩ := g
      cases hf
      simp only [hn, hg, asksTracker, beq_self_eq_true, if_true, fromGateway, hk]
    | unknown g hn hg hf ht =>
      have hk : (containsKey p s.now h s.tracker).2 = false := by
        rw [← Bool.not_eq_true]
        exact fun h' => ht (hcon.1 h')
      obtain ⟨f, r, m⟩ := g
      cases hf
      simp [hn, hg, asksTracker, fromGateway, hk]
    | rejected g hn hg hf hr h9 =>
      obtain ⟨f, r, m⟩ := g
      cases hr
      cases f <;> simp_all [asksTracker, fromGateway]
    | rejected9 g hn hg hf hr h9 =>
      have h9' : ¬ api < 9 := by omega
      obtain ⟨f, r, m⟩ := g
      cases hr
      cases f <;> simp_all [asksTracker, fromGateway]

/-- **C92.** After a submission that was answered with a hash, a query for this hash is not answered with "not found", whatever else is
submitted and asked for, as long as the gateway does not say that it was rejected. If the node's own data do not have it yet, the answer is
`RECEIVED`. Partial: only before `life` seconds have passed, and while not more than `cap - 2` other transactions were touched; and, if the
cache leaves a replaced value where it was, only if the hash was not in the tracker before. -/
theorem C92_received_partial (p : Par) (s : Node) (w : World) (api : Nat) (t : Tx) (a : Accepted) (acts : List Act) (D : List Nat)
    (hok : (submit p w api s.now s.tracker t).ans = .ok a) (hnew : p.moveOnSet = true ∨ ∀ e ∈ s.tracker, e.hash ≠ a.hash)
    (hD : ∀ x ∈ acts, ∀ k ∈ touched x, k ≠ a.hash → k ∈ D) (hc : D.length + 2 ≤ p.cap) (ht : waited acts < p.life)
    (api' : Nat) (n : Local) (g : GwStatus) (hg : g.rejected = false) (hn : n.look a.hash = .ok none) :
    (status p api' n (some g) (run p s (.submit w api t :: acts)).now (run p s (.submit w api t :: acts)).tracker a.hash).1 = .received := by
  have hheld : Held a.hash s.now D (step p s (.submit w api t)).tracker := by
    show Held a.hash s.now D (submit p w api s.now s.tracker t).tracker
    rcases submit_tracker p w api s.now s.tracker t with he | ⟨a', m, v, -, -, -, hans, htr⟩
    · rcases submit_cases p w api s.now s.tracker t with ⟨-, -, c, hc'⟩ | ⟨j, hj, hs, -, ⟨e, -, -, he'⟩ |
        ⟨a', ha, -, ⟨m, v, hm, hv, hans, htr⟩ | ⟨-, hans, -⟩⟩⟩
      · rw [hc'] at hok; cases hok
      · rw [he'] at hok; cases hok
      · rw [hans] at hok
        cases hok
        obtain ⟨e, post, hi, hee⟩ := insert_held (now := s.now) (n := m.getD 0) (v := v) (by omega) hnew
        rw [htr, hi]
        have := Held.top (D := D) (l := post) (st := s.now) e (by rw [hee]; exact Nat.le_refl _)
        rw [hee] at this
        rw [hee]
        exact this
      · rw [hans] at hok; cases hok
    · rw [hans] at hok
      cases hok
      obtain ⟨e, post, hi, hee⟩ := insert_held (now := s.now) (n := m.getD 0) (v := v) (by omega) hnew
      rw [htr, hi]
      have := Held.top (D := D) (l := post) (st := s.now) e (by rw [hee]; exact Nat.le_refl _)
      rw [hee] at this
      rw [hee]
      exact this
  have e1 : run p s (.submit w api t :: acts) = run p (step p s (.submit w api t)) acts := rfl
  rw [e1]
  have hnow : (step p s (.submit w api t)).now = s.now := rfl
  obtain ⟨hr, hrn⟩ := run_held hc acts (step p s (.submit w api t)) hheld (Nat.le_refl _) (by rw [hnow]; omega) hD
  rw [hnow] at hrn
  obtain ⟨e, hf, -, hst⟩ := hr.find
  have hfr : fresh p (run p (step p s (.submit w api t)) acts).now e = true := by
    unfold fresh
    simp only [decide_eq_true_eq]
    omega
  unfold status
  simp only [hn]
  obtain ⟨f, r, m⟩ := g
  cases hg
  cases f with
  | notReceived => simp [asksTracker, fromGateway, containsKey, cacheGet, hf, hfr]
  | received => simp [asksTracker, fromGateway]
  | onL1 => simp [asksTracker, fromGateway]
  | onL2 => simp [asksTracker, fromGateway]

example : (submit (exPar 3 false true) (exWorld (some none) 11) 9 0 [] (.invoke3 exInvoke)).ans = .ok ⟨11, 0⟩ ∧
    (∀ x ∈ [Act.wait 200, .submit (exWorld (some none) 12) 9 (.invoke3 exInvoke), .get 11, .flush, .wait 99], ∀ k ∈ touched x, k ≠ 11 → k ∈ [12]) ∧
    waited [Act.wait 200, .submit (exWorld (some none) 12) 9 (.invoke3 exInvoke), .get 11, .flush, .wait 99] < 300 := by
  refine ⟨rfl, ?_, by decide⟩
  intro x hx k hk hne
  simp only [List.mem_cons, List.not_mem_nil, or_false] at hx
  rcases hx with rfl | rfl | rfl | rfl | rfl
  · cases hk
  · exact hk
  · simp [touched] at hk; exact absurd hk hne
  · cases hk
  · cases hk

/-- **C92, violated.** Once `life` seconds have passed the node says that there is no such transaction if the gateway does not list it yet,
however many others there were. -/
theorem C92_expired_violated (p : Par) (s : Node) (w : World) (api : Nat) (t : Tx) (a : Accepted)
    (hok : (submit p w api s.now s.tracker t).ans = .ok a) (hnew : ∀ e ∈ s.tracker, e.hash ≠ a.hash)
    (n : Local) (hn : n.look a.hash = .ok none) :
    (status p api n (some ⟨.notReceived, false, none⟩) (run p s [.submit w api t, .wait p.life]).now
      (run p s [.submit w api t, .wait p.life]).tracker a.hash).1 = .notFound := by
  have hall : ∀ e ∈ (submit p w api s.now s.tracker t).tracker, e.hash = a.hash → e.stamp = s.now := by
    rcases submit_tracker p w api s.now s.tracker t with he | ⟨a', m, v, -, -, -, hans, htr⟩
    · rw [he]
      intro e hm hh
      exact absurd hh (hnew e hm)
    · rw [hans] at hok
      cases hok
      rw [htr]
      intro e hm hh
      have hput : ∀ l' : List Entry, (∀ e ∈ l', e ∈ s.tracker) → ∀ e ∈ put p ⟨a.hash, s.now, m.getD 0, v⟩ l', e.hash = a.hash → e.stamp = s.now := by
        intro l' hl' x hx hxh
        unfold put at hx
        split at hx
        · split at hx
          · rcases List.mem_cons.1 hx with rfl | hx'
            · rfl
            · exact absurd hxh (hnew x (hl' x (List.mem_filter.1 hx').1))
          · rw [List.mem_map] at hx
            obtain ⟨y, hy, rfl⟩ := hx
            split
            · rfl
            · rename_i hne
              rw [if_neg hne] at hxh
              exact absurd hxh (hnew y (hl' y hy))
        · rcases List.mem_cons.1 hx with rfl | hx'
          · rfl
          · exact absurd hxh (hnew x (hl' x hx'))
      have hfl : ∀ e ∈ flush p s.now s.tracker, e ∈ s.tracker := fun e he => (List.mem_filter.1 he).1
      have hroom : ∀ (k : Nat) (l' : List Entry), ∀ e ∈ makeRoom k l', e ∈ l' := by
        intro k l' x hx
        unfold makeRoom at hx
        split at hx
        · exact List.dropLast_subset _ hx
        · exact hx
      unfold insert cacheSet at hm
      split at hm
      · exact hput _ (fun x hx => hfl x (hroom _ _ x hx)) e hm hh
      · exact hput _ hfl e (hroom _ _ e hm) hh
  have e1 : (run p s [.submit w api t, .wait p.life]).tracker = (submit p w api s.now s.tracker t).tracker := rfl
  have e2 : (run p s [.submit w api t, .wait p.life]).now = s.now + p.life := rfl
  rw [e1, e2]
  generalize (submit p w api s.now s.tracker t).tracker = l at hall ⊢
  have hk : (cacheGet p (s.now + p.life) a.hash l).2 = none := by
    unfold cacheGet
    split
    · rfl
    · rename_i e hf
      have hst := hall e (List.mem_of_find?_eq_some hf) (by simpa using List.find?_some hf)
      have : fresh p (s.now + p.life) e = false := by
        unfold fresh
        simp only [decide_eq_false_iff_not]
        omega
      rw [this]
      rfl
  unfold status
  simp [hn, asksTracker, fromGateway, containsKey, hk]

/-- **C92, violated.** Others can make the node forget a transaction that it has just taken: with room for two, after two more transactions in
the same second the answer for the first is "not found" if the gateway does not list it yet. -/
theorem C92_evicted_violated (move room : Bool) (n : Local) (hn : n.look 11 = .ok none) :
    (submit (exPar 2 move room) (exWorld (some none) 11) 9 0 [] (.invoke3 exInvoke)).ans = .ok ⟨11, 0⟩ ∧
      (status (exPar 2 move room) 9 n (some ⟨.notReceived, false, none⟩) 0
        (run (exPar 2 move room) ⟨0, []⟩ [.submit (exWorld (some none) 11) 9 (.invoke3 exInvoke),
          .submit (exWorld (some none) 12) 9 (.invoke3 exInvoke), .submit (exWorld (some none) 13) 9 (.invoke3 exInvoke)]).tracker 11).1 = .notFound := by
  refine ⟨rfl, ?_⟩
  have hf : ((run (exPar 2 move room) ⟨0, []⟩ [.submit (exWorld (some none) 11) 9 (.invoke3 exInvoke),
      .submit (exWorld (some none) 12) 9 (.invoke3 exInvoke), .submit (exWorld (some none) 13) 9 (.invoke3 exInvoke)]).tracker.find?
        fun e => e.hash == 11) = none := by
    cases move <;> cases room <;> rfl
  unfold status
  simp [hn, asksTracker, containsKey, cacheGet, hf, fromGateway]

/-! ## The messages of a transaction on L1 -/

theorem msgLoop_spec (api : Nat) (ask : Nat → Status) (l : List Nat) (hk : ∀ h ∈ l, ask h ≠ .notFound ∧ ask h ≠ .internal) :
    msgLoop api ask l = some (Spec.messages api ask l) := by
  induction l with
  | nil => rfl
  | cons h t ih =>
    have hh := hk h List.mem_cons_self
    unfold msgLoop
    rw [if_neg (fun h' => h'.elim hh.1 hh.2), ih (fun x hx => hk x (List.mem_cons_of_mem _ hx))]
    simp only [Option.map_some, Spec.messages, List.filter_cons]
    by_cases h9 : api < 9
    · have : ¬ (9 ≤ api ∧ (ask h).hasExec = false) := by omega
      simp [h9, this]
    · cases hx : (ask h).hasExec
      · have : 9 ≤ api := by omega
        simp [h9, this]
      · simp [h9]

/-- **C92.** The messages of a transaction on L1 are answered with the status of each of them that the API has room for, in order. Partial:
only if the status of each is known. -/
theorem C92_messages_partial (api : Nat) (ask : Nat → Status) (l : List Nat) (hk : ∀ h ∈ l, ask h ≠ .notFound ∧ ask h ≠ .internal) :
    messages api ask (some l) = some (Spec.messages api ask l) := msgLoop_spec api ask l hk

example : messages 9 (fun h => if h = 1 then .known (.onL2 0) else .known .candidate) (some [1, 2]) = some [⟨1, .known (.onL2 0)⟩] := by decide

/-- **C92, violated.** One message that is not known yet hides all others: the answer is "not found". -/
theorem C92_messages_violated (api : Nat) (ask : Nat → Status) (l : List Nat) (h : Nat) (hm : h ∈ l) (hu : ask h = .notFound) :
    messages api ask (some l) = none := by
  show msgLoop api ask l = none
  induction l with
  | nil => cases hm
  | cons x t ih =>
    unfold msgLoop
    split
    · rfl
    · rename_i hx
      rcases List.mem_cons.1 hm with rfl | hm'
      · exact absurd (.inl hu) hx
      · rw [ih hm']; rfl

end Verif.Submit
