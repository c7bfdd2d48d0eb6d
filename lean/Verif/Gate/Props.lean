import Verif.Gate.Lemmas

/-
C97. The client for the gateway.

`c` is a client, `env i` what comes of attempt `i` of a call, `rdErr` and `rd` read the
JSON of an error and of an answer, `gz` compresses; they are arbitrary.
-/

namespace Verif.Gate

open Verif.Crypto (Bytes toHexStr)
open Verif.Gate.Spec

/-- A client and a hash for the examples. -/
def exClient : Client :=
  withUrls (str "https://alpha.starknet.io/gateway") (str "https://feeder.starknet.io/feeder_gateway") [1] [2]

def exHash : Bytes := List.replicate 30 0 ++ [0xa, 0xbc]

theorem exHash_ok : ∃ n, Crypto.FeltOf exHash n := ⟨_, rfl, by decide, rfl, by decide +kernel⟩

/-! ### What is asked -/

/-- What the feeder gateway reads from the URL is the call that was made. -/
theorem C97_asked (gz : Bytes → Bytes) (c : Client) (call : Call) (hs : ¬ Submits call) (ho : CallOk call) :
    (readUrl c.feeder (wire gz (request c call)).url).bind (fun r => readCall r.1 r.2) = some call ∧
    (wire gz (request c call)).post = false := by
  have key : ∀ (m : String) (q : List (Bytes × Bytes)) (r a : Bool), 63 ∉ str m →
      (∀ p ∈ q, (∀ b ∈ p.1, b < 256) ∧ ∀ b ∈ p.2, b < 256) →
      readUrl c.feeder (wire gz (feederGet c m q r a)).url = some (str m, q) ∧
      (wire gz (feederGet c m q r a)).post = false := by
    intro m q r a hm hq
    refine ⟨?_, rfl⟩
    exact readUrl_urlOf (feederGet c m q r a) hm hq
  have two : ∀ (p1 p2 : Bytes × Bytes), ((∀ b ∈ p1.1, b < 256) ∧ ∀ b ∈ p1.2, b < 256) →
      ((∀ b ∈ p2.1, b < 256) ∧ ∀ b ∈ p2.2, b < 256) →
      ∀ p ∈ [p1, p2], (∀ b ∈ p.1, b < 256) ∧ ∀ b ∈ p.2, b < 256 := by
    intro p1 p2 h1 h2 p hp
    simp only [List.mem_cons, List.not_mem_nil, or_false] at hp
    rcases hp with rfl | rfl
    · exact h1
    · exact h2
  have one : ∀ (p1 : Bytes × Bytes), ((∀ b ∈ p1.1, b < 256) ∧ ∀ b ∈ p1.2, b < 256) →
      ∀ p ∈ [p1], (∀ b ∈ p.1, b < 256) ∧ ∀ b ∈ p.2, b < 256 := by
    intro p1 h1 p hp
    simp only [List.mem_singleton] at hp
    subst hp
    exact h1
  have hexOk : ∀ (name : String) (h : Bytes), (∀ b ∈ str name, b < 256) → (∃ n, Crypto.FeltOf h n) →
      ((∀ b ∈ (str name, toHexStr h).1, b < 256) ∧ ∀ b ∈ (str name, toHexStr h).2, b < 256) :=
    fun _ _ h1 h2 => ⟨h1, hash_bytes h2⟩
  have rb : ∀ b, BlockOk b → readBlock [blockParam b] = some b :=
    fun b hb => readBlock_param b hb [] [] (by simp) (by simp)
  cases call with
  | pendingBlock =>
    obtain ⟨h1, h2⟩ := key "get_state_update" [blockParam .pending, (str "includeBlock", str "true")] c.retry false
      (by decide) (two _ _ (str_bytes_block _ ho) ⟨by decide, by decide⟩)
    refine ⟨?_, h2⟩
    simp only [request, h1, Option.bind_some]
    decide
  | preconfirmedBlock b =>
    obtain ⟨h1, h2⟩ := key "get_preconfirmed_block" [blockParam b] false false (by decide) (one _ (str_bytes_block _ ho))
    refine ⟨?_, h2⟩
    simp only [request, h1, Option.bind_some, readCall]
    rw [if_neg (by decide), if_neg (by decide), if_pos trivial, rb b ho]
    rfl
  | blockHeader b =>
    obtain ⟨h1, h2⟩ := key "get_block" [blockParam b, (str "headerOnly", str "true")] c.retry false (by decide)
      (two _ _ (str_bytes_block _ ho) ⟨by decide, by decide⟩)
    refine ⟨?_, h2⟩
    simp only [request, h1, Option.bind_some, readCall]
    have hp : param [blockParam b, (str "headerOnly", str "true")] "headerOnly" = some (str "true") := by
      cases b <;> rfl
    have hb : readBlock [blockParam b, (str "headerOnly", str "true")] = some b :=
      readBlock_param b ho [] [(str "headerOnly", str "true")] (by simp) (by decide)
    rw [if_neg (by decide), if_pos trivial, if_pos hp, hb]
    rfl
  | classByHash h b =>
    obtain ⟨h1, h2⟩ := key "get_class_by_hash" [(str "classHash", toHexStr h), blockParam b] c.retry true (by decide)
      (two _ _ (hexOk _ h (by decide) ho.1) (str_bytes_block _ ho.2))
    refine ⟨?_, h2⟩
    simp only [request, h1, Option.bind_some, readCall]
    have hp : param [(str "classHash", toHexStr h), blockParam b] "classHash" = some (toHexStr h) := rfl
    have hb : readBlock [(str "classHash", toHexStr h), blockParam b] = some b :=
      readBlock_param b ho.2 [(str "classHash", toHexStr h)] []
        (by intro p hp; simp only [List.mem_singleton] at hp; subst hp
            show str "classHash" ≠ _ ∧ str "classHash" ≠ _; decide) (by simp)
    rw [if_neg (by decide), if_neg (by decide), if_neg (by decide), if_pos trivial, hp, hb]
    simp only [Option.bind_some, readHash_hex ho.1]
  | casmByHash h b =>
    obtain ⟨h1, h2⟩ := key "get_compiled_class_by_class_hash" [(str "classHash", toHexStr h), blockParam b] c.retry true
      (by decide) (two _ _ (hexOk _ h (by decide) ho.1) (str_bytes_block _ ho.2))
    refine ⟨?_, h2⟩
    simp only [request, h1, Option.bind_some, readCall]
    have hp : param [(str "classHash", toHexStr h), blockParam b] "classHash" = some (toHexStr h) := rfl
    have hb : readBlock [(str "classHash", toHexStr h), blockParam b] = some b :=
      readBlock_param b ho.2 [(str "classHash", toHexStr h)] []
        (by intro p hp; simp only [List.mem_singleton] at hp; subst hp
            show str "classHash" ≠ _ ∧ str "classHash" ≠ _; decide) (by simp)
    rw [if_neg (by decide), if_neg (by decide), if_neg (by decide), if_neg (by decide), if_pos trivial, hp, hb]
    simp only [Option.bind_some, readHash_hex ho.1]
  | transactionStatus t =>
    obtain ⟨h1, h2⟩ := key "get_transaction_status" [(str "transactionHash", toHexStr t)] c.retry false (by decide)
      (one _ (hexOk _ t (by decide) ho))
    refine ⟨?_, h2⟩
    simp only [request, h1, Option.bind_some, readCall]
    have hp : param [(str "transactionHash", toHexStr t)] "transactionHash" = some (toHexStr t) := rfl
    rw [if_neg (by decide), if_neg (by decide), if_neg (by decide), if_neg (by decide), if_neg (by decide), if_pos trivial, hp]
    simp only [Option.bind_some, readHash_hex ho, Option.map_some]
  | stateUpdateWithBlock n =>
    have hb : BlockOk (.number n) := ho
    obtain ⟨h1, h2⟩ := key "get_state_update" [blockParam (.number n), (str "includeBlock", str "true")] c.retry false
      (by decide) (two _ _ (str_bytes_block _ hb) ⟨by decide, by decide⟩)
    refine ⟨?_, h2⟩
    simp only [request, h1, Option.bind_some, readCall]
    have hp : param [blockParam (.number n), (str "includeBlock", str "true")] "includeBlock" = some (str "true") := rfl
    have hr : readBlock [blockParam (.number n), (str "includeBlock", str "true")] = some (.number n) :=
      readBlock_param (.number n) hb [] [(str "includeBlock", str "true")] (by simp) (by decide)
    rw [if_pos trivial, if_pos hp, hr]
  | ethContractAddresses =>
    obtain ⟨h1, h2⟩ := key "get_contract_addresses" [] c.retry false (by decide) (by simp)
    refine ⟨?_, h2⟩
    simp only [request, h1, Option.bind_some]
    decide
  | addInvoke json e => exact absurd trivial hs
  | addDeclare json t => exact absurd trivial hs
  | addDeployAccount json => exact absurd trivial hs
  | blockTraces b =>
    obtain ⟨h1, h2⟩ := key "get_block_traces" [blockParam b] c.retry false (by decide) (one _ (str_bytes_block _ ho))
    refine ⟨?_, h2⟩
    simp only [request, h1, Option.bind_some, readCall]
    rw [if_neg (by decide), if_neg (by decide), if_neg (by decide), if_neg (by decide), if_neg (by decide),
      if_neg (by decide), if_neg (by decide), if_pos trivial, rb b ho]
    rfl
  | transactionTrace t =>
    obtain ⟨h1, h2⟩ := key "get_transaction_trace" [(str "transactionHash", toHexStr t)] c.retry false (by decide)
      (one _ (hexOk _ t (by decide) ho))
    refine ⟨?_, h2⟩
    simp only [request, h1, Option.bind_some, readCall]
    have hp : param [(str "transactionHash", toHexStr t)] "transactionHash" = some (toHexStr t) := rfl
    rw [if_neg (by decide), if_neg (by decide), if_neg (by decide), if_neg (by decide), if_neg (by decide),
      if_neg (by decide), if_neg (by decide), if_neg (by decide), if_pos trivial, hp]
    simp only [Option.bind_some, readHash_hex ho, Option.map_some]
  | signature b =>
    obtain ⟨h1, h2⟩ := key "get_signature" [blockParam b] c.retry false (by decide) (one _ (str_bytes_block _ ho))
    refine ⟨?_, h2⟩
    simp only [request, h1, Option.bind_some, readCall]
    rw [if_neg (by decide), if_neg (by decide), if_neg (by decide), if_neg (by decide), if_neg (by decide),
      if_neg (by decide), if_neg (by decide), if_neg (by decide), if_neg (by decide), if_pos trivial, rb b ho]
    rfl
  | publicKey =>
    obtain ⟨h1, h2⟩ := key "get_public_key" [] c.retry false (by decide) (by simp)
    refine ⟨?_, h2⟩
    simp only [request, h1, Option.bind_some]
    decide

example : CallOk (.classByHash exHash (.number 7)) ∧ ¬ Submits (.classByHash exHash (.number 7)) ∧
    (wire id (request exClient (.classByHash exHash (.number 7)))).url =
      str "https://feeder.starknet.io/feeder_gateway/get_class_by_hash?classHash=0xabc&blockNumber=7" :=
  ⟨⟨exHash_ok, show 7 < 2 ^ 64 by decide⟩, fun h => h, by decide +kernel⟩

/-- A transaction that is submitted goes to the gateway in a POST, as it is, with the
token if there is one; it is compressed exactly if it has a proof and compression is on. -/
theorem C97_submitted (gz gunzip : Bytes → Bytes) (hgz : ∀ b, gunzip (gz b) = b) (c : Client) (call : Call)
    (hs : Submits call) (ho : CallOk call) :
    ∃ json, submitted call = some json ∧
      seenBody gunzip (wire gz (request c call)) = json ∧
      (wire gz (request c call)).post = true ∧
      readUrl c.gateway (wire gz (request c call)).url = some (str "add_transaction",
        match call with | .addDeclare _ (some t) => [(str "token", t)] | _ => []) ∧
      ((wire gz (request c call)).gzip = true ↔ c.compress = true ∧ ∃ j, call = .addInvoke j false) := by
  have key : ∀ (q : List (Bytes × Bytes)) (json : Bytes) (z : Bool),
      (∀ p ∈ q, (∀ b ∈ p.1, b < 256) ∧ ∀ b ∈ p.2, b < 256) →
      seenBody gunzip (wire gz (gatewayPost c q json z)) = json ∧
      (wire gz (gatewayPost c q json z)).post = true ∧
      readUrl c.gateway (wire gz (gatewayPost c q json z)).url = some (str "add_transaction", q) ∧
      (wire gz (gatewayPost c q json z)).gzip = z := by
    intro q json z hq
    have hu := readUrl_urlOf (gatewayPost c q json z) (show 63 ∉ str "add_transaction" by decide) hq
    cases z with
    | true =>
      refine ⟨?_, rfl, hu, rfl⟩
      simp [seenBody, wire, gatewayPost, hgz]
    | false => exact ⟨rfl, rfl, hu, rfl⟩
  cases call with
  | addInvoke json e =>
    obtain ⟨h1, h2, h3, h4⟩ := key [] json (c.compress && !e) (by simp)
    refine ⟨json, rfl, h1, h2, h3, ?_⟩
    simp only [request, h4]
    simp
  | addDeclare json t =>
    cases t with
    | none =>
      obtain ⟨h1, h2, h3, h4⟩ := key [] json false (by simp)
      refine ⟨json, rfl, h1, h2, h3, ?_⟩
      simp only [request, h4]
      simp
    | some t =>
      obtain ⟨h1, h2, h3, h4⟩ := key [(str "token", t)] json false
        (by intro p hp; simp only [List.mem_singleton] at hp; subst hp
            exact ⟨show ∀ b ∈ str "token", b < 256 by decide, ho⟩)
      refine ⟨json, rfl, h1, h2, h3, ?_⟩
      simp only [request, h4]
      simp
  | addDeployAccount json =>
    obtain ⟨h1, h2, h3, h4⟩ := key [] json false (by simp)
    refine ⟨json, rfl, h1, h2, h3, ?_⟩
    simp only [request, h4]
    simp
  | _ => exact absurd hs (fun h => h)

example : Submits (.addDeclare [123, 125] (some (str "a&b=c d"))) ∧
    CallOk (.addDeclare [123, 125] (some (str "a&b=c d"))) ∧
    (wire id (request exClient (.addDeclare [123, 125] (some (str "a&b=c d"))))).url =
      str "https://alpha.starknet.io/gateway/add_transaction?token=a%26b%3Dc+d" :=
  ⟨trivial, show ∀ b ∈ str "a&b=c d", b < 256 by decide, by decide +kernel⟩

/-! ### How often, and what comes of it -/

section
variable {E V : Type} (gz : Bytes → Bytes) (rdErr : Bytes → Option E) (rd : Bytes → Option V) (raw : Bytes → V)

/-- The calls whose answer is not read as JSON. -/
def Raw (call : Call) : Bool :=
  match call with
  | .classByHash _ _ => true
  | .casmByHash _ _ => true
  | _ => false

theorem asBytes_raw (c : Client) (call : Call) : (request c call).asBytes = Raw call := by
  cases call <;> rfl

theorem retry_once (c : Client) (call : Call) (h : Once call) : (request c call).retry = false := by
  cases call <;> first | rfl | exact absurd h (fun h => h)

theorem retry_reads (c : Client) (call : Call) (h : ¬ Once call) : (request c call).retry = c.retry := by
  cases call <;> first | rfl | exact absurd trivial h

/-- A transaction is submitted once, and a pre-confirmed block asked for once, whatever
comes of it, and that is the result. -/
theorem C97_once (c : Client) (call : Call) (h : Once call) (env : Nat → Net) (fuel : Nat) :
    perform gz rdErr rd raw c call env fuel =
      ⟨[wire gz (request c call)], [], some (answer rdErr rd raw (Raw call) (env 0))⟩ := by
  simp only [perform, retry_once c call h, Bool.false_eq_true, if_false, asBytes_raw]

/-- Any other call sends the same request again until something comes back that settles
it, and that is the result; the waits in between are 2, 4, 8 and then always 10 s. -/
theorem C97_read (c : Client) (hr : c.retry = true) (call : Call) (h : ¬ Once call) (env : Nat → Net) (k fuel : Nat)
    (hk : Settles rdErr rd (Raw call) (env k)) (hlt : ∀ j, j < k → ¬ Settles rdErr rd (Raw call) (env j))
    (hf : k < fuel) :
    perform gz rdErr rd raw c call env fuel =
      ⟨List.replicate (k + 1) (wire gz (request c call)),
       (List.range k).map (fun n => min (2 ^ (n + 1)) 10 * 1000),
       some (answer rdErr rd raw (Raw call) (env k))⟩ := by
  simp only [perform, retry_reads c call h, hr, if_true, asBytes_raw]
  rw [loop_settled (wire gz (request c call)) (answer rdErr rd raw (Raw call)) env k fuel 0 backoff0 ?_ ?_ hf]
  · simp only [waitAfter_backoff0, Nat.zero_add]
  · intro j hj
    have := hlt j hj
    rw [settles_iff rdErr rd raw] at this
    simp only [Nat.zero_add]
    obtain ⟨e, he⟩ := Classical.not_forall.mp this
    obtain ⟨h1, h2⟩ := Classical.not_imp.mp he
    exact ⟨e, h1, by simpa using h2⟩
  · rintro ⟨e, h1, h2⟩
    simp only [Nat.zero_add] at h1
    rw [settles_iff rdErr rd raw] at hk
    rw [hk e h1] at h2
    exact absurd h2 (by simp)

/-- F78.  As long as nothing comes back that settles it, such a call does not end; a
refusal (any status from 401 to 599 other than 500) never does, nor does an answer that
cannot be read. -/
theorem C97_endless_violated (c : Client) (hr : c.retry = true) (call : Call) (h : ¬ Once call) (env : Nat → Net)
    (hn : ∀ i, (∃ st body, env i = .response st body ∧ 401 ≤ st ∧ st < 600 ∧ st ≠ 500) ∨
      (Raw call = false ∧ ∃ st b, env i = .response st (.ok b) ∧ st < 400 ∧ rd b = none)) (fuel : Nat) :
    (perform gz rdErr rd raw c call env fuel).result = none ∧
    (perform gz rdErr rd raw c call env fuel).sent = List.replicate fuel (wire gz (request c call)) := by
  simp only [perform, retry_reads c call h, hr, if_true, asBytes_raw]
  rw [loop_unsettled (wire gz (request c call)) (answer rdErr rd raw (Raw call)) env fuel 0 backoff0 ?_]
  · exact ⟨rfl, rfl⟩
  · intro j _
    simp only [Nat.zero_add, Retries]
    rcases hn j with ⟨st, body, he, h1, h2, h3⟩ | ⟨ha, st, b, he, h1, h2⟩
    · refine ⟨.net (.status st), ?_, rfl⟩
      simp only [he, answer, parseRaw]
      rw [if_neg (by omega), if_pos (by omega)]
    · refine ⟨.net .decode, ?_, rfl⟩
      simp only [he, answer, parseRaw]
      rw [if_neg (by omega), if_neg (by omega)]
      simp only [ha, Bool.false_eq_true, if_false, h2]

/-- What the caller gets: the value read from a success, or the error that the gateway
stated; anything else is told apart from these. -/
theorem C97_answer (asBytes : Bool) (n : Net) :
    (∀ v, answer rdErr rd raw asBytes n = .ok v ↔
      ∃ st b, n = .response st (.ok b) ∧ (st < 400 ∨ 600 ≤ st) ∧
        (asBytes = true ∧ v = raw b ∨ asBytes = false ∧ rd b = some v)) ∧
    (∀ e, answer rdErr rd raw asBytes n = .error (.starknet e) ↔
      ∃ st b, n = .response st (.ok b) ∧ (st = 400 ∨ st = 500) ∧ rdErr b = some e) := by
  cases n with
  | noResponse e => simp [answer]
  | response st body =>
    simp only [answer, parseRaw]
    by_cases h1 : st = 500 ∨ st = 400
    · simp only [h1, if_true]
      have hst : st = 400 ∨ st = 500 := h1.symm
      cases body with
      | error e => cases e <;> simp
      | ok b =>
        cases hr : rdErr b with
        | none =>
          simp only [hr]
          refine ⟨?_, ?_⟩
          · intro v
            constructor
            · intro h; exact absurd h (by simp)
            · rintro ⟨st', b', he, h2, _⟩
              simp only [Net.response.injEq] at he
              omega
          · intro e
            constructor
            · intro h; exact absurd h (by simp)
            · rintro ⟨st', b', he, _, h2⟩
              simp only [Net.response.injEq, Except.ok.injEq] at he
              rw [← he.2, hr] at h2
              exact absurd h2 (by simp)
        | some x =>
          simp only [hr]
          refine ⟨?_, ?_⟩
          · intro v
            constructor
            · intro h; exact absurd h (by simp)
            · rintro ⟨st', b', he, h2, _⟩
              simp only [Net.response.injEq] at he
              omega
          · intro e
            constructor
            · intro h
              simp only [Except.error.injEq, SeqErr.starknet.injEq] at h
              exact ⟨st, b, rfl, hst, by rw [hr, h]⟩
            · rintro ⟨st', b', he, _, h2⟩
              simp only [Net.response.injEq, Except.ok.injEq] at he
              rw [← he.2, hr] at h2
              simp only [Option.some.injEq] at h2
              rw [h2]
    · simp only [h1, if_false]
      by_cases h2 : 400 ≤ st ∧ st < 600
      · simp only [h2, and_self, if_true]
        refine ⟨?_, ?_⟩
        · intro v
          constructor
          · intro h; exact absurd h (by simp)
          · rintro ⟨st', b', he, h3, _⟩
            simp only [Net.response.injEq] at he
            omega
        · intro e
          constructor
          · intro h; exact absurd h (by simp)
          · rintro ⟨st', b', he, h3, _⟩
            simp only [Net.response.injEq] at he
            omega
      · simp only [h2, if_false]
        have h3 : st < 400 ∨ 600 ≤ st := by omega
        have hE : ∀ (e : E), ¬ ∃ st' b', Net.response st body = .response st' (.ok b') ∧ (st' = 400 ∨ st' = 500) ∧
            rdErr b' = some e := by
          rintro e ⟨st', b', he, h4, _⟩
          simp only [Net.response.injEq] at he
          omega
        cases body with
        | error e => simp
        | ok b =>
          cases asBytes with
          | true =>
            simp only [if_true]
            refine ⟨?_, ?_⟩
            · intro v
              constructor
              · intro h
                simp only [Except.ok.injEq] at h
                exact ⟨st, b, rfl, h3, Or.inl ⟨by trivial, h.symm⟩⟩
              · rintro ⟨st', b', he, _, h4 | h4⟩
                · simp only [Net.response.injEq, Except.ok.injEq] at he
                  rw [he.2, h4.2]
                · simp at h4
            · intro e
              constructor
              · intro h; exact absurd h (by simp)
              · intro h; exact absurd h (hE e)
          | false =>
            simp only [Bool.false_eq_true, if_false]
            cases hr : rd b with
            | none =>
              simp only
              refine ⟨?_, ?_⟩
              · intro v
                constructor
                · intro h; exact absurd h (by simp)
                · rintro ⟨st', b', he, _, h4 | h4⟩
                  · simp at h4
                  · simp only [Net.response.injEq, Except.ok.injEq] at he
                    rw [← he.2, hr] at h4
                    simp at h4
              · intro e
                constructor
                · intro h; exact absurd h (by simp)
                · intro h; exact absurd h (hE e)
            | some x =>
              simp only
              refine ⟨?_, ?_⟩
              · intro v
                constructor
                · intro h
                  simp only [Except.ok.injEq] at h
                  exact ⟨st, b, rfl, h3, Or.inr ⟨by simp, by rw [hr, h]⟩⟩
                · rintro ⟨st', b', he, _, h4 | h4⟩
                  · simp at h4
                  · simp only [Net.response.injEq, Except.ok.injEq] at he
                    rw [← he.2, hr] at h4
                    simp only [Option.some.injEq] at h4
                    rw [h4.2]
              · intro e
                constructor
                · intro h; exact absurd h (by simp)
                · intro h; exact absurd h (hE e)

/-- Every request carries the key that was set, and goes through the HTTP client that
was in use when the call began. -/
theorem C97_key (c : Client) (call : Call) (env : Nat → Net) (fuel : Nat) (s : Sent)
    (h : s ∈ (perform gz rdErr rd raw c call env fuel).sent) : s.apiKey = c.apiKey ∧ s.http = c.http := by
  have hall : ∀ (w : Sent) (att : Net → Except (SeqErr E) V) fuel i b, ∀ x ∈ (retryLoop w att env fuel i b).sent, x = w := by
    intro w att fuel
    induction fuel with
    | zero => intro i b x hx; simp [retryLoop] at hx
    | succ fuel ih =>
      intro i b x hx
      simp only [retryLoop] at hx
      split at hx
      · simpa using hx
      · split at hx
        · simp only [List.mem_cons] at hx
          rcases hx with hx | hx
          · exact hx
          · exact ih _ _ x hx
        · simpa using hx
  have hw : s = wire gz (request c call) := by
    simp only [perform] at h
    split at h
    · exact hall _ _ _ _ _ s h
    · simpa using h
  subst hw
  have hreq : (request c call).apiKey = c.apiKey ∧ (request c call).http = c.http := by
    cases call <;> exact ⟨rfl, rfl⟩
  simp only [wire]
  split
  · exact hreq
  · split <;> exact hreq

end

/-- Reading a text as JSON, for the examples: only `{}` is. -/
def exRd (b : Bytes) : Option Nat := if b = [123, 125] then some 5 else none

/-- The gateway is overloaded twice, then answers. -/
def exEnv (i : Nat) : Net :=
  if i = 0 then .noResponse .timeout else if i = 1 then .response 429 (.ok []) else .response 200 (.ok [123, 125])

example : Settles (E := Nat) (fun _ => none) exRd (Raw .publicKey) (exEnv 2) ∧
    (∀ j, j < 2 → ¬ Settles (E := Nat) (fun _ => none) exRd (Raw .publicKey) (exEnv j)) ∧ ¬ Once .publicKey ∧
    (perform id (E := Nat) (fun _ => none) exRd (fun _ => 0) exClient .publicKey exEnv 9).waits = [2000, 4000] := by
  refine ⟨⟨200, [123, 125], rfl, Or.inr ⟨by omega, Or.inr (by decide)⟩⟩, ?_, fun h => h, by decide⟩
  intro j hj
  have : j = 0 ∨ j = 1 := by omega
  rcases this with rfl | rfl
  · rintro ⟨st, b, h, _⟩; simp [exEnv] at h
  · rintro ⟨st, b, h, h2⟩
    simp only [exEnv, Nat.one_ne_zero, if_false, if_true, Net.response.injEq] at h
    omega

/-- A gateway that answers 403 for good. -/
example : (∀ i : Nat, (∃ st body, (fun _ => Net.response 403 (.ok [])) i = Net.response st body ∧ 401 ≤ st ∧ st < 600 ∧ st ≠ 500) ∨
      (Raw .publicKey = false ∧ ∃ st b, (fun _ => Net.response 403 (.ok [])) i = Net.response st (.ok b) ∧ st < 400 ∧ exRd b = none)) ∧
    exClient.retry = true ∧ ¬ Once .publicKey :=
  ⟨fun _ => Or.inl ⟨403, .ok [], rfl, by decide, by decide, by decide⟩, rfl, fun h => h⟩

/-- F79.  No wait is the one that the documentation states. -/
theorem C97_backoff_violated {E V : Type} (gz : Bytes → Bytes) (rdErr : Bytes → Option E) (rd : Bytes → Option V)
    (raw : Bytes → V) (c : Client) (hr : c.retry = true) (call : Call) (h : ¬ Once call) (env : Nat → Net) (k fuel : Nat)
    (hk : Settles rdErr rd (Raw call) (env k)) (hlt : ∀ j, j < k → ¬ Settles rdErr rd (Raw call) (env j))
    (hf : k < fuel) (n : Nat) (hn : n < k) :
    ∃ w, (perform gz rdErr rd raw c call env fuel).waits[n]? = some w ∧ w ≠ 1000 * documentedWait (n + 1) := by
  rw [C97_read gz rdErr rd raw c hr call h env k fuel hk hlt hf]
  refine ⟨_, by simp [hn]; rfl, ?_⟩
  simp only [documentedWait]
  have : 2 ≤ 2 ^ (n + 1) := by
    have := Nat.two_pow_pos n
    rw [Nat.pow_succ]
    omega
  omega

/-! ### Refreshing the HTTP client -/

/-- As long as building an HTTP client works, the one in use is one that was built for
the addresses that were found last.  Missing: when it fails (`C97_refresh_violated`). -/
theorem C97_refresh_partial (gateway feeder : Bytes) (ga fa : Addrs) (fs : List Found) (h : ∀ f ∈ fs, f.builds = true) :
    (refreshes (withUrls gateway feeder ga fa) fs).madeFor =
      ((refreshes (withUrls gateway feeder ga fa) fs).gatewayAddrs,
       (refreshes (withUrls gateway feeder ga fa) fs).feederAddrs) :=
  refreshes_current fs _ h rfl

/-- What a refresh that succeeds has found is what is noted, and if it is not what was
noted before, the HTTP client in use has been built for it. -/
theorem C97_refresh_notes (c : Client) (f : Found) (h : (refresh c f).2 = true) :
    f.gateway = some (refresh c f).1.gatewayAddrs ∧ f.feeder = some (refresh c f).1.feederAddrs ∧
    ((f.gateway, f.feeder) ≠ (some c.gatewayAddrs, some c.feederAddrs) →
      f.gateway = some (refresh c f).1.madeFor.1 ∧ f.feeder = some (refresh c f).1.madeFor.2 ∧
      (refresh c f).1.http ≠ c.http) := by
  simp only [refresh] at h ⊢
  cases hg : f.gateway with
  | none => simp [hg] at h
  | some ga =>
    cases hf : f.feeder with
    | none => simp [hg, hf] at h
    | some fa =>
      simp only [hg, hf] at h ⊢
      split
      · rename_i hc
        simp only [hc, if_true] at h
        split
        · refine ⟨rfl, rfl, fun _ => ⟨rfl, rfl, ?_⟩⟩
          show c.http + 1 ≠ c.http
          omega
        · rename_i hb
          simp [hb] at h
      · rename_i hc
        refine ⟨rfl, rfl, fun hne => ?_⟩
        simp only [Bool.not_eq_true, Bool.or_eq_false_iff, bne_eq_false_iff_eq] at hc
        exact absurd (by rw [hc.1, hc.2]) hne

example : (refreshes (withUrls [1] [2] [3] [4]) [⟨some [5], some [4], true⟩, ⟨none, some [9], true⟩]).madeFor = ([5], [4]) ∧
    (refresh (withUrls [1] [2] [3] [4]) ⟨some [5], some [4], true⟩).2 = true := by decide

/-- F80.  If building the new HTTP client fails once, it is not tried again: however
often the client is refreshed afterwards, with success, the old one stays. -/
theorem C97_refresh_violated (c : Client) (ga fa : Addrs) (n : Nat) (hc : c.madeFor = (c.gatewayAddrs, c.feederAddrs))
    (hne : (ga, fa) ≠ (c.gatewayAddrs, c.feederAddrs)) :
    (refresh (refreshes c (⟨some ga, some fa, false⟩ :: List.replicate n ⟨some ga, some fa, true⟩))
        ⟨some ga, some fa, true⟩).2 = true ∧
    (refreshes c (⟨some ga, some fa, false⟩ :: List.replicate n ⟨some ga, some fa, true⟩)).http = c.http ∧
    (refreshes c (⟨some ga, some fa, false⟩ :: List.replicate n ⟨some ga, some fa, true⟩)).madeFor ≠ (ga, fa) := by
  have h1 : (refresh c ⟨some ga, some fa, false⟩).1 = { c with gatewayAddrs := ga, feederAddrs := fa } := by
    simp only [refresh]
    split <;> simp
  have h2 : refresh { c with gatewayAddrs := ga, feederAddrs := fa } ⟨some ga, some fa, true⟩ =
      ({ c with gatewayAddrs := ga, feederAddrs := fa }, true) := by
    simp [refresh]
  have h3 : ∀ n, refreshes { c with gatewayAddrs := ga, feederAddrs := fa } (List.replicate n ⟨some ga, some fa, true⟩) =
      { c with gatewayAddrs := ga, feederAddrs := fa } := by
    intro n
    induction n with
    | zero => rfl
    | succ n ih =>
      simp only [refreshes, List.replicate_succ, List.foldl_cons, h2]
      exact ih
  have h4 : refreshes c (⟨some ga, some fa, false⟩ :: List.replicate n ⟨some ga, some fa, true⟩) =
      { c with gatewayAddrs := ga, feederAddrs := fa } := by
    simp only [refreshes, List.foldl_cons, h1]
    exact h3 n
  rw [h4, h2]
  refine ⟨rfl, rfl, ?_⟩
  show c.madeFor ≠ (ga, fa)
  rw [hc]
  exact fun e => hne e.symm

example : (withUrls [1] [2] [3] [4]).madeFor = ([3], [4]) ∧ (([5], [4]) : Addrs × Addrs) ≠ ([3], [4]) := by decide

/-- F77.  A refresh does not reach calls that are being retried: all their later attempts
still go through the HTTP client that was replaced. -/
theorem C97_stale_violated {E V : Type} (gz : Bytes → Bytes) (rdErr : Bytes → Option E) (rd : Bytes → Option V)
    (raw : Bytes → V) (c : Client) (ga fa : Addrs) (hne : (ga, fa) ≠ (c.gatewayAddrs, c.feederAddrs)) (call : Call)
    (env : Nat → Net) (fuel : Nat) :
    ∀ s ∈ (perform gz rdErr rd raw c call env fuel).sent, s.http ≠ (refresh c ⟨some ga, some fa, true⟩).1.http := by
  intro s hs
  rw [(C97_key gz rdErr rd raw c call env fuel s hs).2]
  have hch : (c.gatewayAddrs != ga || c.feederAddrs != fa) = true := by
    rw [Bool.or_eq_true, bne_iff_ne, bne_iff_ne]
    refine Classical.byContradiction fun hx => ?_
    rw [not_or, Classical.not_not, Classical.not_not] at hx
    exact hne (by rw [hx.1, hx.2])
  simp only [refresh, hch, if_true]
  omega

example : ∃ s ∈ (perform id (E := Nat) (fun _ => none) exRd (fun _ => 0) exClient .publicKey exEnv 9).sent,
    s.http = 0 ∧ (refresh exClient ⟨some [7], some [2], true⟩).1.http = 1 := by decide

end Verif.Gate
