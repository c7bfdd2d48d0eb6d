import Verif.Feed.LeafLemmas
namespace Verif.Feed
open Verif.Block (F P Txn Bound V3 Msg Event felt DeclareOld DeclareV2 DeclareV3 Deploy DeployAccountV1 DeployAccountV3 InvokeV1 InvokeV3 L1Handler)

theorem known_iff (names : List String) (f : Fields) (g : String → Option J) :
    known names f = some g ↔ (∀ k ∈ f.keys, k ∈ names) ∧ g = f.get := by
  unfold known
  by_cases h : (f.keys.all (names.contains ·)) = true
  · rw [if_pos h]
    simp only [List.all_eq_true, List.contains_iff_mem] at h
    simp only [Option.some.injEq]
    exact ⟨fun e => ⟨h, e.symm⟩, fun e => e.2.symm⟩
  · rw [if_neg h]
    simp only [List.all_eq_true, List.contains_iff_mem] at h
    simp only [reduceCtorEq, false_iff]
    exact fun e => h e.1

/-- The fields of version 3 are there. -/
def HasV3 (g : String → Option J) (x : V3) : Prop :=
  Has g "nonce_data_availability_mode" (md x.nonceL2) ∧ Has g "fee_data_availability_mode" (md x.feeL2) ∧ Has g "resource_bounds" (bds x) ∧
    Has g "tip" (.hex x.tip) ∧ Has g "paymaster_data" (hxs x.paymaster)

theorem readV3_iff (g : String → Option J) (x : V3) : readV3 g = some x ↔ HasV3 g x ∧ V3Fits x := by
  have h1 := req_iff' (g := g) (k := "nonce_data_availability_mode") (readMode_iff · x.nonceL2)
  have h2 := req_iff' (g := g) (k := "fee_data_availability_mode") (readMode_iff · x.feeL2)
  have h3 := req_iff (g := g) (k := "resource_bounds") (readBounds_iff · x)
  have h4 := req_iff (g := g) (k := "tip") (readBytes_iff 8 · x.tip)
  have h5 := req_iff' (g := g) (k := "paymaster_data") (hexes_iff · x.paymaster)
  unfold readV3 HasV3 V3Fits
  simp only [Option.bind_eq_bind]
  constructor
  · intro e
    simp only [Option.bind_eq_some_iff] at e
    obtain ⟨n, hn, f, hf, b, hb, t, ht, p, hp, e⟩ := e
    cases e
    have := h3.1 hb
    exact ⟨⟨h1.1 hn, h2.1 hf, this.1, (h4.1 ht).1, h5.1 hp⟩, this.2.1, this.2.2.1, this.2.2.2, by simpa using (h4.1 ht).2⟩
  · rintro ⟨⟨a, b, c, d, e⟩, p, q, r, s⟩
    rw [h1.2 a, h2.2 b, h3.2 ⟨c, p, q, r⟩, h4.2 ⟨d, by simpa using s⟩, h5.2 e]
    rfl

theorem readDeclare01_iff (f : Fields) (h : F) (t : DeclareOld) : readDeclare01 f = some (h, t) ↔ (∀ k ∈ f.keys, k ∈ declare01Names) ∧
    (Has f.get "class_hash" (hx t.classHash) ∧ Has f.get "max_fee" (hx t.maxFee) ∧ Has f.get "nonce" (hx t.nonce) ∧
      Has f.get "sender_address" (hx t.sender) ∧ (Has f.get "signature" (dcs t.signature) ∨ (f.get "signature" = none ∧ t.signature = [])) ∧
      Has f.get "transaction_hash" (hx h)) ∧ Short t.classHash ∧ Short t.sender := by
  have h1 := req_iff (g := f.get) (k := "class_hash") (readHex251_iff · t.classHash)
  have h2 := req_iff' (g := f.get) (k := "max_fee") (readHex_iff · t.maxFee)
  have h3 := req_iff' (g := f.get) (k := "nonce") (readHex_iff · t.nonce)
  have h4 := req_iff (g := f.get) (k := "sender_address") (readHex251_iff · t.sender)
  have h5 := dflt_iff (g := f.get) (k := "signature") (d := []) (decs_iff · t.signature)
  have h6 := req_iff' (g := f.get) (k := "transaction_hash") (readHex_iff · h)
  unfold readDeclare01
  simp only [Option.bind_eq_bind]
  constructor
  · intro e
    simp only [Option.bind_eq_some_iff, known_iff] at e
    obtain ⟨g, ⟨hk, rfl⟩, c, hc, m, hm, n, hn, a, ha, s, hs, x, hx, e⟩ := e
    cases e
    exact ⟨hk, ⟨(h1.1 hc).1, h2.1 hm, h3.1 hn, (h4.1 ha).1, h5.1 hs, h6.1 hx⟩, (h1.1 hc).2, (h4.1 ha).2⟩
  · rintro ⟨hk, ⟨c, m, n, a, s, x⟩, p, q⟩
    rw [(known_iff _ _ _).2 ⟨hk, rfl⟩]
    simp only [Option.bind_some]
    rw [h1.2 ⟨c, p⟩, h2.2 m, h3.2 n, h4.2 ⟨a, q⟩, h5.2 s, h6.2 x]
    rfl

theorem readDeclare2_iff (f : Fields) (h : F) (t : DeclareV2) : readDeclare2 f = some (h, t) ↔ (∀ k ∈ f.keys, k ∈ declare2Names) ∧
    (Has f.get "class_hash" (hx t.classHash) ∧ Has f.get "max_fee" (hx t.maxFee) ∧ Has f.get "nonce" (hx t.nonce) ∧
      Has f.get "sender_address" (hx t.sender) ∧ (Has f.get "signature" (dcs t.signature) ∨ (f.get "signature" = none ∧ t.signature = [])) ∧
      Has f.get "transaction_hash" (hx h) ∧ Has f.get "compiled_class_hash" (hx t.casm)) ∧ Short t.classHash ∧ Short t.sender ∧ Short t.casm := by
  have h1 := req_iff (g := f.get) (k := "class_hash") (readHex251_iff · t.classHash)
  have h2 := req_iff' (g := f.get) (k := "max_fee") (readHex_iff · t.maxFee)
  have h3 := req_iff' (g := f.get) (k := "nonce") (readHex_iff · t.nonce)
  have h4 := req_iff (g := f.get) (k := "sender_address") (readHex251_iff · t.sender)
  have h5 := dflt_iff (g := f.get) (k := "signature") (d := []) (decs_iff · t.signature)
  have h6 := req_iff' (g := f.get) (k := "transaction_hash") (readHex_iff · h)
  have h7 := req_iff (g := f.get) (k := "compiled_class_hash") (readHex251_iff · t.casm)
  unfold readDeclare2
  simp only [Option.bind_eq_bind]
  constructor
  · intro e
    simp only [Option.bind_eq_some_iff, known_iff] at e
    obtain ⟨g, ⟨hk, rfl⟩, c, hc, m, hm, n, hn, a, ha, s, hs, x, hx, cc, hcc, e⟩ := e
    cases e
    exact ⟨hk, ⟨(h1.1 hc).1, h2.1 hm, h3.1 hn, (h4.1 ha).1, h5.1 hs, h6.1 hx, (h7.1 hcc).1⟩, (h1.1 hc).2, (h4.1 ha).2, (h7.1 hcc).2⟩
  · rintro ⟨hk, ⟨c, m, n, a, s, x, cc⟩, p, q, r⟩
    rw [(known_iff _ _ _).2 ⟨hk, rfl⟩]
    simp only [Option.bind_some]
    rw [h1.2 ⟨c, p⟩, h2.2 m, h3.2 n, h4.2 ⟨a, q⟩, h5.2 s, h6.2 x, h7.2 ⟨cc, r⟩]
    rfl

theorem readDeclare3_iff (f : Fields) (h : F) (t : DeclareV3) : readDeclare3 f = some (h, t) ↔ (∀ k ∈ f.keys, k ∈ declare3Names) ∧
    (Has f.get "class_hash" (hx t.classHash) ∧ Has f.get "nonce" (hx t.nonce) ∧ HasV3 f.get t.v3 ∧
      Has f.get "sender_address" (hx t.sender) ∧ (Has f.get "signature" (dcs t.signature) ∨ (f.get "signature" = none ∧ t.signature = [])) ∧
      Has f.get "transaction_hash" (hx h) ∧ Has f.get "compiled_class_hash" (hx t.casm) ∧
      Has f.get "account_deployment_data" (hxs t.accountDeployment)) ∧ Short t.classHash ∧ Short t.sender ∧ Short t.casm ∧ V3Fits t.v3 := by
  have h1 := req_iff (g := f.get) (k := "class_hash") (readHex251_iff · t.classHash)
  have h2 := readV3_iff f.get t.v3
  have h3 := req_iff' (g := f.get) (k := "nonce") (readHex_iff · t.nonce)
  have h4 := req_iff (g := f.get) (k := "sender_address") (readHex251_iff · t.sender)
  have h5 := dflt_iff (g := f.get) (k := "signature") (d := []) (decs_iff · t.signature)
  have h6 := req_iff' (g := f.get) (k := "transaction_hash") (readHex_iff · h)
  have h7 := req_iff (g := f.get) (k := "compiled_class_hash") (readHex251_iff · t.casm)
  have h8 := req_iff' (g := f.get) (k := "account_deployment_data") (hexes_iff · t.accountDeployment)
  unfold readDeclare3
  simp only [Option.bind_eq_bind]
  constructor
  · intro e
    simp only [Option.bind_eq_some_iff, known_iff] at e
    obtain ⟨g, ⟨hk, rfl⟩, c, hc, n, hn, v, hv, a, ha, s, hs, x, hx, cc, hcc, d, hd, e⟩ := e
    cases e
    exact ⟨hk, ⟨(h1.1 hc).1, h3.1 hn, (h2.1 hv).1, (h4.1 ha).1, h5.1 hs, h6.1 hx, (h7.1 hcc).1, h8.1 hd⟩, (h1.1 hc).2, (h4.1 ha).2, (h7.1 hcc).2,
      (h2.1 hv).2⟩
  · rintro ⟨hk, ⟨c, n, v, a, s, x, cc, d⟩, p, q, r, z⟩
    rw [(known_iff _ _ _).2 ⟨hk, rfl⟩]
    simp only [Option.bind_some]
    rw [h1.2 ⟨c, p⟩, h3.2 n, h2.2 ⟨v, z⟩, h4.2 ⟨a, q⟩, h5.2 s, h6.2 x, h7.2 ⟨cc, r⟩, h8.2 d]
    rfl

theorem readDeploy_iff (f : Fields) (h : F) (t : Deploy) (v : F) : readDeploy f = some (.deploy h t v) ↔ (∀ k ∈ f.keys, k ∈ deployNames) ∧
    (Has f.get "contract_address" (hx t.address) ∧ Has f.get "contract_address_salt" (hx t.salt) ∧ Has f.get "class_hash" (hx t.classHash) ∧
      Has f.get "constructor_calldata" (dcs t.calldata) ∧ Has f.get "transaction_hash" (hx h) ∧
      (Has f.get "version" (hx v) ∨ (f.get "version" = none ∧ v = 0))) ∧ Short t.address ∧ Short t.classHash := by
  have h1 := req_iff (g := f.get) (k := "contract_address") (readHex251_iff · t.address)
  have h2 := req_iff' (g := f.get) (k := "contract_address_salt") (readHex_iff · t.salt)
  have h3 := req_iff (g := f.get) (k := "class_hash") (readHex251_iff · t.classHash)
  have h4 := req_iff' (g := f.get) (k := "constructor_calldata") (decs_iff · t.calldata)
  have h5 := req_iff' (g := f.get) (k := "transaction_hash") (readHex_iff · h)
  have h6 := dflt_iff (g := f.get) (k := "version") (d := 0) (readHex_iff · v)
  unfold readDeploy
  simp only [Option.bind_eq_bind]
  constructor
  · intro e
    simp only [Option.bind_eq_some_iff, known_iff] at e
    obtain ⟨g, ⟨hk, rfl⟩, a, ha, s, hs, c, hc, d, hd, x, hx, y, hy, e⟩ := e
    cases e
    exact ⟨hk, ⟨(h1.1 ha).1, h2.1 hs, (h3.1 hc).1, h4.1 hd, h5.1 hx, h6.1 hy⟩, (h1.1 ha).2, (h3.1 hc).2⟩
  · rintro ⟨hk, ⟨a, s, c, d, x, y⟩, p, q⟩
    rw [(known_iff _ _ _).2 ⟨hk, rfl⟩]
    simp only [Option.bind_some]
    rw [h1.2 ⟨a, p⟩, h2.2 s, h3.2 ⟨c, q⟩, h4.2 d, h5.2 x, h6.2 y]
    rfl

theorem readDeploy_kind (f : Fields) (x : GwTx) (e : readDeploy f = some x) : ∃ h t v, x = .deploy h t v := by
  unfold readDeploy at e
  simp only [Option.bind_eq_bind, Option.bind_eq_some_iff] at e
  obtain ⟨_, _, _, _, _, _, _, _, _, _, _, _, _, _, e⟩ := e
  cases e
  exact ⟨_, _, _, rfl⟩

theorem readDeployAccount01_iff (f : Fields) (h : F) (t : DeployAccountV1) (v : F) : readDeployAccount01 f = some (.deployAccount01 h t v) ↔
    (∀ k ∈ f.keys, k ∈ deployAccount01Names) ∧
    (Has f.get "contract_address" (hx t.address) ∧ Has f.get "transaction_hash" (hx h) ∧ Has f.get "max_fee" (hx t.maxFee) ∧
      Has f.get "version" (hx v) ∧ Has f.get "signature" (dcs t.signature) ∧ Has f.get "nonce" (hx t.nonce) ∧
      Has f.get "contract_address_salt" (hx t.salt) ∧ Has f.get "constructor_calldata" (dcs t.calldata) ∧ Has f.get "class_hash" (hx t.classHash)) ∧
      Short t.address ∧ Short t.classHash := by
  have h1 := req_iff (g := f.get) (k := "contract_address") (readHex251_iff · t.address)
  have h2 := req_iff' (g := f.get) (k := "transaction_hash") (readHex_iff · h)
  have h3 := req_iff' (g := f.get) (k := "max_fee") (readHex_iff · t.maxFee)
  have h4 := req_iff' (g := f.get) (k := "version") (readHex_iff · v)
  have h5 := req_iff' (g := f.get) (k := "signature") (decs_iff · t.signature)
  have h6 := req_iff' (g := f.get) (k := "nonce") (readHex_iff · t.nonce)
  have h7 := req_iff' (g := f.get) (k := "contract_address_salt") (readHex_iff · t.salt)
  have h8 := req_iff' (g := f.get) (k := "constructor_calldata") (decs_iff · t.calldata)
  have h9 := req_iff (g := f.get) (k := "class_hash") (readHex251_iff · t.classHash)
  unfold readDeployAccount01
  simp only [Option.bind_eq_bind]
  constructor
  · intro e
    simp only [Option.bind_eq_some_iff, known_iff] at e
    obtain ⟨g, ⟨hk, rfl⟩, a, ha, x, hx, m, hm, y, hy, s, hs, n, hn, z, hz, d, hd, c, hc, e⟩ := e
    cases e
    exact ⟨hk, ⟨(h1.1 ha).1, h2.1 hx, h3.1 hm, h4.1 hy, h5.1 hs, h6.1 hn, h7.1 hz, h8.1 hd, (h9.1 hc).1⟩, (h1.1 ha).2, (h9.1 hc).2⟩
  · rintro ⟨hk, ⟨a, x, m, y, s, n, z, d, c⟩, p, q⟩
    rw [(known_iff _ _ _).2 ⟨hk, rfl⟩]
    simp only [Option.bind_some]
    rw [h1.2 ⟨a, p⟩, h2.2 x, h3.2 m, h4.2 y, h5.2 s, h6.2 n, h7.2 z, h8.2 d, h9.2 ⟨c, q⟩]
    rfl

theorem readDeployAccount01_kind (f : Fields) (x : GwTx) (e : readDeployAccount01 f = some x) : ∃ h t v, x = .deployAccount01 h t v := by
  unfold readDeployAccount01 at e
  simp only [Option.bind_eq_bind, Option.bind_eq_some_iff] at e
  obtain ⟨_, _, _, _, _, _, _, _, _, _, _, _, _, _, _, _, _, _, _, _, e⟩ := e
  cases e
  exact ⟨_, _, _, rfl⟩

theorem readDeployAccount3_iff (f : Fields) (h : F) (t : DeployAccountV3) (v : F) : readDeployAccount3 f = some (.deployAccount3 h t v) ↔
    (∀ k ∈ f.keys, k ∈ deployAccount3Names) ∧
    (Has f.get "nonce" (hx t.nonce) ∧ HasV3 f.get t.v3 ∧ Has f.get "sender_address" (hx t.address) ∧ Has f.get "signature" (dcs t.signature) ∧
      Has f.get "transaction_hash" (hx h) ∧ Has f.get "version" (hx v) ∧ Has f.get "contract_address_salt" (hx t.salt) ∧
      Has f.get "constructor_calldata" (dcs t.calldata) ∧ Has f.get "class_hash" (hx t.classHash)) ∧
      Short t.address ∧ Short t.classHash ∧ V3Fits t.v3 := by
  have h1 := req_iff (g := f.get) (k := "sender_address") (readHex251_iff · t.address)
  have h2 := req_iff' (g := f.get) (k := "transaction_hash") (readHex_iff · h)
  have h3 := readV3_iff f.get t.v3
  have h4 := req_iff' (g := f.get) (k := "version") (readHex_iff · v)
  have h5 := req_iff' (g := f.get) (k := "signature") (decs_iff · t.signature)
  have h6 := req_iff' (g := f.get) (k := "nonce") (readHex_iff · t.nonce)
  have h7 := req_iff' (g := f.get) (k := "contract_address_salt") (readHex_iff · t.salt)
  have h8 := req_iff' (g := f.get) (k := "constructor_calldata") (decs_iff · t.calldata)
  have h9 := req_iff (g := f.get) (k := "class_hash") (readHex251_iff · t.classHash)
  unfold readDeployAccount3
  simp only [Option.bind_eq_bind]
  constructor
  · intro e
    simp only [Option.bind_eq_some_iff, known_iff] at e
    obtain ⟨g, ⟨hk, rfl⟩, n, hn, m, hm, a, ha, s, hs, x, hx, y, hy, z, hz, d, hd, c, hc, e⟩ := e
    cases e
    exact ⟨hk, ⟨h6.1 hn, (h3.1 hm).1, (h1.1 ha).1, h5.1 hs, h2.1 hx, h4.1 hy, h7.1 hz, h8.1 hd, (h9.1 hc).1⟩, (h1.1 ha).2, (h9.1 hc).2, (h3.1 hm).2⟩
  · rintro ⟨hk, ⟨n, m, a, s, x, y, z, d, c⟩, p, q, r⟩
    rw [(known_iff _ _ _).2 ⟨hk, rfl⟩]
    simp only [Option.bind_some]
    rw [h6.2 n, h3.2 ⟨m, r⟩, h1.2 ⟨a, p⟩, h5.2 s, h2.2 x, h4.2 y, h7.2 z, h8.2 d, h9.2 ⟨c, q⟩]
    rfl

theorem readDeployAccount3_kind (f : Fields) (x : GwTx) (e : readDeployAccount3 f = some x) : ∃ h t v, x = .deployAccount3 h t v := by
  unfold readDeployAccount3 at e
  simp only [Option.bind_eq_bind, Option.bind_eq_some_iff] at e
  obtain ⟨_, _, _, _, _, _, _, _, _, _, _, _, _, _, _, _, _, _, _, _, e⟩ := e
  cases e
  exact ⟨_, _, _, rfl⟩

/-- One of the two names is there, and says this. -/
def HasSender (g : String → Option J) (w : J) : Prop :=
  (Has g "sender_address" w ∧ g "contract_address" = none) ∨ (Has g "contract_address" w ∧ g "sender_address" = none)

theorem either_iff (g : String → Option J) (x : F) : (either g).bind readHex251 = some x ↔ HasSender g (hx x) ∧ Short x := by
  unfold either HasSender Has
  cases hs : g "sender_address" <;> cases hc : g "contract_address" <;> simp [readHex251_iff]

theorem readInvoke0_iff (f : Fields) (h : F) (t : GwInvoke0) : readInvoke0 f = some (.invoke0 h t) ↔ (∀ k ∈ f.keys, k ∈ invoke0Names) ∧
    (Has f.get "calldata" (dcs t.calldata) ∧ HasSender f.get (hx t.sender) ∧ Has f.get "entry_point_selector" (hx t.selector) ∧
      Has f.get "max_fee" (hx t.maxFee) ∧ Has f.get "signature" (dcs t.signature) ∧ Has f.get "transaction_hash" (hx h)) ∧ Short t.sender := by
  have h1 := req_iff' (g := f.get) (k := "calldata") (decs_iff · t.calldata)
  have h2 := either_iff f.get t.sender
  have h3 := req_iff' (g := f.get) (k := "entry_point_selector") (readHex_iff · t.selector)
  have h4 := req_iff' (g := f.get) (k := "max_fee") (readHex_iff · t.maxFee)
  have h5 := req_iff' (g := f.get) (k := "signature") (decs_iff · t.signature)
  have h6 := req_iff' (g := f.get) (k := "transaction_hash") (readHex_iff · h)
  unfold readInvoke0
  simp only [Option.bind_eq_bind]
  constructor
  · intro e
    rw [Option.bind_eq_some_iff] at e
    obtain ⟨g, hg, e⟩ := e
    obtain ⟨hk, rfl⟩ := (known_iff _ _ _).1 hg
    rw [Option.bind_eq_some_iff] at e
    obtain ⟨d, hd, e⟩ := e
    rw [Option.bind_eq_some_iff] at e
    obtain ⟨a, ha, e⟩ := e
    simp only [Option.bind_eq_some_iff] at e
    obtain ⟨x, hx, m, hm, s, hs, y, hy, e⟩ := e
    cases e
    exact ⟨hk, ⟨h1.1 hd, (h2.1 ha).1, h3.1 hx, h4.1 hm, h5.1 hs, h6.1 hy⟩, (h2.1 ha).2⟩
  · rintro ⟨hk, ⟨d, a, x, m, s, y⟩, p⟩
    rw [(known_iff _ _ _).2 ⟨hk, rfl⟩]
    simp only [Option.bind_some]
    rw [h1.2 d, h2.2 ⟨a, p⟩, h3.2 x, h4.2 m, h5.2 s, h6.2 y]
    rfl

theorem readInvoke0_kind (f : Fields) (x : GwTx) (e : readInvoke0 f = some x) : ∃ h t, x = .invoke0 h t := by
  unfold readInvoke0 at e
  simp only [Option.bind_eq_bind] at e
  rw [Option.bind_eq_some_iff] at e
  obtain ⟨_, _, e⟩ := e
  rw [Option.bind_eq_some_iff] at e
  obtain ⟨_, _, e⟩ := e
  rw [Option.bind_eq_some_iff] at e
  obtain ⟨_, _, e⟩ := e
  simp only [Option.bind_eq_some_iff] at e
  obtain ⟨_, _, _, _, _, _, _, _, e⟩ := e
  cases e
  exact ⟨_, _, rfl⟩

theorem readInvoke1_iff (f : Fields) (h : F) (t : InvokeV1) : readInvoke1 f = some (.invoke1 h t) ↔ (∀ k ∈ f.keys, k ∈ invoke1Names) ∧
    (Has f.get "calldata" (dcs t.calldata) ∧ Has f.get "sender_address" (hx t.sender) ∧ Has f.get "max_fee" (hx t.maxFee) ∧
      Has f.get "signature" (dcs t.signature) ∧ Has f.get "nonce" (hx t.nonce) ∧ Has f.get "transaction_hash" (hx h)) ∧ Short t.sender := by
  have h1 := req_iff' (g := f.get) (k := "calldata") (decs_iff · t.calldata)
  have h2 := req_iff (g := f.get) (k := "sender_address") (readHex251_iff · t.sender)
  have h3 := req_iff' (g := f.get) (k := "nonce") (readHex_iff · t.nonce)
  have h4 := req_iff' (g := f.get) (k := "max_fee") (readHex_iff · t.maxFee)
  have h5 := req_iff' (g := f.get) (k := "signature") (decs_iff · t.signature)
  have h6 := req_iff' (g := f.get) (k := "transaction_hash") (readHex_iff · h)
  unfold readInvoke1
  simp only [Option.bind_eq_bind]
  constructor
  · intro e
    simp only [Option.bind_eq_some_iff, known_iff] at e
    obtain ⟨g, ⟨hk, rfl⟩, d, hd, a, ha, m, hm, s, hs, n, hn, y, hy, e⟩ := e
    cases e
    exact ⟨hk, ⟨h1.1 hd, (h2.1 ha).1, h4.1 hm, h5.1 hs, h3.1 hn, h6.1 hy⟩, (h2.1 ha).2⟩
  · rintro ⟨hk, ⟨d, a, m, s, n, y⟩, p⟩
    rw [(known_iff _ _ _).2 ⟨hk, rfl⟩]
    simp only [Option.bind_some]
    rw [h1.2 d, h2.2 ⟨a, p⟩, h4.2 m, h5.2 s, h3.2 n, h6.2 y]
    rfl

theorem readInvoke1_kind (f : Fields) (x : GwTx) (e : readInvoke1 f = some x) : ∃ h t, x = .invoke1 h t := by
  unfold readInvoke1 at e
  simp only [Option.bind_eq_bind, Option.bind_eq_some_iff] at e
  obtain ⟨_, _, _, _, _, _, _, _, _, _, _, _, _, _, e⟩ := e
  cases e
  exact ⟨_, _, rfl⟩

theorem readInvoke3_iff (f : Fields) (h : F) (t : InvokeV3) : readInvoke3 f = some (.invoke3 h t) ↔ (∀ k ∈ f.keys, k ∈ invoke3Names) ∧
    (Has f.get "nonce" (hx t.nonce) ∧ HasV3 f.get t.v3 ∧ Has f.get "sender_address" (hx t.sender) ∧ Has f.get "signature" (dcs t.signature) ∧
      Has f.get "transaction_hash" (hx h) ∧ Has f.get "calldata" (dcs t.calldata) ∧ Has f.get "account_deployment_data" (hxs t.accountDeployment) ∧
      (Has f.get "proof_facts" (hxs t.proofFacts) ∨ (f.get "proof_facts" = none ∧ t.proofFacts = []))) ∧ Short t.sender ∧ V3Fits t.v3 := by
  have h1 := req_iff' (g := f.get) (k := "calldata") (decs_iff · t.calldata)
  have h2 := req_iff (g := f.get) (k := "sender_address") (readHex251_iff · t.sender)
  have h3 := req_iff' (g := f.get) (k := "nonce") (readHex_iff · t.nonce)
  have h4 := readV3_iff f.get t.v3
  have h5 := req_iff' (g := f.get) (k := "signature") (decs_iff · t.signature)
  have h6 := req_iff' (g := f.get) (k := "transaction_hash") (readHex_iff · h)
  have h7 := req_iff' (g := f.get) (k := "account_deployment_data") (hexes_iff · t.accountDeployment)
  have h8 := dflt_iff (g := f.get) (k := "proof_facts") (d := []) (hexes_iff · t.proofFacts)
  unfold readInvoke3
  simp only [Option.bind_eq_bind]
  constructor
  · intro e
    simp only [Option.bind_eq_some_iff, known_iff] at e
    obtain ⟨g, ⟨hk, rfl⟩, n, hn, v, hv, a, ha, s, hs, y, hy, d, hd, z, hz, p, hp, e⟩ := e
    cases e
    exact ⟨hk, ⟨h3.1 hn, (h4.1 hv).1, (h2.1 ha).1, h5.1 hs, h6.1 hy, h1.1 hd, h7.1 hz, h8.1 hp⟩, (h2.1 ha).2, (h4.1 hv).2⟩
  · rintro ⟨hk, ⟨n, v, a, s, y, d, z, u⟩, p, q⟩
    rw [(known_iff _ _ _).2 ⟨hk, rfl⟩]
    simp only [Option.bind_some]
    rw [h3.2 n, h4.2 ⟨v, q⟩, h2.2 ⟨a, p⟩, h5.2 s, h6.2 y, h1.2 d, h7.2 z, h8.2 u]
    rfl

theorem readInvoke3_kind (f : Fields) (x : GwTx) (e : readInvoke3 f = some x) : ∃ h t, x = .invoke3 h t := by
  unfold readInvoke3 at e
  simp only [Option.bind_eq_bind, Option.bind_eq_some_iff] at e
  obtain ⟨_, _, _, _, _, _, _, _, _, _, _, _, _, _, _, _, _, _, e⟩ := e
  cases e
  exact ⟨_, _, rfl⟩

theorem readL1Handler_iff (f : Fields) (h : F) (t : L1Handler) (v : F) : readL1Handler f = some (.l1Handler h t v) ↔ (∀ k ∈ f.keys, k ∈ l1HandlerNames) ∧
    (Has f.get "contract_address" (hx t.address) ∧ Has f.get "entry_point_selector" (hx t.selector) ∧
      (Has f.get "nonce" (hx t.nonce) ∨ (f.get "nonce" = none ∧ t.nonce = 0)) ∧ Has f.get "calldata" (hxs t.calldata) ∧
      Has f.get "transaction_hash" (hx h) ∧ Has f.get "version" (hx v)) ∧ Short t.address := by
  have h1 := req_iff (g := f.get) (k := "contract_address") (readHex251_iff · t.address)
  have h2 := req_iff' (g := f.get) (k := "entry_point_selector") (readHex_iff · t.selector)
  have h3 := dflt_iff (g := f.get) (k := "nonce") (d := 0) (readHex_iff · t.nonce)
  have h4 := req_iff' (g := f.get) (k := "calldata") (hexes_iff · t.calldata)
  have h5 := req_iff' (g := f.get) (k := "transaction_hash") (readHex_iff · h)
  have h6 := req_iff' (g := f.get) (k := "version") (readHex_iff · v)
  unfold readL1Handler
  simp only [Option.bind_eq_bind]
  constructor
  · intro e
    simp only [Option.bind_eq_some_iff, known_iff] at e
    obtain ⟨g, ⟨hk, rfl⟩, a, ha, s, hs, c, hc, d, hd, x, hx, y, hy, e⟩ := e
    cases e
    exact ⟨hk, ⟨(h1.1 ha).1, h2.1 hs, h3.1 hc, h4.1 hd, h5.1 hx, h6.1 hy⟩, (h1.1 ha).2⟩
  · rintro ⟨hk, ⟨a, s, c, d, x, y⟩, p⟩
    rw [(known_iff _ _ _).2 ⟨hk, rfl⟩]
    simp only [Option.bind_some]
    rw [h1.2 ⟨a, p⟩, h2.2 s, h3.2 c, h4.2 d, h5.2 x, h6.2 y]
    rfl

theorem readL1Handler_kind (f : Fields) (x : GwTx) (e : readL1Handler f = some x) : ∃ h t v, x = .l1Handler h t v := by
  unfold readL1Handler at e
  simp only [Option.bind_eq_bind, Option.bind_eq_some_iff] at e
  obtain ⟨_, _, _, _, _, _, _, _, _, _, _, _, _, _, e⟩ := e
  cases e
  exact ⟨_, _, _, rfl⟩

end Verif.Feed
