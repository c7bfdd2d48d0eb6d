import Verif.Block.TxLemmas
import Verif.Block.HeaderProps
/-!
# A transaction hash stands for one transaction (C68)
-/
namespace Verif.Block

/-- C68: transactions of any kinds with the same hash are the same in what the hash covers, are of the same chain and both or neither are queries (the hash
of an L1 handler does not know queries), unless the hash functions collide on the values hashed for the two. -/
theorem C68_hash (h : Hashes) {id id' : F} {q q' : Bool} {t t' : Txn} (ht : t.Ok) (ht' : t'.Ok) (e : t.hash h id q = t'.hash h id' q') :
    (t.bound = t'.bound ∧ id = id' ∧ (q = q' ∨ ∃ l, t = .l1Handler l)) ∨ Collide h (t.queries h id q) (t'.queries h id' q') := by
  rw [← top_eval, ← top_eval] at e
  rcases pre_inj h (short_top h) (short_top h) e with g | g
  · rcases top_inj h ht ht' g with k | k
    · left
      refine ⟨k.1, k.2, ?_⟩
      obtain ⟨k1, k2⟩ := top_kind g
      rw [← k1] at k2
      by_cases hk : t.kind = 11
      · right
        cases t <;> simp [Txn.kind] at hk
        exact ⟨_, rfl⟩
      · left
        simpa [kindQuery, hk] using k2
    · exact .inr k
  · exact .inr (g.mono (top_queries h) (top_queries h))

/-- The hash covers nothing else. -/
theorem C68_only (h : Hashes) (id : F) (q : Bool) {t t' : Txn} (e : t.bound = t'.bound) : t.hash h id q = t'.hash h id q := by
  have key : ∀ t : Txn, t.hash h id q = t.bound.hash h id q := by intro t; cases t <;> rfl
  rw [key t, key t', e]

/-- C68, checking: transactions that pass the check for the same hash are the same in what the hash covers and of the same chain; or both pass it with the
hash of the first blocks, which covers whether a contract is deployed or called, the contract, the selector and the arguments. -/
theorem C68_verify_partial (h : Hashes) {id id' x : F} {t t' : Txn} (ht : t.Ok) (ht' : t'.Ok) (e : t.verify h id x = true) (e' : t'.verify h id' x = true) :
    (id = id' ∧ (t.bound = t'.bound ∨
      (t.legacy h id = some x ∧ t'.legacy h id' = some x ∧ t.legacyBound.isSome ∧ t.legacyBound = t'.legacyBound))) ∨
    Collide h (t.queries h id false) (t'.queries h id' false) := by
  rcases (verify_iff_tx h id x t).1 e with e | e | e <;> rcases (verify_iff_tx h id' x t').1 e' with e' | e' | e'
  · rcases C68_hash h ht ht' (e.trans e'.symm) with g | g
    · exact .inl ⟨g.2.1, .inl g.1⟩
    · exact .inr g
  · exact .inr (top_old h e (.inl e'))
  · exact .inr (top_old h e (.inr e'))
  · exact .inr (top_old h e' (.inl e)).symm'
  · rcases legacy_inj h (q := false) (q' := false) ht ht' e e' with g | g
    · left
      obtain ⟨k, a, s, l, hb, -⟩ := (legacy_iff h id x t).1 e
      exact ⟨g.1, .inr ⟨e, e', by rw [hb]; rfl, g.2⟩⟩
    · exact .inr g
  · exact .inr (old_old h e e')
  · exact .inr (top_old h e' (.inr e)).symm'
  · exact .inr (old_old h e' e).symm'
  · rcases v07_inj h (q := false) (q' := false) ht ht' e e' with g | g
    · exact .inl ⟨g.2, .inl g.1⟩
    · exact .inr g

/-- The check is the same in full for all transactions but those of the first blocks. -/
theorem C68_verify (h : Hashes) {id id' x : F} {t t' : Txn} (ht : t.Ok) (ht' : t'.Ok) (hn : t.legacyBound = none) (e : t.verify h id x = true)
    (e' : t'.verify h id' x = true) : (id = id' ∧ t.bound = t'.bound) ∨ Collide h (t.queries h id false) (t'.queries h id' false) := by
  rcases C68_verify_partial h ht ht' e e' with ⟨g, g' | g'⟩ | g
  · exact .inl ⟨g, g'⟩
  · rw [hn] at g'
    cases g'.2.2.1
  · exact .inr g

/-- The hash of the first blocks does not tell a call of an account from a message from L1, nor one fee or nonce from another: for every hash function,
chain and call, all of these pass the check for one hash. Nor does it tell the versions of deploy transactions. -/
theorem C68_legacy_violated (h : Hashes) (id a s : F) (l : List F) :
    ∃ x, (∀ sig ty fee, (Txn.invokeV0 ⟨l, a, s, ty, fee, sig⟩).verify h id x = true) ∧ ∀ nonce, (Txn.l1Handler ⟨a, s, nonce, l⟩).verify h id x = true :=
  ⟨legacyHash h "invoke" a s (chain h l) id none, fun _ _ _ => (verify_iff_tx _ _ _ _).2 (.inr (.inl rfl)), fun _ => (verify_iff_tx _ _ _ _).2 (.inr (.inl rfl))⟩

/-- The class and the salt of a deploy transaction of the gateway are not checked at all. -/
theorem C68_deploy_violated (h : Hashes) (id a : F) (l : List F) :
    ∃ x, ∀ c s, (Txn.deployV0 ⟨c, a, s, l⟩).verify h id x = true :=
  ⟨_, fun c s => (verify_iff_tx _ _ _ _).2 (.inl (rfl : _ = preV3Hash h "deploy" (txVersion 0 false) a constructorSelector (chain h l) 0 id none none))⟩

/-- The address of a deployed contract: the hash of prefix, deployer zero, salt, class and arguments, modulo `2^251 - 256`. -/
theorem C68_address (h : Hashes) (calldata : List F) (salt classHash : F) :
    (deployedAddress h calldata salt classHash).val =
      (chain h [feltText "STARKNET_CONTRACT_ADDRESS".toList, 0, salt, classHash, chain h calldata]).val % (2 ^ 251 - 256) := by
  unfold deployedAddress
  simp only
  generalize chain h [feltText "STARKNET_CONTRACT_ADDRESS".toList, 0, salt, classHash, chain h calldata] = a
  have ha := a.isLt
  unfold P at ha
  split
  · unfold felt
    rw [Fin.val_ofNat]
    unfold P
    omega
  · omega

/-- The data availability modes of a transaction are one bit each, the nonce's above the fee's. -/
theorem C68_modes (v : V3) : (packModes v).val = v.nonceL2.toNat * 2 ^ 32 + v.feeL2.toNat := by
  unfold packModes
  cases v.nonceL2 <;> cases v.feeL2 <;> decide +kernel

/-! ## From peers -/

theorem peer_eq {h : Hashes} {id x : F} {t u : Txn} (e : fromPeer h id x t = some u) : u = t.withAddress h ∧ u.hash h id false = x := by
  unfold fromPeer at e
  split at e
  · next g =>
    cases e
    exact ⟨rfl, g.symm⟩
  · cases e

def Txn.deployed : Txn → Option F
  | .deployV0 t | .deployV1 t => some t.address
  | _ => none

theorem deployed_address {h : Hashes} {t u : Txn} (hu : u = t.withAddress h) {s c : F} {l : List F} (e : u.deployment = some (s, c, l)) :
    u.deployed = some (deployedAddress h l s c) := by
  subst hu
  cases t <;> simp [Txn.withAddress, Txn.deployment, Txn.deployed] at e ⊢ <;> rw [e.1, e.2.1, e.2.2]

theorem bound_deployed {u u' : Txn} (g : u.bound = u'.bound) : u.deployed = u'.deployed ∧ u.deployment.isSome = u'.deployment.isSome := by
  have k1 : ∀ u : Txn, u.deployed = u.bound.deployed := by intro u; cases u <;> rfl
  have k2 : ∀ u : Txn, u.deployment.isSome = u.bound.deployment.isSome := by intro u; cases u <;> rfl
  rw [k1 u, k1 u', k2 u, k2 u', g]
  exact ⟨rfl, rfl⟩

theorem unsigned_eq {u u' : Txn} (g : u.bound = u'.bound) (hd : u.deployment = u'.deployment) : u.unsigned = u'.unsigned := by
  have key : ∀ u : Txn, u.unsigned = u.bound ∨ ∃ s c l, u.deployment = some (s, c, l) := by
    intro u
    cases u <;> first | exact .inl rfl | exact .inr ⟨_, _, _, rfl⟩
  cases u with
  | deployV0 a =>
    cases u' <;> simp [Txn.bound] at g
    rename_i b
    obtain ⟨a1, a2, a3, a4⟩ := a
    obtain ⟨b1, b2, b3, b4⟩ := b
    simp_all [Txn.deployment, Txn.unsigned]
  | deployV1 a =>
    cases u' <;> simp [Txn.bound] at g
    rename_i b
    obtain ⟨a1, a2, a3, a4⟩ := a
    obtain ⟨b1, b2, b3, b4⟩ := b
    simp_all [Txn.deployment, Txn.unsigned]
  | _ =>
    rcases key u' with k | ⟨s, c, l, k⟩
    · exact g.trans k.symm
    · rw [k] at hd
      cases hd

/-- C68, peers: two transactions taken from peers for one hash are the same but for the signature (and the fee and nonce of the first declare transactions
and the entry point type of the first calls), unless the hash functions collide or two deployments have the same address. -/
theorem C68_peer (h : Hashes) {id x : F} {t t' u u' : Txn} (e : fromPeer h id x t = some u) (e' : fromPeer h id x t' = some u') (ht : u.Ok) (ht' : u'.Ok) :
    u.unsigned = u'.unsigned ∨ Collide h (u.queries h id false) (u'.queries h id false) ∨
    ∃ s c l s' c' l', u.deployment = some (s, c, l) ∧ u'.deployment = some (s', c', l') ∧ (s, c, l) ≠ (s', c', l') ∧
      deployedAddress h l s c = deployedAddress h l' s' c' := by
  obtain ⟨hu, e1⟩ := peer_eq e
  obtain ⟨hu', e1'⟩ := peer_eq e'
  rcases C68_hash h ht ht' (e1.trans e1'.symm) with ⟨g, -⟩ | g
  · by_cases hd : u.deployment = u'.deployment
    · exact .inl (unsigned_eq g hd)
    · right
      right
      have hi := bound_deployed g
      rcases h1 : u.deployment with _ | ⟨s, c, l⟩ <;> rcases h2 : u'.deployment with _ | ⟨s', c', l'⟩
      · exact absurd (h1.trans h2.symm) hd
      · rw [h1, h2] at hi
        cases hi.2
      · rw [h1, h2] at hi
        cases hi.2
      · refine ⟨s, c, l, s', c', l', rfl, rfl, fun k => hd (by rw [h1, h2, k]), ?_⟩
        have k := deployed_address hu h1
        have k' := deployed_address hu' h2
        rw [hi.1, k'] at k
        exact (Option.some.inj k).symm
  · exact .inr (.inl g)

/-- A genuine transaction of the first blocks is not taken from peers: its hash passes the check, but every peer that sends it is refused (unless the hash
functions collide on it). -/
theorem C68_old_violated (h : Hashes) (id x : F) (t : Txn) (ha : t.withAddress h = t) (hx : t.legacy h id = some x ∨ t.v07 h id = some x) :
    t.verify h id x = true ∧ (fromPeer h id x t = none ∨ Collide h (t.queries h id false) (t.queries h id false)) := by
  refine ⟨(verify_iff_tx h id x t).2 (.inr hx), ?_⟩
  unfold fromPeer
  rw [ha]
  split
  · next g => exact .inr (top_old h g.symm hx)
  · exact .inl rfl

/-! ## The hypotheses are met -/

def toyInvoke : Txn := .invokeV3 ⟨[1, 2], 12, ⟨true, false, ⟨5, 7⟩, ⟨8, 2 ^ 127⟩, some ⟨1, 2⟩, 9, [4]⟩, [3], [5, 6, 7], 11, [13]⟩
def toyCall : Txn := .invokeV0 ⟨[1, 2, 3], 4, 5, none, 6, [7]⟩
def toyDeploy : Txn := .deployV1 ⟨9, deployedAddress toyHashes [1, 2] 3 9, 3, [1, 2]⟩

example : toyInvoke.Ok := ⟨by simp [Bound.Ok], by simp [Bound.Ok], by simp [Bound.Ok], by decide⟩
example : toyCall.Ok := by simp [toyCall, Txn.Ok]
example : toyInvoke.verify toyHashes 77 (toyInvoke.hash toyHashes 77 false) = true := by decide +kernel
example : toyInvoke.verify toyHashes 77 (toyInvoke.hash toyHashes 77 true) = false := by decide +kernel
example : toyInvoke.verify toyHashes 77 (toyInvoke.hash toyHashes 78 false) = false := by decide +kernel
example : toyCall.verify toyHashes 77 (legacyHash toyHashes "invoke" 4 5 (chain toyHashes [1, 2, 3]) 77 none) = true := by decide +kernel
example : toyInvoke.legacyBound = none := rfl
example : (fromPeer toyHashes 77 (toyInvoke.hash toyHashes 77 false) toyInvoke).isSome = true := by decide +kernel
example : (fromPeer toyHashes 77 (toyDeploy.hash toyHashes 77 false) toyDeploy).isSome = true := by decide +kernel
example : fromPeer toyHashes 77 (legacyHash toyHashes "invoke" 4 5 (chain toyHashes [1, 2, 3]) 77 none) toyCall = none := by decide +kernel
example : toyDeploy.withAddress toyHashes = toyDeploy := by decide +kernel
example : toyCall.withAddress toyHashes = toyCall ∧ (toyCall.legacy toyHashes 77).isSome := by decide +kernel

end Verif.Block
