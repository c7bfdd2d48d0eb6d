import Verif.Commit.ProofLemmas
import Verif.Commit.Props
/-!
# C87: storage proofs

For every history and every stored block, the answer of `starknet_getStorageProof` lets a client that knows the state commitment of the
block check the presence or absence, and the value, of every class, contract and storage key it asked for.
-/
namespace Verif.Commit
open Verif.Trie

variable {F : Type} [DecidableEq F] {o : Ops F} {H : Nat} {isSys : Key → Bool}

theorem rowHash_ok {f : FeltOps F} (hH2 : H < 256) {T : Table F} {i : Nat} {c : Content F} {L : List Nat}
    (h : Stored f T H (some i) c L) : rowHash T i = .ok (specRoot f H c) := by
  obtain ⟨t, hs, hw, hg⟩ := h
  have hh : (T.storage c).hash i = some (t.hash f) := by cases hs <;> assumption
  simp only [Table.storage, Option.map_eq_some_iff] at hh
  obtain ⟨x, hx, hx2⟩ := hh
  simp only [rowHash, hx]
  rw [hx2, ← hg, Tree.hash_eq_specRoot hw hH2]

theorem trieProofs_ok {f : FeltOps F} (hH2 : H < 256) {now v : DbTrie F} {c : Content F} (h : DbOk f H v c)
    (hT : ∀ i x, v.table.row i = some x → now.table.row i = some x) (pr : Bool) (hpr : pr = true → v.root ≠ none) (keys : Option (List FKey))
    (hk : ∀ k ∈ keys.getD [], k.length = H + 1) :
    ∃ ns, trieProofs f H pr now v keys = .ok (specRoot f H c, ns) ∧ ns.Nodup ∧ (∀ x ∈ ns, x.2 = x.1.hash f) ∧
      ∀ k ∈ keys.getD [], Proves f (specRoot f H c) (ns.map (·.1)) (viewBits k) (c (viewBits k)) := by
  obtain ⟨hl, L, hst, _⟩ := h
  have hst' := stored_grows hst hT
  unfold trieProofs
  cases hr : v.root with
  | none =>
    rw [hr] at hst'
    obtain ⟨_, rfl⟩ := hst'
    have : pr = false := by cases pr <;> simp_all
    subst this
    exact ⟨[], by simp [specRoot_empty], List.nodup_nil, by simp, fun k _ => .inl ⟨specRoot_empty H, rfl⟩⟩
  | some i =>
    rw [hr] at hst'
    have e1 := rowHash_ok hH2 hst'
    cases keys with
    | none => exact ⟨[], by simp [e1, Except.bind], List.nodup_nil, by simp, by simp⟩
    | some ks =>
      obtain ⟨ns, e2, hnd, hh, hp⟩ := proofNodes_ok hH2 hst' ks hk
      refine ⟨ns, ?_, hnd, hh, fun k hk' => .inr (hp k hk')⟩
      rw [hl]
      simp only [e1, e2, Except.bind, Except.map]

theorem storageProofs_ok (hH2 : H < 256) {now w : World F} {S : St F} (h : Holds o H isSys w S) (hg : Grows w now)
    (l : List (FKey × List FKey)) (hl : ∀ p ∈ l, ∀ k ∈ p.2, k.length = H + 1) :
    ∃ nss, storageProofs H now w l = .ok nss ∧ nss.length = l.length ∧ (∀ ns ∈ nss, ns.Nodup) ∧
      (∀ ns ∈ nss, ∀ x ∈ ns, x.2 = x.1.hash o.ped) ∧
      ∀ (i : Nat) a ks ns, l[i]? = some (false :: a, ks) → nss[i]? = some ns →
        ∀ k ∈ ks, Proves o.ped (specRoot o.ped H (S.storage a)) (ns.map (·.1)) (viewBits k) (S.storage a (viewBits k)) := by
  induction l with
  | nil => exact ⟨[], rfl, rfl, by simp, by simp, by simp⟩
  | cons p l ih =>
    obtain ⟨nss, e, hlen, hnd, hh, hp⟩ := ih fun q hq => hl q (List.mem_cons_of_mem _ hq)
    obtain ⟨a, ks⟩ := p
    have one : ∃ ns, storageProof H now w (a, ks) = .ok ns ∧ ns.Nodup ∧ (∀ x ∈ ns, x.2 = x.1.hash o.ped) ∧
        ∀ b, a = false :: b → ∀ k ∈ ks, Proves o.ped (specRoot o.ped H (S.storage b)) (ns.map (·.1)) (viewBits k) (S.storage b (viewBits k)) := by
      unfold storageProof
      cases ha : dbKey a with
      | none =>
        refine ⟨[], by simp, List.nodup_nil, by simp, ?_⟩
        rintro b rfl
        simp [dbKey] at ha
      | some b =>
        obtain ⟨L, hst, _⟩ := h.tries b
        have hst' := stored_grows hst hg.table
        have hb : a = false :: b := by
          unfold dbKey at ha
          split at ha
          · simp at ha; subst ha; rfl
          · cases ha
        cases hr : w.roots b with
        | none =>
          rw [hr] at hst'
          refine ⟨[], by simp [hr], List.nodup_nil, by simp, ?_⟩
          intro b' hb' k _
          rw [hb] at hb'
          cases hb'
          rw [hst'.2]
          exact .inl ⟨specRoot_empty _, rfl⟩
        | some i =>
          rw [hr] at hst'
          obtain ⟨ns, e2, hnd, hh, hp⟩ := proofNodes_ok hH2 hst' ks (hl (a, ks) List.mem_cons_self)
          refine ⟨ns, ?_, hnd, hh, ?_⟩
          · simp only [Option.bind_some, hr, h.leaf]
            exact e2
          · intro b' hb' k hk
            rw [hb] at hb'
            cases hb'
            exact .inr (hp k hk)
    obtain ⟨ns, e1, hnd1, hh1, hp1⟩ := one
    refine ⟨ns :: nss, by simp only [storageProofs, e1, e, Except.bind, Except.map], by simp [hlen], ?_, ?_, ?_⟩
    · intro x hx; rcases List.mem_cons.1 hx with rfl | hx
      · exact hnd1
      · exact hnd x hx
    · intro x hx; rcases List.mem_cons.1 hx with rfl | hx
      · exact hh1
      · exact hh x hx
    · intro i b ks' ns' h1 h2
      cases i with
      | zero =>
        simp only [List.getElem?_cons_zero, Option.some.injEq, Prod.mk.injEq] at h1 h2
        obtain ⟨rfl, rfl⟩ := h1
        subst h2
        exact hp1 b rfl
      | succ i => exact hp i b ks' ns' (by simpa using h1) (by simpa using h2)

theorem key_mem_classes {r : ProofReq} {k : FKey} (h : k ∈ r.classes.getD []) : k ∈ r.keys := by simp [ProofReq.keys, h]
theorem key_mem_contracts {r : ProofReq} {k : FKey} (h : k ∈ r.contracts.getD []) : k ∈ r.keys := by simp [ProofReq.keys, h]
theorem key_mem_storage {r : ProofReq} {k : FKey} {p : FKey × List FKey} (hp : p ∈ r.storage.getD []) (h : k ∈ p.2) : k ∈ r.keys := by
  simp only [ProofReq.keys, List.mem_append, List.mem_flatMap, List.mem_cons]
  exact .inr ⟨p, hp, .inr h⟩

theorem proofAt_ok (hH2 : H < 256) {now w : World F} {S : St F} (h : Holds o H isSys w S) (hg : Grows w now) (r : ProofReq)
    (hr : ∀ k ∈ r.keys, IsFelt H k) (pr : Bool) (hpr : pr = true → w.classTrie.root ≠ none ∧ w.storageTrie.root ≠ none) :
    ∃ out, proofAt o H pr now w r = .ok out ∧ RightProof o H isSys S r out ∧ out.leaves = leavesData o now w r.contracts ∧
      ∀ k ∈ r.contracts.getD [], Proves o.ped out.contractsRoot (out.contractNodes.map (·.1)) (viewBits k) (S.leaves o H isSys (viewBits k)) := by
  obtain ⟨cn, e1, n1, h1, p1⟩ := trieProofs_ok hH2 h.classTrie hg.classTrie pr (fun e => (hpr e).1) r.classes fun k hk => hr k (key_mem_classes hk)
  obtain ⟨sn, e2, n2, h2, p2⟩ := trieProofs_ok hH2 h.storageTrie hg.storageTrie pr (fun e => (hpr e).2) r.contracts fun k hk => hr k (key_mem_contracts hk)
  obtain ⟨nss, e3, hlen, n3, h3, p3⟩ := storageProofs_ok hH2 h hg (r.storage.getD []) fun p hp k hk => hr k (key_mem_storage hp hk)
  refine ⟨⟨cn, sn, leavesData o now w r.contracts, nss, specRoot o.ped H (S.leaves o H isSys), specRoot o.pos H (S.classLeaves o)⟩,
    by simp only [proofAt, e1, e2, e3, Except.bind, Except.map], ?_, rfl, p2⟩
  exact ⟨rfl, h1, h2, h3, ⟨n1, n2, n3⟩, fun b hb => p1 _ hb, fun a ha => p2 _ ha, hlen, fun i a ks ns g1 g2 k hk => p3 i a ks ns g1 g2 _ hk⟩

theorem trace_length (us : List (Update F)) (S : St F) : (S.trace o us).length = us.length := by
  induction us generalizing S with
  | nil => rfl
  | cons u us ih => simp [St.trace, ih]

theorem total_eq (r : ProofReq) : r.total = r.count := by
  obtain ⟨c, a, s⟩ := r
  cases c <;> cases a <;> cases s <;> simp [ProofReq.total, ProofReq.count, List.length_flatMap, Nat.add_assoc]

theorem getElem?_some_of_lt {α : Type} {l : List α} {b : Nat} (h : b < l.length) : ∃ x, l[b]? = some x :=
  ⟨l[b], List.getElem?_eq_getElem h⟩

/-- The query on a stored block is `proofAt`. -/
theorem getStorageProof_eq (hH : 0 < H) (hH2 : H < 256) {us : List (Update F)} (hp : Possible o H isSys St.empty us) {b : Nat} {S : St F}
    (hb : ((St.empty : St F).trace o us)[b]? = some S) :
    ∃ ws w now, chain o H isSys World.init us = .ok ws ∧ Holds o H isSys w S ∧ Grows w now ∧
      ∀ pr r, r.count ≤ 100 → getStorageProof o H pr ws (some b) r = proofAt o H pr now w r := by
  obtain ⟨ws, e, hl, _, hh⟩ := chain_holds hH hH2 us init_holds hp
  have hlt : b < ws.length := by
    have := (List.getElem?_eq_some_iff.1 hb).1
    rw [trace_length] at this
    omega
  obtain ⟨w, hw⟩ := getElem?_some_of_lt hlt
  have hne : ws ≠ [] := by intro h; rw [h] at hlt; simp at hlt
  have hn := List.getLast?_eq_some_getLast hne
  obtain ⟨h1, h2⟩ := hh b w S _ hw hb hn
  refine ⟨ws, w, _, e, h1, h2, ?_⟩
  intro pr r hr
  rw [← total_eq] at hr
  simp only [getStorageProof, hw, hn]
  rw [if_neg (by omega)]

/-- C87. For every history and every stored block, every request for at most 100 keys is answered, and the answer is right for the state
after that block, however many blocks were stored since. -/
theorem C87_proof_partial (hH : 0 < H) (hH2 : H < 256) (us : List (Update F)) (hp : Possible o H isSys St.empty us) (b : Nat) (S : St F)
    (hb : ((St.empty : St F).trace o us)[b]? = some S) (r : ProofReq) (hr : ∀ k ∈ r.keys, IsFelt H k) (ht : r.count ≤ 100) :
    ∃ ws out, chain o H isSys World.init us = .ok ws ∧ getStorageProof o H false ws (some b) r = .ok out ∧ RightProof o H isSys S r out := by
  obtain ⟨ws, w, now, e, h, hg, heq⟩ := getStorageProof_eq hH hH2 hp hb
  obtain ⟨out, e2, hR, _⟩ := proofAt_ok hH2 h hg r hr false (by simp)
  exact ⟨ws, out, e, by rw [heq false r ht, e2], hR⟩

/-- The root index is there if the trie has a leaf. -/
theorem root_some {f : FeltOps F} {v : DbTrie F} {c : Content F} (h : DbOk f H v c) {k : Key} (hk : c k ≠ none) : v.root ≠ none := by
  obtain ⟨_, L, hst, _⟩ := h
  intro hr
  rw [hr] at hst
  exact hk (by rw [hst.2]; rfl)

theorem leafData_ok (hH2 : H < 256) {now w : World F} {S : St F} (h : Holds o H isSys w S) (hg : Grows w now) (a : Key) :
    IsLeafData o H S a (leafData o now w (false :: a)) := by
  refine ⟨?_, ?_, ?_⟩
  · simp [leafData, dbKey, h.cls]
  · simp [leafData, dbKey, h.nonce]
  · simp only [leafData, dbKey, Option.elim_some]
    refine contractRoot_eq hH2 (w := { w with table := now.table }) (storage := S.storage) ?_ a
    intro a
    obtain ⟨L, hst, hnd⟩ := h.tries a
    exact ⟨L, stored_grows hst hg.table, hnd⟩

/-- C87. If a contract exists at the block, the answer has the class hash, nonce and storage root of every address below 2^251 that was
asked for, in order, and together they hash to the leaf that is proved for the address. -/
theorem C87_leaves_partial (hH : 0 < H) (hH2 : H < 256) (us : List (Update F)) (hp : Possible o H isSys St.empty us) (b : Nat) (S : St F)
    (hb : ((St.empty : St F).trace o us)[b]? = some S) (hS : ∃ a, S.leaves o H isSys a ≠ none) (r : ProofReq)
    (hr : ∀ k ∈ r.keys, IsFelt H k) (ht : r.count ≤ 100) :
    ∃ ws out, chain o H isSys World.init us = .ok ws ∧ getStorageProof o H false ws (some b) r = .ok out ∧ RightLeaves o H isSys S r out := by
  obtain ⟨ws, w, now, e, h, hg, heq⟩ := getStorageProof_eq hH hH2 hp hb
  obtain ⟨out, e2, _, hl, _⟩ := proofAt_ok hH2 h hg r hr false (by simp)
  refine ⟨ws, out, e, by rw [heq false r ht, e2], ?_⟩
  obtain ⟨a0, ha0⟩ := hS
  have hroot := root_some h.storageTrie ha0
  have hl' : out.leaves = (r.contracts.getD []).map (leafData o now w) := by
    rw [hl]
    unfold leavesData
    cases hr : w.storageTrie.root with
    | none => exact absurd hr hroot
    | some i => cases r.contracts <;> rfl
  have hsys := sys_cls us hp (S := St.empty) (fun _ _ => rfl) b S hb
  refine ⟨by rw [hl', List.length_map], ?_⟩
  intro i a d hi hd
  rw [hl', List.getElem?_map, hi, Option.map_some, Option.some.injEq] at hd
  subst hd
  have hd := leafData_ok hH2 h hg a
  refine ⟨hd, ?_, ?_⟩
  · intro hpres
    obtain ⟨d1, d2, d3⟩ := hd
    simp only [St.leaves, hpres, if_true, St.hash, contractStateHash, d1, d2, d3]
    by_cases hs : isSys a = true
    · simp [hs, hsys a hs]
    · simp [hs]
  · intro hpres
    simp [St.leaves, hpres]

/-- C87. No other set of nodes, whoever made it, proves something else against the same root, unless two nodes have the same hash or a node
has hash zero. -/
theorem C87_sound {f : FeltOps F} (root : F) (ns ms : List (PNode F)) (k : Key) (x y : Option F) (hx : Proves f root ns k x)
    (hy : Proves f root ms k y) (hk : k ≠ []) :
    x = y ∨ Collision f ns ms ∨ ∃ n ∈ ns ++ ms, n.hash f = f.zero := by
  have hz : ∀ {ns k x}, Leads f ns f.zero k x → k ≠ [] → ∃ n ∈ ns, n.hash f = f.zero := by
    intro ns k x h hk
    generalize hh : f.zero = h0 at h
    cases h with
    | leaf => exact absurd rfl hk
    | binary hm h1 _ => exact ⟨_, hm, h1⟩
    | edge hm h1 _ _ => exact ⟨_, hm, h1⟩
    | away hm h1 _ _ _ => exact ⟨_, hm, h1⟩
  rcases hx with ⟨rfl, rfl⟩ | hx
  · rcases hy with ⟨_, rfl⟩ | hy
    · exact .inl rfl
    · obtain ⟨n, hn, h⟩ := hz hy hk
      exact .inr (.inr ⟨n, List.mem_append_right _ hn, h⟩)
  · rcases hy with ⟨rfl, rfl⟩ | hy
    · obtain ⟨n, hn, h⟩ := hz hx hk
      exact .inr (.inr ⟨n, List.mem_append_left _ hn, h⟩)
    · rcases leads_unique hx hy with h | h
      · exact .inl h
      · exact .inr (.inl h)

/-- C87. More than 100 keys, the pre-confirmed block and a block that is not stored are refused; nothing else is. -/
theorem C87_refused (worlds : List (World F)) (pr : Bool) (r : ProofReq) :
    (r.count > 100 → ∀ b, getStorageProof o H pr worlds b r = .error (.limit r.count)) ∧
    (r.count ≤ 100 → getStorageProof o H pr worlds none r = .error .proofMissing) ∧
    (r.count ≤ 100 → ∀ b, worlds.length ≤ b → getStorageProof o H pr worlds (some b) r = .error .blockNotFound) := by
  rw [← total_eq]
  refine ⟨?_, ?_, ?_⟩
  · intro h b; simp [getStorageProof, h]
  · intro h; simp [getStorageProof, Nat.not_lt.2 h]
  · intro h b hb
    simp [getStorageProof, Nat.not_lt.2 h, List.getElem?_eq_none hb]

/-- C87 fails for addresses that are too large: for every contract `a` of every history, the request for the felt with the same low bits
and the top bit set is not refused. The nodes prove that `a` has its state hash, and beside them stand zeros. -/
theorem C87_large_violated (hH : 0 < H) (hH2 : H < 256) (us : List (Update F)) (hp : Possible o H isSys St.empty us) (b : Nat) (S : St F)
    (hb : ((St.empty : St F).trace o us)[b]? = some S) (a : Key) (ha : a.length = H) (x : F) (hx : S.leaves o H isSys a = some x) :
    ∃ ws out, chain o H isSys World.init us = .ok ws ∧ getStorageProof o H false ws (some b) { contracts := some [true :: a] } = .ok out ∧
      Proves o.ped out.contractsRoot (out.contractNodes.map (·.1)) a (some x) ∧ out.leaves = [⟨o.ped.zero, o.ped.zero, o.ped.zero⟩] := by
  obtain ⟨ws, w, now, e, h, hg, heq⟩ := getStorageProof_eq hH hH2 hp hb
  obtain ⟨out, e2, _, hl, hpr⟩ := proofAt_ok hH2 h hg { contracts := some [true :: a] } (by simp [ProofReq.keys, IsFelt, ha]) false (by simp)
  refine ⟨ws, out, e, by rw [heq false _ (by simp [ProofReq.count]), e2], ?_, ?_⟩
  · have := hpr (true :: a) (by simp)
    simp only [viewBits, List.drop_succ_cons, List.drop_zero, hx] at this
    exact this
  · have hroot := root_some h.storageTrie (k := a) (by rw [hx]; simp)
    rw [hl]
    unfold leavesData
    cases hr : w.storageTrie.root with
    | none => exact absurd hr hroot
    | some i => rfl

/-- C87 fails for the leaf data while no contract exists: there is no entry for any address. -/
theorem C87_noleaves_violated (hH : 0 < H) (hH2 : H < 256) (us : List (Update F)) (hp : Possible o H isSys St.empty us) (b : Nat) (S : St F)
    (hb : ((St.empty : St F).trace o us)[b]? = some S) (hS : S.leaves o H isSys = fun _ => none) (as : List FKey)
    (hr : ∀ k ∈ as, IsFelt H k) (ht : as.length ≤ 100) :
    ∃ ws out, chain o H isSys World.init us = .ok ws ∧ getStorageProof o H false ws (some b) { contracts := some as } = .ok out ∧ out.leaves = [] := by
  obtain ⟨ws, w, now, e, h, hg, heq⟩ := getStorageProof_eq hH hH2 hp hb
  obtain ⟨out, e2, _, hl, _⟩ := proofAt_ok hH2 h hg { contracts := some as } (by simpa [ProofReq.keys] using hr) false (by simp)
  refine ⟨ws, out, e, by rw [heq false _ (by simpa [ProofReq.count] using ht), e2], ?_⟩
  have hroot : w.storageTrie.root = none := by
    obtain ⟨_, L, hst, _⟩ := h.storageTrie
    cases hr : w.storageTrie.root with
    | none => rfl
    | some i =>
      rw [hr] at hst
      obtain ⟨t, _, hw, hg⟩ := hst
      obtain ⟨k, y, hk⟩ := hw.exists_get
      rw [hg, hS] at hk
      cases hk
  rw [hl]
  unfold leavesData
  rw [hroot]

/-- C87 fails in pruning mode while no class is declared: every request is refused, whatever it asks for. -/
theorem C87_noclass_violated (hH : 0 < H) (hH2 : H < 256) (us : List (Update F)) (hp : Possible o H isSys St.empty us) (b : Nat) (S : St F)
    (hb : ((St.empty : St F).trace o us)[b]? = some S) (hS : S.classLeaves o = fun _ => none) (r : ProofReq) (ht : r.count ≤ 100) :
    ∃ ws, chain o H isSys World.init us = .ok ws ∧ getStorageProof o H true ws (some b) r = .error .notSupported := by
  obtain ⟨ws, w, now, e, h, hg, heq⟩ := getStorageProof_eq hH hH2 hp hb
  refine ⟨ws, e, ?_⟩
  have hroot : w.classTrie.root = none := by
    obtain ⟨_, L, hst, _⟩ := h.classTrie
    cases hr : w.classTrie.root with
    | none => rfl
    | some i =>
      rw [hr] at hst
      obtain ⟨t, _, hw, hg⟩ := hst
      obtain ⟨k, y, hk⟩ := hw.exists_get
      rw [hg, hS] at hk
      cases hk
  rw [heq true r ht, proofAt, trieProofs, hroot]
  rfl

/-! ## Examples -/

/-- The state after the first block of `exUpdates`. -/
def exState : St Nat := (St.empty : St Nat).apply exOps (exUpdates[0])

/-- A class, an absent class, two contracts, and a present and an absent storage key. -/
def exReq : ProofReq where
  classes := some [[false, true, false], [false, true, true]]
  contracts := some [[false, true, false], [false, true, true], [false, false, true]]
  storage := some [([false, true, false], [[false, false, true], [false, true, true]])]

/-- The first block, asked for when two are stored. -/
example : ∃ ws out, chain exOps 2 exSys World.init exUpdates = .ok ws ∧ getStorageProof exOps 2 false ws (some 0) exReq = .ok out ∧
    RightProof exOps 2 exSys exState exReq out :=
  C87_proof_partial (by decide) (by decide) _ exUpdates_ok 0 _ rfl _ (by unfold IsFelt; decide) (by decide)

example : ∃ ws out, chain exOps 2 exSys World.init exUpdates = .ok ws ∧ getStorageProof exOps 2 false ws (some 0) exReq = .ok out ∧
    RightLeaves exOps 2 exSys exState exReq out :=
  C87_leaves_partial (by decide) (by decide) _ exUpdates_ok 0 _ rfl ⟨[true, false], by decide⟩ _ (by unfold IsFelt; decide) (by decide)

/-- The values that are proved. -/
example : exState.storage [true, false] [false, true] = some 4 ∧ exState.storage [true, false] [true, true] = none ∧
    exState.classLeaves exOps [true, false] = some 11 ∧ exState.classLeaves exOps [true, true] = none ∧
    exState.present [true, true] = true ∧ exState.present [false, true] = false := by decide

/-- Two proofs of one leaf. -/
example : Proves toyOps ((PNode.edge 7 [true]).hash toyOps) [.edge 7 [true]] [true] (some 7) ∧
    Proves toyOps ((PNode.edge 7 [true]).hash toyOps) [.edge 7 [true], .binary 1 2] [true] (some 7) :=
  ⟨.inr (.edge (k := []) (by simp) rfl (by simp) (.leaf _)), .inr (.edge (k := []) (by simp) rfl (by simp) (.leaf _))⟩

example : ∃ ws out, chain exOps 2 exSys World.init exUpdates = .ok ws ∧
    getStorageProof exOps 2 false ws (some 0) { contracts := some [[true, true, false]] } = .ok out ∧
    Proves exOps.ped out.contractsRoot (out.contractNodes.map (·.1)) [true, false] (some (exState.hash exOps 2 exSys [true, false])) ∧
    out.leaves = [⟨0, 0, 0⟩] :=
  C87_large_violated (by decide) (by decide) _ exUpdates_ok 0 exState rfl [true, false] rfl _ (by decide)

theorem exNothing_ok : Possible exOps 2 exSys St.empty [{}] :=
  ⟨by constructor <;> decide, (by intro p hp; cases hp), trivial⟩

/-- A chain with one block that changes nothing. -/
example : ∃ ws out, chain exOps 2 exSys World.init [{}] = .ok ws ∧
    getStorageProof exOps 2 false ws (some 0) { contracts := some [[false, true, false]] } = .ok out ∧ out.leaves = [] :=
  C87_noleaves_violated (by decide) (by decide) _ exNothing_ok 0 _ rfl rfl _ (by unfold IsFelt; decide) (by decide)

example : ∃ ws, chain exOps 2 exSys World.init [{}] = .ok ws ∧
    getStorageProof exOps 2 true ws (some 0) { contracts := some [[false, true, false]] } = .error .notSupported :=
  C87_noclass_violated (by decide) (by decide) _ exNothing_ok 0 _ rfl rfl _ (by decide)

end Verif.Commit
