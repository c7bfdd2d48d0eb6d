import Verif.Feed.MainLemmas
import Verif.Feed.ReceiptLemmas
set_option linter.unusedSimpArgs false
namespace Verif.Feed
open Verif.Block (F P Txn Bound V3 Msg Event felt DeclareOld DeclareV2 DeclareV3 Deploy DeployAccountV1 DeployAccountV3 InvokeV0 InvokeV1 InvokeV3 L1Handler)
open Verif.Shown (Builtins Resources)

theorem says_bound (b : Bound) : Says (writeBound b) (bd b) := by
  refine .obj _ _ ?_
  simp [valueOf, Says.same, List.lookup_cons]

theorem says_bounds (x : V3) : Says (writeBounds x) (bds x) := by
  refine .obj _ _ ?_
  cases h : x.l1DataGas <;> simp [valueOf, Says.same, List.lookup_cons, says_bound]

theorem says_mode (b : Bool) : Says (writeMode b) (md b) := by
  cases b <;> exact .same _

theorem says_decs (l : List F) : Says (.arr (l.map decF)) (dcs l) := .same _
theorem says_hexs (l : List F) : Says (.arr (l.map hexF)) (hxs l) := .same _
theorem reord_decs (l : List F) : Reordered (.arr (l.map decF)) (dcs l) := .same _
theorem hexF_eq (x : F) : Says (hexF x) (hx x) := .same _
theorem val0' : Says (hexF 0) (.hex 0) := .same _
theorem val1' : Says (hexF 1) (.hex 1) := .same _
theorem val3' : Says (hexF (felt 3)) (.hex 3) := .same _

/-- The fields of a transaction as it is written. -/
def written (h : F) (t : Txn) : List (String × J) :=
  match writeTx (h, t) with
  | .obj l => l
  | _ => []

theorem written_obj (h : F) (t : Txn) : writeTx (h, t) = .obj (written h t) := by cases t <;> rfl

theorem written_nodup (h : F) (t : Txn) : ((written h t).map (·.1)).Nodup := by
  cases t
  case invokeV3 t =>
    by_cases hp : t.proofFacts.isEmpty = true
    · simp only [written, writeTx, ofStored, writeGwTx, tag, writeV3, if_pos hp, List.map_cons, List.map_nil, List.cons_append, List.nil_append, List.append_nil]
      decide
    · simp only [written, writeTx, ofStored, writeGwTx, tag, writeV3, if_neg hp, List.map_cons, List.map_nil, List.cons_append, List.nil_append]
      decide
  all_goals
    simp only [written, writeTx, ofStored, writeGwTx, tag, writeV3, List.map_cons, List.map_nil, List.cons_append, List.nil_append]
    decide

theorem sent_of {l : List (String × J)} {h : F} {t : Txn} (hn : (l.map (·.1)).Nodup) (hname : ∀ q ∈ l, nameNow t q.1 = q.1)
    (only : ∀ q ∈ l, q.1 ∈ (document h t).map (·.1))
    (there : ∀ p ∈ document h t, (∃ v, (p.1, v) ∈ l ∧ Says v p.2) ∨ ((∀ q ∈ l, q.1 ≠ p.1) ∧ p.1 ∈ mayOmit t)) : Sent l h t := by
  refine ⟨?_, fun q hq => by rw [hname q hq]; exact only q hq, fun p hp => ?_⟩
  · rw [List.map_congr_left hname]; exact hn
  · rcases there p hp with ⟨v, hv, hs⟩ | ⟨h1, h2⟩
    · refine .inl ⟨_, hv, hname _ hv, ?_⟩
      cases t <;> first | exact hs | exact .inl hs
    · exact .inr ⟨fun q hq => by rw [hname q hq]; exact h1 q hq, h2⟩

theorem written_sent (h : F) (t : Txn) : Sent (written h t) h t := by
  have hn := written_nodup h t
  cases t
  case invokeV3 t =>
    by_cases hp : t.proofFacts = []
    · refine sent_of hn (fun _ _ => rfl) ?_ ?_ <;>
        simp [written, writeTx, ofStored, writeGwTx, tag, writeV3, document, v3Document, list, hexF_eq, val1', says_decs, says_hexs, hp, Says.same, says_bounds, says_mode, mayOmit]
    · refine sent_of hn (fun _ _ => rfl) ?_ ?_ <;>
        simp [written, writeTx, ofStored, writeGwTx, tag, writeV3, document, v3Document, list, hexF_eq, val1', says_decs, says_hexs, hp, Says.same, says_bounds, says_mode, mayOmit]
  all_goals
    refine sent_of hn ?_ ?_ ?_ <;>
      simp [written, writeTx, ofStored, writeGwTx, tag, writeV3, document, v3Document, list, hexF_eq, val1', val3', val0', says_decs, says_hexs, Says.same, says_bounds, says_mode, nameNow, mayOmit]

/-! ## Receipts -/

theorem reord_gas (a b : Nat) : Reordered (writeGas a b) (gasDocument a b none) := .same _

theorem reord_event (e : Event) : Reordered (writeEvent e) (eventDocument e) := by
  refine .obj _ _ (by simp only [List.map_cons, List.map_nil]; decide) ?_
  simp [hexF, list, reord_decs, Reordered.same]

theorem reord_msg (m : Msg) : Reordered (writeMsg m) (messageDocument m) := by
  refine .obj _ _ (by simp only [List.map_cons, List.map_nil]; decide) ?_
  simp [hexF, list, reord_decs, Reordered.same]

theorem reord_map {α : Type} {f g : α → J} (h : ∀ x, Reordered (f x) (g x)) (l : List α) : Reordered (.arr (l.map f)) (.arr (l.map g)) := by
  refine .arr _ _ (by simp) ?_
  induction l with
  | nil => simp
  | cons x l ih => simp only [List.map_cons, List.zip_cons_cons, List.forall_mem_cons]; exact ⟨h x, ih⟩

theorem reord_resources (r : Resources) : Reordered (writeResources r) (resourcesDocument none none r) := by
  refine .obj _ _ (by simp only [List.map_cons, List.map_nil]; decide) ?_
  simp only [List.forall_mem_cons, String.reduceEq, false_implies, true_and, and_true, List.not_mem_nil, implies_true, true_implies, Reordered.same, reord_gas]
  exact .same _

theorem reord_receipt (r : Rcpt) (es : List Event) : Reordered (writeReceipt (r, es)) (.obj (receiptDocument none none r es)) := by
  refine .obj _ _ (by simp only [receiptDocument, List.map_cons, List.map_nil]; decide) ?_
  have h1 := reord_map reord_event es
  have h2 := reord_map reord_msg r.messages
  have h3 := reord_resources r.resources
  obtain ⟨fee, rs, ms, rev, hash, idx⟩ := r
  simp only [receiptDocument, List.forall_mem_cons, String.reduceEq, false_implies, true_and, and_true, List.not_mem_nil, implies_true, true_implies, list, h1, h2, h3]
  cases rev <;> simp [Reordered.same, hexF]

/-! ## Panics -/

theorem orRefuse_panic {α : Type} {o : Option α} : orRefuse o ≠ .error .panic := by cases o <;> simp [orRefuse]

theorem type_panic {s : String} {l : List (String × J)} : readType s (.obj l) ≠ .error .panic := by
  unfold readType
  split
  · unfold readDeclare
    simp only
    repeat' split
    all_goals first | exact orRefuse_panic | (intro hc; cases hc)
  · exact orRefuse_panic
  · unfold readDeployAccount
    simp only
    repeat' split
    all_goals first | exact orRefuse_panic | (intro hc; cases hc)
  · unfold readInvoke
    simp only
    repeat' split
    all_goals first | exact orRefuse_panic | (intro hc; cases hc)
  · exact orRefuse_panic
  · intro hc; cases hc

theorem declare_kind {l : List (String × J)} {g : GwTx} (e : readDeclare (.obj l) = .ok g) :
    (∃ h t, g = .declare0 h t) ∨ (∃ h t, g = .declare1 h t) ∨ (∃ h t, g = .declare2 h t) ∨ ∃ h t, g = .declare3 h t := by
  unfold readDeclare at e
  simp only at e
  repeat' split at e
  all_goals first | (cases e; done) | skip
  all_goals
    simp only [orRefuse_ok, Option.map_eq_some_iff] at e
    obtain ⟨⟨a, b⟩, _, rfl⟩ := e
    simp

theorem invoke_kind {l : List (String × J)} {g : GwTx} (e : readInvoke (.obj l) = .ok g) :
    (∃ h t, g = .invoke0 h t) ∨ (∃ h t, g = .invoke1 h t) ∨ ∃ h t, g = .invoke3 h t := by
  unfold readInvoke at e
  simp only at e
  repeat' split at e
  all_goals first | (cases e; done) | skip
  all_goals
    rw [orRefuse_ok] at e
    first
      | exact .inl (readInvoke0_kind _ _ e)
      | exact .inr (.inl (readInvoke1_kind _ _ e))
      | exact .inr (.inr (readInvoke3_kind _ _ e))

theorem account_kind {l : List (String × J)} {g : GwTx} (e : readDeployAccount (.obj l) = .ok g) :
    ((∃ h t v, g = .deployAccount01 h t v) ∧ readDeployAccount01 (valueFields l) = some g ∧ (readVersion (valueFields l) = some 0 ∨ readVersion (valueFields l) = some 1)) ∨
      ∃ h t v, g = .deployAccount3 h t v := by
  unfold readDeployAccount at e
  simp only at e
  split at e
  · cases e
  rename_i v hv
  split at e
  · rename_i h0
    rw [orRefuse_ok] at e
    exact .inl ⟨readDeployAccount01_kind _ _ e, e, .inl (h0 ▸ hv)⟩
  split at e
  · rename_i h0
    rw [orRefuse_ok] at e
    exact .inl ⟨readDeployAccount01_kind _ _ e, e, .inr (h0 ▸ hv)⟩
  split at e
  · rw [orRefuse_ok] at e
    exact .inr (readDeployAccount3_kind _ _ e)
  · cases e

theorem type_split {l : List (String × J)} {s : String} {r : Rest} (h : split (.obj l) = some (s, r)) :
    HasType l s ∧ r = .obj (l.filter (fun p => p.1 ≠ "type")) := by
  unfold split at h
  simp only at h
  split at h
  case h_2 => cases h
  rename_i k s' hf
  cases h
  have : (k, J.str s) ∈ l.filter (fun p => p.1 = "type") := by rw [hf]; exact List.mem_singleton.2 rfl
  rw [List.mem_filter] at this
  have hk : k = "type" := by simpa using this.2
  subst hk
  exact ⟨this.1, rfl⟩

theorem panic_only {l : List (String × J)} (hn : (l.map (·.1)).Nodup) (e : readTx (.obj l) = .error .panic) :
    (HasType l "DEPLOY" ∧ ∃ v : F, v ≠ 0 ∧ v ≠ 1 ∧ ("version", hx v) ∈ l) ∨ (HasType l "DEPLOY_ACCOUNT" ∧ ("version", .hex 0) ∈ l) := by
  unfold readTx readGwTx at e
  cases hs : split (.obj l) with
  | none => rw [hs] at e; cases e
  | some p =>
    obtain ⟨s, r⟩ := p
    obtain ⟨hty, rfl⟩ := type_split hs
    rw [hs] at e
    simp only at e
    cases hg : readType s (.obj (l.filter (fun p => p.1 ≠ "type"))) with
    | error f =>
      rw [hg] at e
      cases e
      exact absurd hg type_panic
    | ok g =>
      rw [hg] at e
      simp only at e
      unfold readType at hg
      split at hg
      · rcases declare_kind hg with ⟨_, _, rfl⟩ | ⟨_, _, rfl⟩ | ⟨_, _, rfl⟩ | ⟨_, _, rfl⟩ <;> cases e
      · left
        unfold readDirect at hg
        rw [orRefuse_ok, direct_eq hn, Option.bind_some] at hg
        obtain ⟨h, t, v, rfl⟩ := readDeploy_kind _ _ hg
        unfold toStored at e
        simp only at e
        split at e
        · cases e
        split at e
        · cases e
        rename_i h0 h1
        refine ⟨hty, v, h0, h1, ?_⟩
        rw [readDeploy_iff, get_value hn] at hg
        obtain ⟨_, ⟨_, _, _, _, _, hv⟩, _⟩ := hg
        rcases hv with hv | ⟨_, hv⟩
        · rw [has_value] at hv
          obtain ⟨_, w, hw, hs⟩ := hv
          cases hs
          exact (lookup_iff hn _ _).1 hw
        · exact absurd hv h0
      · rcases account_kind hg with ⟨⟨h, t, v, rfl⟩, hr, hv⟩ | ⟨_, _, _, rfl⟩
        · right
          unfold toStored at e
          simp only at e
          split at e
          · cases e
          rename_i h1
          rw [readDeployAccount01_iff, get_value hn] at hr
          obtain ⟨_, ⟨_, _, _, hw, _⟩, _⟩ := hr
          rw [has_value] at hw
          obtain ⟨_, w, hw, hsay⟩ := hw
          cases hsay
          rw [version_iff hn, version_iff hn] at hv
          have key : ∀ x : F, Has (fun k => l.lookup k) "version" (hx x) → x = v := by
            rintro x ⟨w', hw', hs'⟩
            have hw'' : l.lookup "version" = some w' := hw'
            rw [hw] at hw''
            cases hw''
            have h1 := (readHex_iff _ _).2 hs'
            rw [(readHex_iff _ _).2 (.same (hx v))] at h1
            exact (Option.some.inj h1).symm
          refine ⟨hty, ?_⟩
          rcases hv with (hv | ⟨hv, _⟩) | (hv | ⟨hv, _⟩)
          · have := key 0 hv
            subst this
            exact (lookup_iff hn _ _).1 hw
          · rw [hw] at hv; cases hv
          · exact absurd (key 1 hv).symm h1
          · rw [hw] at hv; cases hv
        · cases e
      · rcases invoke_kind hg with ⟨_, _, rfl⟩ | ⟨_, _, rfl⟩ | ⟨_, _, rfl⟩ <;> cases e
      · unfold readDirect at hg
        rw [orRefuse_ok, direct_eq hn, Option.bind_some] at hg
        obtain ⟨_, _, _, rfl⟩ := readL1Handler_kind _ _ hg
        cases e
      · cases hg

end Verif.Feed
