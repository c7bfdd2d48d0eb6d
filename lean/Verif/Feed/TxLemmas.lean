import Verif.Feed.ReadLemmas
namespace Verif.Feed
open Verif.Block (F P Txn Bound V3 Msg Event felt DeclareOld DeclareV2 DeclareV3 Deploy DeployAccountV1 DeployAccountV3 InvokeV1 InvokeV3 L1Handler)

/-- What was read, if it was this transaction. -/
def Parsed (l : List (String × J)) (s : String) (h : F) : Txn → Prop
  | .declareV0 t => s = "DECLARE" ∧ readVersion (valueFields l) = some 0 ∧ readDeclare01 (valueFields (dropVersion l)) = some (h, t)
  | .declareV1 t => s = "DECLARE" ∧ readVersion (valueFields l) = some 1 ∧ readDeclare01 (valueFields (dropVersion l)) = some (h, t)
  | .declareV2 t => s = "DECLARE" ∧ readVersion (valueFields l) = some (felt 2) ∧ readDeclare2 (valueFields (dropVersion l)) = some (h, t)
  | .declareV3 t => s = "DECLARE" ∧ readVersion (valueFields l) = some (felt 3) ∧ readDeclare3 (valueFields (dropVersion l)) = some (h, t)
  | .deployV0 t => s = "DEPLOY" ∧ (directFields deployNames l).bind readDeploy = some (.deploy h t 0)
  | .deployV1 t => s = "DEPLOY" ∧ (directFields deployNames l).bind readDeploy = some (.deploy h t 1)
  | .deployAccountV1 t => s = "DEPLOY_ACCOUNT" ∧ (readVersion (valueFields l) = some 0 ∨ readVersion (valueFields l) = some 1) ∧
      readDeployAccount01 (valueFields l) = some (.deployAccount01 h t 1)
  | .deployAccountV3 t => s = "DEPLOY_ACCOUNT" ∧ readVersion (valueFields l) = some (felt 3) ∧
      ∃ v, readDeployAccount3 (valueFields l) = some (.deployAccount3 h t v)
  | .invokeV0 t => s = "INVOKE_FUNCTION" ∧ readVersion (valueFields l) = some 0 ∧
      readInvoke0 (valueFields (dropVersion l)) = some (.invoke0 h ⟨t.calldata, t.sender, t.selector, t.maxFee, t.signature⟩) ∧ t.entryType = none
  | .invokeV1 t => s = "INVOKE_FUNCTION" ∧ readVersion (valueFields l) = some 1 ∧ readInvoke1 (valueFields (dropVersion l)) = some (.invoke1 h t)
  | .invokeV3 t => s = "INVOKE_FUNCTION" ∧ readVersion (valueFields l) = some (felt 3) ∧ readInvoke3 (valueFields (dropVersion l)) = some (.invoke3 h t)
  | .l1Handler t => s = "L1_HANDLER" ∧ ∃ v, (directFields l1HandlerNames l).bind readL1Handler = some (.l1Handler h t v)

theorem P_ne_one : P ≠ 1 := by decide
theorem two_ne : (felt 2 : F) ≠ 0 ∧ (felt 2 : F) ≠ 1 := by decide
theorem three_ne : (felt 3 : F) ≠ 0 ∧ (felt 3 : F) ≠ 1 ∧ (felt 3 : F) ≠ felt 2 := by decide

theorem orRefuse_ok {α : Type} {o : Option α} {x : α} : orRefuse o = .ok x ↔ o = some x := by
  cases o <;> simp [orRefuse]

/-- What is read of a type and the rest, and stored. -/
def stored (s : String) (l : List (String × J)) : Except Fail (F × Txn) :=
  match readType s (.obj l) with
  | .ok t => toStored t
  | .error e => .error e

theorem parsed_of_stored {s : String} {l : List (String × J)} {h : F} {t : Txn} (e : stored s l = .ok (h, t)) : Parsed l s h t := by
  unfold stored at e
  split at e
  case h_2 => cases e
  rename_i g hg
  unfold readType at hg
  split at hg
  · unfold readDeclare at hg
    simp only at hg
    split at hg
    · cases hg
    rename_i v hv
    split at hg
    · rename_i h0
      simp only [orRefuse_ok, Option.map_eq_some_iff] at hg
      obtain ⟨⟨a, b⟩, ha, rfl⟩ := hg
      cases e
      exact ⟨rfl, h0 ▸ hv, ha⟩
    split at hg
    · rename_i h0
      simp only [orRefuse_ok, Option.map_eq_some_iff] at hg
      obtain ⟨⟨a, b⟩, ha, rfl⟩ := hg
      cases e
      exact ⟨rfl, h0 ▸ hv, ha⟩
    split at hg
    · rename_i h0
      simp only [orRefuse_ok, Option.map_eq_some_iff] at hg
      obtain ⟨⟨a, b⟩, ha, rfl⟩ := hg
      cases e
      exact ⟨rfl, h0 ▸ hv, ha⟩
    split at hg
    · rename_i h0
      simp only [orRefuse_ok, Option.map_eq_some_iff] at hg
      obtain ⟨⟨a, b⟩, ha, rfl⟩ := hg
      cases e
      exact ⟨rfl, h0 ▸ hv, ha⟩
    · cases hg
  · unfold readDirect at hg
    simp only [orRefuse_ok] at hg
    obtain ⟨f, hf, hg'⟩ := Option.bind_eq_some_iff.1 hg
    obtain ⟨h', t', v, rfl⟩ := readDeploy_kind _ _ hg'
    unfold toStored at e
    simp only at e
    split at e
    · rename_i hv; cases e; subst hv; exact ⟨rfl, hg⟩
    split at e
    · rename_i hv; cases e; subst hv; exact ⟨rfl, hg⟩
    · cases e
  · unfold readDeployAccount at hg
    simp only at hg
    split at hg
    · cases hg
    rename_i v hv
    split at hg
    · rename_i h0
      rw [orRefuse_ok] at hg
      obtain ⟨h', t', v', rfl⟩ := readDeployAccount01_kind _ _ hg
      unfold toStored at e
      simp only at e
      split at e
      · rename_i hv'; cases e; subst hv'; exact ⟨rfl, .inl (h0 ▸ hv), hg⟩
      · cases e
    split at hg
    · rename_i h0
      rw [orRefuse_ok] at hg
      obtain ⟨h', t', v', rfl⟩ := readDeployAccount01_kind _ _ hg
      unfold toStored at e
      simp only at e
      split at e
      · rename_i hv'; cases e; subst hv'; exact ⟨rfl, .inr (h0 ▸ hv), hg⟩
      · cases e
    split at hg
    · rename_i h0
      rw [orRefuse_ok] at hg
      obtain ⟨h', t', v', rfl⟩ := readDeployAccount3_kind _ _ hg
      cases e
      exact ⟨rfl, h0 ▸ hv, v', hg⟩
    · cases hg
  · unfold readInvoke at hg
    simp only at hg
    split at hg
    · cases hg
    rename_i v hv
    split at hg
    · rename_i h0
      rw [orRefuse_ok] at hg
      obtain ⟨h', t', rfl⟩ := readInvoke0_kind _ _ hg
      cases e
      exact ⟨rfl, h0 ▸ hv, hg, rfl⟩
    split at hg
    · rename_i h0
      rw [orRefuse_ok] at hg
      obtain ⟨h', t', rfl⟩ := readInvoke1_kind _ _ hg
      cases e
      exact ⟨rfl, h0 ▸ hv, hg⟩
    split at hg
    · rename_i h0
      rw [orRefuse_ok] at hg
      obtain ⟨h', t', rfl⟩ := readInvoke3_kind _ _ hg
      cases e
      exact ⟨rfl, h0 ▸ hv, hg⟩
    · cases hg
  · unfold readDirect at hg
    simp only [orRefuse_ok] at hg
    obtain ⟨f, hf, hg'⟩ := Option.bind_eq_some_iff.1 hg
    obtain ⟨h', t', v, rfl⟩ := readL1Handler_kind _ _ hg'
    cases e
    exact ⟨rfl, v, hg⟩
  · cases hg

theorem stored_of_parsed {s : String} {l : List (String × J)} {h : F} {t : Txn} (p : Parsed l s h t) : stored s l = .ok (h, t) := by
  cases t with
  | declareV0 t => obtain ⟨rfl, hv, e⟩ := p; simp [stored, readType, readDeclare, hv, e, orRefuse, toStored]
  | declareV1 t => obtain ⟨rfl, hv, e⟩ := p; simp [stored, readType, readDeclare, hv, e, orRefuse, toStored, P_ne_one]
  | declareV2 t => obtain ⟨rfl, hv, e⟩ := p; simp [stored, readType, readDeclare, hv, e, orRefuse, toStored, two_ne]
  | declareV3 t => obtain ⟨rfl, hv, e⟩ := p; simp [stored, readType, readDeclare, hv, e, orRefuse, toStored, three_ne]
  | deployV0 t => obtain ⟨rfl, e⟩ := p; simp [stored, readType, readDirect, e, orRefuse, toStored]
  | deployV1 t => obtain ⟨rfl, e⟩ := p; simp [stored, readType, readDirect, e, orRefuse, toStored, P_ne_one]
  | deployAccountV1 t =>
    obtain ⟨rfl, hv, e⟩ := p
    rcases hv with hv | hv <;> simp [stored, readType, readDeployAccount, hv, e, orRefuse, toStored]
  | deployAccountV3 t => obtain ⟨rfl, hv, v, e⟩ := p; simp [stored, readType, readDeployAccount, hv, e, orRefuse, toStored, three_ne]
  | invokeV0 t =>
    obtain ⟨rfl, hv, e, hn⟩ := p
    obtain ⟨a, b, c, d, f, g⟩ := t
    simp only at hn; subst hn
    simp only at e
    simp [stored, readType, readInvoke, hv, e, orRefuse, toStored]
  | invokeV1 t => obtain ⟨rfl, hv, e⟩ := p; simp [stored, readType, readInvoke, hv, e, orRefuse, toStored, P_ne_one]
  | invokeV3 t => obtain ⟨rfl, hv, e⟩ := p; simp [stored, readType, readInvoke, hv, e, orRefuse, toStored, three_ne]
  | l1Handler t => obtain ⟨rfl, v, e⟩ := p; simp [stored, readType, readDirect, e, orRefuse, toStored]

theorem filter_type : ∀ {l : List (String × J)} (_ : (l.map (·.1)).Nodup), (l.filter (fun p => p.1 = "type")) = match l.lookup "type" with
    | none => []
    | some v => [("type", v)]
  | [], _ => rfl
  | (a, b) :: l, hn => by
    simp only [List.map_cons, List.nodup_cons] at hn
    have ih := filter_type hn.2
    simp only [List.filter_cons, List.lookup_cons]
    by_cases h : a = "type"
    · subst h
      have : l.lookup "type" = none := (lookup_none "type").2 fun q hq e => hn.1 (List.mem_map.2 ⟨q, hq, e⟩)
      simp only [this] at ih
      simp [ih]
    · have : ("type" == a) = false := by simpa using fun e => h e.symm
      simp [h, this, ih]

theorem readTx_iff {l : List (String × J)} (hn : (l.map (·.1)).Nodup) (h : F) (t : Txn) :
    readTx (.obj l) = .ok (h, t) ↔ ∃ s, l.lookup "type" = some (.str s) ∧ Parsed (l.filter (fun p => p.1 ≠ "type")) s h t := by
  have key : ∀ s, l.lookup "type" = some (.str s) → readTx (.obj l) = stored s (l.filter (fun p => p.1 ≠ "type")) := by
    intro s hs
    have : split (.obj l) = some (s, .obj (l.filter (fun p => p.1 ≠ "type"))) := by
      unfold split
      simp only [filter_type hn, hs]
    unfold readTx readGwTx stored
    rw [this]
    rfl
  constructor
  · intro e
    cases hs : l.lookup "type" with
    | none =>
      have : split (.obj l) = none := by unfold split; simp only [filter_type hn, hs]
      unfold readTx readGwTx at e
      rw [this] at e
      cases e
    | some v =>
      cases v with
      | str s => exact ⟨s, rfl, parsed_of_stored (key s hs ▸ e)⟩
      | _ =>
        have : split (.obj l) = none := by unfold split; simp only [filter_type hn, hs]
        unfold readTx readGwTx at e
        rw [this] at e
        cases e
  · rintro ⟨s, hs, p⟩
    rw [key s hs]
    exact stored_of_parsed p

end Verif.Feed
