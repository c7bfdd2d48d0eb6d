import Verif.Feed.TxLemmas
namespace Verif.Feed
open Verif.Block (F P Txn Bound V3 Msg Event felt DeclareOld DeclareV2 DeclareV3 Deploy DeployAccountV1 DeployAccountV3 InvokeV1 InvokeV3 L1Handler)

/-- A field of the document is there, or may be left out. -/
def There (l : List (String × J)) (t : Txn) (p : String × J) : Prop :=
  (∃ v, l.lookup p.1 = some v ∧ Stated t p.1 v p.2) ∨ (l.lookup p.1 = none ∧ p.1 ∈ mayOmit t)

theorem sent_iff {l : List (String × J)} (hn : (l.map (·.1)).Nodup) (h : F) (t : Txn) (hid : ∀ k, nameNow t k = k) :
    Sent l h t ↔ (∀ k ∈ l.map (·.1), k ∈ (document h t).map (·.1)) ∧ ∀ p ∈ document h t, There l t p := by
  have key : ∀ p : String × J, There l t p ↔ (∃ q ∈ l, nameNow t q.1 = p.1 ∧ Stated t p.1 q.2 p.2) ∨ ((∀ q ∈ l, nameNow t q.1 ≠ p.1) ∧ p.1 ∈ mayOmit t) := by
    intro p
    unfold There
    rw [lookup_none]
    simp only [hid]
    refine or_congr ?_ Iff.rfl
    constructor
    · rintro ⟨v, hv, hs⟩
      exact ⟨_, (lookup_iff hn _ _).1 hv, rfl, hs⟩
    · rintro ⟨⟨k, v⟩, hq, hk, hs⟩
      exact ⟨v, (lookup_iff hn _ _).2 (by simpa only [← hk] using hq), hs⟩
  constructor
  · intro s
    refine ⟨fun k hk => ?_, fun p hp => (key p).2 (s.there p hp)⟩
    obtain ⟨q, hq, rfl⟩ := List.mem_map.1 hk
    have := s.only q hq
    rwa [hid] at this
  · rintro ⟨h1, h2⟩
    refine ⟨by simpa only [hid] using hn, fun q hq => ?_, fun p hp => (key p).1 (h2 p hp)⟩
    rw [hid]
    exact h1 _ (List.mem_map.2 ⟨q, hq, rfl⟩)

theorem nodup_filter {l : List (String × J)} (hn : (l.map (·.1)).Nodup) (p : String × J → Bool) : ((l.filter p).map (·.1)).Nodup :=
  hn.sublist (List.filter_sublist.map _)

theorem get_value {l : List (String × J)} (hn : (l.map (·.1)).Nodup) :
    (valueFields (l.filter (fun p => p.1 ≠ "type"))).get = fun k => if k = "type" then none else l.lookup k := by
  funext k
  unfold valueFields
  simp only
  rw [lookup_reverse (nodup_filter hn _), lookup_filter]

theorem get_drop {l : List (String × J)} (hn : (l.map (·.1)).Nodup) :
    (valueFields (dropVersion (l.filter (fun p => p.1 ≠ "type")))).get =
      fun k => if k = "version" then none else if k = "type" then none else l.lookup k := by
  funext k
  unfold valueFields dropVersion
  simp only
  rw [lookup_reverse (nodup_filter (nodup_filter hn _) _), lookup_filter, lookup_filter]

theorem mem_keys_filter {l : List (String × J)} {a k : String} : k ∈ (l.filter (fun p => p.1 ≠ a)).map (·.1) ↔ k ∈ l.map (·.1) ∧ k ≠ a := by
  simp only [List.mem_map, List.mem_filter, decide_eq_true_eq]
  constructor
  · rintro ⟨q, ⟨hq, hne⟩, rfl⟩; exact ⟨⟨q, hq, rfl⟩, hne⟩
  · rintro ⟨⟨q, hq, rfl⟩, hne⟩; exact ⟨q, ⟨hq, hne⟩, rfl⟩

theorem keys_value {l : List (String × J)} (k : String) :
    k ∈ (valueFields (l.filter (fun p => p.1 ≠ "type"))).keys ↔ k ∈ l.map (·.1) ∧ k ≠ "type" := mem_keys_filter

theorem keys_drop {l : List (String × J)} (k : String) :
    k ∈ (valueFields (dropVersion (l.filter (fun p => p.1 ≠ "type")))).keys ↔ k ∈ l.map (·.1) ∧ k ≠ "type" ∧ k ≠ "version" := by
  unfold valueFields dropVersion
  simp only
  rw [mem_keys_filter, mem_keys_filter, and_assoc]

theorem direct_eq {l : List (String × J)} (hn : (l.map (·.1)).Nodup) (names : List String) :
    directFields names (l.filter (fun p => p.1 ≠ "type")) = some (valueFields (l.filter (fun p => p.1 ≠ "type"))) := by
  unfold directFields
  rw [if_pos (List.Nodup.sublist List.filter_sublist (nodup_filter hn _))]
  unfold valueFields
  congr 2
  funext k
  rw [lookup_reverse (nodup_filter hn _)]

theorem version_iff {l : List (String × J)} (hn : (l.map (·.1)).Nodup) (v : F) :
    readVersion (valueFields (l.filter (fun p => p.1 ≠ "type"))) = some v ↔
      Has (fun k => l.lookup k) "version" (hx v) ∨ (l.lookup "version" = none ∧ v = 0) := by
  unfold readVersion
  rw [get_value hn, dflt_iff (readHex_iff · v)]
  simp only [Has, String.reduceEq, if_false]

theorem type_iff {l : List (String × J)} (s : String) : (∃ v, l.lookup "type" = some v ∧ Says v (.str s)) ↔ l.lookup "type" = some (.str s) := by
  constructor
  · rintro ⟨v, hv, hs⟩; cases hs; exact hv
  · intro h; exact ⟨_, h, .same _⟩

end Verif.Feed
