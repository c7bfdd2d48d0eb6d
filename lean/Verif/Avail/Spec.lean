import Verif.Avail.Model

/-!
What an honest gateway and an honest chain are, and when a class is known.
-/

namespace Verif.Avail.Spec

/-- The block declares the class, or deploys a contract with it. -/
def Introduces (u : Upd) (h : Nat) : Prop :=
  h ∈ u.cairo ∨ (∃ c, (h, c) ∈ u.sierra) ∨ ∃ a, (a, h) ∈ u.deployed

/-- Some block up to `n` declares the class or deploys a contract with it. -/
def KnownAt (chain : List Upd) (n h : Nat) : Prop :=
  ∃ m u, m ≤ n ∧ chain[m]? = some u ∧ Introduces u h

/-- The class of a contract after block `n`: that of the last block that deploys the contract or
replaces its class. -/
def ClassAt (chain : List Upd) (n a h : Nat) : Prop :=
  ∃ m u, m ≤ n ∧ chain[m]? = some u ∧ ((a, h) ∈ u.deployed ∨ (a, h) ∈ u.replaced) ∧
    ∀ k v, m < k → k ≤ n → chain[k]? = some v → ∀ h', (a, h') ∉ v.deployed ∧ (a, h') ∉ v.replaced

/-- The gateway gives for a hash only a class of this hash. -/
def Honest (hashOf : Def → Nat) (g : Gateway) : Prop := ∀ h d c, g h = some (d, c) → hashOf d = h

/-- The blocks that will be stored once everything sent is. -/
def upcoming (s : St) : List Upd := (s.queue.foldl Db.apply s.db).chain

/-- States of a node whose gateway is honest: downloads give classes of their hash, Cairo 0 declarations are of
Cairo 0 classes, and a contract is deployed with a Sierra class only if the class is declared in the same block or before. `sierra` says
which hashes are those of Sierra classes. -/
inductive HonestReach (hashOf : Def → Nat) (sierra : Nat → Bool) : St → Prop where
  | init : HonestReach hashOf sierra St.init
  | quiet {s t : St} (r : HonestReach hashOf sierra s)
      (h : (∃ u, t = { s with loading := s.loading ++ [(u, s.db.missing u)] }) ∨
        (∃ k, s.loading = [] ∧ t = { s with queue := s.queue ++ [.reorg k] }) ∨
        (∃ e rest, s.queue = e :: rest ∧ t = { s with db := s.db.apply e, queue := rest }) ∨
        t = { s with queue := [], loading := [] }) : HonestReach hashOf sierra t
  | emit {s : St} (r : HonestReach hashOf sierra s) (g : Gateway) (u : Upd) (hs : List Nat)
      (rest : List (Upd × List Nat)) (ds : List Downloaded) (hl : s.loading = (u, hs) :: rest)
      (hd : hs.mapM (download hashOf g) = some ds)
      (hg : Honest hashOf g) (kind : ∀ h d c, g h = some (d, c) → d.sierra = sierra h)
      (cairo : ∀ h ∈ u.cairo, sierra h = false)
      (declared : ∀ a h, (a, h) ∈ u.deployed → sierra h = true →
        (∃ c, (h, c) ∈ u.sierra) ∨ ∃ v ∈ upcoming s, Introduces v h) :
      HonestReach hashOf sierra
        { s with queue := s.queue ++ classEvents u ds ++ [.block u], loading := rest }
  | giveUp {s : St} (r : HonestReach hashOf sierra s) (g : Gateway) (u : Upd) (hs : List Nat)
      (rest : List (Upd × List Nat)) (ds : List Downloaded) (hl : s.loading = (u, hs) :: rest)
      (hd : hs.mapM (download hashOf g) = some ds) (hg : Honest hashOf g) :
      HonestReach hashOf sierra { s with queue := s.queue ++ classEvents u ds, loading := [] }

end Verif.Avail.Spec
