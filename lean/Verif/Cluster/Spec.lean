import Verif.Cluster.Model

/-!
# Specification vocabulary for data clusters

What the English properties talk about, without reference to how the code computes it.
-/

namespace Verif.Cluster

variable {α : Type} [AddCommGroup α] [LinearOrder α]

/-- The table is non-empty, each row `[lo, hi]` has `lo ≤ hi < n`, and each row ends strictly
before the next begins. -/
structure WF (n : ℕ) (cs : List (ℕ × ℕ)) : Prop where
  nonempty : cs ≠ []
  valid : ∀ c ∈ cs, c.1 ≤ c.2 ∧ c.2 < n
  ordered : cs.Pairwise (fun a b => a.2 < b.1)

/-- Point `i` belongs to some cluster of the table. -/
def Clustered (cs : List (ℕ × ℕ)) (i : ℕ) : Prop := ∃ c ∈ cs, c.1 ≤ i ∧ i ≤ c.2

/-- Non-decreasing coordinates. -/
def Nondecreasing (x : List α) : Prop := x.Pairwise (· ≤ ·)

/-- Strictly increasing coordinates. -/
def Increasing (x : List α) : Prop := x.Pairwise (· < ·)

/-- Signed distance from point `i` to the cluster `c`: zero inside, positive right of it (to its
right end), negative left of it (to its left end). -/
def signedDist (x : List α) (c : ℕ × ℕ) (i : ℕ) : α :=
  if i < c.1 then x.getD i 0 - x.getD c.1 0
  else if c.2 < i then x.getD i 0 - x.getD c.2 0
  else 0

/-- No two neighbouring clusters of the table touch. -/
def NoneAdjacent (cs : List (ℕ × ℕ)) : Prop :=
  ∀ i, i + 1 < cs.length → (row cs i).2 + 1 < (row cs (i + 1)).1

/-- A call of `combine_clusters` as documented: "Clusters to combine must be contiguous,
increasing".  A call that raises is only allowed when it has a single group (see
`combine_raise_corrupts`). -/
def ProperCombine (s : State α) (groups : List (List ℕ)) : Prop :=
  (∀ c ∈ groups, c.Pairwise (· < ·)) ∧ ((combine s groups).1 = .ok ∨ groups.length ≤ 1)

/-- Every state a user can reach: build the object on non-empty data, then call the methods in any
order. -/
inductive Reachable (x y : List α) (res : α) (order : List ℕ) : State α → Prop
  | mk {s : State α} : x ≠ [] → mk x y res order = .ok s → Reachable x y res order s
  | next {s : State α} : Reachable x y res order s → Reachable x y res order (next s).2
  | reset {s : State α} : Reachable x y res order s → Reachable x y res order (reset s).2
  | combine {s : State α} {groups : List (List ℕ)} : Reachable x y res order s →
      ProperCombine s groups → Reachable x y res order (combine s groups).2

end Verif.Cluster
