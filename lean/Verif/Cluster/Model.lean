import Mathlib.Algebra.Order.Group.Abs
import Mathlib.Data.List.Basic

/-!
# Model of `src/diffpy/srmise/dataclusters.py`

The class `DataClusters` as a record of its instance attributes, with each method a function from
state to outcome and state.  Coordinates live in any linearly ordered abelian group `α`
(floating point idealised).  `numpy.ndarray.argsort` is *some* sorting permutation: the
constructor takes the permutation as an argument and `IsArgsort` says what numpy promises.
-/

namespace Verif.Cluster

/-- `status` constants INIT, READY, CLUSTERING, DONE — dataclusters.py:69-72. -/
inductive Status
  | init | ready | clustering | done
  deriving DecidableEq, Repr

/-- What a Python call does apart from changing the state: return, or raise. -/
inductive Outcome
  | ok
  | stopIteration
  | valueError
  | indexError
  | typeError
  | exception
  deriving DecidableEq, Repr

/-- Instance attributes — dataclusters.py:38-54, 106-126.  A row of the `(k,2)` integer array
`clusters` is a pair `(lo, hi)`; the INIT value `array([[]])` is the empty list. -/
structure State (α : Type) where
  x : List α
  y : List α
  res : α
  dataOrder : List ℕ
  clusters : List (ℕ × ℕ)
  currentIdx : ℕ
  lastcluster : Option ℕ
  lastpoint : Option ℕ
  status : Status
  deriving DecidableEq, Repr

variable {α : Type} [AddCommGroup α] [LinearOrder α]

/-- What `y.argsort()` promises (dataclusters.py:170): a permutation of the indices along which
`y` is non-decreasing; ties in any order. -/
def IsArgsort (y : List α) (order : List ℕ) : Prop :=
  order.Perm (List.range y.length) ∧ order.Pairwise (fun a b => y.getD a 0 ≤ y.getD b 0)

/-- `DataClusters(x, y, res)` — `__init__` 56-74 and `_setdata` 139-175.  `order` is the value of
`y.argsort()`. -/
def mk (x y : List α) (res : α) (order : List ℕ) : Except Outcome (State α) :=
  if x.length ≠ y.length then .error .valueError
  else if res < 0 then .error .valueError
  else if x.length = 0 then
    .ok { x := x, y := y, res := res, dataOrder := [], clusters := [], currentIdx := 0,
          lastcluster := none, lastpoint := none, status := .init }
  else
    let top := order.getD (order.length - 1) 0
    .ok { x := x, y := y, res := res, dataOrder := order, clusters := [(top, top)],
          currentIdx := order.length - 1, lastcluster := none, lastpoint := some top,
          status := .ready }

/-- `reset_clusters` — dataclusters.py:128-137.  On an INIT object `data_order[-1]` of an empty
array raises IndexError. -/
def reset (s : State α) : Outcome × State α :=
  if s.dataOrder.length = 0 then (.indexError, s)
  else
    let top := s.dataOrder.getD (s.dataOrder.length - 1) 0
    (.ok, { s with
      clusters := [(top, top)]
      currentIdx := s.dataOrder.length - 1
      lastcluster := some 0
      lastpoint := some top
      status := if s.status ≠ .init then .ready else s.status })

/-- `ndarray.searchsorted(v)` with the default `side='left'` on a sorted array: the number of
leading elements smaller than `v`. -/
def searchsorted {β : Type} [LT β] [DecidableLT β] (l : List β) (v : β) : ℕ :=
  (l.takeWhile (fun a => decide (a < v))).length

/-- `self.clusters.flatten()` — dataclusters.py:288. -/
def flat : List (ℕ × ℕ) → List ℕ
  | [] => []
  | c :: cs => c.1 :: c.2 :: flat cs

/-- Row access `self.clusters[i]`; only used with `i` in range. -/
def row (cs : List (ℕ × ℕ)) (i : ℕ) : ℕ × ℕ := cs.getD i (0, 0)

/-- `find_nearest_cluster` on a given cluster table — dataclusters.py:288-315.  `none` is Python's
`None` for an empty table. -/
def nearest (x : List α) (cs : List (ℕ × ℕ)) (idx : ℕ) : Option (ℕ × α) :=
  let fl := flat cs
  if fl.length = 0 then none
  else
    let fi := searchsorted fl idx
    let ni := fi / 2
    let xi := x.getD idx 0
    if fi = fl.length then
      some (ni - 1, xi - x.getD (row cs (cs.length - 1)).2 0)
    else if fl.getD fi 0 = idx ∨ fi % 2 = 1 then
      some (ni, 0)
    else if fi = 0 then
      some (ni, xi - x.getD (row cs 0).1 0)
    else
      let d0 := xi - x.getD (row cs (ni - 1)).2 0
      let d1 := xi - x.getD (row cs ni).1 0
      if d0 < |d1| then some (ni - 1, d0) else some (ni, d1)

/-- `find_nearest_cluster` — dataclusters.py:267-315. -/
def findNearest (s : State α) (idx : ℕ) : Except Outcome (Option (ℕ × α)) :=
  if s.status = .init then .error .exception
  else .ok (nearest s.x s.clusters idx)

/-- The loop of `__next__` that looks for the next unclustered point — dataclusters.py:191-197.
Arguments: `current_idx`, `nearest_cluster`, `test_idx`.  `nearest` can only be `None` for an
empty cluster table, where Python's `None[1]` raises TypeError. -/
def scan (x : List α) (cs : List (ℕ × ℕ)) (order : List ℕ) :
    ℕ → (ℕ × α) → ℕ → Except Outcome (ℕ × (ℕ × α) × ℕ)
  | 0, near, t => .ok (0, near, t)
  | cur + 1, near, t =>
    if near.2 = 0 then
      match nearest x cs (order.getD cur 0) with
      | none => .error .typeError
      | some near' => scan x cs order cur near' (order.getD cur 0)
    else .ok (cur + 1, near, t)

/-- Adding the found point to the clusters — dataclusters.py:206-229; returns
`(clusters, lastcluster_idx)`. -/
def place (res : α) (cs : List (ℕ × ℕ)) (near : ℕ × α) (t : ℕ) : List (ℕ × ℕ) × ℕ :=
  if |near.2| ≤ res then
    if t < (row cs near.1).1 then
      (cs.set near.1 (t, (row cs near.1).2), near.1)
    else
      (cs.set near.1 ((row cs near.1).1, t), near.1)
  else
    let i := if near.2 < 0 then near.1 else near.1 + 1
    (cs.insertIdx i (t, t), i)

/-- `__next__` — dataclusters.py:177-229. -/
def next (s : State α) : Outcome × State α :=
  match s.status with
  | .init => (.exception, s)
  | .done => (.stopIteration, s)
  | _ =>
    match scan s.x s.clusters s.dataOrder s.currentIdx (0, 0) 0 with
    | .error e => (e, { s with status := .clustering })
    | .ok (cur, near, t) =>
      let st : Status := if cur ≤ 0 then .done else .clustering
      if cur ≤ 0 ∧ near.2 = 0 then
        (.stopIteration, { s with currentIdx := cur, status := st })
      else
        let p := place s.res s.clusters near t
        (.ok, { s with
          currentIdx := cur
          status := st
          lastpoint := some t
          clusters := p.1
          lastcluster := some p.2 })

/-- `makeclusters` — dataclusters.py:231-235: `for i in self: pass`.  `MakeClusters s k s'` says the
loop makes `k` successful `__next__` calls from `s` and then stops, leaving `s'`. -/
inductive MakeClusters : State α → ℕ → State α → Prop
  | stop {s s' : State α} : next s = (.stopIteration, s') → MakeClusters s 0 s'
  | step {s s' s'' : State α} {k : ℕ} :
      next s = (.ok, s') → MakeClusters s' k s'' → MakeClusters s (k + 1) s''

/-- `cluster_is_full` — dataclusters.py:317-341.  Python integers: the bounds are computed in `ℤ`. -/
def isFull (s : State α) (i : ℕ) : Bool :=
  let low : ℤ := if i > 0 then ((row s.clusters (i - 1)).2 : ℤ) + 1 else 0
  let high : ℤ := if i + 1 < s.clusters.length then ((row s.clusters (i + 1)).1 : ℤ) - 1
    else (s.dataOrder.length : ℤ) - 1
  ((row s.clusters i).1 : ℤ) = low ∧ ((row s.clusters i).2 : ℤ) = high

/-- The validity test of one group in `combine_clusters` — dataclusters.py:365-390: the loop
`for i in range(c[0], c[-1])`, with `k = c[-1] - i` iterations left.  When a test fails Python
builds the message from `c[i]` and `c[i+1]`, itself an IndexError when `i + 1` is past the end of the
group. -/
def checkGroup (cs : List (ℕ × ℕ)) (c : List ℕ) (first : ℕ) : ℕ → ℕ → Outcome
  | 0, _ => .ok
  | k + 1, i =>
    let bad : Outcome := if i + 1 < c.length then .valueError else .indexError
    if c.length ≤ i + 1 - first then .indexError
    else if (c.getD (i + 1 - first) 0 : ℤ) - 1 ≠ (c.getD (i - first) 0 : ℤ) then bad
    else if cs.length ≤ i + 1 then .indexError
    else if ((row cs (i + 1)).1 : ℤ) - ((row cs i).2 : ℤ) ≠ 1 then bad
    else checkGroup cs c first k (i + 1)

/-- The loop over groups in `combine_clusters` — dataclusters.py:363-393: test a group, then
move its first cluster's right end.  Earlier groups stay updated when a later one raises. -/
def combineLoop : List (ℕ × ℕ) → List (List ℕ) → Outcome × List (ℕ × ℕ)
  | cs, [] => (.ok, cs)
  | cs, c :: rest =>
    match c with
    | [] => (.indexError, cs)
    | first :: _ =>
      let last := c.getD (c.length - 1) 0
      match checkGroup cs c first (last - first) first with
      | .ok =>
        if cs.length ≤ first ∨ cs.length ≤ last then (.indexError, cs)
        else combineLoop (cs.set first ((row cs first).1, (row cs last).2)) rest
      | e => (e, cs)

/-- `np.delete(clusters, todelete, 0)` — dataclusters.py:395: keep the rows whose index is not
listed.  `i` is the index of the first row given. -/
def deleteRows (todelete : List ℕ) : ℕ → List (ℕ × ℕ) → List (ℕ × ℕ)
  | _, [] => []
  | i, c :: cs => if i ∈ todelete then deleteRows todelete (i + 1) cs
      else c :: deleteRows todelete (i + 1) cs

/-- `np.array` accepts the nested list only when all groups have one length (numpy ≥ 1.24 raises
ValueError on ragged input). -/
def rectangular (g : List (List ℕ)) : Bool :=
  match g with
  | [] => true
  | c :: rest => rest.all (fun d => d.length = c.length)

/-- `combine_clusters` — dataclusters.py:343-396.  Simplification: with nothing to delete (no
groups, or one-element groups) numpy receives an empty float array of indices, whose treatment by
`np.delete` depends on the numpy version; the model deletes nothing. -/
def combine (s : State α) (groups : List (List ℕ)) : Outcome × State α :=
  if rectangular groups = false then (.valueError, s)
  else if ¬ groups.flatten.Nodup then (.valueError, s)
  else
    match combineLoop s.clusters groups with
    | (.ok, cs) =>
      let todelete := (groups.map List.tail).flatten
      if todelete.any (fun i => cs.length ≤ i) then (.indexError, { s with clusters := cs })
      else (.ok, { s with clusters := deleteRows todelete 0 cs })
    | (e, cs) => (e, { s with clusters := cs })

/-- Clusters `i` and `i+1` have no unclustered point between them: the test
`clusters[i+1,0] - clusters[i,1] == 1` of dataclusters.py:413, 424. -/
def adjacentAt (cs : List (ℕ × ℕ)) (i : ℕ) : Bool :=
  ((row cs (i + 1)).1 : ℤ) - ((row cs i).2 : ℤ) = 1

/-- First inner loop of `find_adjacent_clusters` — dataclusters.py:411-415. -/
def seekLeft (cs : List (ℕ × ℕ)) (i : ℕ) : ℕ :=
  if i + 1 < cs.length then
    if adjacentAt cs i then i else seekLeft cs (i + 1)
  else i
termination_by cs.length - i

/-- Second inner loop of `find_adjacent_clusters` — dataclusters.py:421-425. -/
def seekRight (cs : List (ℕ × ℕ)) (i : ℕ) : ℕ :=
  if i + 1 < cs.length then
    if adjacentAt cs i then seekRight cs (i + 1) else i
  else i
termination_by cs.length - i

theorem le_seekLeft (cs : List (ℕ × ℕ)) (i : ℕ) : i ≤ seekLeft cs i := by
  fun_induction seekLeft cs i <;> omega

theorem le_seekRight (cs : List (ℕ × ℕ)) (i : ℕ) : i ≤ seekRight cs i := by
  fun_induction seekRight cs i <;> omega

/-- Outer loop of `find_adjacent_clusters` — dataclusters.py:410-431. -/
def adjLoop (cs : List (ℕ × ℕ)) (left : ℕ) : List (List ℕ) :=
  if left + 1 < cs.length then
    let l := seekLeft cs left
    let r := seekRight cs l
    if r > l then List.range' l (r + 1 - l) :: adjLoop cs (r + 1)
    else adjLoop cs (r + 1)
  else []
termination_by cs.length - left
decreasing_by
  all_goals
    have := le_seekLeft cs left
    have := le_seekRight cs (seekLeft cs left)
    omega

/-- `find_adjacent_clusters` — dataclusters.py:398-432; `np.array(adj)` raises ValueError on ragged
groups. -/
def findAdjacent (s : State α) : Except Outcome (List (List ℕ)) :=
  if s.status = .init then .error .exception
  else
    let adj := adjLoop s.clusters 0
    if rectangular adj then .ok adj else .error .valueError

/-- `cut(i)` for a single cluster index — dataclusters.py:434-444: `slice(lo, hi+1)`. -/
def cut (s : State α) (i : ℕ) : ℕ × ℕ := ((row s.clusters i).1, (row s.clusters i).2 + 1)

/-- `find_nearest_cluster2` — dataclusters.py:237-265.  The test `idx > 0 or idx >= len` sends
every positive index straight to `find_nearest_cluster`, which reads `self.x[idx]` and so raises
IndexError for `idx = len(x)` (every cluster lies left of it) unless there are no clusters.  For `idx = 0` the code compares with `self.x[-1]`, the last
coordinate, and on the else branch asks for index `-1`, for which `clusters_flat.searchsorted(-1)`
is 0. -/
def findNearest2 (s : State α) (v : α) : Except Outcome (Option (ℕ × α)) :=
  if s.status = .init then .error .exception
  else
    let idx := searchsorted s.x v
    if idx > 0 ∨ idx ≥ s.x.length then
      if idx ≥ s.x.length then if s.clusters.length = 0 then .ok none else .error .indexError
      else findNearest s idx
    else
      if s.x.getD 0 0 - v < v - s.x.getD (s.x.length - 1) 0 then findNearest s 0
      else
        -- index -1: left of the first cluster; `self.x[-1]` is the last coordinate
        if s.clusters.length = 0 then .ok none
        else .ok (some (0, s.x.getD (s.x.length - 1) 0 - s.x.getD (row s.clusters 0).1 0))

end Verif.Cluster
