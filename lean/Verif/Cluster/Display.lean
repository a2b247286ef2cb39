import Verif.Cluster.Props
import Mathlib.Algebra.Order.Field.Basic
import Mathlib.Algebra.Order.Ring.Rat
import Mathlib.Data.List.Dedup
import Mathlib.Data.List.Sort
import Mathlib.Data.List.ReduceOption
import Mathlib.Tactic.Ring
import Mathlib.Tactic.NormNum

/-!
# Property C101: showing the clusters

`cluster_boundaries`, `plot` and `animate` of `DataClusters` — dataclusters.py:451-512.  What is drawn is not modelled, only whether the calls return and
in what state they leave the object.
-/

set_option linter.unusedSectionVars false

namespace Verif.Cluster

variable {K : Type} [Field K] [LinearOrder K] [IsStrictOrderedRing K]

/-! ## Model -/

/-- `np.mean`; `none`: NaN (with a warning), the mean of nothing. -/
def mean (l : List K) : Option K := if l = [] then none else some (l.sum / (l.length : K))

/-- `v[lo - 1 : lo + 1]` — dataclusters.py:455-456.  For `lo = 0` this is `v[-1 : 1]`: from the last point up to the second. -/
def around (v : List K) (lo : ℕ) : List K :=
  let start := if lo = 0 then v.length - 1 else lo - 1
  (v.take (lo + 1)).drop start

/-- `v[hi : hi + 2]` — dataclusters.py:457-458. -/
def after (v : List K) (hi : ℕ) : List K := (v.drop hi).take 2

/-- The numbers of `boundaries` — dataclusters.py:453-460. -/
def corners (s : State K) : List (Option K) :=
  s.clusters.flatMap (fun c => [mean (around s.x c.1), mean (around s.y c.1), mean (after s.x c.2), mean (after s.y c.2)])

/-- `np.unique` of numbers some of which may be NaN: each once, in increasing order, at the end one NaN for all NaNs (numpy 1.21 and later). -/
def unique (l : List (Option K)) : List (Option K) :=
  ((l.reduceOption.dedup.insertionSort (· ≤ ·)).map some) ++ (if none ∈ l then [none] else [])

/-- `cluster_boundaries()` — dataclusters.py:451-461.  `np.unique` without an axis takes the numbers out of their pairs.  In the initial
state the only row of `clusters` is empty: IndexError. -/
def boundaries (s : State K) : Except Outcome (List (Option K)) :=
  if s.status = .init then .error .indexError else .ok (unique (corners s))

/-- `plot()` — dataclusters.py:463-480: `b[0]` of a number is IndexError. -/
def plot (s : State K) : Outcome :=
  match boundaries s with
  | .error e => e
  | .ok [] => .ok
  | .ok (_ :: _) => .indexError

/-- The loop of `animate()` — dataclusters.py:498-511: the object when it ends, or when the exception leaves it.  `b[1]` of the first boundary
is IndexError, so only an object without boundaries goes on; `fuel` bounds the steps. -/
def frames : ℕ → State K → Outcome × State K
  | 0, s => (.ok, s)
  | fuel + 1, s =>
    match Cluster.next s with
    | (.stopIteration, t) => (.ok, t)
    | (.ok, t) =>
      match boundaries t with
      | .error e => (e, t)
      | .ok [] => frames fuel t
      | .ok (_ :: _) => (.indexError, t)
    | (e, t) => (e, t)

/-- `animate()` — dataclusters.py:482-518.  The state is restored only after the loop. -/
def animate (s : State K) : Outcome × State K :=
  match Cluster.reset s with
  | (.ok, t) =>
    match frames t.x.length t with
    | (.ok, _) => (.ok, s)
    | (e, u) => (e, u)
  | (e, t) => (e, t)

/-! ## Specification -/

/-- The boundary of two points is half way between them; beyond the last point there is only the last point itself. -/
inductive Corner (v : List K) (cs : List (ℕ × ℕ)) (w : K) : Prop
  | left (c : ℕ × ℕ) (hc : c ∈ cs) (i : ℕ) (hi : c.1 = i + 1) (hw : w = (v.getD i 0 + v.getD (i + 1) 0) / 2)
  | right (c : ℕ × ℕ) (hc : c ∈ cs) (hi : c.2 + 1 < v.length) (hw : w = (v.getD c.2 0 + v.getD (c.2 + 1) 0) / 2)
  | last (c : ℕ × ℕ) (hc : c ∈ cs) (hi : c.2 + 1 = v.length) (hw : w = v.getD c.2 0)
  | only (h0 : v.length = 1) (hw : w = v.getD 0 0)

/-! ## Lemmas -/

theorem mean_two (u w : K) : mean [u, w] = some ((u + w) / 2) := by
  unfold mean
  rw [if_neg (by simp)]
  norm_num

theorem mean_one (u : K) : mean [u] = some u := by
  unfold mean
  rw [if_neg (by simp)]
  norm_num

theorem getD_of_lt {v : List K} {i : ℕ} (h : i < v.length) : v.getD i 0 = v[i] := by
  rw [List.getD_eq_getElem?_getD, List.getElem?_eq_getElem h]; rfl

theorem pair_at {v : List K} {i : ℕ} (h : i + 1 < v.length) : (v.drop i).take 2 = [v.getD i 0, v.getD (i + 1) 0] := by
  rw [List.drop_eq_getElem_cons (by omega), List.drop_eq_getElem_cons h, getD_of_lt h, getD_of_lt (by omega : i < v.length)]
  rfl

theorem mean_left {v : List K} {i : ℕ} (h : i + 1 < v.length) : mean (around v (i + 1)) = some ((v.getD i 0 + v.getD (i + 1) 0) / 2) := by
  unfold around
  simp only [Nat.add_one_ne_zero, if_false, Nat.add_sub_cancel]
  rw [List.drop_take, show i + 1 + 1 - i = 2 by omega, pair_at h, mean_two]

theorem mean_first {v : List K} (h : 0 < v.length) : mean (around v 0) = if v.length = 1 then some (v.getD 0 0) else none := by
  unfold around
  simp only [if_true, Nat.zero_add]
  match v, h with
  | [u], _ => exact mean_one u
  | u :: w :: r, _ =>
    rw [if_neg (by simp)]
    have : ((u :: w :: r).take 1).drop ((u :: w :: r).length - 1) = [] := by simp
    rw [this]
    rfl

theorem mean_after {v : List K} {hi : ℕ} (h : hi < v.length) :
    mean (after v hi) = if hi + 1 = v.length then some (v.getD hi 0) else some ((v.getD hi 0 + v.getD (hi + 1) 0) / 2) := by
  unfold after
  by_cases hl : hi + 1 = v.length
  · rw [if_pos hl, List.drop_eq_getElem_cons h, List.drop_eq_nil_of_le (by omega), getD_of_lt h]
    exact mean_one _
  · rw [if_neg hl, pair_at (by omega), mean_two]

theorem mem_unique_some (l : List (Option K)) (w : K) : w ∈ l.reduceOption.dedup.insertionSort (· ≤ ·) ↔ some w ∈ l := by
  rw [List.mem_insertionSort, List.mem_dedup]
  exact List.reduceOption_mem_iff

theorem unique_increasing (l : List (Option K)) : (l.reduceOption.dedup.insertionSort (· ≤ ·)).Pairwise (· < ·) := by
  have h1 : (l.reduceOption.dedup.insertionSort (· ≤ ·)).Pairwise (· ≤ ·) := List.pairwise_insertionSort _ _
  have h2 : (l.reduceOption.dedup.insertionSort (· ≤ ·)).Pairwise (· ≠ ·) :=
    (List.perm_insertionSort _ _).nodup_iff.2 (List.nodup_dedup _)
  exact (h1.and h2).imp fun h => lt_of_le_of_ne h.1 h.2

theorem corner_iff {v : List K} {cs : List (ℕ × ℕ)} (hcs : ∀ c ∈ cs, c.1 < v.length ∧ c.2 < v.length) (hne : cs ≠ []) (w : K)
    (h1 : v.length = 1 → ∀ c ∈ cs, c.1 = 0) :
    (∃ c ∈ cs, mean (around v c.1) = some w ∨ mean (after v c.2) = some w) ↔ Corner v cs w := by
  constructor
  · rintro ⟨c, hc, h | h⟩
    · cases hi : c.1 with
      | zero =>
        rw [hi, mean_first (by have := (hcs c hc).1; omega)] at h
        split at h
        · rename_i hl
          simp only [Option.some.injEq] at h
          exact .only hl h.symm
        · simp at h
      | succ i =>
        rw [hi, mean_left (by have := (hcs c hc).1; omega)] at h
        simp only [Option.some.injEq] at h
        exact .left c hc i hi h.symm
    · rw [mean_after (hcs c hc).2] at h
      split at h
      · rename_i hl
        simp only [Option.some.injEq] at h
        exact .last c hc hl h.symm
      · rename_i hl
        simp only [Option.some.injEq] at h
        exact .right c hc (by have := (hcs c hc).2; omega) h.symm
  · rintro (⟨c, hc, i, hi, hw⟩ | ⟨c, hc, hi, hw⟩ | ⟨c, hc, hi, hw⟩ | ⟨h0, hw⟩)
    · refine ⟨c, hc, Or.inl ?_⟩
      rw [hi, mean_left (by have := (hcs c hc).1; omega), hw]
    · refine ⟨c, hc, Or.inr ?_⟩
      rw [mean_after (hcs c hc).2, if_neg (by omega), hw]
    · refine ⟨c, hc, Or.inr ?_⟩
      rw [mean_after (hcs c hc).2, if_pos hi, hw]
    · obtain ⟨c, cs', rfl⟩ := List.exists_cons_of_ne_nil hne
      refine ⟨c, List.mem_cons_self, Or.inl ?_⟩
      rw [h1 h0 c List.mem_cons_self, mean_first (by omega), if_pos h0, hw]

theorem mem_corners (s : State K) (o : Option K) : o ∈ corners s ↔ ∃ c ∈ s.clusters,
    o = mean (around s.x c.1) ∨ o = mean (around s.y c.1) ∨ o = mean (after s.x c.2) ∨ o = mean (after s.y c.2) := by
  unfold corners
  simp only [List.mem_flatMap, List.mem_cons, List.not_mem_nil, or_false]

/-! ## Theorems -/

variable {x y : List K} {res : K} {order : List ℕ} {s : State K}

/-- **C101.** `cluster_boundaries()` of an object with data, after any calls: not pairs, but one increasing list of numbers, in which the
coordinates of the boundaries and the values there are mixed; and one NaN after them if a cluster begins at the first of
several points. -/
theorem c101_boundaries (hx : Nondecreasing x) (ho : IsArgsort y order) (h : Reachable x y res order s) :
    ∃ (l : List K) (nans : List (Option K)), boundaries s = .ok (l.map some ++ nans) ∧ l.Pairwise (· < ·) ∧
      (∀ w, w ∈ l ↔ Corner x s.clusters w ∨ Corner y s.clusters w) ∧
      nans = if 2 ≤ x.length ∧ (∃ c ∈ s.clusters, c.1 = 0) then [none] else [] := by
  obtain ⟨hxy, hinv⟩ := inv_reachable hx ho h
  have hw := hinv.wf
  have hcx : ∀ c ∈ s.clusters, c.1 < x.length ∧ c.2 < x.length := by
    intro c hc
    have := hw.valid c hc
    omega
  have hcy : ∀ c ∈ s.clusters, c.1 < y.length ∧ c.2 < y.length := by rw [← hxy]; exact hcx
  have hne : s.clusters ≠ [] := hw.nonempty
  have hz : ∀ m : ℕ, m = x.length → m = 1 → ∀ c ∈ s.clusters, c.1 = 0 := by
    intro m hm h1 c hc
    have := (hcx c hc).1
    omega
  refine ⟨_, _, by unfold boundaries unique; rw [if_neg hinv.st], unique_increasing _, ?_, ?_⟩
  · intro w
    rw [mem_unique_some, mem_corners, hinv.sx, hinv.sy, ← corner_iff hcx hne w (hz _ rfl), ← corner_iff hcy hne w (hz _ hxy.symm)]
    constructor
    · rintro ⟨c, hc, h | h | h | h⟩
      · exact Or.inl ⟨c, hc, Or.inl h.symm⟩
      · exact Or.inr ⟨c, hc, Or.inl h.symm⟩
      · exact Or.inl ⟨c, hc, Or.inr h.symm⟩
      · exact Or.inr ⟨c, hc, Or.inr h.symm⟩
    · rintro (⟨c, hc, h | h⟩ | ⟨c, hc, h | h⟩)
      · exact ⟨c, hc, Or.inl h.symm⟩
      · exact ⟨c, hc, Or.inr (Or.inr (Or.inl h.symm))⟩
      · exact ⟨c, hc, Or.inr (Or.inl h.symm)⟩
      · exact ⟨c, hc, Or.inr (Or.inr (Or.inr h.symm))⟩
  · have hafter : ∀ (v : List K) (i : ℕ), i < v.length → mean (after v i) ≠ none := by
      intro v i hi
      rw [mean_after hi]
      split <;> simp
    have haround : ∀ (v : List K) (i : ℕ), i < v.length → (mean (around v i) = none ↔ i = 0 ∧ 2 ≤ v.length) := by
      intro v i hi
      cases i with
      | zero =>
        rw [mean_first hi]
        by_cases h1 : v.length = 1
        · rw [if_pos h1]; simp [h1]
        · rw [if_neg h1]; simp; omega
      | succ i => rw [mean_left hi]; simp
    have : none ∈ corners s ↔ 2 ≤ x.length ∧ ∃ c ∈ s.clusters, c.1 = 0 := by
      rw [mem_corners, hinv.sx, hinv.sy]
      constructor
      · rintro ⟨c, hc, h | h | h | h⟩
        · have := (haround x c.1 (hcx c hc).1).1 h.symm
          exact ⟨this.2, c, hc, this.1⟩
        · have := (haround y c.1 (hcy c hc).1).1 h.symm
          exact ⟨by omega, c, hc, this.1⟩
        · exact absurd h.symm (hafter x c.2 (hcx c hc).2)
        · exact absurd h.symm (hafter y c.2 (hcy c hc).2)
      · rintro ⟨h2, c, hc, h0⟩
        exact ⟨c, hc, Or.inl ((haround x c.1 (hcx c hc).1).2 ⟨h0, h2⟩).symm⟩
    simp only [this]

theorem boundaries_cons (hx : Nondecreasing x) (ho : IsArgsort y order) (h : Reachable x y res order s) :
    ∃ b bs, boundaries s = .ok (b :: bs) := by
  obtain ⟨hxy, hinv⟩ := inv_reachable hx ho h
  obtain ⟨l, nans, he, -, hm, -⟩ := c101_boundaries hx ho h
  have hw := hinv.wf
  obtain ⟨c, cs', hc⟩ := List.exists_cons_of_ne_nil hw.nonempty
  have hlt : c.2 < x.length := by
    have := hw.valid c (by rw [hc]; exact List.mem_cons_self)
    omega
  have hmem : c ∈ s.clusters := by rw [hc]; exact List.mem_cons_self
  have : ∃ w, w ∈ l := by
    by_cases hl : c.2 + 1 = x.length
    · exact ⟨_, (hm _).2 (Or.inl (.last c hmem hl rfl))⟩
    · exact ⟨_, (hm _).2 (Or.inl (.right c hmem (by omega) rfl))⟩
  obtain ⟨w, hwl⟩ := this
  rw [he]
  cases l with
  | nil => cases hwl
  | cons u us => exact ⟨_, _, rfl⟩

/-- **C101, finding.** `plot()` always raises IndexError: on an object without data, and on every object with data. -/
theorem c101_plot_fails :
    (∀ s : State K, s.status = .init → plot s = .indexError) ∧
    ∀ {x y : List K} {res : K} {order : List ℕ} {s : State K}, Nondecreasing x → IsArgsort y order → Reachable x y res order s → plot s = .indexError := by
  constructor
  · intro s h
    unfold plot boundaries
    rw [if_pos h]
  · intro x y res order s hx ho h
    obtain ⟨b, bs, e⟩ := boundaries_cons hx ho h
    unfold plot
    rw [e]

/-- **C101, finding.** `animate()`, which is to restore the state: with more than one point (at different coordinates) it always raises
IndexError, and the object is left as after `reset_clusters()` and one step, whatever it was before.  Only with one point it
returns, and restores. -/
theorem c101_animate (hx : Increasing x) (ho : IsArgsort y order) (h : Reachable x y res order s) :
    (x.length = 1 → animate s = (.ok, s)) ∧
    (2 ≤ x.length → animate s = (.indexError, (Cluster.next (Cluster.reset s).2).2) ∧ (Cluster.next (Cluster.reset s).2).1 = .ok) := by
  obtain ⟨hxy, hinv⟩ := inv_reachable hx.nondecreasing ho h
  have hol := order_length ho
  have hrr : Reachable x y res order (Cluster.reset s).2 := .reset h
  have hnr : Reachable x y res order (Cluster.next (Cluster.reset s).2).2 := .next hrr
  have hpos : 0 < x.length := by have := hinv.cur; omega
  have hord : s.dataOrder = order := hinv.so
  have hr : Cluster.reset s = (.ok, (Cluster.reset s).2) := by
    unfold Cluster.reset
    rw [if_neg (by rw [hord]; omega)]
  have hrx : (Cluster.reset s).2.x = x := (inv_reachable hx.nondecreasing ho hrr).2.sx
  obtain ⟨hdich, hstop⟩ := c02_stop_iff_complete hx ho hrr
  have hcl : (Cluster.reset s).2.clusters = [(order.getD (order.length - 1) 0, order.getD (order.length - 1) 0)] := by
    unfold Cluster.reset
    rw [if_neg (by rw [hord]; omega), hord]
  constructor
  · intro h1
    have hs : (Cluster.next (Cluster.reset s).2).1 = .stopIteration := by
      refine hstop.2 ?_
      intro i hi
      have hw := (inv_reachable hx.nondecreasing ho hrr).2.wf
      refine ⟨_, by rw [hcl]; exact List.mem_singleton.2 rfl, ?_, ?_⟩
      · have := hw.valid _ (by rw [hcl]; exact List.mem_singleton.2 rfl)
        simp only at this ⊢
        omega
      · omega
    unfold animate
    rw [hr]
    simp only
    rw [hrx, h1]
    unfold frames
    cases hn : Cluster.next (Cluster.reset s).2 with
    | mk o t =>
      rw [hn] at hs
      simp only at hs
      subst hs
      rfl
  · intro h2
    have hs : (Cluster.next (Cluster.reset s).2).1 = .ok := by
      rcases hdich with hd | hd
      · exact hd
      · exfalso
        have hall := hstop.1 hd
        obtain ⟨c0, hc0, a0, b0⟩ := hall 0 (by omega)
        obtain ⟨c1, hc1, a1, b1⟩ := hall 1 (by omega)
        rw [hcl] at hc0 hc1
        rw [List.mem_singleton.1 hc0] at a0 b0
        rw [List.mem_singleton.1 hc1] at a1 b1
        simp only at a0 b0 a1 b1
        omega
    refine ⟨?_, hs⟩
    obtain ⟨b, bs, e⟩ := boundaries_cons hx.nondecreasing ho hnr
    unfold animate
    rw [hr]
    simp only
    rw [hrx]
    obtain ⟨m, hm⟩ : ∃ m, x.length = m + 1 := ⟨x.length - 1, by omega⟩
    rw [hm]
    unfold frames
    cases hn : Cluster.next (Cluster.reset s).2 with
    | mk o t =>
      rw [hn] at hs e
      simp only at hs e
      subst hs
      simp only
      rw [e]

/-! ## Instances -/

/-- Three points in one cluster each. -/
def showX : List ℚ := [0, 1, 3]

def showS : State ℚ := ⟨showX, [5, 2, 7], 0, [1, 0, 2], [(2, 2)], 2, none, some 2, .ready⟩

theorem showX_inc : Increasing showX := by
  have h1 : (0 : ℚ) < 1 := by norm_num
  have h2 : (0 : ℚ) < 3 := by norm_num
  have h3 : (1 : ℚ) < 3 := by norm_num
  simp [Increasing, showX, h1, h2, h3]

theorem showS_argsort : IsArgsort ([5, 2, 7] : List ℚ) [1, 0, 2] := by
  unfold IsArgsort
  constructor <;> decide +kernel

theorem showS_reachable : Reachable showX [5, 2, 7] 0 [1, 0, 2] (Cluster.next (Cluster.next showS).2).2 :=
  .next (.next (.mk (by simp [showX]) rfl))

/-- The boundaries 1/2, 2 and 3 among the values there: 7/2, 9/2 and 7. -/
example : (boundaries (Cluster.next (Cluster.next showS).2).2).toOption = some [some (1 / 2), some 2, some 3, some (7 / 2), some (9 / 2), some 7, none] := by
  decide +kernel

example := c101_boundaries showX_inc.nondecreasing showS_argsort showS_reachable

example := c101_plot_fails.2 showX_inc.nondecreasing showS_argsort showS_reachable

/-- A finished clustering is lost. -/
example : (Cluster.next (Cluster.next showS).2).2.clusters = [(0, 0), (1, 1), (2, 2)] ∧
    (animate (Cluster.next (Cluster.next showS).2).2).2.clusters = [(0, 0), (2, 2)] := by
  rw [((c101_animate showX_inc showS_argsort showS_reachable).2 (by simp [showX])).1]
  constructor <;> decide +kernel

end Verif.Cluster
