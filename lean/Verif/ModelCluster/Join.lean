import Verif.ModelCluster.Fit

/-!
# C25: `ModelCluster.join_adjacent`
-/

set_option linter.unusedSectionVars false

namespace Verif.Parts.ModelCluster

open Verif.Py Verif.PeakList

variable {K : Type} [Field K] [LinearOrder K]

/-! ### The loop removing duplicates at the border -/

/-- Drop every peak at the border whose predecessor is at the border too. -/
def collapse (b : K) : Bool → List (Part K) → List (Part K)
  | _, [] => []
  | prev, p :: ps =>
    if decide (pos p = b) && prev then collapse b true ps else p :: collapse b (decide (pos p = b)) ps

theorem collapse_snoc (b : K) (prev : Bool) (l : List (Part K)) (p : Part K) :
    collapse b prev (l ++ [p]) = collapse b prev l ++
      (if decide (pos p = b) && (l.getLast?.map (fun q => decide (pos q = b))).getD prev then [] else [p]) := by
  induction l generalizing prev with
  | nil => rfl
  | cons q l ih =>
    have hlast : ((q :: l).getLast?.map (fun q => decide (pos q = b))).getD prev =
        (l.getLast?.map (fun q => decide (pos q = b))).getD (decide (pos q = b)) := by
      cases hl : l.getLast? with
      | none =>
        rw [List.getLast?_eq_none_iff] at hl
        subst hl; simp
      | some v =>
        have : (q :: l).getLast? = some v := by
          rw [List.getLast?_cons, hl]; rfl
        rw [this]; simp
    rw [List.cons_append, collapse, collapse, hlast]
    split
    · rename_i hc
      rw [ih true]
      have : decide (pos q = b) = true := by
        simp only [Bool.and_eq_true] at hc; exact hc.1
      rw [this]
    · rw [ih, List.cons_append]

theorem dedupLoop_eq (b : K) : ∀ (i : ℕ) (m : List (Part K)), i ≤ m.length →
    dedupLoop b i m = collapse b false (m.take i) ++ m.drop i := by
  intro i
  induction i with
  | zero => intro m _; simp [dedupLoop, collapse]
  | succ i ih =>
    intro m hi
    unfold dedupLoop
    simp only
    have hmi : m[i]? = some m[i] := List.getElem?_eq_getElem (by omega)
    have ht : m.take (i + 1) = m.take i ++ [m[i]] := by
      rw [List.take_succ_eq_append_getElem (by omega)]
    rw [ht, collapse_snoc]
    have hprev : ((m.take i).getLast?.map (fun q => decide (pos q = b))).getD false =
        (decide (0 < i) && (m[i - 1]?.map (fun p => decide (pos p = b))).getD false) := by
      by_cases h0 : i = 0
      · subst h0; simp
      · have : (m.take i).getLast? = m[i - 1]? := by
          rw [List.getLast?_eq_getElem?, List.length_take, List.getElem?_take]
          rw [Nat.min_eq_left (by omega), if_pos (by omega)]
        rw [this]
        simp [Nat.pos_of_ne_zero h0]
    rw [hprev]
    simp only [hmi, Option.map_some, Option.getD_some, Bool.and_assoc]
    generalize (decide (pos m[i] = b) && (decide (0 < i) &&
      (Option.map (fun p => decide (pos p = b)) m[i - 1]?).getD false)) = cond
    cases cond with
    | true =>
      rw [if_pos rfl, if_pos rfl]
      rw [ih _ (by rw [List.length_eraseIdx]; split <;> omega)]
      have h2 : (m.eraseIdx i).take i = m.take i := by
        rw [List.take_eraseIdx_eq_take_of_le]; omega
      have h3 : (m.eraseIdx i).drop i = m.drop (i + 1) := by
        have hl : (m.take i).length = i := by rw [List.length_take]; omega
        rw [List.eraseIdx_eq_take_drop_succ, List.drop_append_of_le_length (by omega)]
        rw [List.drop_eq_nil_of_le (by omega)]
        rfl
      rw [h2, h3, List.append_nil]
    | false =>
      rw [if_neg (by simp), if_neg (by simp)]
      rw [ih _ (by omega), List.append_assoc]
      congr 1
      rw [List.singleton_append, ← List.drop_eq_getElem_cons]

theorem collapse_sublist (b : K) (prev : Bool) (l : List (Part K)) : (collapse b prev l).Sublist l := by
  induction l generalizing prev with
  | nil => exact List.Sublist.refl _
  | cons p l ih =>
    unfold collapse
    split
    · exact (ih true).cons p
    · exact (ih _).cons_cons p

theorem collapse_off_border (b : K) (prev : Bool) (l : List (Part K)) :
    (collapse b prev l).filter (fun p => decide (pos p ≠ b)) = l.filter (fun p => decide (pos p ≠ b)) := by
  induction l generalizing prev with
  | nil => rfl
  | cons p l ih =>
    unfold collapse
    split
    · rename_i hc
      simp only [Bool.and_eq_true, decide_eq_true_eq] at hc
      rw [ih, List.filter_cons_of_neg (by simp [hc.1])]
    · rw [List.filter_cons, List.filter_cons, ih]

theorem collapse_true_none (b : K) (l : List (Part K)) (hs : l.Pairwise (fun p q => pos p ≤ pos q))
    (hge : ∀ p ∈ l, b ≤ pos p) : (collapse b true l).filter (fun p => decide (pos p = b)) = [] := by
  induction l with
  | nil => rfl
  | cons p l ih =>
    obtain ⟨h1, h2⟩ := List.pairwise_cons.1 hs
    unfold collapse
    by_cases hp : pos p = b
    · rw [if_pos (by simp [hp])]
      exact ih h2 (fun q hq => hge q (List.mem_cons_of_mem _ hq))
    · rw [if_neg (by simp [hp]), List.filter_cons_of_neg (by simp [hp])]
      rw [List.filter_eq_nil_iff]
      intro q hq
      have hq' : q ∈ l := (collapse_sublist b _ l).subset hq
      have h3 := h1 q hq'
      have h4 := hge p List.mem_cons_self
      have : b < pos q := lt_of_lt_of_le (lt_of_le_of_ne h4 (Ne.symm hp)) h3
      simpa using this.ne'

/-- On a sorted model exactly the first of the peaks at the border stays. -/
theorem collapse_border (b : K) (l : List (Part K)) (hs : l.Pairwise (fun p q => pos p ≤ pos q)) :
    (collapse b false l).filter (fun p => decide (pos p = b)) =
      (l.filter (fun p => decide (pos p = b))).take 1 := by
  induction l with
  | nil => rfl
  | cons p l ih =>
    obtain ⟨h1, h2⟩ := List.pairwise_cons.1 hs
    unfold collapse
    rw [if_neg (by simp)]
    by_cases hp : pos p = b
    · rw [List.filter_cons_of_pos (by simpa using hp), List.filter_cons_of_pos (by simpa using hp)]
      have : decide (pos p = b) = true := by simpa using hp
      rw [this, collapse_true_none b l h2 (fun q hq => hp ▸ h1 q hq)]
      simp
    · rw [List.filter_cons_of_neg (by simpa using hp), List.filter_cons_of_neg (by simpa using hp)]
      have : decide (pos p = b) = false := by simpa using hp
      rw [this]
      exact ih h2

/-! ### The joined cluster -/

/-- `m` holds the peaks of `both`, in order of position, with only one of those exactly at `border`. -/
structure Merged (border : K) (both m : List (Part K)) : Prop where
  sorted : m.Pairwise (fun p q => pos p ≤ pos q)
  elsewhere : (m.filter (fun p => decide (pos p ≠ border))).Perm
    (both.filter (fun p => decide (pos p ≠ border)))
  atBorder : (m.filter (fun p => decide (pos p = border))).length =
    min 1 (both.filter (fun p => decide (pos p = border))).length
  mem : ∀ p ∈ m, p ∈ both

theorem joinModels_eq {as : List K → List ℕ} (has : SortsKeys as) (border : K)
    (f : List (Part K) → List (Part K)) (left right : List (Part K)) :
    ∃ m, Merged border (left ++ right) m ∧ joinModels as border f left right = f m := by
  obtain ⟨a1, a2, -⟩ := c37_argsort has pos (left ++ right)
  generalize hm : (argsort as pos (left ++ right)).filterMap (fun i => (left ++ right)[i]?) = m at a2
  have hperm : m.Perm (left ++ right) := by
    rw [← hm]
    have := a1.filterMap (fun i => (left ++ right)[i]?)
    rwa [filterMap_range_getElem?] at this
  have hd : dedupLoop border m.length m = collapse border false m := by
    rw [dedupLoop_eq border m.length m (le_refl _)]
    simp
  refine ⟨collapse border false m, ⟨?_, ?_, ?_, ?_⟩, ?_⟩
  · exact a2.sublist (collapse_sublist border false m)
  · rw [collapse_off_border]
    exact hperm.filter _
  · rw [collapse_border border m a2, List.length_take, (hperm.filter _).length_eq]
  · intro p hp
    exact hperm.subset ((collapse_sublist border false m).subset hp)
  · unfold joinModels
    simp only
    rw [hm, hd]

/-- A non-empty slice inside the data. -/
def Proper (s : Slice) (n : ℕ) : Prop := s.start.getD 0 < s.stop ∧ s.stop ≤ n

/-- The clusters share data, uncertainties, evaluator and (up to equivalence) the baseline. -/
structure Shared (eqv : Option (Part K) → Option (Part K) → Bool) (m1 m2 : Cluster K) : Prop where
  rId : m1.rId = m2.rId
  yId : m1.yId = m2.yId
  eId : m1.eId = m2.eId
  method : m1.method = m2.method
  baseline : eqv m1.baseline m2.baseline = true

/-- What the joined cluster of `left` and `right`, meeting at index `mid`, is. -/
structure Joined (as : List K → List ℕ) (sc : Part K → K → K → Res (List K)) (val : Part K → K → K)
    (left right c : Cluster K) (lo mid hi : ℕ) : Prop where
  slice : c.slice = some ⟨some lo, hi⟩
  model : (left.model ≠ [] ∧ right.model ≠ [] ∧
      ∃ xl xr yl yr m, left.r[mid - 1]? = some xl ∧ left.r[mid]? = some xr ∧
        left.y[mid - 1]? = some yl ∧ left.y[mid]? = some yr ∧
        Merged ((xl + xr) / 2) (left.model ++ right.model) m ∧
        c.model = (matchAt sc val m ((xl + xr) / 2) ((yl + yr) / 2)).2) ∨
    (right.model = [] ∧ c.model = left.model) ∨ (left.model = [] ∧ c.model = right.model)

theorem joinAdjacent_shared {as : List K → List ℕ} {eqv : Option (Part K) → Option (Part K) → Bool}
    {sc : Part K → K → K → Res (List K)} {val : Part K → K → K} {ex : List K}
    {m1 m2 : Cluster K} (hs : ¬ Shared eqv m1 m2) :
    joinAdjacent as eqv sc val ex m1 m2 = .error .value := by
  unfold joinAdjacent
  by_cases h1 : m1.rId ≠ m2.rId
  · rw [if_pos h1]
  rw [if_neg h1]
  by_cases h2 : m1.yId ≠ m2.yId
  · rw [if_pos h2]
  rw [if_neg h2]
  by_cases h3 : m1.eId ≠ m2.eId
  · rw [if_pos h3]
  rw [if_neg h3]
  by_cases h4 : m1.method ≠ m2.method
  · rw [if_pos h4]
  rw [if_neg h4]
  by_cases h5 : eqv m1.baseline m2.baseline = true
  · exact absurd ⟨not_not.1 h1, not_not.1 h2, not_not.1 h3, not_not.1 h4, h5⟩ hs
  · rw [if_pos h5]

/-- The call on two clusters `left`, `right` that share everything, whose slices are `[lo, mid)` and
`[mid, hi)`, whichever comes first. -/
theorem joinAdjacent_adjacent {as : List K → List ℕ} (has : SortsKeys as)
    {eqv : Option (Part K) → Option (Part K) → Bool}
    {sc : Part K → K → K → Res (List K)} {val : Part K → K → K} {ex : List K}
    {left right m1 m2 : Cluster K} (hs : Shared eqv m1 m2) (hr : left.r = right.r) (hy : left.y = right.y)
    (hly : left.y.length = left.r.length) (hex : ex.length = left.r.length)
    (horder : (m1 = left ∧ m2 = right) ∨ (m1 = right ∧ m2 = left))
    {sl sr : Slice} (h1 : left.slice = some sl) (h2 : right.slice = some sr)
    (p1 : Proper sl left.r.length) (p2 : Proper sr left.r.length) (hadj : sl.stop = sr.start.getD 0) :
    ∃ c, joinAdjacent as eqv sc val ex m1 m2 = .ok c ∧
      Joined as sc val left right c (sl.start.getD 0) sl.stop sr.stop ∧
      (∀ a : ℕ, a ∈ c.funcs ↔ a ∈ left.funcs ∨ a ∈ right.funcs) ∧ c.baseline = m1.baseline ∧ c.lastFit = 0 ∧
      c.r = m1.r ∧ c.y = m1.y ∧ c.err = m1.err ∧
      c.neverFit = (getSlice ex (some (sl.start.getD 0, sr.stop))).all (fun v => decide (v < 0)) := by
  have hlen : m1.r.length = left.r.length := by
    rcases horder with ⟨rfl, -⟩ | ⟨rfl, -⟩
    · rfl
    · rw [hr]
  obtain ⟨q1, q2⟩ := p1
  obtain ⟨q3, q4⟩ := p2
  have il : sl.indices left.r.length = (sl.start.getD 0, sl.stop) := by
    unfold Slice.indices; simp only [Prod.mk.injEq]; omega
  have ir : sr.indices left.r.length = (sr.start.getD 0, sr.stop) := by
    unfold Slice.indices; simp only [Prod.mk.injEq]; omega
  obtain ⟨xl, hxl⟩ : ∃ v, left.r[sl.stop - 1]? = some v := ⟨_, List.getElem?_eq_getElem (by omega)⟩
  obtain ⟨xr, hxr⟩ : ∃ v, left.r[sl.stop]? = some v := ⟨_, List.getElem?_eq_getElem (by omega)⟩
  obtain ⟨yl, hyl⟩ : ∃ v, left.y[sl.stop - 1]? = some v := ⟨_, List.getElem?_eq_getElem (by omega)⟩
  obtain ⟨yr, hyr⟩ : ∃ v, left.y[sl.stop]? = some v := ⟨_, List.getElem?_eq_getElem (by omega)⟩
  obtain ⟨m, hm1, hm2⟩ := joinModels_eq has ((xl + xr) / 2)
    (fun m => (matchAt sc val m ((xl + xr) / 2) ((yl + yr) / 2)).2) left.model right.model
  have hne : getSlice ex (some (sl.start.getD 0, sr.stop)) ≠ [] := by
    intro hc
    have := length_getSlice ex (some (sl.start.getD 0, sr.stop))
    rw [hc] at this
    simp only [bounds, List.length_nil] at this
    omega
  have hmax : maxNeg (getSlice ex (some (sl.start.getD 0, sr.stop))) =
      .ok ((getSlice ex (some (sl.start.getD 0, sr.stop))).all (fun v => decide (v < 0))) := by
    unfold maxNeg; rw [if_neg hne]
  have hslices : (∃ s1 s2, m1.slice = some s1 ∧ m2.slice = some s2 ∧
      (if (s1.indices m1.r.length).1 < (s2.indices m1.r.length).1 then
        (m1, m2, s1.indices m1.r.length, s2.indices m1.r.length)
      else (m2, m1, s2.indices m1.r.length, s1.indices m1.r.length)) =
        (left, right, (sl.start.getD 0, sl.stop), (sr.start.getD 0, sr.stop))) := by
    rw [hlen]
    rcases horder with ⟨rfl, rfl⟩ | ⟨rfl, rfl⟩
    · refine ⟨sl, sr, h1, h2, ?_⟩
      rw [il, ir, if_pos (by simp only; omega)]
    · refine ⟨sr, sl, h2, h1, ?_⟩
      rw [il, ir, if_neg (by simp only; omega)]
  obtain ⟨s1, s2, e1, e2, e3⟩ := hslices
  unfold joinAdjacent
  rw [if_neg (not_not.2 hs.rId), if_neg (not_not.2 hs.yId), if_neg (not_not.2 hs.eId),
    if_neg (not_not.2 hs.method), if_neg (not_not.2 hs.baseline), e1, e2]
  simp only
  rw [e3]
  simp only
  rw [if_neg (by simp [hadj])]
  unfold joinTail joinedModel
  simp only
  rw [hxl, hyl, ← hr, ← hy, ← hadj, hxr, hyr]
  simp only [hm2]
  unfold changeSlice updateNever
  simp only [Slice.get, Option.getD_some, hmax]
  refine ⟨_, rfl, ⟨rfl, ?_⟩, ?_, rfl, rfl, rfl, rfl, rfl, rfl⟩
  · simp only
    by_cases hl : left.model = []
    · refine Or.inr (Or.inr ⟨hl, ?_⟩)
      rcases horder with ⟨rfl, rfl⟩ | ⟨rfl, rfl⟩
      · simp [hl]
      · rw [if_neg (by simp [hl])]
        by_cases h0 : 0 < m1.model.length
        · rw [if_pos h0]
        · rw [if_neg h0, hl]
          exact (List.length_eq_zero_iff.1 (by omega)).symm
    · by_cases hrr : right.model = []
      · refine Or.inr (Or.inl ⟨hrr, ?_⟩)
        rcases horder with ⟨rfl, rfl⟩ | ⟨rfl, rfl⟩
        · rw [if_neg (by simp [hrr]), if_pos (List.length_pos_iff.2 hl)]
        · simp [hrr]
      · refine Or.inl ⟨hl, hrr, xl, xr, yl, yr, m, hxl, hxr, hyl, hyr, hm1, ?_⟩
        rw [if_pos]
        rcases horder with ⟨rfl, rfl⟩ | ⟨rfl, rfl⟩
        · exact ⟨List.length_pos_iff.2 hl, List.length_pos_iff.2 hrr⟩
        · exact ⟨List.length_pos_iff.2 hrr, List.length_pos_iff.2 hl⟩
  · intro a
    simp only [List.mem_dedup, List.mem_append]
    rcases horder with ⟨rfl, rfl⟩ | ⟨rfl, rfl⟩
    · rfl
    · exact or_comm

/-- **C25.** Clusters that do not share their data, uncertainties, evaluator or baseline, or whose ranges
do not touch, cannot be joined: ValueError. -/
theorem c25_join_refuses (as : List K → List ℕ) (eqv : Option (Part K) → Option (Part K) → Bool)
    (sc : Part K → K → K → Res (List K)) (val : Part K → K → K) (ex : List K) (m1 m2 : Cluster K)
    {s1 s2 : Slice} (h1 : m1.slice = some s1) (h2 : m2.slice = some s2)
    (p1 : Proper s1 m1.r.length) (p2 : Proper s2 m1.r.length) :
    (¬ Shared eqv m1 m2 → joinAdjacent as eqv sc val ex m1 m2 = .error .value) ∧
    (s1.stop ≠ s2.start.getD 0 → s2.stop ≠ s1.start.getD 0 →
      joinAdjacent as eqv sc val ex m1 m2 = .error .value) := by
  refine ⟨joinAdjacent_shared, ?_⟩
  intro ha hb
  by_cases hs : Shared eqv m1 m2
  swap
  · exact joinAdjacent_shared hs
  obtain ⟨q1, q2⟩ := p1
  obtain ⟨q3, q4⟩ := p2
  have i1 : s1.indices m1.r.length = (s1.start.getD 0, s1.stop) := by
    unfold Slice.indices; simp only [Prod.mk.injEq]; omega
  have i2 : s2.indices m1.r.length = (s2.start.getD 0, s2.stop) := by
    unfold Slice.indices; simp only [Prod.mk.injEq]; omega
  unfold joinAdjacent
  rw [if_neg (not_not.2 hs.rId), if_neg (not_not.2 hs.yId), if_neg (not_not.2 hs.eId),
    if_neg (not_not.2 hs.method), if_neg (not_not.2 hs.baseline), h1, h2]
  simp only [i1, i2]
  by_cases hlt : s1.start.getD 0 < s2.start.getD 0
  · rw [if_pos hlt]
    simp only
    rw [if_pos (fun h => ha h.symm)]
  · rw [if_neg hlt]
    simp only
    rw [if_pos (fun h => hb h.symm)]

/-- **C25.** Joining two clusters with ranges `[lo, mid)` and `[mid, hi)`, given in either order: the joined
cluster has the range `[lo, hi)`; its peaks are those of both, in order of position, except that of several
peaks exactly at the border only one stays, and that their free parameters may have been adjusted to match
the data at the border; all fixed parameters, flags and functions are kept.  If one of the clusters has no
peaks, those of the other are taken as they are.  (`Joined` tells which border and height.) -/
theorem c25_join {as : List K → List ℕ} (has : SortsKeys as)
    {eqv : Option (Part K) → Option (Part K) → Bool}
    {sc : Part K → K → K → Res (List K)} (hsc : ScaleLen sc) {val : Part K → K → K} {ex : List K}
    {left right m1 m2 : Cluster K} (hs : Shared eqv m1 m2) (hr : left.r = right.r) (hy : left.y = right.y)
    (hly : left.y.length = left.r.length) (hex : ex.length = left.r.length)
    (horder : (m1 = left ∧ m2 = right) ∨ (m1 = right ∧ m2 = left))
    (hf1 : Flagged left.model) (hf2 : Flagged right.model)
    {sl sr : Slice} (h1 : left.slice = some sl) (h2 : right.slice = some sr)
    (p1 : Proper sl left.r.length) (p2 : Proper sr left.r.length) (hadj : sl.stop = sr.start.getD 0) :
    ∃ c, joinAdjacent as eqv sc val ex m1 m2 = .ok c ∧
      Joined as sc val left right c (sl.start.getD 0) sl.stop sr.stop ∧
      (∀ i : ℕ, (sl.start.getD 0 ≤ i ∧ i < sr.stop) ↔
        (sl.start.getD 0 ≤ i ∧ i < sl.stop ∨ sr.start.getD 0 ≤ i ∧ i < sr.stop)) ∧
      (∀ a : ℕ, a ∈ c.funcs ↔ a ∈ left.funcs ∨ a ∈ right.funcs) ∧
      ∃ border m, Merged border (left.model ++ right.model) m ∧ List.Forall₂ OnlyFree m c.model ∨
        c.model = left.model ++ right.model := by
  obtain ⟨c, e, hj, hfun, -⟩ := joinAdjacent_adjacent has hs hr hy hly hex horder h1 h2 p1 p2 hadj (sc := sc)
    (val := val)
  refine ⟨c, e, hj, ?_, hfun, ?_⟩
  · obtain ⟨q1, q2⟩ := p1
    obtain ⟨q3, q4⟩ := p2
    intro i; omega
  · rcases hj.model with ⟨-, -, xl, xr, yl, yr, m, -, -, -, -, hm, hc⟩ | ⟨h0, hc⟩ | ⟨h0, hc⟩
    · refine ⟨_, m, Or.inl ⟨hm, ?_⟩⟩
      rw [hc]
      refine c57_fixed_kept hsc val m ?_ _ _
      intro p hp
      rcases List.mem_append.1 (hm.mem p hp) with h | h
      · exact hf1 p h
      · exact hf2 p h
    · exact ⟨0, [], Or.inr (by rw [hc, h0, List.append_nil])⟩
    · exact ⟨0, [], Or.inr (by rw [hc, h0, List.nil_append])⟩

/-- **C25.** The order of the arguments does not matter: the joined clusters have the same peaks, range,
and mark "never fit". -/
theorem c25_join_symmetric {as : List K → List ℕ}
    {eqv : Option (Part K) → Option (Part K) → Bool}
    {sc : Part K → K → K → Res (List K)} {val : Part K → K → K} {ex : List K}
    {m1 m2 c c' : Cluster K} (hr : m1.r = m2.r)
    {s1 s2 : Slice} (h1 : m1.slice = some s1) (h2 : m2.slice = some s2)
    (p1 : Proper s1 m1.r.length) (p2 : Proper s2 m1.r.length)
    (hc : joinAdjacent as eqv sc val ex m1 m2 = .ok c) (hc' : joinAdjacent as eqv sc val ex m2 m1 = .ok c') :
    c.model = c'.model ∧ c.slice = c'.slice ∧ c.neverFit = c'.neverFit := by
  obtain ⟨q1, q2⟩ := p1
  obtain ⟨q3, q4⟩ := p2
  have i1 : s1.indices m1.r.length = (s1.start.getD 0, s1.stop) := by
    unfold Slice.indices; simp only [Prod.mk.injEq]; omega
  have i2 : s2.indices m1.r.length = (s2.start.getD 0, s2.stop) := by
    unfold Slice.indices; simp only [Prod.mk.injEq]; omega
  have hsh : ∀ {a b d : Cluster K}, joinAdjacent as eqv sc val ex a b = .ok d → Shared eqv a b := by
    intro a b d h
    by_contra hn
    rw [joinAdjacent_shared hn] at h
    simp at h
  have s12 := hsh hc
  have s21 := hsh hc'
  unfold joinAdjacent at hc hc'
  rw [if_neg (not_not.2 s12.rId), if_neg (not_not.2 s12.yId), if_neg (not_not.2 s12.eId),
    if_neg (not_not.2 s12.method), if_neg (not_not.2 s12.baseline), h1, h2] at hc
  rw [if_neg (not_not.2 s21.rId), if_neg (not_not.2 s21.yId), if_neg (not_not.2 s21.eId),
    if_neg (not_not.2 s21.method), if_neg (not_not.2 s21.baseline), h1, h2] at hc'
  simp only [← hr, i1, i2] at hc hc'
  have fin : ∀ (left right : Cluster K) (li ri : ℕ × ℕ) (a b : Cluster K), m1.r = left.r → m1.r = right.r →
      joinTail as sc val ex m1 m2 left right li ri = .ok a →
      joinTail as sc val ex m2 m1 left right li ri = .ok b →
      a.model = b.model ∧ a.slice = b.slice ∧ a.neverFit = b.neverFit := by
    intro left right li ri a b _ _ ha hb
    unfold joinTail at ha hb
    split at ha
    swap
    · simp at ha
    rename_i xl xr yl yr g1 g2 g3 g4
    rw [g1, g2, g3, g4] at hb
    simp only at hb
    unfold changeSlice updateNever at ha hb
    simp only at ha hb
    cases hmx : maxNeg (Slice.get ⟨some li.1, ri.2⟩ ex) with
    | error e => rw [hmx] at ha; simp at ha
    | ok v =>
      rw [hmx] at ha hb
      simp only [Except.ok.injEq] at ha hb
      subst ha
      subst hb
      refine ⟨?_, rfl, rfl⟩
      simp only [joinedModel]
      by_cases ha1 : 0 < m1.model.length
      · by_cases ha2 : 0 < m2.model.length
        · rw [if_pos ⟨ha1, ha2⟩, if_pos ⟨ha2, ha1⟩]
        · rw [if_neg (by tauto), if_pos ha1, if_neg (by tauto), if_neg ha2]
      · by_cases ha2 : 0 < m2.model.length
        · rw [if_neg (by tauto), if_neg ha1, if_neg (by tauto), if_pos ha2]
        · rw [if_neg (by tauto), if_neg ha1, if_neg (by tauto), if_neg ha2]
          rw [List.length_eq_zero_iff.1 (show m1.model.length = 0 by omega),
            List.length_eq_zero_iff.1 (show m2.model.length = 0 by omega)]
  by_cases hlt : s1.start.getD 0 < s2.start.getD 0
  · have hge : ¬ s2.start.getD 0 < s1.start.getD 0 := by omega
    rw [if_pos hlt] at hc
    rw [if_neg hge] at hc'
    simp only at hc hc'
    by_cases hadj : s2.start.getD 0 = s1.stop
    · rw [if_neg (not_not.2 hadj)] at hc hc'
      exact fin m1 m2 _ _ c c' rfl hr hc hc'
    · rw [if_pos hadj] at hc; simp at hc
  · rw [if_neg hlt] at hc
    simp only at hc
    by_cases hadj : s1.start.getD 0 = s2.stop
    · have hlt' : s2.start.getD 0 < s1.start.getD 0 := by omega
      rw [if_pos hlt'] at hc'
      simp only at hc'
      rw [if_neg (not_not.2 hadj)] at hc hc'
      exact fin m2 m1 _ _ c c' hr rfl hc hc'
    · rw [if_pos hadj] at hc; simp at hc

/-! ### A concrete pair, and the border height -/

/-- Scales any box by any factor. -/
def scaleAll (p : Part ℚ) (_x s : ℚ) : Res (List ℚ) := .ok (p.pars.map (s * ·))

theorem scaleAll_len : ScaleLen scaleAll := by
  intro p x s adj h
  unfold scaleAll at h
  simp only [Except.ok.injEq] at h
  subst h; simp

/-- Two clusters over the same five data points, all 6, the uncertainty being 1: points 0–1 with a peak of
height 1, points 2–4 with a peak of height 3. -/
def exLeft : Cluster ℚ :=
  ⟨[box 1 true], none, [0, 1, 2, 3, 4], [6, 6, 6, 6, 6], [1, 1, 1, 1, 1], 0, 0, 0, 0, [0],
    some ⟨some 0, 2⟩, 0, false⟩

def exRight : Cluster ℚ := { exLeft with model := [box 3 true], slice := some ⟨some 2, 5⟩ }

/-- Instance of the hypotheses of `c25_join` (in both orders), and the result. -/
example : Shared (fun _ _ => true) exLeft exRight ∧ Proper ⟨some 0, 2⟩ exLeft.r.length ∧
    Proper ⟨some 2, 5⟩ exLeft.r.length ∧ Flagged exLeft.model ∧ Flagged exRight.model ∧
    (match joinAdjacent mergeAs (fun _ _ => true) scaleAll boxVal [5, 5, 5, 5, 5] exRight exLeft with
      | .ok c => c.model.map Part.pars = [[3 / 2], [9 / 2]] ∧ c.slice = some ⟨some 0, 5⟩
      | .error _ => False) := by
  refine ⟨⟨rfl, rfl, rfl, rfl, rfl⟩, ⟨by decide, by decide⟩, ⟨by decide, by decide⟩, ?_, ?_, ?_⟩
  · intro p hp
    simp only [exLeft, List.mem_singleton] at hp
    subst hp; rfl
  · intro p hp
    simp only [exRight, List.mem_singleton] at hp
    subst hp; rfl
  · constructor <;> decide +kernel

/-- Instance of the removal of duplicates: of two peaks exactly at the border one stays. -/
example : (joinModels mergeAs 2 id [box 1 true, box 2 true] [box 2 true, box 3 true]).map Part.pars =
    [[1], [2], [3]] := by decide +kernel

/-- **C25.** If every peak of the merged model can be scaled, the joined peaks add up, at the border, to
the mean of the two data points next to it, whatever they added up to before. -/
theorem c25_border_height {as : List K → List ℕ} {sc : Part K → K → K → Res (List K)} {val : Part K → K → K}
    {left right c : Cluster K} {lo mid hi : ℕ} (hj : Joined as sc val left right c lo mid hi)
    (hl : left.model ≠ []) (hr : right.model ≠ []) {xl xr yl yr : K} (h1 : left.r[mid - 1]? = some xl)
    (h2 : left.r[mid]? = some xr) (h3 : left.y[mid - 1]? = some yl) (h4 : left.y[mid]? = some yr)
    (hsc : ∀ m, Merged ((xl + xr) / 2) (left.model ++ right.model) m →
      valueAt val m ((xl + xr) / 2) ≠ 0 ∧
      ∀ p ∈ m, ∃ p', scaleAt sc p ((xl + xr) / 2) ((yl + yr) / 2 / valueAt val m ((xl + xr) / 2)) = (.ok true, p') ∧
        val p' ((xl + xr) / 2) = (yl + yr) / 2 / valueAt val m ((xl + xr) / 2) * val p ((xl + xr) / 2)) :
    valueAt val c.model ((xl + xr) / 2) = (yl + yr) / 2 := by
  rcases hj.model with ⟨-, -, xl', xr', yl', yr', m, g1, g2, g3, g4, hm, hc⟩ | ⟨h0, -⟩ | ⟨h0, -⟩
  · rw [h1, Option.some.injEq] at g1
    rw [h2, Option.some.injEq] at g2
    rw [h3, Option.some.injEq] at g3
    rw [h4, Option.some.injEq] at g4
    subst g1 g2 g3 g4
    obtain ⟨k0, k⟩ := hsc m hm
    obtain ⟨ps', e1, e2, -⟩ := c57_matches m ((xl + xr) / 2) ((yl + yr) / 2) k0 k
    rw [hc, e1]
    exact e2
  · exact absurd h0 hr
  · exact absurd h0 hl

/-- **C25, finding.** The height the joined peaks are scaled to is that of the data, with the baseline still
in it.  Over a baseline of constant height 2 the peaks of heights 1 and 3 describe the data (6) perfectly;
after joining they add up to 6, and with the baseline to 8.  (The documentation promises an adjustment only
if the sum exceeds the data.) -/
theorem c25_border_ignores_baseline :
    let baseline : ℚ := 2
    valueAt boxVal (exLeft.model ++ exRight.model) (3 / 2) + baseline = 6 ∧
    (joinAdjacent mergeAs (fun _ _ => true) scaleAll boxVal [3, 3, 3, 3, 3] exLeft exRight).toOption.map
      (fun c => valueAt boxVal c.model (3 / 2) + baseline) = some 8 := by
  constructor <;> decide +kernel

end Verif.Parts.ModelCluster
