import Verif.Extraction.Model

/-!
# C40: the fitting range; C41: the neighbourhood of a border
-/

namespace Verif.Extraction

open Verif.Py

set_option linter.unusedSectionVars false

variable {K : Type}

theorem takeWhile_index {α : Type} (R : α → α → Prop) (p : α → Bool)
    (hp : ∀ a b, R a b → p b = true → p a = true) (l : List α) (hl : l.Pairwise R) (i : ℕ) (hi : i < l.length) :
    i < (l.takeWhile p).length ↔ p l[i] = true := by
  induction l generalizing i with
  | nil => simp at hi
  | cons a l ih =>
    rw [List.pairwise_cons] at hl
    rw [List.takeWhile_cons]
    by_cases ha : p a = true
    · rw [if_pos ha]
      match i with
      | 0 => simp [ha]
      | i + 1 => simpa using ih hl.2 i (by simpa using hi)
    · rw [if_neg ha]
      simp only [List.length_nil, not_lt_zero, false_iff]
      match i with
      | 0 => simpa using ha
      | i + 1 => exact fun h => ha (hp a _ (hl.1 _ (List.getElem_mem _)) h)

variable [LinearOrder K]

theorem lowLoop_eq (t : K) (l : List K) (i : ℕ) :
    lowLoop t l i = if (l.takeWhile (fun a => decide (a < t))).length = l.length then .error .index
      else .ok (i + (l.takeWhile (fun a => decide (a < t))).length) := by
  induction l generalizing i with
  | nil => simp [lowLoop]
  | cons a l ih =>
    unfold lowLoop
    by_cases h : a < t
    · rw [if_pos h, ih]
      simp only [List.takeWhile_cons, h, decide_true, if_true, List.length_cons, Nat.add_right_cancel_iff]
      by_cases h' : (l.takeWhile (fun a => decide (a < t))).length = l.length
      · rw [if_pos h', if_pos h']
      · rw [if_neg h', if_neg h']; congr 1; omega
    · rw [if_neg h]
      simp [h]

theorem hiLoop_eq (t : K) (l : List K) (i : ℤ) :
    hiLoop t l i = if (l.takeWhile (fun a => decide (t < a))).length = l.length then .error .index
      else .ok (i - ((l.takeWhile (fun a => decide (t < a))).length : ℕ)) := by
  induction l generalizing i with
  | nil => simp [hiLoop]
  | cons a l ih =>
    unfold hiLoop
    by_cases h : t < a
    · rw [if_pos h, ih]
      simp only [List.takeWhile_cons, h, decide_true, if_true, List.length_cons, Nat.add_right_cancel_iff]
      by_cases h' : (l.takeWhile (fun a => decide (t < a))).length = l.length
      · rw [if_pos h', if_pos h']
      · rw [if_neg h', if_neg h']; congr 1; push_cast; omega
    · rw [if_neg h]
      simp [h]

theorem takeWhile_full {α : Type} (p : α → Bool) (l : List α) :
    (l.takeWhile p).length = l.length ↔ ∀ a ∈ l, p a = true := by
  induction l with
  | nil => simp
  | cons a l ih =>
    rw [List.takeWhile_cons]
    by_cases h : p a = true
    · rw [if_pos h]
      simp [h, ih]
    · rw [if_neg h]
      simp [h]

theorem lowLoop_sorted (x : List K) (hx : x.Pairwise (· ≤ ·)) (t : K) (x1 : K) (hl : x.getLast? = some x1) :
    (x1 < t → lowLoop t x 0 = .error .index) ∧
    (t ≤ x1 → ∃ lo, lowLoop t x 0 = .ok lo ∧ lo < x.length ∧ ∀ (i : ℕ) (hi : i < x.length), lo ≤ i ↔ t ≤ x[i]) := by
  have hmem : x1 ∈ x := List.mem_of_getLast? hl
  rw [lowLoop_eq]
  constructor
  · intro h
    rw [if_pos]
    rw [takeWhile_full]
    intro a ha
    obtain ⟨i, hi, rfl⟩ := List.getElem_of_mem ha
    have : x[i] ≤ x1 := by
      rw [List.getLast?_eq_getElem?] at hl
      obtain ⟨h1, rfl⟩ := List.getElem?_eq_some_iff.1 hl
      rcases Nat.lt_or_ge i (x.length - 1) with h' | h'
      · exact List.pairwise_iff_getElem.1 hx _ _ _ _ h'
      · have : i = x.length - 1 := by omega
        subst this; exact le_rfl
    simpa using lt_of_le_of_lt this h
  · intro h
    rw [if_neg]
    · refine ⟨_, rfl, ?_, ?_⟩
      · have := (List.takeWhile_sublist (fun a => decide (a < t)) (l := x)).length_le
        rcases Nat.lt_or_ge (0 + (x.takeWhile (fun a => decide (a < t))).length) x.length with h' | h'
        · exact h'
        · exfalso
          have h2 := (takeWhile_full (fun a => decide (a < t)) x).1 (by omega) x1 hmem
          simp only [decide_eq_true_eq] at h2
          exact absurd h2 (not_lt.2 h)
      · intro i hi
        have := takeWhile_index (· ≤ ·) (fun a => decide (a < t))
          (by intro a b hab hb; simp only [decide_eq_true_eq] at *; exact lt_of_le_of_lt hab hb) x hx i hi
        simp only [decide_eq_true_eq] at this
        rw [← not_lt (a := x[i]), ← this]
        omega
    · rw [takeWhile_full]
      intro h'
      have := h' x1 hmem
      simp only [decide_eq_true_eq] at this
      exact absurd this (not_lt.2 h)

theorem hiLoop_sorted (x : List K) (hx : x.Pairwise (· ≤ ·)) (t : K) (x0 : K) (hh : x.head? = some x0) :
    (t < x0 → hiLoop t (x.reverse ++ x.reverse) x.length = .error .index) ∧
    (x0 ≤ t → ∃ hi : ℕ, hiLoop t (x.reverse ++ x.reverse) x.length = .ok hi ∧ 0 < hi ∧ hi ≤ x.length ∧
      ∀ (i : ℕ) (h : i < x.length), i < hi ↔ x[i] ≤ t) := by
  have hmem : x0 ∈ x := List.mem_of_mem_head? hh
  have hmin : ∀ a ∈ x, x0 ≤ a := by
    intro a ha
    match x, hh with
    | b :: l, hh =>
      simp only [List.head?_cons, Option.some.injEq] at hh
      subst hh
      rcases List.mem_cons.1 ha with h | h
      · rw [h]
      · exact (List.pairwise_cons.1 hx).1 a h
  rw [hiLoop_eq]
  constructor
  · intro h
    rw [if_pos]
    rw [takeWhile_full]
    intro a ha
    have : a ∈ x := by simpa using ha
    simpa using lt_of_lt_of_le h (hmin a this)
  · intro h
    have hn : ¬ (∀ a ∈ x.reverse, (fun a => decide (t < a)) a = true) := by
      intro h'
      have := h' x0 (by simpa using hmem)
      simp only [decide_eq_true_eq] at this
      exact absurd this (not_lt.2 h)
    have e : ((x.reverse ++ x.reverse).takeWhile (fun a => decide (t < a))) =
        x.reverse.takeWhile (fun a => decide (t < a)) := by
      rw [List.takeWhile_append, if_neg]
      rw [takeWhile_full]
      exact hn
    have hk := (List.takeWhile_sublist (fun a => decide (t < a)) (l := x.reverse)).length_le
    have hk' : (x.reverse.takeWhile (fun a => decide (t < a))).length ≠ x.reverse.length := by
      rw [Ne, takeWhile_full]; exact hn
    rw [List.length_reverse] at hk hk'
    rw [if_neg (by rw [e, List.length_append, List.length_reverse]; omega), e]
    refine ⟨x.length - (x.reverse.takeWhile (fun a => decide (t < a))).length, ?_, by omega, by omega, ?_⟩
    · congr 1; omega
    · intro i hi
      have := takeWhile_index (fun a b => b ≤ a) (fun a => decide (t < a))
        (by intro a b hab hb; simp only [decide_eq_true_eq] at *; exact lt_of_lt_of_le hb hab) x.reverse
        (List.pairwise_reverse.2 hx) (x.length - 1 - i) (by rw [List.length_reverse]; omega)
      simp only [decide_eq_true_eq, List.getElem_reverse] at this
      have e2 : x.length - 1 - (x.length - 1 - i) = i := by omega
      simp only [e2] at this
      rw [← not_lt (a := t), ← this]
      omega

/-- **C40.** For non-empty sorted data: if the range meets the data, `getrangeslice` selects exactly the points in
the range; otherwise it raises IndexError. -/
theorem c40_range_slice (x : List K) (hx : x.Pairwise (· ≤ ·)) (a b x0 x1 : K) (h0 : x.head? = some x0)
    (h1 : x.getLast? = some x1) :
    (a ≤ x1 ∧ x0 ≤ b → ∃ lo hi : ℕ, getrangeslice x a b = .ok (lo, (hi : ℤ)) ∧ lo < x.length ∧ hi ≤ x.length ∧
      ∀ (i : ℕ) (h : i < x.length), (lo ≤ i ∧ i < hi) ↔ (a ≤ x[i] ∧ x[i] ≤ b)) ∧
    (¬ (a ≤ x1 ∧ x0 ≤ b) → getrangeslice x a b = .error .index) := by
  have hends : ∀ (i : ℕ) (h : i < x.length), x0 ≤ x[i] ∧ x[i] ≤ x1 := by
    intro i h
    constructor
    · match x, h0, h with
      | c :: l, h0, h =>
        simp only [List.head?_cons, Option.some.injEq] at h0
        subst h0
        rcases List.mem_cons.1 (List.getElem_mem h) with h' | h'
        · rw [h']
        · exact (List.pairwise_cons.1 hx).1 _ h'
    · rw [List.getLast?_eq_getElem?] at h1
      obtain ⟨h2, rfl⟩ := List.getElem?_eq_some_iff.1 h1
      rcases Nat.lt_or_ge i (x.length - 1) with h' | h'
      · exact List.pairwise_iff_getElem.1 hx _ _ _ _ h'
      · have : i = x.length - 1 := by omega
        subst this; exact le_rfl
  have h01 : x0 ≤ x1 := by
    have : 0 < x.length := by
      match x, h0 with
      | _ :: _, _ => simp
    exact (hends 0 this).1.trans (hends 0 this).2
  obtain ⟨l1, l2⟩ := lowLoop_sorted x hx (max x0 a) x1 h1
  obtain ⟨m1, m2⟩ := hiLoop_sorted x hx (min x1 b) x0 h0
  unfold getrangeslice
  rw [h0, h1]
  simp only
  constructor
  · rintro ⟨ha, hb⟩
    obtain ⟨lo, e1, e2, e3⟩ := l2 (max_le h01 ha)
    obtain ⟨hi, f1, f2, f3, f4⟩ := m2 (le_min h01 hb)
    rw [e1]
    simp only
    rw [f1]
    refine ⟨lo, hi, rfl, e2, f3, ?_⟩
    intro i h
    rw [e3 i h, f4 i h, max_le_iff, le_min_iff]
    have := hends i h
    tauto
  · intro hn
    by_cases ha : a ≤ x1
    · obtain ⟨lo, e1, -⟩ := l2 (max_le h01 ha)
      rw [e1]
      simp only
      rw [m1 (lt_of_le_of_lt (min_le_right _ _) (not_le.1 (fun hb => hn ⟨ha, hb⟩)))]
    · rw [l1 (lt_of_lt_of_le (not_le.1 ha) (le_max_right _ _))]

/-- Instances: a range selecting three points of five; a range between two points (an empty slice); a range left
of the data, where the index has wrapped around once before the IndexError. -/
example : getrangeslice ([0, 1, 2, 4, 5] : List ℤ) 1 4 = .ok (1, 4) ∧
    getrangeslice ([0, 1, 2, 4, 5] : List ℤ) 3 3 = .ok (3, 3) ∧
    getrangeslice ([0, 1, 2, 4, 5] : List ℤ) (-5) (-3) = .error .index := by decide

/-! ### C41 -/

/-- **C41.** The near and the other peaks are a partition of all peaks, for every pivot. -/
theorem c41_partition (n p : ℕ) (hp : p ≤ n) :
    (nearIdx n p ++ otherIdx n p).Perm (List.range n) ∧ (nearIdx n p).Pairwise (· < ·) ∧
      (otherIdx n p).Pairwise (· < ·) ∧ (nearIdx n p).length ≤ 2 := by
  have hmem : ∀ i, (i ∈ nearIdx n p ↔ (i + 1 = p ∨ (i = p ∧ p < n))) ∧
      (i ∈ otherIdx n p ↔ (i + 1 < p ∨ (p < i ∧ i < n))) := by
    intro i
    constructor
    · unfold nearIdx
      rw [List.mem_append]
      constructor
      · rintro (h | h)
        · split at h
          · simp at h
          · simp at h; omega
        · split at h
          · simp at h
          · simp at h; omega
      · rintro (h | ⟨h, h'⟩)
        · left; rw [if_neg (by omega)]; simp; omega
        · right; rw [if_neg (by omega)]; simpa using h
    · unfold otherIdx
      simp only [List.mem_append, List.mem_range, List.mem_range'_1]
      omega
  have hnear : (nearIdx n p).Pairwise (· < ·) := by
    unfold nearIdx
    by_cases h0 : p = 0 <;> by_cases h1 : p = n
    · rw [if_pos h0, if_pos h1]; simp
    · rw [if_pos h0, if_neg h1]; simp
    · rw [if_neg h0, if_pos h1]; simp
    · rw [if_neg h0, if_neg h1]; simp; omega
  have hother : (otherIdx n p).Pairwise (· < ·) := by
    unfold otherIdx
    rw [List.pairwise_append]
    refine ⟨List.pairwise_lt_range, List.pairwise_lt_range', ?_⟩
    intro a ha b hb
    rw [List.mem_range] at ha
    rw [List.mem_range'_1] at hb
    omega
  refine ⟨?_, hnear, hother, ?_⟩
  · rw [List.perm_ext_iff_of_nodup]
    · intro i
      rw [List.mem_append, (hmem i).1, (hmem i).2, List.mem_range]
      omega
    · rw [List.nodup_append]
      refine ⟨hnear.imp (fun h => h.ne), hother.imp (fun h => h.ne), ?_⟩
      intro a ha b hb
      have h1 := (hmem a).1.1 ha
      have h2 := (hmem b).2.1 hb
      omega
    · exact List.nodup_range
  · unfold nearIdx
    split <;> split <;> simp

/-- **C41.** For sorted positions, the near peaks are the last peak left of the border (if any) and the first one
not left of it (if any): every other peak is at least as far out on its side. -/
theorem c41_nearest (pos : List K) (hs : pos.Pairwise (· ≤ ·)) (border : K) :
    pivot pos border ≤ pos.length ∧
    (∀ (i : ℕ) (h : i < pos.length), i < pivot pos border ↔ pos[i] < border) ∧
    (∀ (i j : ℕ) (hi : i < pos.length) (hj : j < pos.length), i ∈ nearIdx pos.length (pivot pos border) →
      j ∈ otherIdx pos.length (pivot pos border) → pos[i] < border → pos[j] < border → pos[j] ≤ pos[i]) ∧
    (∀ (i j : ℕ) (hi : i < pos.length) (hj : j < pos.length), i ∈ nearIdx pos.length (pivot pos border) →
      j ∈ otherIdx pos.length (pivot pos border) → border ≤ pos[i] → border ≤ pos[j] → pos[i] ≤ pos[j]) := by
  have h1 : ∀ (i : ℕ) (h : i < pos.length), i < pivot pos border ↔ pos[i] < border := by
    intro i h
    have := takeWhile_index (· ≤ ·) (fun a => decide (a < border))
      (by intro a b hab hb; simp only [decide_eq_true_eq] at *; exact lt_of_le_of_lt hab hb) pos hs i h
    simp only [decide_eq_true_eq] at this
    exact this
  have hle : pivot pos border ≤ pos.length := (List.takeWhile_sublist _).length_le
  have near : ∀ i, i ∈ nearIdx pos.length (pivot pos border) → i + 1 = pivot pos border ∨ i = pivot pos border := by
    intro i h
    unfold nearIdx at h
    rw [List.mem_append] at h
    rcases h with h | h
    · split at h
      · simp at h
      · simp at h; omega
    · split at h
      · simp at h
      · simp at h; omega
  have other : ∀ j, j ∈ otherIdx pos.length (pivot pos border) →
      j + 1 < pivot pos border ∨ pivot pos border < j := by
    intro j h
    unfold otherIdx at h
    simp only [List.mem_append, List.mem_range, List.mem_range'_1] at h
    omega
  have mono : ∀ (i j : ℕ) (hi : i < pos.length) (hj : j < pos.length), i ≤ j → pos[i] ≤ pos[j] := by
    intro i j hi hj hij
    rcases Nat.lt_or_ge i j with h | h
    · exact List.pairwise_iff_getElem.1 hs _ _ _ _ h
    · have : i = j := by omega
      subst this; exact le_rfl
  refine ⟨hle, h1, ?_, ?_⟩
  · intro i j hi hj hn ho a b
    have a' := (h1 i hi).2 a
    have b' := (h1 j hj).2 b
    have := near i hn
    have := other j ho
    exact mono _ _ _ _ (by omega)
  · intro i j hi hj hn ho a b
    have a' := mt (h1 i hi).1 (not_lt.2 a)
    have b' := mt (h1 j hj).1 (not_lt.2 b)
    have := near i hn
    have := other j ho
    exact mono _ _ _ _ (by omega)

/-- **C41.** The interpeak range: it starts at the cluster's start, or at the last point left of the second peak on the
left (the first point of the data if there is none); it ends at the cluster's last point, or one point after the first
point not left of the second peak on the right (`rightData - 1` is that point), or past the data if there is none. -/
theorem c41_interpeak (x pos : List K) (hx : x.Pairwise (· ≤ ·)) (lo hi p : ℕ) (hp : p ≤ pos.length) :
    (p ≤ 1 → leftData x pos lo p = lo) ∧
    (pos.length ≤ p + 1 → rightData x pos hi pos.length p = hi - 1) ∧
    (∀ h : 2 ≤ p,
      (∀ (j : ℕ) (hj : j < x.length), x[j] < pos[p - 2]'(by omega) → j ≤ leftData x pos lo p) ∧
      (∀ (j : ℕ) (hj : j < x.length), x[j] < pos[p - 2]'(by omega) → ∃ v, x[leftData x pos lo p]? = some v ∧ v < pos[p - 2]'(by omega)) ∧
      ((∀ (j : ℕ) (hj : j < x.length), pos[p - 2]'(by omega) ≤ x[j]) → leftData x pos lo p = 0)) ∧
    (∀ h : p + 1 < pos.length,
      (∀ (j : ℕ) (hj : j < x.length), pos[p + 1] ≤ x[j] → rightData x pos hi pos.length p ≤ j + 1) ∧
      (∀ (j : ℕ) (hj : j < x.length), pos[p + 1] ≤ x[j] →
        ∃ v, x[rightData x pos hi pos.length p - 1]? = some v ∧ pos[p + 1] ≤ v ∧ 1 ≤ rightData x pos hi pos.length p) ∧
      ((∀ (j : ℕ) (hj : j < x.length), x[j] < pos[p + 1]) → rightData x pos hi pos.length p = x.length)) := by
  have key : ∀ (v : K) (j : ℕ) (hj : j < x.length), j < (x.takeWhile (fun a => decide (a < v))).length ↔ x[j] < v := by
    intro v j hj
    have := takeWhile_index (· ≤ ·) (fun a => decide (a < v))
      (by intro a b hab hb; simp only [decide_eq_true_eq] at *; exact lt_of_le_of_lt hab hb) x hx j hj
    simp only [decide_eq_true_eq] at this
    exact this
  have hle : ∀ v : K, (x.takeWhile (fun a => decide (a < v))).length ≤ x.length :=
    fun v => (List.takeWhile_sublist (fun a => decide (a < v)) (l := x)).length_le
  refine ⟨fun h => by unfold leftData; rw [if_pos h], fun h => ?_, ?_, ?_⟩
  · unfold rightData
    rw [if_pos (by omega)]
  · intro h
    have e : leftData x pos lo p = (x.takeWhile (fun a => decide (a < pos[p - 2]'(by omega)))).length - 1 := by
      unfold leftData
      rw [if_neg (by omega), List.getElem?_eq_getElem (by omega)]
    rw [e]
    have k := key (pos[p - 2]'(by omega))
    have l := hle (pos[p - 2]'(by omega))
    refine ⟨?_, ?_, ?_⟩
    · intro j hj hlt
      have := (k j hj).2 hlt
      omega
    · intro j hj hlt
      have := (k j hj).2 hlt
      refine ⟨_, List.getElem?_eq_getElem (by omega), ?_⟩
      rw [← k]
      omega
    · intro hall
      by_contra hne
      have := (k 0 (by omega)).1 (by omega)
      exact absurd this (not_lt.2 (hall 0 (by omega)))
  · intro h
    have e : rightData x pos hi pos.length p =
        min x.length ((x.takeWhile (fun a => decide (a < pos[p + 1]))).length + 1) := by
      unfold rightData
      rw [if_neg (by omega), List.getElem?_eq_getElem h]
    rw [e]
    have k := key pos[p + 1]
    have l := hle pos[p + 1]
    refine ⟨?_, ?_, ?_⟩
    · intro j hj hge
      have := mt (k j hj).1 (not_lt.2 hge)
      omega
    · intro j hj hge
      have := mt (k j hj).1 (not_lt.2 hge)
      refine ⟨_, List.getElem?_eq_getElem (by omega), ?_, by omega⟩
      rw [← not_lt, ← k]
      omega
    · intro hall
      by_contra hne
      have := (k _ (show (x.takeWhile (fun a => decide (a < pos[p + 1]))).length < x.length by omega)).2 (hall _ _)
      omega

/-- Instance: five peaks at 1, 3, 5, 7, 9 around the border 4, grid 0, 1, …, 10, cluster [0, 11). -/
example : pivot ([1, 3, 5, 7, 9] : List ℤ) 4 = 2 ∧ nearIdx 5 2 = [1, 2] ∧ otherIdx 5 2 = [0, 3, 4] ∧
    leftData ([0, 1, 2, 3, 4, 5, 6, 7, 8, 9, 10] : List ℤ) [1, 3, 5, 7, 9] 0 2 = 0 ∧
    rightData ([0, 1, 2, 3, 4, 5, 6, 7, 8, 9, 10] : List ℤ) [1, 3, 5, 7, 9] 11 5 2 = 8 := by decide

end Verif.Extraction
