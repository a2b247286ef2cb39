import Verif.Cluster.Props

/-!
# Property C52: looking up the nearest cluster by coordinate
-/

namespace Verif.Cluster

set_option linter.unusedSectionVars false

variable {α : Type} [AddCommGroup α] [LinearOrder α] [IsOrderedAddMonoid α]
variable {x y : List α} {res : α} {order : List ℕ} {s : State α}

theorem searchsorted_spec (l : List α) (hl : Nondecreasing l) (v : α) :
    searchsorted l v ≤ l.length ∧ (∀ i < searchsorted l v, l.getD i 0 < v) ∧
    ∀ i, searchsorted l v ≤ i → i < l.length → v ≤ l.getD i 0 := by
  unfold searchsorted
  unfold Nondecreasing at hl
  induction l with
  | nil => simp
  | cons a l ih =>
    rw [List.pairwise_cons] at hl
    obtain ⟨h1, h2, h3⟩ := ih hl.2
    by_cases ha : a < v
    · have e : (a :: l).takeWhile (fun a => decide (a < v)) = a :: l.takeWhile (fun a => decide (a < v)) := by
        simp [ha]
      rw [e]
      refine ⟨by simpa using h1, ?_, ?_⟩
      · intro i hi
        match i with
        | 0 => simpa using ha
        | i + 1 => simpa using h2 i (by simpa using hi)
      · intro i hi hi'
        match i with
        | 0 => simp at hi
        | i + 1 => simpa using h3 i (by simpa using hi) (by simpa using hi')
    · have e : (a :: l).takeWhile (fun a => decide (a < v)) = [] := by simp [ha]
      rw [e]
      refine ⟨by simp, by simp, ?_⟩
      intro i _ hi
      match i with
      | 0 => simpa using ha
      | i + 1 =>
        have hi' : i < l.length := by simpa using hi
        have : a ≤ l[i] := hl.1 _ (List.getElem_mem _)
        rw [List.getD_cons_succ, List.getD_eq_getElem?_getD, List.getElem?_eq_getElem hi',
          Option.getD_some]
        exact (not_lt.1 ha).trans this

/-- **C52.** For a coordinate inside the data (right of the first point), the lookup answers for the first
data point not left of it: a cluster no other cluster is closer to that point than, and the signed distance from that
point. -/
theorem c52_inside (hx : Nondecreasing x) (ho : IsArgsort y order) (h : Reachable x y res order s) {v : α}
    (h0 : x.getD 0 0 < v) (h1 : v ≤ x.getD (x.length - 1) 0) :
    ∃ i, i < x.length ∧ v ≤ x.getD i 0 ∧ (∀ j < i, x.getD j 0 < v) ∧
    ∃ c d, findNearest2 s v = .ok (some (c, d)) ∧ c < s.clusters.length ∧
      d = signedDist x (row s.clusters c) i ∧
      ∀ k < s.clusters.length, |d| ≤ |signedDist x (row s.clusters k) i| := by
  obtain ⟨-, hinv⟩ := inv_reachable hx ho h
  obtain ⟨s1, s2, s3⟩ := searchsorted_spec x hx v
  have hne : 0 < x.length := by have := hinv.cur; omega
  have hpos : 0 < searchsorted x v := by
    by_contra hn
    exact absurd (s3 0 (by omega) hne) (not_le.2 h0)
  have hlt : searchsorted x v < x.length := by
    by_contra hn
    exact absurd (s2 (x.length - 1) (by omega)) (not_lt.2 h1)
  refine ⟨searchsorted x v, hlt, s3 _ le_rfl hlt, s2, ?_⟩
  obtain ⟨c, d, hf, hc⟩ := c04_nearest_correct hx ho h hlt
  refine ⟨c, d, ?_, hc⟩
  unfold findNearest2
  rw [if_neg hinv.st, hinv.sx]
  simp only
  rw [if_pos (Or.inl hpos), if_neg (by omega), hf]

/-- The hypotheses are met. -/
example : findNearest2 (next exS).2 2 = .ok (some (0, 1)) ∧ exX.getD 0 0 < 2 ∧ 2 ≤ exX.getD (exX.length - 1) 0 := by
  decide

/-- **C52, finding.** A coordinate right of the last data point raises IndexError, though the nearest cluster is
the last one. -/
theorem c52_right_of_data (hx : Nondecreasing x) (ho : IsArgsort y order) (h : Reachable x y res order s) {v : α}
    (h1 : x.getD (x.length - 1) 0 < v) : findNearest2 s v = .error .indexError := by
  obtain ⟨-, hinv⟩ := inv_reachable hx ho h
  obtain ⟨s1, s2, s3⟩ := searchsorted_spec x hx v
  have hne : 0 < x.length := by have := hinv.cur; omega
  have hge : searchsorted x v ≥ x.length := by
    by_contra hn
    exact absurd (s3 (x.length - 1) (by omega) (by omega)) (not_le.2 h1)
  have hc : s.clusters.length ≠ 0 := by
    have := hinv.wf.nonempty
    simpa using this
  unfold findNearest2
  rw [if_neg hinv.st, hinv.sx]
  simp only
  rw [if_pos (Or.inr hge), if_pos hge, if_neg hc]

example : exX.getD (exX.length - 1) 0 < 6 ∧ findNearest2 (next exS).2 6 = .error .indexError := by decide

/-- **C52, finding.** For a coordinate at or left of the first data point the answer is always the first cluster,
with the distance of the *last* data point from its left end; it is reported as lying right of the cluster. -/
theorem c52_left_of_data (hx : Nondecreasing x) (ho : IsArgsort y order) (h : Reachable x y res order s) {v : α}
    (h0 : v ≤ x.getD 0 0) :
    findNearest2 s v = .ok (some (0, x.getD (x.length - 1) 0 - x.getD (row s.clusters 0).1 0)) ∧
    0 ≤ x.getD (x.length - 1) 0 - x.getD (row s.clusters 0).1 0 := by
  obtain ⟨-, hinv⟩ := inv_reachable hx ho h
  obtain ⟨s1, s2, s3⟩ := searchsorted_spec x hx v
  have hne : 0 < x.length := by have := hinv.cur; omega
  have hz : searchsorted x v = 0 := by
    by_contra hn
    exact absurd (s2 0 (by omega)) (not_lt.2 h0)
  have hc : s.clusters.length ≠ 0 := by
    have := hinv.wf.nonempty
    simpa using this
  have hcv := hinv.wf.row_valid (i := 0) (by omega)
  constructor
  · unfold findNearest2
    rw [if_neg hinv.st, hinv.sx]
    simp only
    rw [hz, if_neg (by omega), if_neg, if_neg hc]
    have a : (0 : α) ≤ x.getD 0 0 - v := sub_nonneg.2 h0
    have b : v - x.getD (x.length - 1) 0 ≤ 0 :=
      sub_nonpos.2 (h0.trans (getD_mono hx (Nat.zero_le _) (by omega)))
    exact not_lt.2 (b.trans a)
  · exact sub_nonneg.2 (getD_mono hx (by omega) (by omega))

/-- Instance: the coordinate 0 is left of every cluster, at distance −1 of the first; the lookup says +4. -/
example : (0 : ℤ) ≤ exX.getD 0 0 ∧ findNearest2 (next exS).2 0 = .ok (some (0, 4)) ∧
    signedDist exX (row (next exS).2.clusters 0) 0 = -1 := by decide

/-- Data for `c52_not_nearest`. -/
def farX : List ℤ := [0, 10, 12]
/-- See `farX`. -/
def farS : State ℤ :=
  { x := farX, y := [3, 1, 2], res := 1, dataOrder := [1, 2, 0], clusters := [(0, 0)], currentIdx := 2,
    lastcluster := none, lastpoint := some 0, status := .ready }

/-- **C52, finding.** The cluster reported for a coordinate inside the data need not be the nearest one to it:
with points 0, 10, 12 and clusters {0} and {12}, the coordinate 1 is answered with the cluster at 12. -/
theorem c52_not_nearest : ∃ (x y : List ℤ) (res : ℤ) (order : List ℕ) (s : State ℤ) (v : ℤ),
    Increasing x ∧ IsArgsort y order ∧ Reachable x y res order s ∧ s.clusters = [(0, 0), (2, 2)] ∧
    x = [0, 10, 12] ∧ v = 1 ∧ findNearest2 s v = .ok (some (1, -2)) := by
  refine ⟨farX, [3, 1, 2], 1, [1, 2, 0], (next farS).2, 1, by unfold Increasing farX; decide, ?_,
    .next (.mk (by simp [farX]) rfl), by decide, rfl, rfl, by decide⟩
  unfold IsArgsort
  constructor <;> decide

end Verif.Cluster
