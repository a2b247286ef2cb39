import Verif.Cluster.CombineLemmas
import Verif.Cluster.Loop

/-! Helper lemmas about `find_adjacent_clusters` and the extraction loop. -/

namespace Verif.Cluster

set_option linter.unusedSectionVars false

variable {α : Type} [AddCommGroup α] [LinearOrder α]

/-- `l..r` is a maximal run of touching clusters. -/
structure MaxRun (cs : List (ℕ × ℕ)) (l r : ℕ) : Prop where
  lt : l < r
  bound : r < cs.length
  touch : ∀ i, l ≤ i → i < r → (row cs (i + 1)).1 = (row cs i).2 + 1
  left : l = 0 ∨ (row cs l).1 ≠ (row cs (l - 1)).2 + 1
  right : r + 1 = cs.length ∨ (row cs (r + 1)).1 ≠ (row cs r).2 + 1

theorem adjacentAt_iff {cs : List (ℕ × ℕ)} {i : ℕ} :
    adjacentAt cs i = true ↔ (row cs (i + 1)).1 = (row cs i).2 + 1 := by
  simp [adjacentAt]; omega

theorem seekLeft_spec (cs : List (ℕ × ℕ)) (i : ℕ) (hi : i < cs.length) :
    seekLeft cs i < cs.length ∧ (∀ j, i ≤ j → j < seekLeft cs i → adjacentAt cs j = false) ∧
      (seekLeft cs i + 1 < cs.length → adjacentAt cs (seekLeft cs i) = true) := by
  fun_induction seekLeft cs i with
  | case1 i h1 h2 => exact ⟨by omega, fun j a b => by omega, fun _ => h2⟩
  | case2 i h1 h2 ih =>
    obtain ⟨a, b, c⟩ := ih (by omega)
    refine ⟨a, ?_, c⟩
    intro j hj hj'
    rcases hj.eq_or_lt with rfl | hj
    · simpa using h2
    · exact b j hj hj'
  | case3 i h1 => exact ⟨hi, fun j a b => by omega, fun h => absurd h h1⟩

theorem seekRight_spec (cs : List (ℕ × ℕ)) (i : ℕ) (hi : i < cs.length) :
    seekRight cs i < cs.length ∧ (∀ j, i ≤ j → j < seekRight cs i → adjacentAt cs j = true) ∧
      (seekRight cs i + 1 < cs.length → adjacentAt cs (seekRight cs i) = false) := by
  fun_induction seekRight cs i with
  | case1 i h1 h2 ih =>
    obtain ⟨a, b, c⟩ := ih (by omega)
    refine ⟨a, ?_, c⟩
    intro j hj hj'
    rcases hj.eq_or_lt with rfl | hj
    · exact h2
    · exact b j hj hj'
  | case2 i h1 h2 => exact ⟨by omega, fun j a b => by omega, fun _ => by simpa using h2⟩
  | case3 i h1 => exact ⟨hi, fun j a b => by omega, fun h => absurd h h1⟩

theorem seekRight_pos {cs : List (ℕ × ℕ)} {i : ℕ} (h1 : i + 1 < cs.length)
    (h2 : adjacentAt cs i = true) : i < seekRight cs i := by
  rw [seekRight, if_pos h1, if_pos h2]
  have := le_seekRight cs (i + 1)
  omega

theorem not_adj {cs : List (ℕ × ℕ)} {i : ℕ} (h : adjacentAt cs i = false) :
    (row cs (i + 1)).1 ≠ (row cs i).2 + 1 := by
  intro e
  rw [adjacentAt_iff.2 e] at h
  exact absurd h (by simp)

/-- The loop lists exactly the maximal runs to the right of a boundary. -/
theorem mem_adjLoop (cs : List (ℕ × ℕ)) (left : ℕ)
    (hb : left = 0 ∨ (row cs left).1 ≠ (row cs (left - 1)).2 + 1) (g : List ℕ) :
    g ∈ adjLoop cs left ↔
      ∃ l r, left ≤ l ∧ MaxRun cs l r ∧ g = List.range' l (r + 1 - l) := by
  fun_induction adjLoop cs left with
  | case1 left hlt l r hgt ih =>
    obtain ⟨hl1, hl2, hl3⟩ := seekLeft_spec cs left (by omega)
    obtain ⟨hr1, hr2, hr3⟩ := seekRight_spec cs l hl1
    have hle := le_seekLeft cs left
    have hrun : MaxRun cs l r := by
      refine ⟨hgt, hr1, fun i a b => adjacentAt_iff.1 (hr2 i a b), ?_, ?_⟩
      · rcases hle.eq_or_lt with e | e
        · rw [show l = left from e.symm]; exact hb
        · right
          have := not_adj (hl2 (l - 1) (by omega) (by omega))
          rwa [show l - 1 + 1 = l by omega] at this
      · by_cases hr : r + 1 < cs.length
        · right; exact not_adj (hr3 hr)
        · left; omega
    have hih : r + 1 < cs.length → (g ∈ adjLoop cs (r + 1) ↔ _) := fun h =>
      ih (by right; simpa using not_adj (hr3 h))
    rw [List.mem_cons]
    constructor
    · rintro (rfl | hg)
      · exact ⟨l, r, hle, hrun, rfl⟩
      · by_cases hr : r + 1 < cs.length
        · obtain ⟨l', r', h1, h2⟩ := (hih hr).1 hg
          exact ⟨l', r', by omega, h2⟩
        · rw [adjLoop, if_neg (by omega)] at hg
          simp at hg
    · rintro ⟨l', r', h1, h2, rfl⟩
      by_cases hc : r + 1 ≤ l'
      · right
        have := h2.lt
        have := h2.bound
        exact (hih (by omega)).2 ⟨l', r', hc, h2, rfl⟩
      · left
        -- l' is between left and r; it must be l
        have hl' : l ≤ l' := by
          by_contra hcon
          exact not_adj (hl2 l' h1 (by omega)) (h2.touch l' le_rfl h2.lt)
        have e1 : l' = l := by
          by_contra hne
          rcases h2.left with e | e
          · omega
          · have := adjacentAt_iff.1 (hr2 (l' - 1) (by omega) (by omega))
            rw [show l' - 1 + 1 = l' by omega] at this
            exact e this
        subst e1
        have e2 : r' = r := by
          by_contra hne
          rcases Nat.lt_or_ge r' r with hlt' | hge
          · rcases h2.right with e | e
            · omega
            · exact e (adjacentAt_iff.1 (hr2 r' (by have := h2.lt; omega) hlt'))
          · rcases hrun.right with e | e
            · have := h2.bound; omega
            · exact e (h2.touch r (by omega) (by omega))
        rw [e2]
  | case2 left hlt l r hgt ih =>
    obtain ⟨hl1, hl2, hl3⟩ := seekLeft_spec cs left (by omega)
    have hle := le_seekLeft cs left
    have hge := le_seekRight cs l
    have hlen : ¬ l + 1 < cs.length := fun h => hgt (seekRight_pos h (hl3 h))
    rw [adjLoop, if_neg (by omega)]
    simp only [List.not_mem_nil, false_iff, not_exists, not_and]
    intro l' r' h1 h2
    exfalso
    have := h2.lt
    have := h2.bound
    exact not_adj (hl2 l' h1 (by omega)) (h2.touch l' le_rfl h2.lt)
  | case3 left hlt =>
    simp only [List.not_mem_nil, false_iff, not_exists, not_and]
    intro l' r' h1 h2
    have := h2.lt
    have := h2.bound
    omega

theorem adjLoop_ge (cs : List (ℕ × ℕ)) (left : ℕ) :
    ∀ i ∈ (adjLoop cs left).flatten, left ≤ i := by
  fun_induction adjLoop cs left with
  | case1 left hlt l r hgt ih =>
    have hle := le_seekLeft cs left
    intro i hi
    rw [List.flatten_cons, List.mem_append] at hi
    rcases hi with hi | hi
    · have := List.mem_range'_1.1 hi; omega
    · have := ih i hi; omega
  | case2 left hlt l r hgt ih =>
    have hle := le_seekLeft cs left
    have hge := le_seekRight cs l
    intro i hi
    have := ih i hi; omega
  | case3 left hlt => simp

theorem adjLoop_sorted (cs : List (ℕ × ℕ)) (left : ℕ) :
    (adjLoop cs left).flatten.Pairwise (· < ·) := by
  fun_induction adjLoop cs left with
  | case1 left hlt l r hgt ih =>
    rw [List.flatten_cons, List.pairwise_append]
    refine ⟨List.pairwise_lt_range', ih, ?_⟩
    intro a ha b hb
    have := List.mem_range'_1.1 ha
    have := adjLoop_ge cs (r + 1) b hb
    omega
  | case2 left hlt l r hgt ih => exact ih
  | case3 left hlt => simp

theorem MaxRun.goodGroup {cs : List (ℕ × ℕ)} {l r : ℕ} (h : MaxRun cs l r) :
    GoodGroup cs (List.range' l (r + 1 - l)) := by
  have hlt := h.lt
  have hne : List.range' l (r + 1 - l) ≠ [] := by simp; omega
  have h0 : (List.range' l (r + 1 - l)).getD 0 0 = l := by
    simp [show 0 < r + 1 - l by omega]
  refine ⟨by rw [h0]; simp, hne, ?_, ?_⟩
  · intro i hi
    have := List.mem_range'_1.1 hi
    have := h.bound
    omega
  · intro i hi hi'
    have := List.mem_range'_1.1 hi
    have := List.mem_range'_1.1 hi'
    exact h.touch i (by omega) (by omega)

end Verif.Cluster
