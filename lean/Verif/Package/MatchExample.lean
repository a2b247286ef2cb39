import Verif.Package.Match
import Verif.Package.Example

/-!
# An instance of `c99_match`
-/

set_option linter.unusedSectionVars false

namespace Verif.Parts.Package

open Verif.Py Verif.PeakList Verif.Extraction Verif.Parts.Extract Verif.Parts.ModelCluster

/-- A Gaussian at 1 and a Gaussian/r at 10. -/
noncomputable def exPair : List (Part ℝ) :=
  [⟨function 0 3 (exTable 3), [1, 0, 1], [true, true, true], true, false, false⟩,
   ⟨function 0 1 (exTable 1), [10, 0, 1], [true, true, true], true, false, false⟩]

theorem exWidth : 0 < Peaks.fwhmOf 2 0 := by
  unfold Peaks.fwhmOf
  rw [Real.sin_zero]
  exact Real.sqrt_pos.2 (by norm_num)

theorem exPair_reported (f : ℕ) (a : ℝ) : Reported 2 ⟨function 0 f (exTable f), [a, 0, 1], [true, true, true], true, false, false⟩ a (Peaks.fwhmOf 2 0) |1| where
  pwa := (transform_pwa 0 f (exTable f) a 0 1).1
  default := (transform_pwa 0 f (exTable f) a 0 1).2
  position := get_position rfl rfl
  width := (let h := Peaks.c32_fwhm_bounds (mw := 2) (by norm_num) 0; ⟨h.1, h.2.1⟩)
  area := abs_nonneg _

theorem exPair_lowerable : ∀ p ∈ exPair, Lowerable 0 exTable 20 p := by
  have hs : Real.sin 0 ≠ -1 := by rw [Real.sin_zero]; norm_num
  intro p hp
  rcases List.mem_cons.1 hp with rfl | hp
  · refine ⟨⟨3, rfl⟩, rfl, rfl, ⟨_, _, exWidth, by norm_num, _, exPair_reported 3 1⟩, by intro h; simp [function, exTable] at h, ?_⟩
    obtain ⟨h, h1, -⟩ := Peaks.c35_gaussian_max (mw := 2) (by norm_num) ⟨1, 0, 1⟩ hs
    refine ⟨1, h, ?_, by norm_num⟩
    show (Peaks.max .gaussian 2 ⟨1, 0, 1⟩).toOption = _
    rw [h1]; rfl
  · rw [List.mem_singleton.1 hp]
    refine ⟨⟨1, rfl⟩, rfl, rfl, ⟨_, _, exWidth, by norm_num, _, exPair_reported 1 10⟩, fun _ => ⟨10, get_position rfl rfl, by norm_num⟩, ?_⟩
    have hσ : 4 * Peaks.sigmaOf 2 0 ^ 2 < 10 ^ 2 := by
      unfold Peaks.sigmaOf
      rw [div_pow, Peaks.fwhmOf_sq, Peaks.sigma2fwhm_sq, Real.sin_zero]
      have : 0.6931471803 < Real.log 2 := Real.log_two_gt_d9
      rw [← mul_div_assoc, div_lt_iff₀ (by positivity)]
      norm_num
      linarith
    obtain ⟨m, h, h1, -, -, -, h5, -⟩ := (Peaks.c35_overR_max (mw := 2) (by norm_num) ⟨10, 0, 1⟩ hs (by norm_num)).2 hσ
    have h5' : m < 10 := h5
    refine ⟨m, h, ?_, by intro e; rw [← e] at h5'; norm_num at h5'⟩
    show (Peaks.max .overR 2 ⟨10, 0, 1⟩).toOption = _
    rw [h1]; rfl

theorem exPair_positive : 0 < curve (packaged 0 exTable exNumerics).val exPair 20 := by
  have h : ∀ p ∈ exPair, 0 < (packaged 0 exTable exNumerics).val p 20 := by
    intro p hp
    have hσ : 0 < Peaks.sigmaOf 2 0 := Peaks.sigmaOf_pos (by norm_num) (by rw [Real.sin_zero]; norm_num)
    rcases List.mem_cons.1 hp with rfl | hp
    · show 0 < Peaks.value .gaussian 2 ⟨1, 0, 1⟩ 20
      rw [Peaks.value_gaussian (by norm_num)]
      unfold Peaks.gauss
      have := Real.pi_pos
      simp only
      positivity
    · rw [List.mem_singleton.1 hp]
      show 0 < Peaks.value .overR 2 ⟨10, 0, 1⟩ 20
      rw [Peaks.value_overR (by norm_num)]
      unfold Peaks.gauss
      have := Real.pi_pos
      simp only
      positivity
  unfold curve
  exact List.sum_pos _ (by intro v hv; obtain ⟨p, hp, rfl⟩ := List.mem_map.1 hv; exact h p hp) (by simp [exPair])

/-- The sum at 20 is halved. -/
example := c99_match (nan := 0) (T := exTable) (N := exNumerics) exTable_pos exPair_lowerable (half_pos exPair_positive) (half_le_self exPair_positive.le)

end Verif.Parts.Package
