import Verif.Parts.Props
import Verif.Peaks.Scale
import Verif.Peaks.Deriv
import Verif.Evaluator.Props
import Verif.Cluster.Props
import Verif.Peaks.Estimate

/-!
Instances of theorems on model parts (C14, C18, C53), peak functions (C30–C36), evaluators (C10–C12) and clusters
(C02–C08) not already shown beside the theorems.
-/

namespace Verif.Parts
open Verif.Py

theorem exParts_valid : ∀ p ∈ exParts, Valid p := by
  intro p hp
  simp only [exParts, List.mem_cons, List.not_mem_nil, or_false] at hp
  rcases hp with rfl | rfl <;> exact ⟨rfl, rfl⟩

theorem exParts_real : ∀ p ∈ exParts, p.isInt = false := by
  intro p hp
  simp only [exParts, List.mem_cons, List.not_mem_nil, or_false] at hp
  rcases hp with rfl | rfl <;> rfl

/-- Instances of `c14_unpack_pack`, `c14_pack_unpack`: a longer vector than needed; the vector just unpacked. -/
example := c14_unpack_pack ratFlt (ps := exParts) (by decide) exParts_valid exParts_real (v := [7, 8, 9, 10]) (by simp [ratFlt]) (by decide)
example := c14_pack_unpack ratFlt (ps := exParts) exParts_valid (fun p hp h => by rw [exParts_real p hp] at h; cases h)
  (v := [1, 3, 4]) rfl (by simp [ratFlt])

/-- Instance of `c53_setfree`: the parameter named "b". -/
example : ∃ q, (⟨lineOwner, [1, 2], [true, false], true, false, false⟩ : Part ℚ).setfree (.name "b") true = .ok q ∧ q.free = [true, true] :=
  ⟨_, rfl, rfl⟩

/-- Instance of `c18_fit_success`. -/
example := c18_fit_success ratFlt exParts exParts_valid exParts_real 5 true
  (exLsq 1 (some [[4, 0, 0], [0, 4, 0], [0, 0, 4]])) ⟨[], .raises .value⟩
  (c := (fit ratFlt exParts 5 true (exLsq 1 (some [[4, 0, 0], [0, 4, 0], [0, 0, 4]])) ⟨[], .raises .value⟩).1.toOption.getD none)
  (qs := (fit ratFlt exParts 5 true (exLsq 1 (some [[4, 0, 0], [0, 4, 0], [0, 0, 4]])) ⟨[], .raises .value⟩).2) rfl (by decide)

/-- Instance of `c18_fit_error_keeps_fixed`: the optimizer reports no convergence. -/
example := c18_fit_error_keeps_fixed ratFlt exParts exParts_valid 5 false (exLsq 5 none) ⟨[], .raises .value⟩
  (qs := (fit ratFlt exParts 5 false (exLsq 5 none) ⟨[], .raises .value⟩).2)
  (fun p hp w h => by
    simp only [exParts, List.mem_cons, List.not_mem_nil, or_false] at hp
    rcases hp with rfl | rfl <;> cases h) rfl

end Verif.Parts

namespace Verif.Peaks

/-- Instances on the widths: a maximal width 2, a peak of width 1 in the format "pwa". -/
example := c32_fwhm_bounds (mw := 2) (by norm_num) 0
example := c31_internal_roundtrip (mw := 2) (by norm_num) ⟨3, 4, -5⟩ "mu_sigma_area" (Or.inr rfl)
example := (c31_pwa_sigma (mw := 2) (by norm_num) ⟨3, 1, 5⟩ (by norm_num)).1 (by norm_num)

/-- Instance of `c32_too_wide`. -/
example : transform 2 ⟨3, 5, 1⟩ "pwa" "internal" = .error .transformation :=
  (c32_too_wide (mw := 2) (by norm_num) ⟨3, 5, 1⟩ (by norm_num)).1.2 (by norm_num)

/-- Instance of `c31_very_negative_width_nan`. -/
example := c31_very_negative_width_nan (mw := 2) (by norm_num) ⟨3, -5, 1⟩ (by norm_num)

/-- Instance of `c30_density`. -/
example := c30_density (mw := 2) (by norm_num) ⟨3, 0, -5⟩ (by simp) 2

/-- Instances of `c35_*`: a peak of width √2 at 10 has a maximum, at 1/10 none. -/
example := c35_gaussian_max (mw := 2) (by norm_num) ⟨10, 0, 5⟩ (by simp)

theorem exSigma : (1 : ℝ) / 10 < sigmaOf 2 0 ^ 2 ∧ sigmaOf 2 0 ^ 2 < 1 := by
  have h1 := sigmaOf_sq 2 0
  rw [Real.sin_zero] at h1
  have h2 : (1 : ℝ) / 2 < Real.log 2 := by have := Real.log_two_gt_d9; linarith
  have h4 : Real.log 2 < 7 / 10 := by have := Real.log_two_lt_d9; linarith
  have h3 : c2 2 < 1 := by unfold c2; rw [div_lt_one (by linarith)]; linarith
  have h5 : (1 : ℝ) / 5 < c2 2 := by unfold c2; rw [lt_div_iff₀ (by linarith)]; linarith
  constructor <;> linarith

example := (c35_overR_max (mw := 2) (by norm_num) ⟨10, 0, 5⟩ (by simp) (by norm_num)).2
  (by have := exSigma.2; norm_num; linarith)

example : value .overR 2 ⟨1 / 10, 0, 5⟩ 2 < value .overR 2 ⟨1 / 10, 0, 5⟩ 1 :=
  c35_overR_no_max (mw := 2) (by norm_num) ⟨1 / 10, 0, 5⟩ (by simp) (by norm_num)
    (by have := exSigma.1; norm_num; linarith) (by norm_num) (by norm_num)

example := c35_overR_negative_position (mw := 2) (by norm_num) ⟨-10, 0, 5⟩ (by simp) (by norm_num) (by norm_num)
  (by have := exSigma.2; norm_num; linarith)

/-- Instances of `c36_*`: the peak at 10 halved at 11. -/
example : ∃ q, scaleGaussian 2 ⟨10, 0, 5⟩ 11 0.5 = .ok (some q) ∧ value .gaussian 2 q 11 = 0.5 * value .gaussian 2 ⟨10, 0, 5⟩ 11 := by
  obtain ⟨q, h⟩ := (c36_gaussian_refusals (mw := 2) (by norm_num) ⟨10, 0, 5⟩ 11 0.5 (by simp) (by norm_num)
    (by norm_num)).2 (by norm_num) (by norm_num)
  exact ⟨q, h, (c36_gaussian_scale (mw := 2) (by norm_num) ⟨10, 0, 5⟩ q 11 0.5 (by simp) (by norm_num) (by norm_num) h).2.2.1⟩

example := c36_gaussian_at_position_collapses (mw := 2) (by norm_num) ⟨10, 0, 5⟩ 0.5 (by simp) (by norm_num) (by norm_num) (by norm_num)

example : ∃ q m v, max .overR 2 ⟨10, 0, 5⟩ = .ok (m, v) ∧ scaleOverR 2 ⟨10, 0, 5⟩ 11 0.5 = .ok (some q) ∧
    value .overR 2 q 11 = 0.5 * value .overR 2 ⟨10, 0, 5⟩ 11 ∧ max .overR 2 q = .ok (m, v) := by
  obtain ⟨m, v, h1, -, -, -, h4, -⟩ := (c35_overR_max (mw := 2) (by norm_num) ⟨10, 0, 5⟩ (by simp) (by norm_num)).2
    (by have := exSigma.2; norm_num; linarith)
  simp only at h4
  obtain ⟨q, h5, h6⟩ := (c36_overR_shrink (mw := 2) (by norm_num) ⟨10, 0, 5⟩ 11 0.5 (by simp) (by norm_num) (by norm_num)).2.2 m v h1
    (by norm_num) (by norm_num) (by linarith)
  obtain ⟨-, -, -, -, -, -, h7, -⟩ := c36_overR_scale (mw := 2) (by norm_num) ⟨10, 0, 5⟩ q 11 0.5 (by simp) (by norm_num) (by norm_num)
    (by norm_num) h5
  exact ⟨q, m, v, h1, h5, h7, h6⟩

/-- Instances of `c33_jacobian`, `c34_width_derivative`, `c34_other_entries`. -/
example := c33_jacobian (mw := 2) (by norm_num) ⟨3, 0, 5⟩ (by simp) 2 (by norm_num)
example := c34_width_derivative (mw := 2) (by norm_num) ⟨3, 1, 5⟩ "pwa" "internal" (by simp) (by simp) (by decide)
  (fun h => absurd h (by decide)) (fun _ => ⟨by norm_num, by norm_num⟩) (fun h => absurd h (by decide))
example := c34_other_entries (mw := 2) ⟨3, 1, -5⟩ "pwa" (Or.inl rfl)

end Verif.Peaks

namespace Verif.Evaluator

/-- Instance of `c10_transitive`. -/
example := c10_transitive (K := ℚ) (a := ⟨"AIC", false, some 5, none⟩) (b := ⟨"AIC", false, some 4, none⟩)
  (c := ⟨"AIC", false, some 3, none⟩) (s := 5) (t := 4) (u := 3) ⟨rfl, rfl, rfl, rfl⟩ ⟨rfl, rfl, rfl, rfl⟩ (by decide +kernel) (by decide +kernel)

/-- Instance of `c10_no_comparison`: an evaluator that never evaluated. -/
example := c10_no_comparison (K := ℚ) (a := ⟨"AIC", false, some 5, none⟩) (b := ⟨"AIC", false, none, none⟩) (Or.inr (Or.inr rfl))

/-- Instance of `c11_chisq_zero_iff`. -/
example := c11_chisq_zero_iff (K := ℚ) [1, 2] [1, 3] [1, 2] rfl rfl (by simp)

/-- Instance of `c11_penalty`. -/
example := c11_penalty (K := ℚ) 3 5 (by norm_num) (by norm_num)

/-- Instance of `c12_growth_monotone`. -/
example := c12_growth_monotone (K := ℚ) .aic ⟨1, 1, [0, 0], [3, 0], [1, 1]⟩ 0 1 (by norm_num) (by decide +kernel)

/-- Instance of `c12_growth_zero`. -/
example := c12_growth_zero (K := ℚ) .aicc ⟨1, 1, [0, 0, 0, 0], [3, 0, 0, 1], [1, 1, 1, 1]⟩ (by decide)

end Verif.Evaluator

namespace Verif.Cluster

/-- Instances on the first steps of the five points of `exX`. -/
example := c02_next_progress exIncreasing.nondecreasing exArgsort exReach1 (by decide)
example := c02_next_takes_highest exIncreasing exArgsort exReach1 (by decide)
example := c02_stop_iff_complete exIncreasing exArgsort exReach1
example := c02_next_joins exIncreasing.nondecreasing exArgsort exReach1 (by decide)
example := c04_nearest_correct exIncreasing.nondecreasing exArgsort exReach1 (i := 2) (by decide)
example := c05_combine_preserves exIncreasing.nondecreasing exArgsort (.next exReach1) (groups := [[0, 1]]) (by decide) (by decide)
example := c05_combine_accepts_iff (c01_clusters_wellformed exIncreasing.nondecreasing exArgsort (.next exReach1)) (groups := [[0, 1]]) (by decide)
example := c05_combine_raise_unchanged (s := (next exS).2) (g := [0, 1]) (by decide) (by decide)
example := c06_combine_adjacent exIncreasing.nondecreasing exArgsort (.next exReach1) (adj := [[0, 1]]) (by decide +kernel)
example := c07_reset_replays exIncreasing.nondecreasing exArgsort exReach1 (f := exS) (by decide) rfl
example := c08_isFull_iff exIncreasing.nondecreasing exArgsort exReach1 (i := 1) (by decide)

end Verif.Cluster
