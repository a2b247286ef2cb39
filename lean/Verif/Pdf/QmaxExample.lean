import Verif.Pdf.QmaxProps
import Verif.History.Model
import Verif.Extraction.Vars
import Verif.Pdf.Vars
import Mathlib.Analysis.Real.Pi.Bounds
import Mathlib.Analysis.SpecialFunctions.Trigonometric.Bounds
import Mathlib.Analysis.SpecialFunctions.Trigonometric.Series
import Mathlib.Tactic.IntervalCases

/-!
# A case for C93: eight points, the first of which is 1 and the others 0
-/

namespace Verif.Pdf

open Verif.Py Finset

/-- The data. -/
noncomputable def spike : List ℝ := [1, 0, 0, 0, 0, 0, 0, 0]

/-- `sin(πm/8)`. -/
noncomputable def eighth (m : ℕ) : ℝ := Real.sin (Real.pi * m / 8)

/-- `sin(πm/15)`. -/
noncomputable def fifteenth (m : ℕ) : ℝ := Real.sin (Real.pi * m / 15)

theorem eighth_add (m : ℕ) : eighth (m + 8) = -eighth m := by
  unfold eighth
  rw [show Real.pi * ((m + 8 : ℕ) : ℝ) / 8 = Real.pi * m / 8 + Real.pi by push_cast; ring, Real.sin_add_pi]

theorem fifteenth_add (m : ℕ) : fifteenth (m + 15) = -fifteenth m := by
  unfold fifteenth
  rw [show Real.pi * ((m + 15 : ℕ) : ℝ) / 15 = Real.pi * m / 15 + Real.pi by push_cast; ring, Real.sin_add_pi]

theorem eighth_flip (m : ℕ) (h : m ≤ 8) : eighth (8 - m) = eighth m := by
  unfold eighth
  rw [Nat.cast_sub h, show Real.pi * (((8 : ℕ) : ℝ) - m) / 8 = Real.pi - Real.pi * m / 8 by push_cast; ring, Real.sin_pi_sub]

theorem fifteenth_flip (m : ℕ) (h : m ≤ 15) : fifteenth (15 - m) = fifteenth m := by
  unfold fifteenth
  rw [Nat.cast_sub h, show Real.pi * (((15 : ℕ) : ℝ) - m) / 15 = Real.pi - Real.pi * m / 15 by push_cast; ring, Real.sin_pi_sub]

theorem eighth_zero : eighth 0 = 0 := by simp [eighth]

theorem fifteenth_zero : fifteenth 0 = 0 := by simp [fifteenth]

theorem eighth_four : eighth 4 = 1 := by
  unfold eighth
  rw [show Real.pi * ((4 : ℕ) : ℝ) / 8 = Real.pi / 2 by push_cast; ring, Real.sin_pi_div_two]

theorem between_spike (t : ℕ) : between spike t = sinc (t * (7 / 15)) := by
  unfold between spike
  simp [sum_range_succ]
  norm_num

theorem between_spike_succ (t : ℕ) : between spike (t + 1) = 15 / (7 * Real.pi) * (fifteenth (7 * (t + 1)) / (t + 1)) := by
  rw [between_spike]
  have hp := Real.pi_pos
  have ht : (0 : ℝ) < (t : ℝ) + 1 := by positivity
  unfold sinc fifteenth
  push_cast
  rw [if_neg (by positivity), show Real.pi * (((t : ℝ) + 1) * (7 / 15)) = Real.pi * (7 * ((t : ℝ) + 1)) / 15 by ring]
  field_simp

theorem amplitude_spike (k : ℕ) : amplitude spike k =
    -(15 / (7 * Real.pi) * ∑ t ∈ range 15, fifteenth (7 * (t + 1)) / (t + 1) * eighth ((t + 1) * k)) := by
  unfold amplitude
  rw [show 2 * spike.length = 15 + 1 from rfl, sum_range_succ', mul_sum]
  simp only [Nat.cast_zero, zero_mul, mul_zero, zero_div, Real.sin_zero, add_zero]
  congr 1
  apply sum_congr rfl
  intro t _
  rw [between_spike_succ]
  have : Real.sin (2 * Real.pi * (((t + 1 : ℕ) : ℝ) * k) / (2 * (spike.length : ℝ))) = eighth ((t + 1) * k) := by
    unfold eighth
    congr 1
    simp [spike]
    ring
  rw [this]
  ring

theorem fifteenth_14 : fifteenth 14 = fifteenth 1 := by
  rw [show (14 : ℕ) = 15 - 1 from rfl, fifteenth_flip 1 (by norm_num)]

theorem fifteenth_21 : fifteenth 21 = -fifteenth 6 := by
  rw [show (21 : ℕ) = 6 + 15 from rfl, fifteenth_add]

theorem fifteenth_28 : fifteenth 28 = -fifteenth 2 := by
  rw [show (28 : ℕ) = 13 + 15 from rfl, fifteenth_add, show (13 : ℕ) = 15 - 2 from rfl, fifteenth_flip 2 (by norm_num)]

theorem fifteenth_35 : fifteenth 35 = fifteenth 5 := by
  rw [show (35 : ℕ) = 20 + 15 from rfl, fifteenth_add, show (20 : ℕ) = 5 + 15 from rfl, fifteenth_add]; simp

theorem fifteenth_42 : fifteenth 42 = fifteenth 3 := by
  rw [show (42 : ℕ) = 27 + 15 from rfl, fifteenth_add, show (27 : ℕ) = 12 + 15 from rfl, fifteenth_add, show (12 : ℕ) = 15 - 3 from rfl, fifteenth_flip 3 (by norm_num)]; simp

theorem fifteenth_49 : fifteenth 49 = -fifteenth 4 := by
  rw [show (49 : ℕ) = 34 + 15 from rfl, fifteenth_add, show (34 : ℕ) = 19 + 15 from rfl, fifteenth_add, show (19 : ℕ) = 4 + 15 from rfl, fifteenth_add]; simp

theorem fifteenth_56 : fifteenth 56 = -fifteenth 4 := by
  rw [show (56 : ℕ) = 41 + 15 from rfl, fifteenth_add, show (41 : ℕ) = 26 + 15 from rfl, fifteenth_add, show (26 : ℕ) = 11 + 15 from rfl, fifteenth_add, show (11 : ℕ) = 15 - 4 from rfl, fifteenth_flip 4 (by norm_num)]; simp

theorem fifteenth_63 : fifteenth 63 = fifteenth 3 := by
  rw [show (63 : ℕ) = 48 + 15 from rfl, fifteenth_add, show (48 : ℕ) = 33 + 15 from rfl, fifteenth_add, show (33 : ℕ) = 18 + 15 from rfl, fifteenth_add, show (18 : ℕ) = 3 + 15 from rfl, fifteenth_add]; simp

theorem fifteenth_70 : fifteenth 70 = fifteenth 5 := by
  rw [show (70 : ℕ) = 55 + 15 from rfl, fifteenth_add, show (55 : ℕ) = 40 + 15 from rfl, fifteenth_add, show (40 : ℕ) = 25 + 15 from rfl, fifteenth_add, show (25 : ℕ) = 10 + 15 from rfl, fifteenth_add, show (10 : ℕ) = 15 - 5 from rfl, fifteenth_flip 5 (by norm_num)]; simp

theorem fifteenth_77 : fifteenth 77 = -fifteenth 2 := by
  rw [show (77 : ℕ) = 62 + 15 from rfl, fifteenth_add, show (62 : ℕ) = 47 + 15 from rfl, fifteenth_add, show (47 : ℕ) = 32 + 15 from rfl, fifteenth_add, show (32 : ℕ) = 17 + 15 from rfl, fifteenth_add, show (17 : ℕ) = 2 + 15 from rfl, fifteenth_add]; simp

theorem fifteenth_84 : fifteenth 84 = -fifteenth 6 := by
  rw [show (84 : ℕ) = 69 + 15 from rfl, fifteenth_add, show (69 : ℕ) = 54 + 15 from rfl, fifteenth_add, show (54 : ℕ) = 39 + 15 from rfl, fifteenth_add, show (39 : ℕ) = 24 + 15 from rfl, fifteenth_add, show (24 : ℕ) = 9 + 15 from rfl, fifteenth_add, show (9 : ℕ) = 15 - 6 from rfl, fifteenth_flip 6 (by norm_num)]; simp

theorem fifteenth_91 : fifteenth 91 = fifteenth 1 := by
  rw [show (91 : ℕ) = 76 + 15 from rfl, fifteenth_add, show (76 : ℕ) = 61 + 15 from rfl, fifteenth_add, show (61 : ℕ) = 46 + 15 from rfl, fifteenth_add, show (46 : ℕ) = 31 + 15 from rfl, fifteenth_add, show (31 : ℕ) = 16 + 15 from rfl, fifteenth_add, show (16 : ℕ) = 1 + 15 from rfl, fifteenth_add]; simp

theorem fifteenth_98 : fifteenth 98 = fifteenth 7 := by
  rw [show (98 : ℕ) = 83 + 15 from rfl, fifteenth_add, show (83 : ℕ) = 68 + 15 from rfl, fifteenth_add, show (68 : ℕ) = 53 + 15 from rfl, fifteenth_add, show (53 : ℕ) = 38 + 15 from rfl, fifteenth_add, show (38 : ℕ) = 23 + 15 from rfl, fifteenth_add, show (23 : ℕ) = 8 + 15 from rfl, fifteenth_add, show (8 : ℕ) = 15 - 7 from rfl, fifteenth_flip 7 (by norm_num)]; simp

theorem fifteenth_105 : fifteenth 105 = 0 := by
  rw [show (105 : ℕ) = 90 + 15 from rfl, fifteenth_add, show (90 : ℕ) = 75 + 15 from rfl, fifteenth_add, show (75 : ℕ) = 60 + 15 from rfl, fifteenth_add, show (60 : ℕ) = 45 + 15 from rfl, fifteenth_add, show (45 : ℕ) = 30 + 15 from rfl, fifteenth_add, show (30 : ℕ) = 15 + 15 from rfl, fifteenth_add, show (15 : ℕ) = 0 + 15 from rfl, fifteenth_add, fifteenth_zero]; simp

theorem eighth_4 : eighth 4 = 1 := by
  rw [eighth_four]

theorem eighth_5 : eighth 5 = eighth 3 := by
  rw [show (5 : ℕ) = 8 - 3 from rfl, eighth_flip 3 (by norm_num)]

theorem eighth_6 : eighth 6 = eighth 2 := by
  rw [show (6 : ℕ) = 8 - 2 from rfl, eighth_flip 2 (by norm_num)]

theorem eighth_8 : eighth 8 = 0 := by
  rw [show (8 : ℕ) = 0 + 8 from rfl, eighth_add, eighth_zero]; simp

theorem eighth_9 : eighth 9 = -eighth 1 := by
  rw [show (9 : ℕ) = 1 + 8 from rfl, eighth_add]

theorem eighth_10 : eighth 10 = -eighth 2 := by
  rw [show (10 : ℕ) = 2 + 8 from rfl, eighth_add]

theorem eighth_12 : eighth 12 = -1 := by
  rw [show (12 : ℕ) = 4 + 8 from rfl, eighth_add, eighth_four]

theorem eighth_14 : eighth 14 = -eighth 2 := by
  rw [show (14 : ℕ) = 6 + 8 from rfl, eighth_add, show (6 : ℕ) = 8 - 2 from rfl, eighth_flip 2 (by norm_num)]

theorem eighth_15 : eighth 15 = -eighth 1 := by
  rw [show (15 : ℕ) = 7 + 8 from rfl, eighth_add, show (7 : ℕ) = 8 - 1 from rfl, eighth_flip 1 (by norm_num)]

theorem eighth_16 : eighth 16 = 0 := by
  rw [show (16 : ℕ) = 8 + 8 from rfl, eighth_add, show (8 : ℕ) = 0 + 8 from rfl, eighth_add, eighth_zero]; simp

theorem eighth_18 : eighth 18 = eighth 2 := by
  rw [show (18 : ℕ) = 10 + 8 from rfl, eighth_add, show (10 : ℕ) = 2 + 8 from rfl, eighth_add]; simp

theorem eighth_20 : eighth 20 = 1 := by
  rw [show (20 : ℕ) = 12 + 8 from rfl, eighth_add, show (12 : ℕ) = 4 + 8 from rfl, eighth_add, eighth_four]; simp

theorem eighth_21 : eighth 21 = eighth 3 := by
  rw [show (21 : ℕ) = 13 + 8 from rfl, eighth_add, show (13 : ℕ) = 5 + 8 from rfl, eighth_add, show (5 : ℕ) = 8 - 3 from rfl, eighth_flip 3 (by norm_num)]; simp

theorem eighth_22 : eighth 22 = eighth 2 := by
  rw [show (22 : ℕ) = 14 + 8 from rfl, eighth_add, show (14 : ℕ) = 6 + 8 from rfl, eighth_add, show (6 : ℕ) = 8 - 2 from rfl, eighth_flip 2 (by norm_num)]; simp

theorem eighth_24 : eighth 24 = 0 := by
  rw [show (24 : ℕ) = 16 + 8 from rfl, eighth_add, show (16 : ℕ) = 8 + 8 from rfl, eighth_add, show (8 : ℕ) = 0 + 8 from rfl, eighth_add, eighth_zero]; simp

theorem eighth_25 : eighth 25 = -eighth 1 := by
  rw [show (25 : ℕ) = 17 + 8 from rfl, eighth_add, show (17 : ℕ) = 9 + 8 from rfl, eighth_add, show (9 : ℕ) = 1 + 8 from rfl, eighth_add]; simp

theorem eighth_26 : eighth 26 = -eighth 2 := by
  rw [show (26 : ℕ) = 18 + 8 from rfl, eighth_add, show (18 : ℕ) = 10 + 8 from rfl, eighth_add, show (10 : ℕ) = 2 + 8 from rfl, eighth_add]; simp

theorem eighth_27 : eighth 27 = -eighth 3 := by
  rw [show (27 : ℕ) = 19 + 8 from rfl, eighth_add, show (19 : ℕ) = 11 + 8 from rfl, eighth_add, show (11 : ℕ) = 3 + 8 from rfl, eighth_add]; simp

theorem eighth_28 : eighth 28 = -1 := by
  rw [show (28 : ℕ) = 20 + 8 from rfl, eighth_add, show (20 : ℕ) = 12 + 8 from rfl, eighth_add, show (12 : ℕ) = 4 + 8 from rfl, eighth_add, eighth_four]; simp

theorem eighth_30 : eighth 30 = -eighth 2 := by
  rw [show (30 : ℕ) = 22 + 8 from rfl, eighth_add, show (22 : ℕ) = 14 + 8 from rfl, eighth_add, show (14 : ℕ) = 6 + 8 from rfl, eighth_add, show (6 : ℕ) = 8 - 2 from rfl, eighth_flip 2 (by norm_num)]; simp

theorem eighth_32 : eighth 32 = 0 := by
  rw [show (32 : ℕ) = 24 + 8 from rfl, eighth_add, show (24 : ℕ) = 16 + 8 from rfl, eighth_add, show (16 : ℕ) = 8 + 8 from rfl, eighth_add, show (8 : ℕ) = 0 + 8 from rfl, eighth_add, eighth_zero]; simp

theorem eighth_33 : eighth 33 = eighth 1 := by
  rw [show (33 : ℕ) = 25 + 8 from rfl, eighth_add, show (25 : ℕ) = 17 + 8 from rfl, eighth_add, show (17 : ℕ) = 9 + 8 from rfl, eighth_add, show (9 : ℕ) = 1 + 8 from rfl, eighth_add]; simp

theorem eighth_35 : eighth 35 = eighth 3 := by
  rw [show (35 : ℕ) = 27 + 8 from rfl, eighth_add, show (27 : ℕ) = 19 + 8 from rfl, eighth_add, show (19 : ℕ) = 11 + 8 from rfl, eighth_add, show (11 : ℕ) = 3 + 8 from rfl, eighth_add]; simp

theorem eighth_36 : eighth 36 = 1 := by
  rw [show (36 : ℕ) = 28 + 8 from rfl, eighth_add, show (28 : ℕ) = 20 + 8 from rfl, eighth_add, show (20 : ℕ) = 12 + 8 from rfl, eighth_add, show (12 : ℕ) = 4 + 8 from rfl, eighth_add, eighth_four]; simp

theorem eighth_39 : eighth 39 = eighth 1 := by
  rw [show (39 : ℕ) = 31 + 8 from rfl, eighth_add, show (31 : ℕ) = 23 + 8 from rfl, eighth_add, show (23 : ℕ) = 15 + 8 from rfl, eighth_add, show (15 : ℕ) = 7 + 8 from rfl, eighth_add, show (7 : ℕ) = 8 - 1 from rfl, eighth_flip 1 (by norm_num)]; simp

theorem eighth_40 : eighth 40 = 0 := by
  rw [show (40 : ℕ) = 32 + 8 from rfl, eighth_add, show (32 : ℕ) = 24 + 8 from rfl, eighth_add, show (24 : ℕ) = 16 + 8 from rfl, eighth_add, show (16 : ℕ) = 8 + 8 from rfl, eighth_add, show (8 : ℕ) = 0 + 8 from rfl, eighth_add, eighth_zero]; simp

theorem eighth_42 : eighth 42 = -eighth 2 := by
  rw [show (42 : ℕ) = 34 + 8 from rfl, eighth_add, show (34 : ℕ) = 26 + 8 from rfl, eighth_add, show (26 : ℕ) = 18 + 8 from rfl, eighth_add, show (18 : ℕ) = 10 + 8 from rfl, eighth_add, show (10 : ℕ) = 2 + 8 from rfl, eighth_add]; simp

theorem eighth_44 : eighth 44 = -1 := by
  rw [show (44 : ℕ) = 36 + 8 from rfl, eighth_add, show (36 : ℕ) = 28 + 8 from rfl, eighth_add, show (28 : ℕ) = 20 + 8 from rfl, eighth_add, show (20 : ℕ) = 12 + 8 from rfl, eighth_add, show (12 : ℕ) = 4 + 8 from rfl, eighth_add, eighth_four]; simp

theorem eighth_45 : eighth 45 = -eighth 3 := by
  rw [show (45 : ℕ) = 37 + 8 from rfl, eighth_add, show (37 : ℕ) = 29 + 8 from rfl, eighth_add, show (29 : ℕ) = 21 + 8 from rfl, eighth_add, show (21 : ℕ) = 13 + 8 from rfl, eighth_add, show (13 : ℕ) = 5 + 8 from rfl, eighth_add, show (5 : ℕ) = 8 - 3 from rfl, eighth_flip 3 (by norm_num)]; simp

theorem eighth_48 : eighth 48 = 0 := by
  rw [show (48 : ℕ) = 40 + 8 from rfl, eighth_add, show (40 : ℕ) = 32 + 8 from rfl, eighth_add, show (32 : ℕ) = 24 + 8 from rfl, eighth_add, show (24 : ℕ) = 16 + 8 from rfl, eighth_add, show (16 : ℕ) = 8 + 8 from rfl, eighth_add, show (8 : ℕ) = 0 + 8 from rfl, eighth_add, eighth_zero]; simp

theorem eighth_50 : eighth 50 = eighth 2 := by
  rw [show (50 : ℕ) = 42 + 8 from rfl, eighth_add, show (42 : ℕ) = 34 + 8 from rfl, eighth_add, show (34 : ℕ) = 26 + 8 from rfl, eighth_add, show (26 : ℕ) = 18 + 8 from rfl, eighth_add, show (18 : ℕ) = 10 + 8 from rfl, eighth_add, show (10 : ℕ) = 2 + 8 from rfl, eighth_add]; simp

theorem eighth_52 : eighth 52 = 1 := by
  rw [show (52 : ℕ) = 44 + 8 from rfl, eighth_add, show (44 : ℕ) = 36 + 8 from rfl, eighth_add, show (36 : ℕ) = 28 + 8 from rfl, eighth_add, show (28 : ℕ) = 20 + 8 from rfl, eighth_add, show (20 : ℕ) = 12 + 8 from rfl, eighth_add, show (12 : ℕ) = 4 + 8 from rfl, eighth_add, eighth_four]; simp

theorem eighth_55 : eighth 55 = eighth 1 := by
  rw [show (55 : ℕ) = 47 + 8 from rfl, eighth_add, show (47 : ℕ) = 39 + 8 from rfl, eighth_add, show (39 : ℕ) = 31 + 8 from rfl, eighth_add, show (31 : ℕ) = 23 + 8 from rfl, eighth_add, show (23 : ℕ) = 15 + 8 from rfl, eighth_add, show (15 : ℕ) = 7 + 8 from rfl, eighth_add, show (7 : ℕ) = 8 - 1 from rfl, eighth_flip 1 (by norm_num)]; simp

theorem eighth_56 : eighth 56 = 0 := by
  rw [show (56 : ℕ) = 48 + 8 from rfl, eighth_add, show (48 : ℕ) = 40 + 8 from rfl, eighth_add, show (40 : ℕ) = 32 + 8 from rfl, eighth_add, show (32 : ℕ) = 24 + 8 from rfl, eighth_add, show (24 : ℕ) = 16 + 8 from rfl, eighth_add, show (16 : ℕ) = 8 + 8 from rfl, eighth_add, show (8 : ℕ) = 0 + 8 from rfl, eighth_add, eighth_zero]; simp

theorem eighth_60 : eighth 60 = -1 := by
  rw [show (60 : ℕ) = 52 + 8 from rfl, eighth_add, show (52 : ℕ) = 44 + 8 from rfl, eighth_add, show (44 : ℕ) = 36 + 8 from rfl, eighth_add, show (36 : ℕ) = 28 + 8 from rfl, eighth_add, show (28 : ℕ) = 20 + 8 from rfl, eighth_add, show (20 : ℕ) = 12 + 8 from rfl, eighth_add, show (12 : ℕ) = 4 + 8 from rfl, eighth_add, eighth_four]; simp

theorem eighth_65 : eighth 65 = eighth 1 := by
  rw [show (65 : ℕ) = 57 + 8 from rfl, eighth_add, show (57 : ℕ) = 49 + 8 from rfl, eighth_add, show (49 : ℕ) = 41 + 8 from rfl, eighth_add, show (41 : ℕ) = 33 + 8 from rfl, eighth_add, show (33 : ℕ) = 25 + 8 from rfl, eighth_add, show (25 : ℕ) = 17 + 8 from rfl, eighth_add, show (17 : ℕ) = 9 + 8 from rfl, eighth_add, show (9 : ℕ) = 1 + 8 from rfl, eighth_add]; simp

theorem eighth_70 : eighth 70 = eighth 2 := by
  rw [show (70 : ℕ) = 62 + 8 from rfl, eighth_add, show (62 : ℕ) = 54 + 8 from rfl, eighth_add, show (54 : ℕ) = 46 + 8 from rfl, eighth_add, show (46 : ℕ) = 38 + 8 from rfl, eighth_add, show (38 : ℕ) = 30 + 8 from rfl, eighth_add, show (30 : ℕ) = 22 + 8 from rfl, eighth_add, show (22 : ℕ) = 14 + 8 from rfl, eighth_add, show (14 : ℕ) = 6 + 8 from rfl, eighth_add, show (6 : ℕ) = 8 - 2 from rfl, eighth_flip 2 (by norm_num)]; simp

theorem eighth_75 : eighth 75 = -eighth 3 := by
  rw [show (75 : ℕ) = 67 + 8 from rfl, eighth_add, show (67 : ℕ) = 59 + 8 from rfl, eighth_add, show (59 : ℕ) = 51 + 8 from rfl, eighth_add, show (51 : ℕ) = 43 + 8 from rfl, eighth_add, show (43 : ℕ) = 35 + 8 from rfl, eighth_add, show (35 : ℕ) = 27 + 8 from rfl, eighth_add, show (27 : ℕ) = 19 + 8 from rfl, eighth_add, show (19 : ℕ) = 11 + 8 from rfl, eighth_add, show (11 : ℕ) = 3 + 8 from rfl, eighth_add]; simp

theorem spikeSum_2 : ∑ t ∈ range 15, fifteenth (7 * (t + 1)) / (t + 1) * eighth ((t + 1) * 2) =
    (-1/13) * (fifteenth 1 * eighth 2) + (1/2) * fifteenth 1 + (-1/11) * (fifteenth 2 * eighth 2) + (1/9) * (fifteenth 3 * eighth 2) + (-1/6) * fifteenth 3 + (1/7) * (fifteenth 4 * eighth 2) + (-1/5) * (fifteenth 5 * eighth 2) + (1/10) * fifteenth 5 + (-1/3) * (fifteenth 6 * eighth 2) + (1) * (fifteenth 7 * eighth 2) + (-1/14) * fifteenth 7 := by
  simp only [sum_range_succ, range_zero, sum_empty]
  norm_num [fifteenth_14, fifteenth_21, fifteenth_28, fifteenth_35, fifteenth_42, fifteenth_49, fifteenth_56, fifteenth_63, fifteenth_70, fifteenth_77, fifteenth_84, fifteenth_91, fifteenth_98, fifteenth_105, eighth_4, eighth_5, eighth_6, eighth_8, eighth_9, eighth_10, eighth_12, eighth_14, eighth_15, eighth_16, eighth_18, eighth_20, eighth_21, eighth_22, eighth_24, eighth_25, eighth_26, eighth_27, eighth_28, eighth_30, eighth_32, eighth_33, eighth_35, eighth_36, eighth_39, eighth_40, eighth_42, eighth_44, eighth_45, eighth_48, eighth_50, eighth_52, eighth_55, eighth_56, eighth_60, eighth_65, eighth_70, eighth_75]
  ring

theorem spikeSum_3 : ∑ t ∈ range 15, fifteenth (7 * (t + 1)) / (t + 1) * eighth ((t + 1) * 3) =
    (1/13) * (fifteenth 1 * eighth 1) + (1/2) * (fifteenth 1 * eighth 2) + (-1/11) * (fifteenth 2 * eighth 1) + (1/4) * fifteenth 2 + (1/6) * (fifteenth 3 * eighth 2) + (-1/9) * (fifteenth 3 * eighth 3) + (-1/7) * (fifteenth 4 * eighth 3) + (-1/5) * (fifteenth 5 * eighth 1) + (-1/10) * (fifteenth 5 * eighth 2) + (1/3) * (fifteenth 6 * eighth 1) + (-1/12) * fifteenth 6 + (-1/14) * (fifteenth 7 * eighth 2) + (1) * (fifteenth 7 * eighth 3) := by
  simp only [sum_range_succ, range_zero, sum_empty]
  norm_num [fifteenth_14, fifteenth_21, fifteenth_28, fifteenth_35, fifteenth_42, fifteenth_49, fifteenth_56, fifteenth_63, fifteenth_70, fifteenth_77, fifteenth_84, fifteenth_91, fifteenth_98, fifteenth_105, eighth_4, eighth_5, eighth_6, eighth_8, eighth_9, eighth_10, eighth_12, eighth_14, eighth_15, eighth_16, eighth_18, eighth_20, eighth_21, eighth_22, eighth_24, eighth_25, eighth_26, eighth_27, eighth_28, eighth_30, eighth_32, eighth_33, eighth_35, eighth_36, eighth_39, eighth_40, eighth_42, eighth_44, eighth_45, eighth_48, eighth_50, eighth_52, eighth_55, eighth_56, eighth_60, eighth_65, eighth_70, eighth_75]
  ring

theorem spikeSum_4 : ∑ t ∈ range 15, fifteenth (7 * (t + 1)) / (t + 1) * eighth ((t + 1) * 4) =
    (1/13) * fifteenth 1 + (1/11) * fifteenth 2 + (1/9) * fifteenth 3 + (1/7) * fifteenth 4 + (1/5) * fifteenth 5 + (1/3) * fifteenth 6 + (1) * fifteenth 7 := by
  simp only [sum_range_succ, range_zero, sum_empty]
  norm_num [fifteenth_14, fifteenth_21, fifteenth_28, fifteenth_35, fifteenth_42, fifteenth_49, fifteenth_56, fifteenth_63, fifteenth_70, fifteenth_77, fifteenth_84, fifteenth_91, fifteenth_98, fifteenth_105, eighth_4, eighth_5, eighth_6, eighth_8, eighth_9, eighth_10, eighth_12, eighth_14, eighth_15, eighth_16, eighth_18, eighth_20, eighth_21, eighth_22, eighth_24, eighth_25, eighth_26, eighth_27, eighth_28, eighth_30, eighth_32, eighth_33, eighth_35, eighth_36, eighth_39, eighth_40, eighth_42, eighth_44, eighth_45, eighth_48, eighth_50, eighth_52, eighth_55, eighth_56, eighth_60, eighth_65, eighth_70, eighth_75]
  ring

theorem spikeSum_5 : ∑ t ∈ range 15, fifteenth (7 * (t + 1)) / (t + 1) * eighth ((t + 1) * 5) =
    (1/13) * (fifteenth 1 * eighth 1) + (-1/2) * (fifteenth 1 * eighth 2) + (-1/11) * (fifteenth 2 * eighth 1) + (-1/4) * fifteenth 2 + (-1/6) * (fifteenth 3 * eighth 2) + (-1/9) * (fifteenth 3 * eighth 3) + (-1/7) * (fifteenth 4 * eighth 3) + (-1/5) * (fifteenth 5 * eighth 1) + (1/10) * (fifteenth 5 * eighth 2) + (1/3) * (fifteenth 6 * eighth 1) + (1/12) * fifteenth 6 + (1/14) * (fifteenth 7 * eighth 2) + (1) * (fifteenth 7 * eighth 3) := by
  simp only [sum_range_succ, range_zero, sum_empty]
  norm_num [fifteenth_14, fifteenth_21, fifteenth_28, fifteenth_35, fifteenth_42, fifteenth_49, fifteenth_56, fifteenth_63, fifteenth_70, fifteenth_77, fifteenth_84, fifteenth_91, fifteenth_98, fifteenth_105, eighth_4, eighth_5, eighth_6, eighth_8, eighth_9, eighth_10, eighth_12, eighth_14, eighth_15, eighth_16, eighth_18, eighth_20, eighth_21, eighth_22, eighth_24, eighth_25, eighth_26, eighth_27, eighth_28, eighth_30, eighth_32, eighth_33, eighth_35, eighth_36, eighth_39, eighth_40, eighth_42, eighth_44, eighth_45, eighth_48, eighth_50, eighth_52, eighth_55, eighth_56, eighth_60, eighth_65, eighth_70, eighth_75]
  ring

theorem sin_near (x lo hi : ℝ) (h0 : 0 < x) (h1 : x ≤ 1) (hl : lo ≤ x - x ^ 3 / 6 - x ^ 4 * (5 / 96))
    (hh : x - x ^ 3 / 6 + x ^ 4 * (5 / 96) ≤ hi) : lo ≤ Real.sin x ∧ Real.sin x ≤ hi := by
  have := Real.sin_bound (x := x) (by rw [abs_of_pos h0]; exact h1)
  rw [abs_of_pos h0, abs_le] at this
  have h5 : x ^ 5 ≤ x ^ 4 := pow_le_pow_of_le_one h0.le h1 (by norm_num)
  have h4 : 0 < x ^ 4 := pow_pos h0 4
  constructor <;> linarith [this.1, this.2]

theorem cos_near (x lo hi : ℝ) (h0 : 0 < x) (h1 : x ≤ 1) (hl : lo ≤ 1 - x ^ 2 / 2 - x ^ 4 * (5 / 96))
    (hh : 1 - x ^ 2 / 2 + x ^ 4 * (5 / 96) ≤ hi) : lo ≤ Real.cos x ∧ Real.cos x ≤ hi := by
  have := Real.cos_bound (x := x) (by rw [abs_of_pos h0]; exact h1)
  rw [abs_of_pos h0, abs_le] at this
  constructor <;> linarith [this.1, this.2]

/-- Powers of a number between two bounds. -/
theorem pow_between (x a b : ℝ) (ha : 0 < a) (h1 : a ≤ x) (h2 : x ≤ b) (n : ℕ) : a ^ n ≤ x ^ n ∧ x ^ n ≤ b ^ n :=
  ⟨pow_le_pow_left₀ ha.le h1 n, pow_le_pow_left₀ (ha.le.trans h1) h2 n⟩

theorem sin_between (x a b lo hi : ℝ) (ha : 0 < a) (h1 : a ≤ x) (h2 : x ≤ b) (hb : b ≤ 1)
    (hl : lo ≤ a - b ^ 3 / 6 - b ^ 4 * (5 / 96)) (hh : b - a ^ 3 / 6 + b ^ 4 * (5 / 96) ≤ hi) :
    lo ≤ Real.sin x ∧ Real.sin x ≤ hi := by
  have p3 := pow_between x a b ha h1 h2 3
  have p4 := pow_between x a b ha h1 h2 4
  apply sin_near <;> linarith [p3.1, p3.2, p4.1, p4.2]

theorem cos_between (x a b lo hi : ℝ) (ha : 0 < a) (h1 : a ≤ x) (h2 : x ≤ b) (hb : b ≤ 1)
    (hl : lo ≤ 1 - b ^ 2 / 2 - b ^ 4 * (5 / 96)) (hh : 1 - a ^ 2 / 2 + b ^ 4 * (5 / 96) ≤ hi) :
    lo ≤ Real.cos x ∧ Real.cos x ≤ hi := by
  have p3 := pow_between x a b ha h1 h2 2
  have p4 := pow_between x a b ha h1 h2 4
  apply cos_near <;> linarith [p3.1, p3.2, p4.1, p4.2]

theorem piBounds : (3.1415 : ℝ) < Real.pi ∧ Real.pi < 3.1416 := ⟨Real.pi_gt_d4, Real.pi_lt_d4⟩

theorem fifteenth_near_1 : (0.207 : ℝ) ≤ fifteenth 1 ∧ fifteenth 1 ≤ 0.209 := by
  have hp := piBounds
  unfold fifteenth
  exact sin_between _ 0.2094 0.2095 _ _ (by norm_num) (by push_cast; linarith [hp.1]) (by push_cast; linarith [hp.2]) (by norm_num) (by norm_num) (by norm_num)

theorem fifteenth_near_2 : (0.404 : ℝ) ≤ fifteenth 2 ∧ fifteenth 2 ≤ 0.409 := by
  have hp := piBounds
  unfold fifteenth
  exact sin_between _ 0.4188 0.4189 _ _ (by norm_num) (by push_cast; linarith [hp.1]) (by push_cast; linarith [hp.2]) (by norm_num) (by norm_num) (by norm_num)

theorem fifteenth_near_3 : (0.578 : ℝ) ≤ fifteenth 3 ∧ fifteenth 3 ≤ 0.596 := by
  have hp := piBounds
  unfold fifteenth
  exact sin_between _ 0.6283 0.6284 _ _ (by norm_num) (by push_cast; linarith [hp.1]) (by push_cast; linarith [hp.2]) (by norm_num) (by norm_num) (by norm_num)

theorem fifteenth_near_4 : (0.714 : ℝ) ≤ fifteenth 4 ∧ fifteenth 4 ≤ 0.766 := by
  have hp := piBounds
  unfold fifteenth
  exact sin_between _ 0.8377 0.8378 _ _ (by norm_num) (by push_cast; linarith [hp.1]) (by push_cast; linarith [hp.2]) (by norm_num) (by norm_num) (by norm_num)

theorem fifteenth_near_5 : (0.859 : ℝ) ≤ fifteenth 5 ∧ fifteenth 5 ≤ 0.867 := by
  have hp := piBounds
  unfold fifteenth
  rw [show Real.pi * ((5 : ℕ) : ℝ) / 15 = Real.pi / 2 - Real.pi * 5 / 30 by push_cast; ring, Real.sin_pi_div_two_sub]
  exact cos_between _ 0.5235 0.5236 _ _ (by norm_num) (by linarith [hp.1]) (by linarith [hp.2]) (by norm_num) (by norm_num) (by norm_num)

theorem fifteenth_near_6 : (0.950 : ℝ) ≤ fifteenth 6 ∧ fifteenth 6 ≤ 0.952 := by
  have hp := piBounds
  unfold fifteenth
  rw [show Real.pi * ((6 : ℕ) : ℝ) / 15 = Real.pi / 2 - Real.pi * 3 / 30 by push_cast; ring, Real.sin_pi_div_two_sub]
  exact cos_between _ 0.3141 0.3142 _ _ (by norm_num) (by linarith [hp.1]) (by linarith [hp.2]) (by norm_num) (by norm_num) (by norm_num)

theorem fifteenth_near_7 : (0.994 : ℝ) ≤ fifteenth 7 ∧ fifteenth 7 ≤ 0.995 := by
  have hp := piBounds
  unfold fifteenth
  rw [show Real.pi * ((7 : ℕ) : ℝ) / 15 = Real.pi / 2 - Real.pi * 1 / 30 by push_cast; ring, Real.sin_pi_div_two_sub]
  exact cos_between _ 0.1047 0.1048 _ _ (by norm_num) (by linarith [hp.1]) (by linarith [hp.2]) (by norm_num) (by norm_num) (by norm_num)

theorem eighth_near_1 : (0.381 : ℝ) ≤ eighth 1 ∧ eighth 1 ≤ 0.384 := by
  have hp := piBounds
  unfold eighth
  exact sin_between _ 0.3926 0.3927 _ _ (by norm_num) (by push_cast; linarith [hp.1]) (by push_cast; linarith [hp.2]) (by norm_num) (by norm_num) (by norm_num)

theorem eighth_near_2 : (0.671 : ℝ) ≤ eighth 2 ∧ eighth 2 ≤ 0.712 := by
  have hp := piBounds
  unfold eighth
  rw [show Real.pi * ((2 : ℕ) : ℝ) / 8 = Real.pi / 2 - Real.pi * 4 / 16 by push_cast; ring, Real.sin_pi_div_two_sub]
  exact cos_between _ 0.7853 0.7854 _ _ (by norm_num) (by linarith [hp.1]) (by linarith [hp.2]) (by norm_num) (by norm_num) (by norm_num)

theorem eighth_near_3 : (0.921 : ℝ) ≤ eighth 3 ∧ eighth 3 ≤ 0.925 := by
  have hp := piBounds
  unfold eighth
  rw [show Real.pi * ((3 : ℕ) : ℝ) / 8 = Real.pi / 2 - Real.pi * 2 / 16 by push_cast; ring, Real.sin_pi_div_two_sub]
  exact cos_between _ 0.3926 0.3927 _ _ (by norm_num) (by linarith [hp.1]) (by linarith [hp.2]) (by norm_num) (by norm_num) (by norm_num)

/-- Product of two positive numbers between bounds. -/
theorem mul_between {x y a b c d : ℝ} (ha : 0 ≤ a) (hc : 0 ≤ c) (hx : a ≤ x ∧ x ≤ b) (hy : c ≤ y ∧ y ≤ d) :
    a * c ≤ x * y ∧ x * y ≤ b * d :=
  ⟨mul_le_mul hx.1 hy.1 hc (ha.trans hx.1), mul_le_mul hx.2 hy.2 (hc.trans hy.1) ((ha.trans hx.1).trans hx.2)⟩

/-- The amplitudes 2 to 5 are different from their neighbours. -/
theorem spike_amplitudes : amplitude spike 2 ≠ amplitude spike 3 ∧ amplitude spike 3 ≠ amplitude spike 4 ∧
    amplitude spike 4 ≠ amplitude spike 5 := by
  have p11 := mul_between (by norm_num) (by norm_num) fifteenth_near_1 eighth_near_1
  have p12 := mul_between (by norm_num) (by norm_num) fifteenth_near_1 eighth_near_2
  have p13 := mul_between (by norm_num) (by norm_num) fifteenth_near_1 eighth_near_3
  have p21 := mul_between (by norm_num) (by norm_num) fifteenth_near_2 eighth_near_1
  have p22 := mul_between (by norm_num) (by norm_num) fifteenth_near_2 eighth_near_2
  have p23 := mul_between (by norm_num) (by norm_num) fifteenth_near_2 eighth_near_3
  have p31 := mul_between (by norm_num) (by norm_num) fifteenth_near_3 eighth_near_1
  have p32 := mul_between (by norm_num) (by norm_num) fifteenth_near_3 eighth_near_2
  have p33 := mul_between (by norm_num) (by norm_num) fifteenth_near_3 eighth_near_3
  have p41 := mul_between (by norm_num) (by norm_num) fifteenth_near_4 eighth_near_1
  have p42 := mul_between (by norm_num) (by norm_num) fifteenth_near_4 eighth_near_2
  have p43 := mul_between (by norm_num) (by norm_num) fifteenth_near_4 eighth_near_3
  have p51 := mul_between (by norm_num) (by norm_num) fifteenth_near_5 eighth_near_1
  have p52 := mul_between (by norm_num) (by norm_num) fifteenth_near_5 eighth_near_2
  have p53 := mul_between (by norm_num) (by norm_num) fifteenth_near_5 eighth_near_3
  have p61 := mul_between (by norm_num) (by norm_num) fifteenth_near_6 eighth_near_1
  have p62 := mul_between (by norm_num) (by norm_num) fifteenth_near_6 eighth_near_2
  have p63 := mul_between (by norm_num) (by norm_num) fifteenth_near_6 eighth_near_3
  have p71 := mul_between (by norm_num) (by norm_num) fifteenth_near_7 eighth_near_1
  have p72 := mul_between (by norm_num) (by norm_num) fifteenth_near_7 eighth_near_2
  have p73 := mul_between (by norm_num) (by norm_num) fifteenth_near_7 eighth_near_3
  have f1 := fifteenth_near_1
  have f2 := fifteenth_near_2
  have f3 := fifteenth_near_3
  have f4 := fifteenth_near_4
  have f5 := fifteenth_near_5
  have f6 := fifteenth_near_6
  have f7 := fifteenth_near_7
  have hp : 15 / (7 * Real.pi) ≠ 0 := by have := Real.pi_pos; positivity
  have inj : ∀ a b : ℝ, a < b ∨ b < a → -(15 / (7 * Real.pi) * a) ≠ -(15 / (7 * Real.pi) * b) := by
    intro a b h h'
    have := mul_left_cancel₀ hp (neg_injective h')
    rcases h with h | h <;> linarith
  rw [amplitude_spike, amplitude_spike, amplitude_spike, amplitude_spike, spikeSum_2, spikeSum_3, spikeSum_4, spikeSum_5]
  refine ⟨inj _ _ (Or.inl ?_), inj _ _ (Or.inl ?_), inj _ _ (Or.inr ?_)⟩ <;> linarith

theorem sum_sq_zero (m : ℝ) (l : List ℝ) (h : (l.map (fun v => (v - m) ^ 2)).sum = 0) : ∀ v ∈ l, v = m := by
  have pos : ∀ l : List ℝ, 0 ≤ (l.map (fun v => (v - m) ^ 2)).sum := by
    intro l
    induction l with
    | nil => simp
    | cons v l ih => rw [List.map_cons, List.sum_cons]; positivity
  induction l with
  | nil => simp
  | cons v l ih =>
    rw [List.map_cons, List.sum_cons] at h
    have h1 := sq_nonneg (v - m)
    have h2 := pos l
    intro w hw
    rcases List.mem_cons.1 hw with rfl | hw
    · have : (w - m) ^ 2 = 0 := by linarith
      have := pow_eq_zero_iff (two_ne_zero) |>.1 this
      linarith
    · exact ih (by linarith) w hw

theorem variance_zero (l : List ℝ) (h : variance l = 0) (a b : ℝ) (ha : a ∈ l) (hb : b ∈ l) : a = b := by
  unfold variance at h
  have hl : (l.length : ℝ) ≠ 0 := by
    have := List.length_pos_of_mem ha
    positivity
  rw [div_eq_zero_iff, or_iff_left hl] at h
  have hz := sum_sq_zero _ l h
  rw [hz a ha, hz b hb]

/-- The data meet the assumption of `c93_value` and `c93_scale`. -/
theorem spike_spread : Spread spike := by
  intro i hi h
  have hi : i < 3 := hi
  have mem : ∀ j < i + 2, amplitude spike (i + 2 + j) ∈ runOf (amplitude spike) (i + 2) (i + 2) := by
    intro j hj
    exact List.mem_map.2 ⟨j, List.mem_range.2 hj, rfl⟩
  have := variance_zero _ h _ _ (mem 0 (by omega)) (mem 1 (by omega))
  obtain ⟨h2, h3, h4⟩ := spike_amplitudes
  interval_cases i
  · exact h2 this
  · exact h3 this
  · exact h4 this

/-- Instances: eight points on 0, 1, …, 7; twice the data; the unit of distance halved. -/
example (nan : List ℝ → ℕ) : ∃ j, LastMax (bend spike) 1 j ∧
    findQmax nan [0, 1, 2, 3, 4, 5, 6, 7] spike = .ok (2 * Real.pi * (j + 2) / (7 - 0), 2 * Real.pi / (7 - 0)) :=
  c93_value nan [0, 1, 2, 3, 4, 5, 6, 7] spike 0 7 rfl rfl (by norm_num) rfl (by simp) spike_spread

example (nan : List ℝ → ℕ) : findQmax nan [0, 1, 2, 3, 4, 5, 6, 7] (spike.map (2 * ·)) = findQmax nan [0, 1, 2, 3, 4, 5, 6, 7] spike :=
  c93_scale nan [0, 1, 2, 3, 4, 5, 6, 7] spike 0 7 2 (by norm_num) rfl rfl (by norm_num) rfl (by simp) spike_spread

example (nan : List ℝ → ℕ) : findQmax nan [3, 5, 7, 9, 11, 13, 15, 17] spike =
    (findQmax nan [0, 1, 2, 3, 4, 5, 6, 7] spike).map (fun p => (p.1 / 2, p.2 / 2)) :=
  c93_units nan [0, 1, 2, 3, 4, 5, 6, 7] [3, 5, 7, 9, 11, 13, 15, 17] spike 0 7 2 rfl rfl (by norm_num) 3 17 rfl rfl (by norm_num)
    (by norm_num) rfl rfl (by simp)

/-- Eight points: at most π - 3π/7 is found, although their spacing allows for up to π. -/
example : ∃ q dq, findQmax (fun _ => 0) [0, 1, 2, 3, 4, 5, 6, 7] [0, 0, 0, 0, 0, 0, 0, 0] = .ok (q, dq) ∧ dq = 2 * Real.pi / (7 - 0) ∧
    (∃ m : ℕ, 2 ≤ m ∧ q = m * dq) ∧ 0 < q ∧ q + 3 / 2 * dq ≤ Real.pi / ((7 - 0) / (((8 : ℕ) : ℝ) - 1)) :=
  c93_range (fun _ => 0) (fun f h => by omega) [0, 1, 2, 3, 4, 5, 6, 7] [0, 0, 0, 0, 0, 0, 0, 0] 0 7 rfl rfl (by norm_num) rfl (by simp)

/-- Seven points are too few. -/
example (nan : List ℝ → ℕ) : findQmax nan [0, 1, 2, 3, 4, 5, 6] [1, 0, 2, 0, 3, 0, 4] = .error .value :=
  ((c93_errors nan [0, 1, 2, 3, 4, 5, 6] [1, 0, 2, 0, 3, 0, 4]).2.2 0 6 rfl rfl (by norm_num) rfl).2.1 (by simp) (by simp)

/-! ### The use of the value -/

/-- What `setdata` keeps of `find_qmax` — pdfpeakextraction.py:98-105. -/
noncomputable def foundQmax (nan : List ℝ → ℕ) (x y : List ℝ) : Option ℝ := (findQmax nan x y).toOption.map Prod.fst

/-- **C93.** After `setdata` with 8 or more points, `qmax="automatic"` means a value for which the Nyquist spacing `π/qmax` is
larger than that of the data: resampling never makes the grid finer. -/
theorem c93_automatic (nan : List ℝ → ℕ) (hnan : ∀ f, 8 ≤ f.length → nan f < f.length / 2 - 3) (s : PPX ℝ) (D : Extraction.Defaults ℝ)
    (x y : List ℝ) (a b : ℝ) (ha : x.head? = some a) (hb : x.getLast? = some b) (hab : a < b) (hl : x.length = y.length)
    (hn : 8 ≤ x.length) :
    ∃ q, 0 < q ∧ (b - a) / ((x.length : ℝ) - 1) < Real.pi / q ∧
      psetvars Real.pi D (Parts.History.pdfSetdata (foundQmax nan) s x y none none).2 [.qmax .automatic] =
        psetvars Real.pi D (Parts.History.pdfSetdata (foundQmax nan) s x y none none).2 [.qmax (.value (some q))] := by
  obtain ⟨q, dq, h1, h2, -, hq, h4⟩ := c93_range nan hnan x y a b ha hb hab hl hn
  have hp := Real.pi_pos
  have hd : 0 < b - a := by linarith
  have hdq : 0 < dq := by rw [h2]; positivity
  have hx : (8 : ℝ) ≤ x.length := by exact_mod_cast hn
  have hdr : 0 < (b - a) / ((x.length : ℝ) - 1) := div_pos hd (by linarith)
  refine ⟨q, hq, ?_, c64_automatic Real.pi D _ q ?_⟩
  · rw [lt_div_iff₀ hq, mul_comm, ← lt_div_iff₀ hdr]
    linarith
  · have hs : Extraction.setdata s.base x y none none = (.ok (), (Extraction.setdata s.base x y none none).2) := by
      have := ((Extraction.c61_setdata s.base x y none none).1).2 ⟨hl, by simp, by simp⟩
      rw [← this]
    unfold Parts.History.pdfSetdata
    rw [hs]
    simp [foundQmax, h1, Except.toOption]

/-- Instance: eight points. -/
example (s : PPX ℝ) (D : Extraction.Defaults ℝ) :=
  c93_automatic (fun _ => 0) (fun f h => by omega) s D [0, 1, 2, 3, 4, 5, 6, 7] spike 0 7 rfl rfl (by norm_num) rfl (by simp)

end Verif.Pdf
