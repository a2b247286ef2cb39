import Verif.Baseline.Nano
import Verif.Baseline.Poly
import Verif.DataSet.Props
import Verif.Ripples.Value
import Verif.App.Props
import Verif.Instances.Records

/-!
Instances of theorems on baselines (C38, C39, C54), data sets (C47), termination ripples (C83, C84) and the command
line (C74) not already shown beside the theorems.
-/

namespace Verif.Baseline

/-- Instance of `c38_jacobian_rows_reversed`: the first row for a parabola. -/
example := c38_jacobian_rows_reversed 2 (by norm_num) [2, 3, 5] [1, 2] [true, false, true] rfl rfl 0 rfl

/-- Instance of `c54_one_parameter_too_many`. -/
example := c54_one_parameter_too_many 2 (fun (p : List ℚ) r => .ok (r.map (fun x => p.sum * x))) [1, 2] [3, 4] rfl

/-- Instance of `c54_first_character_lost`. -/
example := c54_first_character_lost (fun s => some (s.map Char.toNat)) '1' "2 3\n".toList (by decide) '7' (by decide)

/-- Instance of `c39_array`, `c39_shape`, `c39_jacobian_scale`, `c39_negative_radius`. -/
example := c39_array (nanoRaw (K := ℚ)) 1 2 [-1, 0, 1, 3, 4, 5] (by decide +kernel)
example := c39_shape (-3) 2 (by norm_num)
example := (c39_jacobian_scale (-3) 2 1 (by norm_num)).2 (by norm_num)
example := c39_negative_radius 1 (-2) 1 (by norm_num)

/-- Instance of `c39_transform`. -/
example : nanoTransform [|(-3)|, |2|] "internal" "internal" = .ok [|(-3 : ℝ)|, |2|] :=
  (c39_transform [-3, 2] [|(-3)|, |2|] "internal" "internal" rfl).1

end Verif.Baseline

namespace Verif.DataSet

/-- Instances of `c47_read`, `c47_all_or_none`: two lines, the second without the last column. -/
example := c47_read (some : ℚ → Option ℚ) (fun _ => false) 0 [[1, 5, 1, 2], [2, 6, 1]]
  (readData (some : ℚ → Option ℚ) (fun _ => false) (clear 0) [[1, 5, 1, 2], [2, 6, 1]]).1 (Prod.ext rfl (by decide +kernel))
example := c47_all_or_none (some : ℚ → Option ℚ) (fun _ => false) 0 [[1, 5, 1, 2], [2, 6, 1]]
  (readData (some : ℚ → Option ℚ) (fun _ => false) (clear 0) [[1, 5, 1, 2], [2, 6, 1]]).1 (Prod.ext rfl (by decide +kernel))

/-- Instance of `c47_error_leaves_part`. -/
example := c47_error_leaves_part (K := ℚ) (fun s : String => if s = "1" then some 1 else none) (fun _ => false) 0 "1" "x" 1 (by decide) (by decide)

end Verif.DataSet

namespace Verif.Ripples

/-- Instances of `c83_linear`, `c83_energy`. -/
example := c83_linear 1 1 2 3 [4, 0, 0] [1, 2, 3] (by norm_num) (by norm_num) (by decide) rfl
example (out : List ℝ) (h : cutFreq 1 [4, 0, 0] 1 = .ok out) := c83_energy 1 1 [4, 0, 0] out (by norm_num) (by norm_num) (by decide) h

/-- Instance of `c83_projection`: four points. -/
example : ∃ out, cutFreq 1 [4, 0, 0, 1] 1 = .ok out ∧ cutFreq 1 out 1 = .ok out := by
  obtain ⟨u, -, -, hu, -⟩ := c83_linear 1 1 1 1 [4, 0, 0, 1] [4, 0, 0, 1] (by norm_num) (by norm_num) (by decide) rfl
  exact ⟨u, hu, c83_projection 1 1 [4, 0, 0, 1] u (by norm_num) (by norm_num) 1 rfl hu⟩

end Verif.Ripples
