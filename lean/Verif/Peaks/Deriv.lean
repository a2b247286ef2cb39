import Verif.Peaks.Scale
import Mathlib.Analysis.SpecialFunctions.Trigonometric.Deriv
import Mathlib.Analysis.SpecialFunctions.Trigonometric.InverseDeriv
import Mathlib.Analysis.SpecialFunctions.Sqrt
import Mathlib.Analysis.SpecialFunctions.ExpDeriv
import Mathlib.Analysis.Calculus.Deriv.Abs

/-!
# Properties C33, C34: derivatives of the peak functions
-/

namespace Verif.Peaks

open Verif.Py

theorem c1_pos {mw : ℝ} (hmw : 0 < mw) : 0 < c1 mw := by
  have := log2_pos
  have := Real.pi_pos
  unfold c1; positivity

theorem c2_pos {mw : ℝ} (hmw : 0 < mw) : 0 < c2 mw := by
  have := log2_pos
  unfold c2; positivity

theorem sin_add_one_pos {w : ℝ} (hw : Real.sin w ≠ -1) : 0 < Real.sin w + 1 :=
  lt_of_le_of_ne (sin_add_one_nonneg w) (by intro h; apply hw; linarith)

/-- **C33.** Rows of the GaussianOverR Jacobian are the partial derivatives of the value with respect
to position, internal width and area (the area being non-zero: the value depends on `|area|`). -/
theorem c33_jacobian {mw : ℝ} (hmw : 0 < mw) (p : P) (hw : Real.sin p.wid ≠ -1) (r : ℝ)
    (hr : r ≠ 0) :
    HasDerivAt (fun x => value .overR mw ⟨x, p.wid, p.area⟩ r) (jacOverR mw p r 0) p.pos ∧
    HasDerivAt (fun x => value .overR mw ⟨p.pos, x, p.area⟩ r) (jacOverR mw p r 1) p.wid ∧
    (p.area ≠ 0 →
      HasDerivAt (fun x => value .overR mw ⟨p.pos, p.wid, x⟩ r) (jacOverR mw p r 2) p.area) := by
  have h1 := c1_pos hmw
  have h2 := c2_pos hmw
  have h3 := sin_add_one_pos hw
  have hr' : 0 < |r| := abs_pos.2 hr
  have hsq : 0 < Real.sqrt (Real.sin p.wid + 1) := Real.sqrt_pos.2 h3
  have hneg : -(r - p.pos) ^ 2 = -(p.pos - r) ^ 2 := by ring
  refine ⟨?_, ?_, ?_⟩
  · unfold value jacOverR
    simp only
    have hd : HasDerivAt (fun x : ℝ => -(r - x) ^ 2 / (c2 mw * (Real.sin p.wid + 1)))
        (2 * (r - p.pos) / (c2 mw * (Real.sin p.wid + 1))) p.pos := by
      have := (((hasDerivAt_id p.pos).const_sub r).pow 2).neg.div_const
        (c2 mw * (Real.sin p.wid + 1))
      refine this.congr_deriv ?_
      simp
    refine (hd.exp.const_mul (|p.area| / (|r| * c1 mw * Real.sqrt (Real.sin p.wid + 1)))).congr_deriv
      ?_
    rw [hneg]
    field_simp
    ring
  · unfold value jacOverR
    simp only
    have hs : HasDerivAt (fun x : ℝ => Real.sin x + 1) (Real.cos p.wid) p.wid :=
      (Real.hasDerivAt_sin p.wid).add_const 1
    have hsqrt := hs.sqrt h3.ne'
    have hden := (hsqrt.const_mul (|r| * c1 mw))
    have hne : |r| * c1 mw * Real.sqrt (Real.sin p.wid + 1) ≠ 0 := by positivity
    have hfrac := (hasDerivAt_const p.wid |p.area|).div hden hne
    have hexp := ((hasDerivAt_const p.wid (-(r - p.pos) ^ 2)).div (hs.const_mul (c2 mw))
      (by positivity)).exp
    refine (hfrac.mul hexp).congr_deriv ?_
    simp only [hneg, Pi.div_apply]
    have hsqs : Real.sqrt (Real.sin p.wid + 1) ^ 2 = Real.sin p.wid + 1 := Real.sq_sqrt h3.le
    set S := Real.sqrt (Real.sin p.wid + 1) with hS
    rw [← hsqs]
    set E := Real.exp (-(p.pos - r) ^ 2 / (c2 mw * S ^ 2)) with hE
    field_simp
    ring
  · intro ha
    unfold value jacOverR
    simp only
    rw [hneg]
    set E := Real.exp (-(p.pos - r) ^ 2 / (c2 mw * (Real.sin p.wid + 1))) with hE
    by_cases hp : 0 ≤ p.area
    · have hp' : 0 < p.area := lt_of_le_of_ne hp (Ne.symm ha)
      rw [if_pos hp]
      refine (((hasDerivAt_abs_pos hp').div_const _).mul_const E).congr_deriv ?_
      ring
    · have hp' : p.area < 0 := not_le.1 hp
      rw [if_neg hp]
      refine (((hasDerivAt_abs_neg hp').div_const _).mul_const E).congr_deriv ?_
      ring

/-- **C33.** What `_jacobianraw` of GaussianOverR returns for a mask of three flags: exactly one row per
parameter, missing for the fixed ones and the partial derivative at each `r` for the free ones. -/
theorem c33_rows (mw : ℝ) (p : P) (r : List ℝ) (f0 f1 f2 : Bool) :
    ∃ J, jacobianRaw .overR mw p r [f0, f1, f2] = .ok J ∧ J.length = 3 ∧
      ∀ (k : ℕ) (b : Bool), [f0, f1, f2][k]? = some b →
        J[k]? = some (if b then some (r.map (fun x => jacOverR mw p x k)) else none) := by
  refine ⟨_, rfl, rfl, ?_⟩
  intro k b hk
  match k with
  | 0 => simp at hk; subst hk; cases f0 <;> simp
  | 1 => simp at hk; subst hk; cases f1 <;> simp
  | 2 => simp at hk; subst hk; cases f2 <;> simp
  | k + 3 => simp at hk

/-- **C33, finding.** The Jacobian of the Gaussian peak function can never be computed: it raises
AttributeError for all arguments. -/
theorem c33_gaussian_jacobian_raises (mw : ℝ) (p : P) (r : List ℝ) (free : List Bool) :
    jacobianRaw .gaussian mw p r free = .error .attribute := rfl

/-- Instance of the hypotheses, with a non-zero derivative in the width. -/
example : Real.sin (0 : ℝ) ≠ -1 ∧ jacOverR 2 ⟨3, 0, 5⟩ 3 1 ≠ 0 := by
  have h1 := c1_pos (mw := 2) (by norm_num)
  have h2 := c2_pos (mw := 2) (by norm_num)
  refine ⟨by simp, ?_⟩
  unfold jacOverR
  simp
  exact ⟨h1.ne', h2.ne'⟩

/-! ### C34 -/

theorem hasDerivAt_fwhm {mw : ℝ} (hmw : 0 < mw) {w : ℝ} (hw : Real.sin w ≠ -1) :
    HasDerivAt (fwhmOf mw) (mw / (2 * Real.sqrt 2) * Real.cos w / Real.sqrt (1 + Real.sin w)) w := by
  have h3 := sin_add_one_pos hw
  have hd : HasDerivAt (fun x : ℝ => 0.5 * (Real.sin x + 1) * mw ^ 2)
      (0.5 * Real.cos w * mw ^ 2) w :=
    (((Real.hasDerivAt_sin w).add_const 1).const_mul 0.5).mul_const (mw ^ 2)
  refine (hd.sqrt (by positivity)).congr_deriv ?_
  have e : Real.sqrt (0.5 * (Real.sin w + 1) * mw ^ 2) =
      Real.sqrt (1 + Real.sin w) * mw / Real.sqrt 2 := by
    have a : 0 ≤ Real.sqrt (1 + Real.sin w) * mw / Real.sqrt 2 := by positivity
    rw [Real.sqrt_eq_iff_mul_self_eq (by positivity) a]
    have s1 : Real.sqrt (1 + Real.sin w) * Real.sqrt (1 + Real.sin w) = 1 + Real.sin w :=
      Real.mul_self_sqrt (by linarith)
    have s2 : Real.sqrt 2 * Real.sqrt 2 = 2 := Real.mul_self_sqrt (by norm_num)
    symm
    calc Real.sqrt (1 + Real.sin w) * mw / Real.sqrt 2 * (Real.sqrt (1 + Real.sin w) * mw / Real.sqrt 2)
        = (Real.sqrt (1 + Real.sin w) * Real.sqrt (1 + Real.sin w)) * mw ^ 2 /
          (Real.sqrt 2 * Real.sqrt 2) := by ring
      _ = 0.5 * (Real.sin w + 1) * mw ^ 2 := by rw [s1, s2]; ring
  rw [e]
  have s3 : 0 < Real.sqrt (1 + Real.sin w) := Real.sqrt_pos.2 (by linarith)
  have s4 : 0 < Real.sqrt 2 := by positivity
  have s2 : Real.sqrt 2 ^ 2 = 2 := Real.sq_sqrt (by norm_num)
  field_simp
  rw [s2]
  ring

theorem hasDerivAt_arcsin_width {mw w : ℝ} (hmw : 0 < mw) (h0 : 0 < w) (h : w < mw) :
    HasDerivAt (fun w => Real.arcsin (2 * w ^ 2 / mw ^ 2 - 1)) (2 / Real.sqrt (mw ^ 2 - w ^ 2)) w := by
  have hd : HasDerivAt (fun x : ℝ => 2 * x ^ 2 / mw ^ 2 - 1) (4 * w / mw ^ 2) w := by
    refine ((((hasDerivAt_pow 2 w).const_mul 2).div_const (mw ^ 2)).sub_const 1).congr_deriv ?_
    simp
    ring
  have hlt : w ^ 2 < mw ^ 2 := by nlinarith
  have hne1 : 2 * w ^ 2 / mw ^ 2 - 1 ≠ -1 := by
    have : 0 < 2 * w ^ 2 / mw ^ 2 := by positivity
    intro h; linarith
  have hne2 : 2 * w ^ 2 / mw ^ 2 - 1 ≠ 1 := by
    have : 2 * w ^ 2 / mw ^ 2 < 2 := by rw [div_lt_iff₀ (by positivity)]; linarith
    intro h; linarith
  refine ((Real.hasDerivAt_arcsin hne1 hne2).comp w hd).congr_deriv ?_
  have hpos : 0 < mw ^ 2 - w ^ 2 := by linarith
  have e : Real.sqrt (1 - (2 * w ^ 2 / mw ^ 2 - 1) ^ 2) =
      2 * w / mw ^ 2 * Real.sqrt (mw ^ 2 - w ^ 2) := by
    have a : 0 ≤ 2 * w / mw ^ 2 * Real.sqrt (mw ^ 2 - w ^ 2) := by positivity
    have e1 : 1 - (2 * w ^ 2 / mw ^ 2 - 1) ^ 2 =
        (2 * w / mw ^ 2 * Real.sqrt (mw ^ 2 - w ^ 2)) ^ 2 := by
      rw [mul_pow, Real.sq_sqrt hpos.le]
      field_simp
      ring
    rw [e1, Real.sqrt_sq a]
  rw [e]
  have s : 0 < Real.sqrt (mw ^ 2 - w ^ 2) := Real.sqrt_pos.2 hpos
  field_simp
  ring

/-- The width component of a format change, as a function of the input width alone. -/
noncomputable def widthMap (mw pos area : ℝ) (inF outF : String) (w : ℝ) : ℝ :=
  match transform mw ⟨pos, w, area⟩ inF outF with
  | .ok (some q) => q.wid
  | _ => 0

theorem derivWidth_to_pwa {mw : ℝ} (hmw : 0 < mw) (p : P) (hw : Real.sin p.wid ≠ -1) :
    ∃ d, derivWidth mw p "internal" "pwa" = .ok (some d) ∧
      HasDerivAt (widthMap mw p.pos p.area "internal" "pwa") d p.wid := by
  refine ⟨_, by simp [derivWidth]; rfl, ?_⟩
  have : widthMap mw p.pos p.area "internal" "pwa" = fwhmOf mw := by
    funext w; unfold widthMap; rw [transform_to_pwa]
  rw [this]
  exact hasDerivAt_fwhm hmw hw

theorem derivWidth_to_msa {mw : ℝ} (hmw : 0 < mw) (p : P) (hw : Real.sin p.wid ≠ -1) :
    ∃ d, derivWidth mw p "internal" "mu_sigma_area" = .ok (some d) ∧
      HasDerivAt (widthMap mw p.pos p.area "internal" "mu_sigma_area") d p.wid := by
  have hs := sigma2fwhm_pos
  refine ⟨_, by simp [derivWidth]; rfl, ?_⟩
  have : widthMap mw p.pos p.area "internal" "mu_sigma_area" = fun w => fwhmOf mw w / sigma2fwhm := by
    funext w; unfold widthMap; rw [transform_to_msa]
  rw [this]
  refine ((hasDerivAt_fwhm hmw hw).div_const sigma2fwhm).congr_deriv ?_
  have h3 := sin_add_one_pos hw
  have s3 : 0 < Real.sqrt (1 + Real.sin p.wid) := Real.sqrt_pos.2 (by linarith)
  field_simp

/-- `widthMap` near a point is `f`, if `transform` gives `f` for all widths in an open interval. -/
theorem hasDerivAt_widthMap {mw pos area : ℝ} {inF outF : String} {f : ℝ → ℝ} {w d a b : ℝ}
    (ha : a < w) (hb : w < b)
    (hf : ∀ x, a < x → x < b → ∃ y, transform mw ⟨pos, x, area⟩ inF outF = .ok (some ⟨pos, f x, y⟩))
    (hd : HasDerivAt f d w) : HasDerivAt (widthMap mw pos area inF outF) d w := by
  apply hd.congr_of_eventuallyEq
  filter_upwards [Ioo_mem_nhds ha hb] with x hx
  unfold widthMap
  obtain ⟨y, hy⟩ := hf x hx.1 hx.2
  rw [hy]

/-- **C34.** For each pair of different formats, the width entry of `transform_derivatives` is the
derivative of the transformed width with respect to the given width: everywhere for internal
parameters of positive width, and for widths strictly between 0 and the limit otherwise. -/
theorem c34_width_derivative {mw : ℝ} (hmw : 0 < mw) (p : P) (inF outF : String)
    (hin : inF = "internal" ∨ inF = "pwa" ∨ inF = "mu_sigma_area")
    (hout : outF = "internal" ∨ outF = "pwa" ∨ outF = "mu_sigma_area") (hne : inF ≠ outF)
    (h1 : inF = "internal" → Real.sin p.wid ≠ -1)
    (h2 : inF = "pwa" → 0 < p.wid ∧ p.wid < mw)
    (h3 : inF = "mu_sigma_area" → 0 < p.wid ∧ p.wid * sigma2fwhm < mw) :
    ∃ d, derivWidth mw p inF outF = .ok (some d) ∧
      HasDerivAt (widthMap mw p.pos p.area inF outF) d p.wid := by
  have hs := sigma2fwhm_pos
  rcases hin with rfl | rfl | rfl
  · rcases hout with rfl | rfl | rfl
    · exact absurd rfl hne
    · exact derivWidth_to_pwa hmw p (h1 rfl)
    · exact derivWidth_to_msa hmw p (h1 rfl)
  · obtain ⟨a, b⟩ := h2 rfl
    rcases hout with rfl | rfl | rfl
    · refine ⟨_, by simp [derivWidth]; rfl, ?_⟩
      exact hasDerivAt_widthMap a b
        (fun x hx0 hx1 => ⟨_, transform_pwa hmw ⟨p.pos, x, p.area⟩ hx0.le hx1.le⟩)
        (hasDerivAt_arcsin_width hmw a b)
    · exact absurd rfl hne
    · refine ⟨_, by simp [derivWidth]; rfl, ?_⟩
      refine hasDerivAt_widthMap (f := fun x => x / sigma2fwhm) a b
        (fun x hx0 hx1 => ⟨_, (c31_pwa_sigma hmw ⟨p.pos, x, p.area⟩ hx0.le).1 hx1.le⟩) ?_
      refine ((hasDerivAt_id p.wid).div_const sigma2fwhm).congr_deriv ?_
      simp
  · obtain ⟨a, b⟩ := h3 rfl
    have b' : p.wid < mw / sigma2fwhm := by rw [lt_div_iff₀ hs]; exact b
    rcases hout with rfl | rfl | rfl
    · refine ⟨_, by simp [derivWidth]; rfl, ?_⟩
      refine hasDerivAt_widthMap (f := fun x => Real.arcsin (2 * (x * sigma2fwhm) ^ 2 / mw ^ 2 - 1))
        a b' (fun x hx0 hx1 => ⟨_, transform_msa hmw ⟨p.pos, x, p.area⟩ hx0.le
          (by rw [lt_div_iff₀ hs] at hx1; exact hx1.le)⟩) ?_
      have := (hasDerivAt_arcsin_width hmw (by positivity : 0 < p.wid * sigma2fwhm) b).comp p.wid
        ((hasDerivAt_id p.wid).mul_const sigma2fwhm)
      refine this.congr_deriv ?_
      rw [mul_comm sigma2fwhm p.wid]
      ring
    · refine ⟨_, by simp [derivWidth]; rfl, ?_⟩
      refine hasDerivAt_widthMap (f := fun x => x * sigma2fwhm) a b'
        (fun x hx0 hx1 => ⟨_, (c31_pwa_sigma hmw ⟨p.pos, x, p.area⟩ hx0.le).2
          (by rw [lt_div_iff₀ hs] at hx1; exact hx1.le)⟩) ?_
      refine ((hasDerivAt_id p.wid).mul_const sigma2fwhm).congr_deriv ?_
      simp
    · exact absurd rfl hne

/-- **C34.** The other output parameters: position is passed on, and area too, except that from the
internal format it is `|area|` — so the identity entries are right, for the area as long as it is
positive; for a negative internal area the derivative of the output area is `-1`, not the `1` given. -/
theorem c34_other_entries {mw : ℝ} (p : P) (outF : String)
    (hout : outF = "pwa" ∨ outF = "mu_sigma_area") :
    ∃ q, transform mw p "internal" outF = .ok (some q) ∧ q.pos = p.pos ∧ q.area = |p.area| ∧
      q.wid = widthMap mw 0 0 "internal" outF p.wid := by
  rcases hout with rfl | rfl
  · refine ⟨_, transform_to_pwa mw p, rfl, rfl, ?_⟩
    unfold widthMap; rw [transform_to_pwa]
  · refine ⟨_, transform_to_msa mw p, rfl, rfl, ?_⟩
    unfold widthMap; rw [transform_to_msa]

/-- Instance of the hypotheses for each input format (maxwidth 2). -/
example : Real.sin (0 : ℝ) ≠ -1 ∧ (0 : ℝ) < 1 ∧ (1 : ℝ) < 2 ∧ 0.1 * sigma2fwhm < 2 := by
  refine ⟨by simp, by norm_num, by norm_num, ?_⟩
  have h := sigma2fwhm_sq
  have h2 : Real.log 2 < 1 := by have := Real.log_two_lt_d9; linarith
  have : sigma2fwhm < 3 := by nlinarith [sigma2fwhm_pos]
  linarith

end Verif.Peaks
