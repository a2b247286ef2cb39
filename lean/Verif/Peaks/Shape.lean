import Verif.Peaks.Formats
import Mathlib.Probability.Distributions.Gaussian.Real
import Mathlib.Analysis.Calculus.Deriv.MeanValue
import Mathlib.Analysis.Complex.ExponentialBounds

/-!
# Properties C30, C35: the shape of the peaks, and their maxima
-/

namespace Verif.Peaks

open Verif.Py MeasureTheory

/-- Standard deviation denoted by an internal width. -/
noncomputable def sigmaOf (mw w : ℝ) : ℝ := fwhmOf mw w / sigma2fwhm

theorem sigma2fwhm_sq : sigma2fwhm ^ 2 = 8 * Real.log 2 := by
  unfold sigma2fwhm
  rw [mul_pow, Real.sq_sqrt (by have := log2_pos; positivity)]
  ring

theorem sigmaOf_sq (mw w : ℝ) : 2 * sigmaOf mw w ^ 2 = c2 mw * (Real.sin w + 1) := by
  have := log2_pos
  unfold sigmaOf c2
  rw [div_pow, fwhmOf_sq, sigma2fwhm_sq]
  field_simp
  ring

theorem sin_add_one_nonneg (w : ℝ) : 0 ≤ Real.sin w + 1 := by
  have := Real.neg_one_le_sin w
  linarith

theorem sigmaOf_nonneg (mw w : ℝ) : 0 ≤ sigmaOf mw w :=
  div_nonneg (Real.sqrt_nonneg _) sigma2fwhm_pos.le

theorem fwhmOf_pos {mw w : ℝ} (hmw : 0 < mw) (hw : Real.sin w ≠ -1) : 0 < fwhmOf mw w := by
  have h : 0 < Real.sin w + 1 := lt_of_le_of_ne (sin_add_one_nonneg w) (by intro h; apply hw; linarith)
  unfold fwhmOf
  positivity

theorem sigmaOf_pos {mw w : ℝ} (hmw : 0 < mw) (hw : Real.sin w ≠ -1) : 0 < sigmaOf mw w :=
  div_pos (fwhmOf_pos hmw hw) sigma2fwhm_pos

theorem norm_sigma {mw : ℝ} (hmw : 0 < mw) (w : ℝ) :
    c1 mw * Real.sqrt (Real.sin w + 1) = sigmaOf mw w * Real.sqrt (2 * Real.pi) := by
  have hl := log2_pos
  have hpi := Real.pi_pos
  have h0 := sin_add_one_nonneg w
  have hs := sigmaOf_nonneg mw w
  have a : 0 ≤ c1 mw * Real.sqrt (Real.sin w + 1) := by unfold c1; positivity
  have b : 0 ≤ sigmaOf mw w * Real.sqrt (2 * Real.pi) := by positivity
  apply (sq_eq_sq₀ a b).1
  have h := sigmaOf_sq mw w
  rw [mul_pow, mul_pow, Real.sq_sqrt h0, Real.sq_sqrt (by positivity)]
  unfold c1 c2 at *
  rw [mul_pow, Real.sq_sqrt (by positivity)]
  have : sigmaOf mw w ^ 2 * (2 * Real.pi) = (2 * sigmaOf mw w ^ 2) * Real.pi := by ring
  rw [this, h]
  field_simp

/-- The Gaussian of mean `μ`, standard deviation `σ` and area `A` at `r`. -/
noncomputable def gauss (μ σ A r : ℝ) : ℝ :=
  A / (σ * Real.sqrt (2 * Real.pi)) * Real.exp (-(r - μ) ^ 2 / (2 * σ ^ 2))

theorem value_gaussian {mw : ℝ} (hmw : 0 < mw) (p : P) (r : ℝ) :
    value .gaussian mw p r = gauss p.pos (sigmaOf mw p.wid) |p.area| r := by
  unfold value gauss
  simp only
  rw [norm_sigma hmw, sigmaOf_sq]

theorem value_overR {mw : ℝ} (hmw : 0 < mw) (p : P) (r : ℝ) :
    value .overR mw p r = gauss p.pos (sigmaOf mw p.wid) |p.area| r / |r| := by
  unfold value gauss
  simp only
  rw [show |r| * c1 mw * Real.sqrt (Real.sin p.wid + 1) =
    |r| * (c1 mw * Real.sqrt (Real.sin p.wid + 1)) by ring, norm_sigma hmw, sigmaOf_sq]
  rw [div_mul_eq_div_div, div_mul_eq_mul_div, div_mul_eq_mul_div, div_right_comm]
  rw [div_mul_eq_mul_div, div_right_comm]

/-- The variance of a peak, as a `NNReal` for Mathlib's Gaussian density. -/
noncomputable def varOf (mw w : ℝ) : NNReal := Real.toNNReal (sigmaOf mw w ^ 2)

theorem gauss_eq_pdf {μ σ A : ℝ} (hσ : 0 < σ) (r : ℝ) :
    gauss μ σ A r = A * ProbabilityTheory.gaussianPDFReal μ (Real.toNNReal (σ ^ 2)) r := by
  unfold gauss ProbabilityTheory.gaussianPDFReal
  have : Real.sqrt (2 * Real.pi * σ ^ 2) = σ * Real.sqrt (2 * Real.pi) := by
    rw [Real.sqrt_mul (by positivity), Real.sqrt_sq hσ.le, mul_comm]
  rw [Real.coe_toNNReal _ (sq_nonneg _), this]
  ring

/-- **C30.** A Gaussian peak of internal parameters `p` (with positive width) is `|area|` times the
normal density of mean `position` and standard deviation FWHM/(2√(2 ln 2)); a Gaussian/r peak is
that divided by `|r|`. -/
theorem c30_density {mw : ℝ} (hmw : 0 < mw) (p : P) (hw : Real.sin p.wid ≠ -1) (r : ℝ) :
    value .gaussian mw p r =
      |p.area| * ProbabilityTheory.gaussianPDFReal p.pos (varOf mw p.wid) r ∧
    (r ≠ 0 → |r| * value .overR mw p r = value .gaussian mw p r) ∧
    0 ≤ value .gaussian mw p r ∧ 0 ≤ value .overR mw p r := by
  have hσ := sigmaOf_pos hmw hw
  have hg : 0 ≤ gauss p.pos (sigmaOf mw p.wid) |p.area| r := by
    unfold gauss
    positivity
  refine ⟨?_, ?_, ?_, ?_⟩
  · rw [value_gaussian hmw, gauss_eq_pdf hσ]
    rfl
  · intro hr
    rw [value_gaussian hmw, value_overR hmw]
    have : |r| ≠ 0 := abs_ne_zero.2 hr
    field_simp
  · rw [value_gaussian hmw]; exact hg
  · rw [value_overR hmw]; positivity

theorem gauss_le {μ σ A : ℝ} (hσ : 0 < σ) (hA : 0 ≤ A) (r : ℝ) :
    gauss μ σ A r ≤ gauss μ σ A μ := by
  unfold gauss
  apply mul_le_mul_of_nonneg_left _ (by positivity)
  apply Real.exp_le_exp.2
  rw [sub_self]
  have : 0 ≤ (r - μ) ^ 2 / (2 * σ ^ 2) := by positivity
  rw [neg_div]
  simp only [ne_eq, OfNat.ofNat_ne_zero, not_false_eq_true, zero_pow, neg_zero, zero_div]
  linarith

theorem gauss_lt {μ σ A : ℝ} (hσ : 0 < σ) (hA : 0 < A) {r : ℝ} (hr : r ≠ μ) :
    gauss μ σ A r < gauss μ σ A μ := by
  unfold gauss
  apply mul_lt_mul_of_pos_left _ (by have := Real.pi_pos; positivity)
  apply Real.exp_lt_exp.2
  rw [sub_self]
  have h : 0 < (r - μ) ^ 2 := by
    have : r - μ ≠ 0 := sub_ne_zero.2 hr
    positivity
  have : 0 < (r - μ) ^ 2 / (2 * σ ^ 2) := by positivity
  rw [neg_div]
  simp only [ne_eq, OfNat.ofNat_ne_zero, not_false_eq_true, zero_pow, neg_zero, zero_div]
  linarith

/-- **C30.** A Gaussian peak requested as (position, FWHM `w`, area `A`) with `0 < w ≤ maxwidth` and
`0 ≤ A`: its values are those of the Gaussian `A·(2/w)·√(ln 2/π)·exp(-4 ln 2 (r-position)²/w²)`, its
maximum is at the position (and only there if `A > 0`), it is at half maximum at distance `w/2` from
the position on both sides, and its integral over the line is `A`. -/
theorem c30_gaussian_pwa {mw : ℝ} (hmw : 0 < mw) (μ w A : ℝ) (hw0 : 0 < w) (hw : w ≤ mw)
    (hA : 0 ≤ A) :
    ∃ q, transform mw ⟨μ, w, A⟩ "pwa" "internal" = .ok (some q) ∧
      (∀ r, value .gaussian mw q r =
        A * (2 / w) * Real.sqrt (Real.log 2 / Real.pi) *
          Real.exp (-4 * Real.log 2 * (r - μ) ^ 2 / w ^ 2)) ∧
      (∀ r, value .gaussian mw q r ≤ value .gaussian mw q μ) ∧
      (0 < A → ∀ r, r ≠ μ → value .gaussian mw q r < value .gaussian mw q μ) ∧
      value .gaussian mw q (μ + w / 2) = value .gaussian mw q μ / 2 ∧
      value .gaussian mw q (μ - w / 2) = value .gaussian mw q μ / 2 ∧
      ∫ r, value .gaussian mw q r = A := by
  have hl := log2_pos
  have hpi := Real.pi_pos
  have hs := sigma2fwhm_pos
  refine ⟨_, transform_pwa hmw ⟨μ, w, A⟩ hw0.le hw, ?_⟩
  have hf := fwhmOf_arcsin hmw hw0.le hw
  simp only
  set x := Real.arcsin (2 * w ^ 2 / mw ^ 2 - 1) with hx
  have hσ : sigmaOf mw x = w / sigma2fwhm := by unfold sigmaOf; rw [hf]
  have hσp : 0 < w / sigma2fwhm := by positivity
  have hval : ∀ r, value .gaussian mw ⟨μ, x, A⟩ r = gauss μ (w / sigma2fwhm) A r := by
    intro r
    rw [value_gaussian hmw, hσ, abs_of_nonneg hA]
  have hsq : 2 * (w / sigma2fwhm) ^ 2 = w ^ 2 / (4 * Real.log 2) := by
    rw [div_pow, sigma2fwhm_sq]; field_simp; ring
  have hform : ∀ r, value .gaussian mw ⟨μ, x, A⟩ r =
        A * (2 / w) * Real.sqrt (Real.log 2 / Real.pi) *
          Real.exp (-4 * Real.log 2 * (r - μ) ^ 2 / w ^ 2) := by
    intro r
    rw [hval]
    unfold gauss
    rw [hsq]
    have e1 : -(r - μ) ^ 2 / (w ^ 2 / (4 * Real.log 2)) =
        -4 * Real.log 2 * (r - μ) ^ 2 / w ^ 2 := by field_simp
    rw [e1]
    congr 1
    have e2 : sigma2fwhm / Real.sqrt (2 * Real.pi) = 2 * Real.sqrt (Real.log 2 / Real.pi) := by
      have a : 0 ≤ sigma2fwhm / Real.sqrt (2 * Real.pi) := by positivity
      have b : 0 ≤ 2 * Real.sqrt (Real.log 2 / Real.pi) := by positivity
      apply (sq_eq_sq₀ a b).1
      rw [div_pow, mul_pow, sigma2fwhm_sq, Real.sq_sqrt (by positivity), Real.sq_sqrt (by positivity)]
      field_simp
      norm_num
    calc A / (w / sigma2fwhm * Real.sqrt (2 * Real.pi))
        = A / w * (sigma2fwhm / Real.sqrt (2 * Real.pi)) := by field_simp
      _ = A * (2 / w) * Real.sqrt (Real.log 2 / Real.pi) := by rw [e2]; ring
  have half : ∀ d, d ^ 2 = (w / 2) ^ 2 →
      Real.exp (-4 * Real.log 2 * d ^ 2 / w ^ 2) = 1 / 2 := by
    intro d hd
    rw [hd, show -4 * Real.log 2 * (w / 2) ^ 2 / w ^ 2 = -Real.log 2 by field_simp; ring,
      Real.exp_neg, Real.exp_log (by norm_num)]
    norm_num
  refine ⟨hform, ?_, ?_, ?_, ?_, ?_⟩
  · intro r; rw [hval, hval]; exact gauss_le hσp hA r
  · intro hA' r hr; rw [hval, hval]; exact gauss_lt hσp hA' hr
  · rw [hform, hform, half _ (by ring)]
    simp
    ring
  · rw [hform, hform, half _ (by ring)]
    simp
    ring
  · simp_rw [hval, gauss_eq_pdf hσp]
    rw [integral_const_mul, ProbabilityTheory.integral_gaussianPDFReal_eq_one, mul_one]
    intro h
    have : 0 < (w / sigma2fwhm) ^ 2 := by positivity
    rw [Real.toNNReal_eq_zero] at h
    linarith

/-- Instance: FWHM 1 at 3 with area 5 and `maxwidth` 2. -/
example : ∃ q, transform 2 ⟨3, 1, 5⟩ "pwa" "internal" = .ok (some q) ∧
    ∫ r, value .gaussian 2 q r = 5 := by
  obtain ⟨q, h, -, -, -, -, -, i⟩ :=
    c30_gaussian_pwa (mw := 2) (by norm_num) 3 1 5 (by norm_num) (by norm_num) (by norm_num)
  exact ⟨q, h, i⟩

/-! ### Maxima -/

/-- **C35.** For Gaussian, `max` always succeeds and returns the position together with the value
there, which no other value exceeds. -/
theorem c35_gaussian_max {mw : ℝ} (hmw : 0 < mw) (p : P) (hw : Real.sin p.wid ≠ -1) :
    ∃ h, max .gaussian mw p = .ok (p.pos, h) ∧ value .gaussian mw p p.pos = h ∧
      (∀ r, value .gaussian mw p r ≤ h) ∧
      (p.area ≠ 0 → ∀ r, r ≠ p.pos → value .gaussian mw p r < h) := by
  have hσ := sigmaOf_pos hmw hw
  refine ⟨value .gaussian mw p p.pos, ?_, rfl, ?_, ?_⟩
  · unfold max
    rw [transform_to_msa]
  · intro r; rw [value_gaussian hmw, value_gaussian hmw]; exact gauss_le hσ (abs_nonneg _) r
  · intro ha r hr; rw [value_gaussian hmw, value_gaussian hmw]
    exact gauss_lt hσ (abs_pos.2 ha) hr

/-- Key inequality for the maximum of a Gaussian/r. -/
theorem log_ineq {c t : ℝ} (hc0 : 0 < c) (hc1 : c < 1) (ht : c ≤ t) (ht1 : t ≠ 1) :
    t - 1 - (t - 1) ^ 2 / (2 * c) < Real.log t := by
  have key : ∀ x, 0 < x → HasDerivAt (fun t : ℝ => Real.log t - (t - 1) + (t - 1) ^ 2 / (2 * c))
      ((1 - x) * (c - x) / (x * c)) x := by
    intro x hx
    have h := ((Real.hasDerivAt_log hx.ne').sub ((hasDerivAt_id x).sub_const 1)).add
      ((((hasDerivAt_id x).sub_const 1).pow 2).div_const (2 * c))
    refine h.congr_deriv ?_
    simp
    field_simp
    ring
  have hcont : ContinuousOn (fun t : ℝ => Real.log t - (t - 1) + (t - 1) ^ 2 / (2 * c)) (Set.Ici c) :=
    fun x hx => (key x (lt_of_lt_of_le hc0 hx)).continuousAt.continuousWithinAt
  have hD : 0 < Real.log t - (t - 1) + (t - 1) ^ 2 / (2 * c) := by
    rcases lt_or_gt_of_ne ht1 with h | h
    · have hanti : StrictAntiOn (fun t : ℝ => Real.log t - (t - 1) + (t - 1) ^ 2 / (2 * c))
          (Set.Icc c 1) := by
        apply strictAntiOn_of_deriv_neg (convex_Icc c 1) (hcont.mono Set.Icc_subset_Ici_self)
        intro x hx
        rw [interior_Icc] at hx
        rw [(key x (hc0.trans hx.1)).deriv]
        have h1 := hx.1
        have h2 := hx.2
        apply div_neg_of_neg_of_pos
        · apply mul_neg_of_pos_of_neg <;> linarith
        · have := hc0.trans h1; positivity
      have := hanti ⟨ht, h.le⟩ ⟨hc1.le, le_refl 1⟩ h
      simpa using this
    · have hmono : StrictMonoOn (fun t : ℝ => Real.log t - (t - 1) + (t - 1) ^ 2 / (2 * c))
          (Set.Ici 1) := by
        apply strictMonoOn_of_deriv_pos (convex_Ici 1)
          (hcont.mono (Set.Ici_subset_Ici.2 hc1.le))
        intro x hx
        rw [interior_Ici] at hx
        have h1 : 1 < x := hx
        rw [(key x (by linarith)).deriv]
        apply div_pos
        · apply mul_pos_of_neg_of_neg <;> linarith
        · have : 0 < x := by linarith
          positivity
      have := hmono (Set.mem_Ici.2 (le_refl (1 : ℝ))) (Set.mem_Ici.2 h.le) h
      simpa using this
  linarith

/-- For roots `m > l > 0` of the stationarity equation, `gauss/r` at `r ≥ l`, `r ≠ m`, is below its
value at `m`. -/
theorem overR_lt {m l A : ℝ} {σ : ℝ} (hl : 0 < l) (hlm : l < m) (hA : 0 < A) (hσ : 0 < σ)
    (hσ2 : σ ^ 2 = m * l) {r : ℝ} (hr : l ≤ r) (hrm : r ≠ m) :
    gauss (m + l) σ A r / |r| < gauss (m + l) σ A m / |m| := by
  have hm : 0 < m := hl.trans hlm
  have hr0 : 0 < r := lt_of_lt_of_le hl hr
  have hpi := Real.pi_pos
  rw [abs_of_pos hr0, abs_of_pos hm]
  have hineq := log_ineq (c := l / m) (t := r / m) (by positivity) ((div_lt_one hm).2 hlm)
    ((div_le_div_iff_of_pos_right hm).2 hr) (by rw [Ne, div_eq_one_iff_eq hm.ne']; exact hrm)
  rw [Real.log_div hr0.ne' hm.ne'] at hineq
  have e : -(r - (m + l)) ^ 2 / (2 * σ ^ 2) + Real.log m <
      -(m - (m + l)) ^ 2 / (2 * σ ^ 2) + Real.log r := by
    rw [hσ2]
    have : -(r - (m + l)) ^ 2 / (2 * (m * l)) - -(m - (m + l)) ^ 2 / (2 * (m * l)) =
        r / m - 1 - (r / m - 1) ^ 2 / (2 * (l / m)) := by
      field_simp
      ring
    linarith
  have e2 := Real.exp_lt_exp.2 e
  rw [Real.exp_add, Real.exp_add, Real.exp_log hm, Real.exp_log hr0] at e2
  unfold gauss
  rw [div_lt_div_iff₀ hr0 hm]
  have hc : 0 < A / (σ * Real.sqrt (2 * Real.pi)) := by positivity
  calc _ = A / (σ * Real.sqrt (2 * Real.pi)) *
        (Real.exp (-(r - (m + l)) ^ 2 / (2 * σ ^ 2)) * m) := by ring
    _ < A / (σ * Real.sqrt (2 * Real.pi)) *
        (Real.exp (-(m - (m + l)) ^ 2 / (2 * σ ^ 2)) * r) := mul_lt_mul_of_pos_left e2 hc
    _ = _ := by ring

/-- The stationary points of a Gaussian/r of mean `μ` and standard deviation `σ`. -/
noncomputable def rPlus (μ σ : ℝ) : ℝ := (μ + Real.sqrt (μ ^ 2 - 4 * σ ^ 2)) / 2
noncomputable def rMinus (μ σ : ℝ) : ℝ := (μ - Real.sqrt (μ ^ 2 - 4 * σ ^ 2)) / 2

theorem roots {μ σ : ℝ} (h : 4 * σ ^ 2 < μ ^ 2) :
    rPlus μ σ + rMinus μ σ = μ ∧ rPlus μ σ * rMinus μ σ = σ ^ 2 ∧ rMinus μ σ < rPlus μ σ := by
  unfold rPlus rMinus
  have hp : 0 < Real.sqrt (μ ^ 2 - 4 * σ ^ 2) := Real.sqrt_pos.2 (by linarith)
  have hsq := Real.sq_sqrt (show 0 ≤ μ ^ 2 - 4 * σ ^ 2 by linarith)
  refine ⟨by ring, by nlinarith, by linarith⟩

theorem roots_pos {μ σ : ℝ} (hμ : 0 < μ) (hσ : 0 < σ) (h : 4 * σ ^ 2 < μ ^ 2) :
    0 < rMinus μ σ := by
  obtain ⟨a, b, c⟩ := roots h
  by_contra hc
  have h1 : rMinus μ σ ≤ 0 := not_lt.1 hc
  have h2 : 0 < rPlus μ σ := by linarith
  have := mul_nonpos_of_nonneg_of_nonpos h2.le h1
  have : 0 < σ ^ 2 := by positivity
  linarith

theorem max_overR {mw : ℝ} (p : P) :
    max .overR mw p = if p.pos ^ 2 ≤ 4 * sigmaOf mw p.wid ^ 2 then .error .value
      else .ok (rPlus p.pos (sigmaOf mw p.wid),
        value .overR mw p (rPlus p.pos (sigmaOf mw p.wid))) := by
  have ht : transform mw p "internal" "mu_sigma_area" =
      .ok (some ⟨p.pos, sigmaOf mw p.wid, |p.area|⟩) := transform_to_msa mw p
  unfold max
  rw [ht]
  simp only
  have : (0.5 : ℝ) * (p.pos + Real.sqrt (p.pos ^ 2 - 4 * sigmaOf mw p.wid ^ 2)) =
      rPlus p.pos (sigmaOf mw p.wid) := by
    unfold rPlus
    ring
  rw [this]

/-- **C35.** For Gaussian/r at a positive position `μ`, with `σ = FWHM/(2√(2 ln 2))`: `max` raises
ValueError exactly when `μ² ≤ 4σ²`; otherwise it returns a point `m` and the value there, which
strictly exceeds (for a non-zero area) the value at every other `r` to the right of `μ - m`, the other
stationary point (which is between 0 and `m`). -/
theorem c35_overR_max {mw : ℝ} (hmw : 0 < mw) (p : P) (hw : Real.sin p.wid ≠ -1)
    (hμ : 0 < p.pos) :
    (max .overR mw p = .error .value ↔ p.pos ^ 2 ≤ 4 * sigmaOf mw p.wid ^ 2) ∧
    (4 * sigmaOf mw p.wid ^ 2 < p.pos ^ 2 →
      ∃ m h, max .overR mw p = .ok (m, h) ∧ value .overR mw p m = h ∧
        0 < p.pos - m ∧ p.pos - m < m ∧ m < p.pos ∧
        (p.area ≠ 0 → ∀ r, p.pos - m ≤ r → r ≠ m → value .overR mw p r < h)) := by
  have hσ := sigmaOf_pos hmw hw
  rw [max_overR]
  constructor
  · constructor
    · intro h
      by_contra hc
      rw [if_neg hc] at h
      simp at h
    · intro h
      rw [if_pos h]
  · intro h
    obtain ⟨a, b, c⟩ := roots h
    have d := roots_pos hμ hσ h
    set m := rPlus p.pos (sigmaOf mw p.wid) with hm
    set l := rMinus p.pos (sigmaOf mw p.wid) with hl
    have hpl : p.pos - m = l := by linarith
    refine ⟨m, _, by rw [if_neg (not_le.2 h)], rfl, by linarith, by linarith, by linarith, ?_⟩
    intro ha r hr hrm
    rw [value_overR hmw, value_overR hmw, ← a]
    exact overR_lt d c (abs_pos.2 ha) hσ b.symm (by linarith) hrm

/-- When `max` raises for Gaussian/r there is indeed no maximum: the values decrease on `r > 0`. -/
theorem c35_overR_no_max {mw : ℝ} (hmw : 0 < mw) (p : P) (hw : Real.sin p.wid ≠ -1)
    (ha : p.area ≠ 0) (h : p.pos ^ 2 ≤ 4 * sigmaOf mw p.wid ^ 2) {r r' : ℝ} (h0 : 0 < r)
    (hr : r < r') : value .overR mw p r' < value .overR mw p r := by
  have hσ := sigmaOf_pos hmw hw
  set σ := sigmaOf mw p.wid with hs
  set μ := p.pos with hμ
  have h0' : 0 < r' := h0.trans hr
  have key : ∀ x, 0 < x → HasDerivAt (fun x : ℝ => Real.log x + (x - μ) ^ 2 / (2 * σ ^ 2))
      ((x ^ 2 - μ * x + σ ^ 2) / (x * σ ^ 2)) x := by
    intro x hx
    have h := (Real.hasDerivAt_log hx.ne').add
      ((((hasDerivAt_id x).sub_const μ).pow 2).div_const (2 * σ ^ 2))
    refine h.congr_deriv ?_
    simp
    field_simp
    ring
  have hmono : StrictMonoOn (fun x : ℝ => Real.log x + (x - μ) ^ 2 / (2 * σ ^ 2)) (Set.Ioi 0) := by
    -- the derivative vanishes at most at one point, `μ/2`
    have hcont : ContinuousOn (fun x : ℝ => Real.log x + (x - μ) ^ 2 / (2 * σ ^ 2)) (Set.Ioi 0) :=
      fun x hx => (key x hx).continuousAt.continuousWithinAt
    have hpos : ∀ x, 0 < x → x ≠ μ / 2 →
        0 < deriv (fun x : ℝ => Real.log x + (x - μ) ^ 2 / (2 * σ ^ 2)) x := by
      intro x hx hne
      rw [(key x hx).deriv]
      apply div_pos _ (by positivity)
      have : 0 < (x - μ / 2) ^ 2 := by
        have : x - μ / 2 ≠ 0 := sub_ne_zero.2 hne
        positivity
      nlinarith
    intro x hx y hy hxy
    have hx' : 0 < x := hx
    have piece : ∀ a b : ℝ, 0 < a → a < b → (b ≤ μ / 2 ∨ μ / 2 ≤ a) →
        Real.log a + (a - μ) ^ 2 / (2 * σ ^ 2) < Real.log b + (b - μ) ^ 2 / (2 * σ ^ 2) := by
      intro a b ha hab hd
      have : StrictMonoOn (fun x : ℝ => Real.log x + (x - μ) ^ 2 / (2 * σ ^ 2)) (Set.Icc a b) := by
        apply strictMonoOn_of_deriv_pos (convex_Icc a b)
        · exact hcont.mono (fun z hz => lt_of_lt_of_le ha hz.1)
        · intro z hz
          rw [interior_Icc] at hz
          apply hpos z (ha.trans hz.1)
          have h1 := hz.1
          have h2 := hz.2
          rcases hd with hd | hd
          · exact ne_of_lt (by linarith)
          · exact ne_of_gt (by linarith)
      exact this ⟨le_refl a, hab.le⟩ ⟨hab.le, le_refl b⟩ hab
    simp only
    by_cases h1 : y ≤ μ / 2
    · exact piece x y hx' hxy (Or.inl h1)
    · by_cases h2 : μ / 2 ≤ x
      · exact piece x y hx' hxy (Or.inr h2)
      · push Not at h1 h2
        exact (piece x (μ / 2) hx' h2 (Or.inl le_rfl)).trans
          (piece (μ / 2) y (hx'.trans h2) h1 (Or.inr le_rfl))
  have hlt := hmono (Set.mem_Ioi.2 h0) (Set.mem_Ioi.2 h0') hr
  simp only at hlt
  have e : -(r' - μ) ^ 2 / (2 * σ ^ 2) + Real.log r < -(r - μ) ^ 2 / (2 * σ ^ 2) + Real.log r' := by
    rw [neg_div, neg_div]; linarith
  have e2 := Real.exp_lt_exp.2 e
  rw [Real.exp_add, Real.exp_add, Real.exp_log h0, Real.exp_log h0'] at e2
  rw [value_overR hmw, value_overR hmw, abs_of_pos h0, abs_of_pos h0', ← hs, ← hμ]
  have hpi := Real.pi_pos
  have hA := abs_pos.2 ha
  unfold gauss
  rw [div_lt_div_iff₀ h0' h0]
  have hc : 0 < |p.area| / (σ * Real.sqrt (2 * Real.pi)) := by positivity
  calc _ = |p.area| / (σ * Real.sqrt (2 * Real.pi)) *
        (Real.exp (-(r' - μ) ^ 2 / (2 * σ ^ 2)) * r) := by ring
    _ < |p.area| / (σ * Real.sqrt (2 * Real.pi)) *
        (Real.exp (-(r - μ) ^ 2 / (2 * σ ^ 2)) * r') := mul_lt_mul_of_pos_left e2 hc
    _ = _ := by ring

/-- **C35, finding.** For a Gaussian/r at a negative position the point returned by `max` is not the
maximum: the value at the other stationary point is larger. -/
theorem c35_overR_negative_position {mw : ℝ} (hmw : 0 < mw) (p : P) (hw : Real.sin p.wid ≠ -1)
    (hμ : p.pos < 0) (ha : p.area ≠ 0) (h : 4 * sigmaOf mw p.wid ^ 2 < p.pos ^ 2) :
    ∃ m v r, max .overR mw p = .ok (m, v) ∧ m < 0 ∧ r < 0 ∧ v < value .overR mw p r := by
  have hσ := sigmaOf_pos hmw hw
  set σ := sigmaOf mw p.wid with hs
  have h' : 4 * σ ^ 2 < (-p.pos) ^ 2 := by rw [neg_sq]; exact h
  obtain ⟨a, b, c⟩ := roots h'
  have d := roots_pos (by linarith : 0 < -p.pos) hσ h'
  have e1 : rPlus p.pos σ = -(rMinus (-p.pos) σ) := by unfold rPlus rMinus; rw [neg_sq]; ring
  have hm : max .overR mw p = .ok (rPlus p.pos σ, value .overR mw p (rPlus p.pos σ)) := by
    rw [max_overR, if_neg (not_le.2 h)]
  refine ⟨_, _, -(rPlus (-p.pos) σ), hm, by rw [e1]; linarith, by linarith, ?_⟩
  have sym : ∀ r, value .overR mw p (-r) = gauss (-p.pos) σ |p.area| r / |r| := by
    intro r
    rw [value_overR hmw, abs_neg, ← hs]
    unfold gauss
    congr 3
    ring
  rw [e1, sym, sym]
  have := overR_lt d c (abs_pos.2 ha) hσ b.symm le_rfl c.ne
  rwa [a] at this

/-- Instance: position 10, `maxwidth` 2, internal width 0 (so σ < 1): the maximum exists. -/
example : 4 * sigmaOf 2 0 ^ 2 < (10 : ℝ) ^ 2 := by
  have h1 := sigmaOf_sq 2 0
  have h2 : (1 : ℝ) / 2 < Real.log 2 := by have := Real.log_two_gt_d9; linarith
  have h3 : c2 2 < 1 := by
    unfold c2
    rw [div_lt_one (by linarith)]
    linarith
  rw [Real.sin_zero] at h1
  linarith

end Verif.Peaks
