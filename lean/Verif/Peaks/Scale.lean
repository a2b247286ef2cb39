import Verif.Peaks.Shape

/-!
# Property C36: `scale_at`
-/

namespace Verif.Peaks

open Verif.Py

theorem transform_to_msa' (mw : ℝ) (p : P) :
    transform mw p "internal" "mu_sigma_area" =
      .ok (some ⟨p.pos, sigmaOf mw p.wid, |p.area|⟩) := transform_to_msa mw p

/-- What `finishScale` returns: the internal parameters of the requested (mean, sigma, area). -/
theorem finishScale_ok {mw : ℝ} (hmw : 0 < mw) (t : P) (h0 : 0 < t.wid) {q : P}
    (h : finishScale mw t = .ok (some q)) :
    q.pos = t.pos ∧ sigmaOf mw q.wid = t.wid ∧ q.area = t.area := by
  have hs := sigma2fwhm_pos
  by_cases hc : t.wid * sigma2fwhm ≤ mw
  · unfold finishScale at h
    rw [transform_msa hmw t h0.le hc] at h
    simp only [Except.ok.injEq, Option.some.injEq] at h
    subst h
    refine ⟨rfl, ?_, rfl⟩
    unfold sigmaOf
    rw [fwhmOf_arcsin hmw (by positivity) hc]
    field_simp
  · unfold finishScale at h
    rw [((c32_too_wide hmw t h0.le).2.1).2 (not_le.1 hc)] at h
    simp at h

theorem finishScale_cases {mw : ℝ} (hmw : 0 < mw) (t : P) (h0 : 0 < t.wid) :
    (t.wid * sigma2fwhm ≤ mw → ∃ q, finishScale mw t = .ok (some q)) ∧
    (mw < t.wid * sigma2fwhm → finishScale mw t = .error .scaling) := by
  constructor
  · intro h
    unfold finishScale
    rw [transform_msa hmw t h0.le h]
    exact ⟨_, rfl⟩
  · intro h
    unfold finishScale
    rw [((c32_too_wide hmw t h0.le).2.1).2 h]

/-- **C36.** Scaling a Gaussian peak of non-zero area and width by `scale` at a point `x` other than
its position: if parameters are returned, then the position is unchanged, the height at the position
is unchanged (so the maximum is), and the value at `x` is `scale` times the previous one. -/
theorem c36_gaussian_scale {mw : ℝ} (hmw : 0 < mw) (p q : P) (x scale : ℝ)
    (hw : Real.sin p.wid ≠ -1) (ha : p.area ≠ 0) (hx : x ≠ p.pos)
    (h : scaleGaussian mw p x scale = .ok (some q)) :
    0 < scale ∧ q.pos = p.pos ∧
      value .gaussian mw q x = scale * value .gaussian mw p x ∧
      value .gaussian mw q p.pos = value .gaussian mw p p.pos := by
  have hσ := sigmaOf_pos hmw hw
  have hA := abs_pos.2 ha
  have hpi := Real.pi_pos
  unfold scaleGaussian at h
  by_cases h1 : scale ≤ 0
  · rw [if_pos h1] at h; simp at h
  rw [if_neg h1] at h
  have hsc : 0 < scale := not_le.1 h1
  by_cases h2 : scale = 1
  · rw [if_pos h2] at h
    simp only [Except.ok.injEq, Option.some.injEq] at h
    subst h
    exact ⟨hsc, rfl, by rw [h2, one_mul], rfl⟩
  rw [if_neg h2] at h
  simp only [transform_to_msa'] at h
  rw [if_neg hA.ne', if_neg (sub_ne_zero.2 hx)] at h
  set σ := sigmaOf mw p.wid with hs
  set den := 2 * Real.log (1 / scale) * σ ^ 2 / (x - p.pos) ^ 2 + 1 with hden
  by_cases h3 : den < 0
  · rw [if_pos h3] at h; simp at h
  rw [if_neg h3] at h
  by_cases h4 : den = 0
  · rw [if_pos h4] at h; simp at h
  rw [if_neg h4] at h
  have hd : 0 < den := lt_of_le_of_ne (not_lt.1 h3) (Ne.symm h4)
  set A2 := Real.sqrt (|p.area| ^ 2 / den) with hA2
  have hA2p : 0 < A2 := by rw [hA2]; positivity
  have hA2sq : A2 ^ 2 = |p.area| ^ 2 / den := Real.sq_sqrt (by positivity)
  obtain ⟨e1, e2, e3⟩ := finishScale_ok hmw _ (by simp only; positivity) h
  simp only at e1 e2 e3
  have hσ2 : 0 < σ * A2 / |p.area| := by positivity
  have hlog : Real.log (1 / scale) = -Real.log scale := by
    rw [one_div, Real.log_inv]
  have hxp : x - p.pos ≠ 0 := sub_ne_zero.2 hx
  have hsq : (σ * A2 / |p.area|) ^ 2 = σ ^ 2 / den := by
    rw [div_pow, mul_pow, hA2sq]
    field_simp
  have hcoef : A2 / (σ * A2 / |p.area| * Real.sqrt (2 * Real.pi)) =
      |p.area| / (σ * Real.sqrt (2 * Real.pi)) := by
    field_simp
  refine ⟨hsc, e1, ?_, ?_⟩
  · rw [value_gaussian hmw, value_gaussian hmw, e1, e2, e3, abs_of_pos hA2p, ← hs]
    unfold gauss
    rw [hcoef, hsq]
    have : -(x - p.pos) ^ 2 / (2 * (σ ^ 2 / den)) =
        Real.log scale + -(x - p.pos) ^ 2 / (2 * σ ^ 2) := by
      rw [hden, hlog]
      field_simp
      ring
    rw [this, Real.exp_add, Real.exp_log hsc]
    ring
  · rw [value_gaussian hmw, value_gaussian hmw, e1, e2, e3, abs_of_pos hA2p, ← hs]
    unfold gauss
    rw [hcoef, sub_self]
    simp

/-- **C36.** When Gaussian scaling refuses: a non-positive scale always raises SrMiseScalingError, and
a positive scale raises only if the width needed would be infinite or exceed `maxwidth`; shrinking
(`scale ≤ 1`) always succeeds. -/
theorem c36_gaussian_refusals {mw : ℝ} (hmw : 0 < mw) (p : P) (x scale : ℝ)
    (hw : Real.sin p.wid ≠ -1) (ha : p.area ≠ 0) (hx : x ≠ p.pos) :
    (scale ≤ 0 → scaleGaussian mw p x scale = .error .scaling) ∧
    (0 < scale → scale ≤ 1 → ∃ q, scaleGaussian mw p x scale = .ok (some q)) := by
  have hσ := sigmaOf_pos hmw hw
  have hA := abs_pos.2 ha
  have hs2 := sigma2fwhm_pos
  constructor
  · intro h
    unfold scaleGaussian
    rw [if_pos h]
  · intro h0 h1
    unfold scaleGaussian
    rw [if_neg (not_le.2 h0)]
    by_cases h2 : scale = 1
    · rw [if_pos h2]; exact ⟨p, rfl⟩
    rw [if_neg h2]
    simp only [transform_to_msa']
    rw [if_neg hA.ne', if_neg (sub_ne_zero.2 hx)]
    set σ := sigmaOf mw p.wid with hs
    have hlog : Real.log (1 / scale) = -Real.log scale := by
      rw [one_div, Real.log_inv]
    have hlp : 0 ≤ Real.log (1 / scale) := by
      rw [hlog]; have := Real.log_nonpos h0.le h1; linarith
    have hxp : 0 < (x - p.pos) ^ 2 := by
      have := sub_ne_zero.2 hx
      positivity
    set den := 2 * Real.log (1 / scale) * σ ^ 2 / (x - p.pos) ^ 2 + 1 with hden
    have hd : 1 ≤ den := by
      have : 0 ≤ 2 * Real.log (1 / scale) * σ ^ 2 / (x - p.pos) ^ 2 := by positivity
      linarith
    rw [if_neg (by linarith), if_neg (by linarith)]
    have hA2p : 0 < Real.sqrt (|p.area| ^ 2 / den) := by positivity
    apply (finishScale_cases hmw _ (by simp only; positivity)).1
    simp only
    have hle : Real.sqrt (|p.area| ^ 2 / den) ≤ |p.area| := by
      rw [Real.sqrt_le_left hA.le]
      exact div_le_self (by positivity) hd
    have hfw : σ * sigma2fwhm ≤ mw := by
      rw [hs]; unfold sigmaOf
      rw [div_mul_cancel₀ _ hs2.ne']
      exact (c32_fwhm_bounds hmw p.wid).2.1
    have : σ * Real.sqrt (|p.area| ^ 2 / den) / |p.area| ≤ σ := by
      rw [div_le_iff₀ hA]
      exact mul_le_mul_of_nonneg_left hle hσ.le
    calc _ ≤ σ * sigma2fwhm := mul_le_mul_of_nonneg_right this hs2.le
      _ ≤ mw := hfw

/-- **C36, finding.** Asked to scale a Gaussian exactly at its position (where the request is
contradictory), `scale_at` neither raises nor leaves the peak: it returns a peak of zero area. -/
theorem c36_gaussian_at_position_collapses {mw : ℝ} (hmw : 0 < mw) (p : P) (scale : ℝ)
    (hw : Real.sin p.wid ≠ -1) (ha : p.area ≠ 0) (hs : 0 < scale) (h1 : scale ≠ 1) :
    ∃ q, scaleGaussian mw p p.pos scale = .ok (some q) ∧ q.area = 0 ∧ fwhmOf mw q.wid = 0 := by
  have hσ := sigmaOf_pos hmw hw
  have hA := abs_pos.2 ha
  unfold scaleGaussian
  rw [if_neg (not_le.2 hs), if_neg h1]
  simp only [transform_to_msa']
  rw [if_neg hA.ne', if_pos (sub_self _), if_neg hσ.ne']
  unfold finishScale
  rw [transform_msa hmw _ (by simp) (by simp [hmw.le])]
  refine ⟨_, rfl, rfl, ?_⟩
  simp only [zero_mul]
  exact fwhmOf_arcsin hmw le_rfl hmw.le

/-- **C36.** Scaling a Gaussian/r peak at a positive position by `scale` at a point `x ≠ 0`: if
parameters are returned and `x` is not the maximum of the peak, then the value at `x` is `scale` times
the previous one, and the value and the location of the stationary point returned by `max` are kept:
the value there is unchanged, and the derivative vanishes there for the new parameters
(`m² - μ₂ m + σ₂² = 0`). -/
theorem c36_overR_scale {mw : ℝ} (hmw : 0 < mw) (p q : P) (x scale : ℝ)
    (hw : Real.sin p.wid ≠ -1) (ha : p.area ≠ 0) (hμ : 0 < p.pos) (hs1 : scale ≠ 1)
    (h : scaleOverR mw p x scale = .ok (some q)) :
    0 < scale ∧ ∃ m v, max .overR mw p = .ok (m, v) ∧ 0 < m ∧ x ≠ m ∧
      value .overR mw q x = scale * value .overR mw p x ∧
      value .overR mw q m = v ∧
      m ^ 2 - q.pos * m + sigmaOf mw q.wid ^ 2 = 0 := by
  have hσ := sigmaOf_pos hmw hw
  have hA := abs_pos.2 ha
  have hpi := Real.pi_pos
  unfold scaleOverR at h
  by_cases h1 : scale ≤ 0
  · rw [if_pos h1] at h; simp at h
  rw [if_neg h1, if_neg hs1] at h
  have hsc : 0 < scale := not_le.1 h1
  simp only [transform_to_msa', max_overR] at h
  set σ := sigmaOf mw p.wid with hs
  by_cases hc : p.pos ^ 2 ≤ 4 * σ ^ 2
  · rw [if_pos hc] at h; simp at h
  rw [if_neg hc] at h
  simp only at h
  obtain ⟨ra, rb, rc⟩ := roots (not_le.1 hc)
  have rd := roots_pos hμ hσ (not_le.1 hc)
  set m := rPlus p.pos σ with hm
  have hm0 : 0 < m := by linarith
  rw [if_neg (by push Not; exact ⟨hσ.ne', hm0.ne'⟩)] at h
  set lrp := Real.log (1 / scale) + (x - m) * (x - 2 * p.pos + m) / (2 * σ ^ 2) with hlrp
  set den := x - m + m * lrp with hden
  set sq := 0.5 * m * (x - m) ^ 2 / den with hsq
  by_cases h3 : den = 0 ∨ sq ≤ 0
  · rw [if_pos h3] at h; simp at h
  rw [if_neg h3] at h
  push Not at h3
  obtain ⟨hd0, hsq0⟩ := h3
  have hxm : x ≠ m := by
    intro e
    rw [hsq, e] at hsq0
    simp at hsq0
  have hxm' : x - m ≠ 0 := sub_ne_zero.2 hxm
  set σ2 := Real.sqrt sq with hσ2
  have hσ2p : 0 < σ2 := Real.sqrt_pos.2 hsq0
  have hσ2sq : σ2 ^ 2 = sq := Real.sq_sqrt hsq0.le
  set μ2 := (σ2 ^ 2 + m ^ 2) / m with hμ2
  set A2 := |p.area| * (σ2 / σ) * Real.exp (-(m - p.pos) ^ 2 / (2 * σ ^ 2)) /
    Real.exp (-(m - μ2) ^ 2 / (2 * σ2 ^ 2)) with hA2
  have hA2p : 0 < A2 := by rw [hA2]; positivity
  obtain ⟨e1, e2, e3⟩ := finishScale_ok hmw _ (by simpa using hσ2p) h
  simp only at e1 e2 e3
  have hmax : max .overR mw p = .ok (m, value .overR mw p m) := by
    rw [max_overR, if_neg hc]
  refine ⟨hsc, m, _, hmax, hm0, hxm, ?_, ?_, ?_⟩
  · rw [value_overR hmw, value_overR hmw, e1, e2, e3, abs_of_pos hA2p, ← hs, ← mul_div_assoc]
    congr 1
    unfold gauss
    rw [hA2]
    have key : -(x - μ2) ^ 2 / (2 * σ2 ^ 2) + -(m - p.pos) ^ 2 / (2 * σ ^ 2) =
        Real.log scale + -(x - p.pos) ^ 2 / (2 * σ ^ 2) + -(m - μ2) ^ 2 / (2 * σ2 ^ 2) := by
      have hlog : Real.log (1 / scale) = -Real.log scale := by
        rw [one_div, Real.log_inv]
      have k1 : (-(m - μ2) ^ 2 + (x - μ2) ^ 2) / (2 * σ2 ^ 2) = lrp := by
        have : -(m - μ2) ^ 2 + (x - μ2) ^ 2 = (x - m) ^ 2 - 2 * (x - m) * (σ2 ^ 2 / m) := by
          rw [hμ2]; field_simp; ring
        rw [this, sub_div]
        have k2 : (x - m) ^ 2 / (2 * σ2 ^ 2) = den / m := by
          rw [hσ2sq, hsq]; field_simp; norm_num
        have k3 : 2 * (x - m) * (σ2 ^ 2 / m) / (2 * σ2 ^ 2) = (x - m) / m := by field_simp
        rw [k2, k3, hden]
        field_simp
        ring
      have k4 : lrp = -Real.log scale + (-(m - p.pos) ^ 2 + (x - p.pos) ^ 2) / (2 * σ ^ 2) := by
        rw [hlrp, hlog]
        congr 2
        ring
      rw [k4, add_div, add_div] at k1
      rw [neg_div (2 * σ2 ^ 2) ((x - μ2) ^ 2), neg_div (2 * σ ^ 2) ((x - p.pos) ^ 2)]
      linarith
    have key2 := congrArg Real.exp key
    rw [Real.exp_add, Real.exp_add, Real.exp_add, Real.exp_log hsc] at key2
    calc _ = |p.area| / (σ * Real.sqrt (2 * Real.pi)) *
          (Real.exp (-(x - μ2) ^ 2 / (2 * σ2 ^ 2)) * Real.exp (-(m - p.pos) ^ 2 / (2 * σ ^ 2))) /
          Real.exp (-(m - μ2) ^ 2 / (2 * σ2 ^ 2)) := by field_simp
      _ = _ := by rw [key2]; field_simp
  · rw [value_overR hmw, value_overR hmw, e1, e2, e3, abs_of_pos hA2p, ← hs]
    congr 1
    unfold gauss
    rw [hA2]
    field_simp
  · rw [e1, e2, hμ2]
    field_simp
    ring

/-- The stationary point kept by the scaling of a Gaussian/r is still the maximum reported by `max`
exactly when the new sigma is smaller than it. -/
theorem c36_overR_max_kept {mw : ℝ} (q : P) (m : ℝ) (hm : 0 < m)
    (hst : m ^ 2 - q.pos * m + sigmaOf mw q.wid ^ 2 = 0) (hσ : 0 < sigmaOf mw q.wid) :
    (∃ v, max .overR mw q = .ok (m, v)) ↔ sigmaOf mw q.wid < m := by
  set σ := sigmaOf mw q.wid with hs
  have hμ : q.pos = m + σ ^ 2 / m := by field_simp; linarith
  rw [max_overR, ← hs]
  have hd : q.pos ^ 2 - 4 * σ ^ 2 = (m - σ ^ 2 / m) ^ 2 := by
    rw [hμ]; field_simp; ring
  constructor
  · rintro ⟨v, hv⟩
    by_cases hc : q.pos ^ 2 ≤ 4 * σ ^ 2
    · rw [if_pos hc] at hv; simp at hv
    rw [if_neg hc] at hv
    simp only [Except.ok.injEq, Prod.mk.injEq] at hv
    have h1 := hv.1
    obtain ⟨ra, rb, rc⟩ := roots (not_le.1 hc)
    rw [h1] at ra rb rc
    have : σ ^ 2 < m ^ 2 := by nlinarith
    exact lt_of_pow_lt_pow_left₀ 2 hm.le this
  · intro hlt
    have h2 : 0 < m - σ ^ 2 / m := by
      have : σ ^ 2 / m < m := by rw [div_lt_iff₀ hm]; nlinarith
      linarith
    have hc : ¬ (q.pos ^ 2 ≤ 4 * σ ^ 2) := by
      have : 0 < (m - σ ^ 2 / m) ^ 2 := by positivity
      rw [not_le]; linarith
    rw [if_neg hc]
    have : rPlus q.pos σ = m := by
      unfold rPlus
      rw [hd, Real.sqrt_sq h2.le, hμ]
      ring
    rw [this]
    exact ⟨_, rfl⟩

/-- **C36.** For Gaussian/r at a positive position: a non-positive scale raises SrMiseScalingError, as
does a peak without a maximum; shrinking at a point other than the maximum always succeeds, and the
new peak has its maximum at the same place, with the same height, as the old. -/
theorem c36_overR_shrink {mw : ℝ} (hmw : 0 < mw) (p : P) (x scale : ℝ)
    (hw : Real.sin p.wid ≠ -1) (ha : p.area ≠ 0) (hμ : 0 < p.pos) :
    (scale ≤ 0 → scaleOverR mw p x scale = .error .scaling) ∧
    (scale ≠ 1 → max .overR mw p = .error .value → scaleOverR mw p x scale = .error .scaling) ∧
    (∀ m v, max .overR mw p = .ok (m, v) → 0 < scale → scale ≤ 1 → x ≠ m →
      ∃ q, scaleOverR mw p x scale = .ok (some q) ∧ max .overR mw q = .ok (m, v)) := by
  have hσ := sigmaOf_pos hmw hw
  have hA := abs_pos.2 ha
  have hs2 := sigma2fwhm_pos
  refine ⟨?_, ?_, ?_⟩
  · intro h
    unfold scaleOverR
    rw [if_pos h]
  · intro h1 hm
    unfold scaleOverR
    by_cases h0 : scale ≤ 0
    · rw [if_pos h0]
    rw [if_neg h0, if_neg h1]
    simp only [transform_to_msa', hm]
  · intro m v hm h0 h1 hx
    by_cases h2 : scale = 1
    · refine ⟨p, ?_, hm⟩
      unfold scaleOverR
      rw [if_neg (not_le.2 h0), if_pos h2]
    have hex : ∃ q, scaleOverR mw p x scale = .ok (some q) ∧ sigmaOf mw q.wid ≤ sigmaOf mw p.wid := by
      unfold scaleOverR
      rw [if_neg (not_le.2 h0), if_neg h2]
      simp only [transform_to_msa', hm]
      have hm' := hm
      rw [max_overR] at hm'
      by_cases hc : p.pos ^ 2 ≤ 4 * sigmaOf mw p.wid ^ 2
      · rw [if_pos hc] at hm'; simp at hm'
      rw [if_neg hc] at hm'
      simp only [Except.ok.injEq, Prod.mk.injEq] at hm'
      obtain ⟨ra, rb, rc⟩ := roots (not_le.1 hc)
      have rd := roots_pos hμ hσ (not_le.1 hc)
      rw [hm'.1] at ra rb rc
      set σ := sigmaOf mw p.wid with hs
      have hm0 : 0 < m := by linarith
      have hxm : 0 < (x - m) ^ 2 := by
        have := sub_ne_zero.2 hx
        positivity
      rw [if_neg (by push Not; exact ⟨hσ.ne', hm0.ne'⟩)]
      have hlp : 0 ≤ Real.log (1 / scale) := by
        rw [one_div, Real.log_inv]; have := Real.log_nonpos h0.le h1; linarith
      have hden : x - m + m * (Real.log (1 / scale) + (x - m) * (x - 2 * p.pos + m) / (2 * σ ^ 2)) =
          m * (x - m) ^ 2 / (2 * σ ^ 2) + m * Real.log (1 / scale) := by
        have e1 : p.pos = m + σ ^ 2 / m := by
          rw [← rb]; field_simp; linarith
        rw [e1]; field_simp; ring
      rw [hden]
      set den := m * (x - m) ^ 2 / (2 * σ ^ 2) + m * Real.log (1 / scale) with hdd
      have hd1 : m * (x - m) ^ 2 / (2 * σ ^ 2) ≤ den := by
        have : 0 ≤ m * Real.log (1 / scale) := by positivity
        linarith
      have hd2 : 0 < m * (x - m) ^ 2 / (2 * σ ^ 2) := by positivity
      have hd : 0 < den := by linarith
      have hq : 0 < 0.5 * m * (x - m) ^ 2 / den := by positivity
      rw [if_neg (by push Not; exact ⟨hd.ne', hq⟩)]
      have hle : Real.sqrt (0.5 * m * (x - m) ^ 2 / den) ≤ σ := by
        rw [Real.sqrt_le_left hσ.le, div_le_iff₀ hd]
        calc 0.5 * m * (x - m) ^ 2 = σ ^ 2 * (m * (x - m) ^ 2 / (2 * σ ^ 2)) := by field_simp; ring
          _ ≤ σ ^ 2 * den := mul_le_mul_of_nonneg_left hd1 (by positivity)
      have hfw : σ * sigma2fwhm ≤ mw := by
        rw [hs]; unfold sigmaOf
        rw [div_mul_cancel₀ _ hs2.ne']
        exact (c32_fwhm_bounds hmw p.wid).2.1
      have hσ2 : 0 < Real.sqrt (0.5 * m * (x - m) ^ 2 / den) := Real.sqrt_pos.2 hq
      obtain ⟨q, hq'⟩ := (finishScale_cases hmw ⟨(Real.sqrt (0.5 * m * (x - m) ^ 2 / den) ^ 2 + m ^ 2) / m,
        Real.sqrt (0.5 * m * (x - m) ^ 2 / den), |p.area| *
          (Real.sqrt (0.5 * m * (x - m) ^ 2 / den) / σ) *
          Real.exp (-(m - p.pos) ^ 2 / (2 * σ ^ 2)) /
          Real.exp (-(m - (Real.sqrt (0.5 * m * (x - m) ^ 2 / den) ^ 2 + m ^ 2) / m) ^ 2 /
            (2 * Real.sqrt (0.5 * m * (x - m) ^ 2 / den) ^ 2))⟩ hσ2).1
          ((mul_le_mul_of_nonneg_right hle hs2.le).trans hfw)
      refine ⟨q, hq', ?_⟩
      rw [(finishScale_ok hmw _ hσ2 hq').2.1]
      exact hle
    obtain ⟨q, hq, hle⟩ := hex
    refine ⟨q, hq, ?_⟩
    obtain ⟨-, m', v', e, hm0, -, -, hv, hst⟩ := c36_overR_scale hmw p q x scale hw ha hμ h2 hq
    rw [hm] at e
    simp only [Except.ok.injEq, Prod.mk.injEq] at e
    obtain ⟨rfl, rfl⟩ := e
    have hlt : sigmaOf mw p.wid < m := by
      rw [max_overR] at hm
      by_cases hc : p.pos ^ 2 ≤ 4 * sigmaOf mw p.wid ^ 2
      · rw [if_pos hc] at hm; simp at hm
      rw [if_neg hc] at hm
      simp only [Except.ok.injEq, Prod.mk.injEq] at hm
      obtain ⟨ra, rb, rc⟩ := roots (not_le.1 hc)
      rw [hm.1] at ra rb rc
      have : sigmaOf mw p.wid ^ 2 < m ^ 2 := by nlinarith
      exact lt_of_pow_lt_pow_left₀ 2 hm0.le this
    have hq0 : 0 < sigmaOf mw q.wid := by
      rcases (sigmaOf_nonneg mw q.wid).lt_or_eq with h | h
      · exact h
      · exfalso
        rw [← h] at hst
        -- a zero sigma would make the new value at `m` zero
        have hz : value .overR mw q m = 0 := by
          rw [value_overR hmw, ← h]; unfold gauss; simp
        rw [hz] at hv
        have hv2 : value .overR mw p m = v := by
          rw [max_overR] at hm
          by_cases hc : p.pos ^ 2 ≤ 4 * sigmaOf mw p.wid ^ 2
          · rw [if_pos hc] at hm; simp at hm
          rw [if_neg hc] at hm
          simp only [Except.ok.injEq, Prod.mk.injEq] at hm
          rw [← hm.2, hm.1]
        have : 0 < value .overR mw p m := by
          rw [value_overR hmw]; unfold gauss
          have := Real.pi_pos
          have := abs_pos.2 hm0.ne'
          positivity
        linarith
    obtain ⟨v'', hv''⟩ := (c36_overR_max_kept q m hm0 hst hq0).2 (by linarith)
    rw [hv'']
    have : value .overR mw q m = v'' := by
      rw [max_overR] at hv''
      by_cases hc : q.pos ^ 2 ≤ 4 * sigmaOf mw q.wid ^ 2
      · rw [if_pos hc] at hv''; simp at hv''
      rw [if_neg hc] at hv''
      simp only [Except.ok.injEq, Prod.mk.injEq] at hv''
      rw [← hv''.2, hv''.1]
    rw [← this, hv]

/-- Instance: halving the value one unit from the centre of a Gaussian succeeds. -/
example : ∃ q, scaleGaussian 2 ⟨10, 0, 5⟩ 11 0.5 = .ok (some q) :=
  (c36_gaussian_refusals (mw := 2) (by norm_num) ⟨10, 0, 5⟩ 11 0.5 (by simp) (by norm_num)
    (by norm_num)).2 (by norm_num) (by norm_num)

end Verif.Peaks
